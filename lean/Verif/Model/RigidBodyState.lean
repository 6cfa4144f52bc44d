import Verif.Model.TwoJet
import Verif.Model.SE3
/-! # resim/actor/state/rigid_body_state.cc, the instantiation for SE3 (rigid_body_state.cc:166)

A tangent vector of SE3 is (rotation part, translation part). -/
namespace Verif
open Matrix

/-- `SE3::tangent_vector_rotation_part` (reading), resim/transforms/se3.cc:220-223. -/
def SE3.rotationPart (x : Twist) : V3 := x.1
/-- `SE3::tangent_vector_translation_part` (reading), resim/transforms/se3.cc:230-233. -/
def SE3.translationPart (x : Twist) : V3 := x.2
/-- `SE3::tangent_vector_rotation_part(x) = v` (writing), resim/transforms/se3.cc:225-228. -/
def SE3.setRotationPart (x : Twist) (v : V3) : Twist := (v, x.2)
/-- `SE3::tangent_vector_translation_part(x) = v` (writing), resim/transforms/se3.cc:235-238. -/
def SE3.setTranslationPart (x : Twist) (v : V3) : Twist := (x.1, v)
/-- `SE3::tangent_vector_from_parts`, resim/transforms/se3.cc:240-247. -/
def SE3.fromParts (rot trans : V3) : Twist := (rot, trans)

/-- `TwoJetR::set_ref_from_frame`, resim/curves/two_jet.cc:124-127. -/
def TwoJetR.setG {G A : Type} (j : TwoJetR G A) (g : Framed G) : TwoJetR G A := ⟨g, j.d, j.d2⟩
/-- `TwoJetR::set_d_ref_from_frame`, resim/curves/two_jet.cc:129-132. -/
def TwoJetR.setD {G A : Type} (j : TwoJetR G A) (d : A) : TwoJetR G A := ⟨j.g, d, j.d2⟩
/-- `TwoJetR::set_d2_ref_from_frame`, resim/curves/two_jet.cc:134-137. -/
def TwoJetR.setD2 {G A : Type} (j : TwoJetR G A) (d2 : A) : TwoJetR G A := ⟨j.g, j.d, d2⟩

/-- `RigidBodyState::Velocity`, resim/actor/state/rigid_body_state.hh:33-36. -/
@[ext] structure RBVelocity where
  linear : V3
  angular : V3

/-- `RigidBodyState::Acceleration`, resim/actor/state/rigid_body_state.hh:39-42. -/
@[ext] structure RBAcceleration where
  linear : V3
  angular : V3

/-- `RigidBodyState::StateDerivatives`, resim/actor/state/rigid_body_state.hh:45-48. -/
@[ext] structure RBDerivatives where
  velocity : RBVelocity
  acceleration : RBAcceleration

/-- `RigidBodyState<SE3>`, resim/actor/state/rigid_body_state.hh:144: the member `ref_from_body_`. -/
@[ext] structure RBState where
  jet : TwoJetR Pose Twist

namespace RBState

/-- The constructor from a pose, resim/actor/state/rigid_body_state.cc:31-34, on a default two-jet, whose derivatives are zero
(resim/curves/two_jet.hh:180,183).  `old` is the default constructed transform, which is overwritten. -/
def ofPose (old g : Framed Pose) : RBState := ⟨TwoJetR.setG ⟨old, 0, 0⟩ g⟩

/-- The constructor from a pose and derivatives, resim/actor/state/rigid_body_state.cc:36-47. -/
def ofDerivatives (g : Framed Pose) (v : RBDerivatives) : RBState :=
  ⟨⟨g, SE3.fromParts v.velocity.angular v.velocity.linear, SE3.fromParts v.acceleration.angular v.acceleration.linear⟩⟩

/-- `identity()`, resim/actor/state/rigid_body_state.cc:53-58,166-168. -/
noncomputable def identityUnframed : RBState := ⟨TwoJetR.identityUnframed SE3.ops⟩

/-- `identity(into, from)`, resim/actor/state/rigid_body_state.cc:53-58,169-172. -/
noncomputable def identity (into src : Frame) : Outcome RBState := do
  let j ← TwoJetR.identity SE3.ops into src
  .ok ⟨j⟩

/-- `operator*`, resim/actor/state/rigid_body_state.cc:60-64. -/
noncomputable def mul (a b : RBState) : Outcome RBState := do
  let j ← TwoJetR.mul SE3.ops a.jet b.jet
  .ok ⟨j⟩

/-- `inverse_times`, resim/actor/state/rigid_body_state.cc:66-70. -/
noncomputable def inverseTimes (a b : RBState) : Outcome RBState := do
  let i ← TwoJetR.inverse SE3.ops a.jet
  let j ← TwoJetR.mul SE3.ops i b.jet
  .ok ⟨j⟩

/-- `ref_from_body`, resim/actor/state/rigid_body_state.cc:72-75. -/
def refFromBody (s : RBState) : Framed Pose := s.jet.g
/-- `body_linear_velocity_mps`, resim/actor/state/rigid_body_state.cc:88-93. -/
def linearVelocity (s : RBState) : V3 := SE3.translationPart s.jet.d
/-- `body_angular_velocity_radps`, resim/actor/state/rigid_body_state.cc:95-99. -/
def angularVelocity (s : RBState) : V3 := SE3.rotationPart s.jet.d
/-- `body_linear_acceleration_mpss`, resim/actor/state/rigid_body_state.cc:101-106. -/
def linearAcceleration (s : RBState) : V3 := SE3.translationPart s.jet.d2
/-- `body_angular_acceleration_radpss`, resim/actor/state/rigid_body_state.cc:108-113. -/
def angularAcceleration (s : RBState) : V3 := SE3.rotationPart s.jet.d2

/-- `body_derivatives`, resim/actor/state/rigid_body_state.cc:77-86. -/
def bodyDerivatives (s : RBState) : RBDerivatives :=
  ⟨⟨s.linearVelocity, s.angularVelocity⟩, ⟨s.linearAcceleration, s.angularAcceleration⟩⟩

/-- `ref_from_body_two_jet`, resim/actor/state/rigid_body_state.cc:115-119. -/
def twoJet (s : RBState) : TwoJetR Pose Twist := s.jet

/-- `set_ref_from_body`, resim/actor/state/rigid_body_state.cc:121-124. -/
def setRefFromBody (s : RBState) (g : Framed Pose) : RBState := ⟨s.jet.setG g⟩
/-- `set_body_linear_velocity_mps`, resim/actor/state/rigid_body_state.cc:126-134. -/
def setLinearVelocity (s : RBState) (v : V3) : RBState := ⟨s.jet.setD (SE3.setTranslationPart s.jet.d v)⟩
/-- `set_body_angular_velocity_radps`, resim/actor/state/rigid_body_state.cc:136-144. -/
def setAngularVelocity (s : RBState) (v : V3) : RBState := ⟨s.jet.setD (SE3.setRotationPart s.jet.d v)⟩
/-- `set_body_linear_acceleration_mpss`, resim/actor/state/rigid_body_state.cc:146-154. -/
def setLinearAcceleration (s : RBState) (v : V3) : RBState := ⟨s.jet.setD2 (SE3.setTranslationPart s.jet.d2 v)⟩
/-- `set_body_angular_acceleration_radpss`, resim/actor/state/rigid_body_state.cc:156-164. -/
def setAngularAcceleration (s : RBState) (v : V3) : RBState := ⟨s.jet.setD2 (SE3.setRotationPart s.jet.d2 v)⟩

end RBState
end Verif
