import Verif.Model.SE3
import Verif.Model.TwoJet
/-! # Approximate comparison: `is_approx` of the transforms and two-jets, `isApprox` of framed vectors, in exact real arithmetic

Eigen's `a.isApprox(b, prec)` is `(a - b).squaredNorm() <= prec * prec * min(a.squaredNorm(), b.squaredNorm())`, with `prec` 1e-12 for
doubles unless given (Eigen is not part of /repo). -/
namespace Verif
open Matrix
namespace Approx

/-- `Vector::isApprox(other, prec)`, used at resim/transforms/se3.cc:213 and resim/transforms/framed_vector.hh:98,107. -/
def vec (prec : ℝ) (a b : V3) : Prop := SO3.sqNorm (a - b) ≤ prec * prec * min (SO3.sqNorm a) (SO3.sqNorm b)

/-- The squared norm of a matrix, inside `Matrix3d::isApprox` as called at resim/transforms/so3.cc:137. -/
def matSq (a : M3) : ℝ := ∑ i, ∑ j, a i j * a i j

/-- `Matrix3d::isApprox(other)`, used at resim/transforms/so3.cc:137. -/
def mat (a b : M3) : Prop := matSq (a - b) ≤ 1e-12 * 1e-12 * min (matSq a) (matSq b)

/-- The squared norm of a tangent vector of SE3, all six entries, inside `isApprox` as called at resim/curves/two_jet.cc:102-103,199-200. -/
def twistSq (a : Twist) : ℝ := SO3.sqNorm a.1 + SO3.sqNorm a.2

/-- `TangentVector::isApprox(other)` for SE3, used at resim/curves/two_jet.cc:102-103,199-200. -/
def twist (a b : Twist) : Prop := twistSq (a - b) ≤ 1e-12 * 1e-12 * min (twistSq a) (twistSq b)

/-- `SO3::is_approx_transform`, resim/transforms/so3.cc:136-138. -/
def so3Transform (a b : Framed M3) : Prop := mat a.val b.val

/-- `SO3::is_approx`, resim/transforms/so3.cc:131-134. -/
def so3 (a b : Framed M3) : Prop := so3Transform a b ∧ a.verifyFrames b.into b.src = true

/-- `SE3::is_approx_transform`, resim/transforms/se3.cc:211-214.  The frames of the two `rotation_` members, which `rotation_.is_approx` compares
as well, are always null (see `Pose`), hence equal. -/
def se3Transform (a b : Framed Pose) : Prop := mat a.val.1 b.val.1 ∧ vec 1e-12 a.val.2 b.val.2

/-- `SE3::is_approx`, resim/transforms/se3.cc:206-209. -/
def se3 (a b : Framed Pose) : Prop := se3Transform a b ∧ a.verifyFrames b.into b.src = true

/-- `TwoJetL<SO3>::is_approx`, resim/curves/two_jet.cc:98-104. -/
def so3JetL (a b : TwoJetL M3 V3) : Prop := so3 a.g b.g ∧ vec 1e-12 a.d b.d ∧ vec 1e-12 a.d2 b.d2

/-- `TwoJetL<SE3>::is_approx`, resim/curves/two_jet.cc:98-104. -/
def se3JetL (a b : TwoJetL Pose Twist) : Prop := se3 a.g b.g ∧ twist a.d b.d ∧ twist a.d2 b.d2

/-- `TwoJetR<SO3>::is_approx`, resim/curves/two_jet.cc:195-201. -/
def so3JetR (a b : TwoJetR M3 V3) : Prop := so3 a.g b.g ∧ vec 1e-12 a.d b.d ∧ vec 1e-12 a.d2 b.d2

/-- `TwoJetR<SE3>::is_approx`, resim/curves/two_jet.cc:195-201. -/
def se3JetR (a b : TwoJetR Pose Twist) : Prop := se3 a.g b.g ∧ twist a.d b.d ∧ twist a.d2 b.d2

/-- How the framed vector is passed to a call of `isApprox`: as a const object or through a const reference, as an object that is not const, or as
a temporary.  The two overloads of resim/transforms/framed_vector.hh:96-108 are told apart by this. -/
inductive Passed where
  | const
  | mutable
  | temporary

/-- `FramedVector::isApprox` called with a framed vector, resim/transforms/framed_vector.hh:96-108.  Both overloads accept a framed vector.  For an
argument that is not const the second one, with its forwarding reference, is the better match: `FramedVector&` and `FramedVector&&` bind without
adding const; only for a const argument the first one is chosen, as the more specialised template ([over.ics.rank], [temp.func.order] of the C++ standard). -/
def framedVector (passed : Passed) (prec : ℝ) (v w : FramedVector V3) : Prop :=
  match passed with
  | .const => vec prec v.vector w.vector ∧ v.frame.eq w.frame = true
  | .mutable | .temporary => vec prec v.vector w.vector

end Approx

namespace FramedVector

/-- `v += w` with a framed vector, inherited from Eigen since resim/transforms/framed_vector.hh:33-118 neither declares nor hides it: adds the entries and
keeps the frame of `v`. -/
def addAssign {A : Type u} [Add A] (v w : FramedVector A) : FramedVector A := ⟨v.vector + w.vector, v.frame⟩

/-- `v - w` with a framed vector, inherited from Eigen as above (resim/transforms/framed_vector.hh:33-118 does not declare it): a plain vector. -/
def sub {A : Type u} [Sub A] (v w : FramedVector A) : A := v.vector - w.vector

end FramedVector
end Verif
