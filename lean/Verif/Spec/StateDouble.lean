import Verif.Spec.TrajectoryDouble
/-! # What a user expects of composed and relative states -/
namespace Verif.Spec
open Verif.TransformDouble Verif.TCurveDouble Verif.TrajectoryDouble Matrix

/-- A pose with a velocity and an acceleration in the body frame, as stored and as meant. -/
structure StoresState (δ B : ℝ) (s : State) (S : Pose × Twist × Twist) : Prop where
  pose : StoresPose δ B s.g S.1
  velocity : StoresTwist δ B s.d S.2.1
  acceleration : StoresTwist δ B s.d2 S.2.2

/-- The motion `γ` is in the state `S` at the time `t`: its pose, and its velocities and accelerations seen in the body frame, rotation part first. -/
structure MovesThrough (γ : ℝ → Pose) (t : ℝ) (S : Pose × Twist × Twist) : Prop where
  rotation : ∀ r, IsRotation (γ r).1
  pose : γ t = S.1
  kinematics : BodyKinematics γ t S.2.1.2 S.2.1.1 S.2.2.2 S.2.2.1

end Verif.Spec
