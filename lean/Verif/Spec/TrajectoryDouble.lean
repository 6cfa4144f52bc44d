import Verif.Spec.TCurveDouble
import Verif.Spec.RigidBodyState
import Verif.Model.TrajectoryDouble
/-! # The trajectory a user expects through given states

An intended state is a pose (from the body to the reference frame) with the velocity and the acceleration seen in the body frame, rotation part first. -/
namespace Verif.Spec
open Verif.TransformDouble Verif.TCurveDouble Verif.TrajectoryDouble Verif.Binary64 Matrix

/-- The motion from `S` to `S'` in unit time, where `y` leads from the one pose to the other: one screw of the body for every quantity given at the ends,
each by a polynomial of degree five. -/
noncomputable def bodyMotion (y : Twist) (S S' : Pose × Twist × Twist) (u : ℝ) : Matrix (Fin 3 ⊕ Unit) (Fin 3 ⊕ Unit) ℝ :=
  poseMatrix S.1 * NormedSpace.exp ((10 * u ^ 3 - 15 * u ^ 4 + 6 * u ^ 5) • twistHat y) *
  NormedSpace.exp ((u - 6 * u ^ 3 + 8 * u ^ 4 - 3 * u ^ 5) • twistHat S.2.1) *
  NormedSpace.exp ((-4 * u ^ 3 + 7 * u ^ 4 - 3 * u ^ 5) • twistHat S'.2.1) *
  NormedSpace.exp ((1 / 2 * u ^ 2 - 3 / 2 * u ^ 3 + 3 / 2 * u ^ 4 - 1 / 2 * u ^ 5) • twistHat S.2.2) *
  NormedSpace.exp ((1 / 2 * u ^ 3 - u ^ 4 + 1 / 2 * u ^ 5) • twistHat S'.2.2)

/-- `Γ` is the motion of a body from the state `S` at time `t` to the state `S'` at time `t'`; its velocities and accelerations are those of the motion, seen in
the body frame. -/
structure IsBodyPiece (y : Twist) (t t' : ℝ) (S S' : Pose × Twist × Twist) (Γ : ℝ → Pose × Twist × Twist) : Prop where
  formula : ∀ s, poseMatrix (Γ s).1 = bodyMotion y (inUnits (t' - t) S) (inUnits (t' - t) S') ((s - t) / (t' - t))
  rotation : ∀ s, IsRotation (Γ s).1.1
  kinematics : ∀ s, BodyKinematics (fun r => (Γ r).1) s (Γ s).2.1.2 (Γ s).2.1.1 (Γ s).2.2.2 (Γ s).2.2.1
  start : Γ t = S
  stop : Γ t' = S'

/-- The computed state `s` is within given distances of the exact one: orientation, position, angular and linear velocity, angular and linear acceleration. -/
structure StateWithin (r t dr dt d2r d2t : ℝ) (s : State) (S : Pose × Twist × Twist) : Prop where
  rot : TurnsAlike r (realRot s.g.rot) S.1.1
  trans : SO3.eucNorm (realVec s.g.trans - S.1.2) ≤ t
  drot : SO3.eucNorm (realVec s.d.1 - S.2.1.1) ≤ dr
  dtrans : SO3.eucNorm (realVec s.d.2 - S.2.1.2) ≤ dt
  d2rot : SO3.eucNorm (realVec s.d2.1 - S.2.2.1) ≤ d2r
  d2trans : SO3.eucNorm (realVec s.d2.2 - S.2.2.2) ≤ d2t

/-- The time in seconds from the first of the times `ats` (nanoseconds) to number `i`, as a double. -/
def secondsTo (ats : List ℤ) (i : ℕ) : ℚ := asSeconds (ats.getD i 0 - ats.getD 0 0)

/-- The controls of a trajectory, as stored and as meant: `y i` leads from pose `i` to the next, in the frame of the body. -/
structure StoresTrajectory (δ B : ℝ) (ats : List ℤ) (ss : List State) (S : ℕ → Pose × Twist × Twist) (y : ℕ → Twist) : Prop where
  length : ss.length = ats.length
  span : ∀ a ∈ ats, InI64 (a - ats.getD 0 0)
  order : ∀ i, i + 1 < ats.length → secondsTo ats i < secondsTo ats (i + 1)
  pose : ∀ (i : ℕ) (h : i < ss.length), StoresPose δ B ss[i].g (S i).1
  leads : ∀ i, i + 1 < ss.length → poseMatrix (S (i + 1)).1 = poseMatrix (S i).1 * NormedSpace.exp (twistHat (y i))
  turn : ∀ i, i + 1 < ss.length → SO3.eucNorm (y i).1 ≤ Real.pi - (661 * δ + 33400 * 2 ^ (-53 : ℤ))
  bound : ∀ i, i + 1 < ss.length → SO3.eucNorm (y i).2 ≤ B
  rates : ∀ i, i + 1 < ats.length → ∀ (k : ℕ) (hk : k < ss.length), k = i ∨ k = i + 1 →
    StoresRate δ B ((secondsTo ats (i + 1) : ℝ) - secondsTo ats i) ss[k].d (S k).2.1 ∧
    StoresRate δ B (((secondsTo ats (i + 1) : ℝ) - secondsTo ats i) ^ 2) ss[k].d2 (S k).2.2

end Verif.Spec
