import Verif.Spec.TransformDouble
import Verif.Spec.Motion
import Mathlib.Analysis.Normed.Algebra.MatrixExponential
import Mathlib.Algebra.BigOperators.Group.Finset.Basic
/-! # The curve a user expects through given poses -/
namespace Verif.Spec
open Verif.TransformDouble Matrix

/-- The distance along the curve at which it reaches pose `k`, when it goes from pose `i` to the next along the twist `x i`. -/
noncomputable def distanceTo (x : ℕ → Twist) (k : ℕ) : ℝ := ∑ i ∈ Finset.range k, SO3.eucNorm (x i).2

/-- `g` is the pose at distance `s` along the curve through the poses `G 0, …, G n`, which goes from one to the next along a screw. -/
def IsPoseAt (G : ℕ → Pose) (x : ℕ → Twist) (n : ℕ) (s : ℝ) (g : Pose) : Prop :=
  ∃ i < n, ∃ f : ℝ, 0 ≤ f ∧ f ≤ 1 ∧ s = distanceTo x i + f * SO3.eucNorm (x i).2 ∧
    poseMatrix g = poseMatrix (G i) * NormedSpace.exp (f • twistHat (x i))

/-- The list of stored poses means the exact poses `G`, up to the relative error `δ`, with translations up to `B` long; `x i` leads from pose `i` to the
next, by less than half a turn (by a margin that depends on the error). -/
structure StoresPoses (δ B : ℝ) (ps : List Stored) (G : ℕ → Pose) (x : ℕ → Twist) : Prop where
  stores : ∀ (i : ℕ) (h : i < ps.length), StoresPose δ B ps[i] (G i)
  leads : ∀ i, i + 1 < ps.length → poseMatrix (G (i + 1)) = poseMatrix (G i) * NormedSpace.exp (twistHat (x i))
  turn : ∀ i, i + 1 < ps.length → SO3.eucNorm (x i).1 ≤ Real.pi - (330 * δ + 4300 * 2 ^ (-53 : ℤ))

end Verif.Spec
