import Verif.Spec.TransformDouble
import Verif.Spec.Motion
import Verif.Model.ExpDouble
import Mathlib.Analysis.Normed.Algebra.MatrixExponential
import Mathlib.Analysis.Calculus.Deriv.Basic
/-! # What a user expects of exponentials computed in doubles -/
namespace Verif.Spec
open Verif.TransformDouble Verif.ExpDouble Matrix

/-- Every directional derivative of the matrix exponential of rotations at `w` is `d` applied to the direction, then the rotation itself. -/
def IsDifferential (w : V3) (d : M3) : Prop :=
  ∀ (x : ℝ → V3) (v : V3) (t : ℝ), x t = w → HasDerivAt x v t → ∀ i j,
    HasDerivAt (fun s => NormedSpace.exp (rotHat (x s)) i j) ((rotHat (d *ᵥ v) * NormedSpace.exp (rotHat w)) i j) t

/-- The same expression over transforms computed by the exponential map and over the exact exponentials of the same tangent vectors, which have
rotation parts of length up to `Θ` and translation parts of length up to `B`. -/
inductive SameTwists (Θ B : ℝ) : Expr Stored → Expr Pose → Prop
  | given {w v : Fin 3 → ℚ} {a : Stored} {g : Pose} : SO3.eucNorm (realVec w) ≤ Θ → SO3.eucNorm (realVec v) ≤ B → ExpSE3 w v a →
      poseMatrix g = NormedSpace.exp (twistHat (realVec w, realVec v)) → SameTwists Θ B (.given a) (.given g)
  | mul {x y : Expr Stored} {x' y' : Expr Pose} : SameTwists Θ B x x' → SameTwists Θ B y y' → SameTwists Θ B (.mul x y) (.mul x' y')
  | inv {x : Expr Stored} {x' : Expr Pose} : SameTwists Θ B x x' → SameTwists Θ B (.inv x) (.inv x')

end Verif.Spec
