import Verif.Spec.Motion
/-! # The velocity of a motion at one time, as a tangent vector -/
namespace Verif.Spec
open Matrix

variable {n : Type} [Fintype n] {G A : Type}

/-- At time `t` the motion `g` has the right tangent vector `v`: `g' = g hat v` (`g⁻¹ g'` of docs/resim/transforms/using_liegroups.md). -/
def HasRightTangent (M : G → Matrix n n ℝ) (hat : A → Matrix n n ℝ) (g : ℝ → G) (t : ℝ) (v : A) : Prop :=
  ∀ i j, HasDerivAt (fun r => M (g r) i j) ((M (g t) * hat v) i j) t

/-- At time `t` the motion `g` has the left tangent vector `v`: `g' = hat v g`. -/
def HasLeftTangent (M : G → Matrix n n ℝ) (hat : A → Matrix n n ℝ) (g : ℝ → G) (t : ℝ) (v : A) : Prop :=
  ∀ i j, HasDerivAt (fun r => M (g r) i j) ((hat v * M (g t)) i j) t

end Verif.Spec
