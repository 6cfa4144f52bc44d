import Verif.Spec.Rotation
import Verif.Spec.Double
import Verif.Model.TransformDouble
import Verif.Model.SE3
/-! # What a user expects of transforms computed in doubles -/
namespace Verif.Spec
open Verif.TransformDouble Matrix

/-- The real matrix with the given entries. -/
noncomputable def realRot (a : Matrix (Fin 3) (Fin 3) ℚ) : M3 := a.map (fun q => (q : ℝ))

/-- The real vector with the given entries. -/
noncomputable def realVec (v : Fin 3 → ℚ) : V3 := fun i => (v i : ℝ)

/-- Every vector is turned to within `e` of its length by the two matrices. -/
def TurnsAlike (e : ℝ) (a b : M3) : Prop := ∀ v : V3, SO3.eucNorm (a *ᵥ v - b *ᵥ v) ≤ e * SO3.eucNorm v

/-- `a` is the intended pose `g` up to a relative error `δ`, where translations are up to `B` long. -/
structure StoresPose (δ B : ℝ) (a : Stored) (g : Pose) : Prop where
  rotation : IsRotation g.1
  rot : TurnsAlike δ (realRot a.rot) g.1
  bound : SO3.eucNorm g.2 ≤ B
  trans : SO3.eucNorm (realVec a.trans - g.2) ≤ δ * B

/-- The same expression over stored and over intended transforms. -/
inductive SameExpr (δ B : ℝ) : Expr Stored → Expr Pose → Prop
  | given {a : Stored} {g : Pose} : StoresPose δ B a g → SameExpr δ B (.given a) (.given g)
  | mul {x y : Expr Stored} {x' y' : Expr Pose} : SameExpr δ B x x' → SameExpr δ B y y' → SameExpr δ B (.mul x y) (.mul x' y')
  | inv {x : Expr Stored} {x' : Expr Pose} : SameExpr δ B x x' → SameExpr δ B (.inv x) (.inv x')

/-- The exact value of an expression, by the textbook formulas for composing and inverting rigid motions. -/
noncomputable def exactly : Expr Pose → Pose
  | .given g => g
  | .mul x y => ((exactly x).1 * (exactly y).1, (exactly x).1 *ᵥ (exactly y).2 + (exactly x).2)
  | .inv x => ((exactly x).1ᵀ, -((exactly x).1ᵀ *ᵥ (exactly x).2))

/-- The number of transforms in an expression. -/
def count {α : Type} : Expr α → ℕ
  | .given _ => 1
  | .mul x y => count x + count y
  | .inv x => count x

/-- The number of relative errors that enter the translation: inverting turns the translation by the (inexact) rotation. -/
def errors {α : Type} : Expr α → ℕ
  | .given _ => 1
  | .mul x y => errors x + errors y
  | .inv x => errors x + count x

/-- `k` relative errors `δ` of the data and `k - 1` roundings, each of at most ten units of the last place, on top of each other. -/
noncomputable def growth (δ : ℝ) (k : ℕ) : ℝ := (1 + δ) ^ k * (1 + 10 * 2 ^ (-53 : ℤ)) ^ (k - 1)

end Verif.Spec
