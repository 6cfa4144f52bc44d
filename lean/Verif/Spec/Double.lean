import Mathlib.Data.Rat.Defs
import Mathlib.Algebra.Order.Field.Rat
/-! # Finite doubles -/
namespace Verif.Spec

/-- A rational number that is the value of a finite binary64 number (IEEE 754-2019, 3.3). -/
def IsDouble (q : ℚ) : Prop := ∃ m e : ℤ, |m| < 2 ^ 53 ∧ -1074 ≤ e ∧ e ≤ 971 ∧ q = m * 2 ^ e

/-- The position of sample `i` of `n`, evenly spaced from `a` to `b`. -/
def evenly (a b : ℚ) (n : ℤ) (i : ℕ) : ℚ := a + i * (b - a) / (n - 1)

end Verif.Spec
