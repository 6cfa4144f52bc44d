import Verif.Spec.Rotation
/-! # Which rotation vectors a logarithm can return -/
namespace Verif.Spec

/-- The component of largest size, the first of them if there are several, is positive.  Of a vector other than zero and its negative, exactly one
leads up. -/
def LeadsUp (n : Fin 3 → ℝ) : Prop := ∃ i, 0 < n i ∧ (∀ j, |n j| ≤ n i) ∧ ∀ j < i, |n j| < n i

/-- A rotation vector of less than half a turn, or of exactly half a turn that leads up. -/
def WithinReach (v : Fin 3 → ℝ) : Prop :=
  Real.sqrt (v 0 ^ 2 + v 1 ^ 2 + v 2 ^ 2) < Real.pi ∨ Real.sqrt (v 0 ^ 2 + v 1 ^ 2 + v 2 ^ 2) = Real.pi ∧ LeadsUp v

end Verif.Spec
