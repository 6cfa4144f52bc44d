import Verif.Model.TCurve
import Mathlib.Algebra.Polynomial.Derivative
/-! # What a Hermite basis polynomial is -/
namespace Verif.Spec

/-- Value, first and second derivative at one end. -/
structure Jet where
  v : ℝ
  d : ℝ
  d2 : ℝ

/-- `f` evaluates one polynomial of degree at most five with its first two derivatives, and this polynomial has the given value and
derivatives at 0 and at 1.  There is exactly one such polynomial. -/
def IsHermite (f : ℝ → PolyCoeffs) (at0 at1 : Jet) : Prop :=
  ∃ p : Polynomial ℝ, p.natDegree ≤ 5 ∧
    (∀ t, (f t).a = p.eval t ∧ (f t).da = p.derivative.eval t ∧ (f t).d2a = p.derivative.derivative.eval t) ∧
    (f 0).a = at0.v ∧ (f 0).da = at0.d ∧ (f 0).d2a = at0.d2 ∧ (f 1).a = at1.v ∧ (f 1).da = at1.d ∧ (f 1).d2a = at1.d2

end Verif.Spec
