import Verif.Spec.Motion
import Mathlib.Algebra.Polynomial.Derivative
import Mathlib.Analysis.Normed.Algebra.MatrixExponential
/-! # Motion along one axis, stated with the matrix exponential -/
namespace Verif.Spec
open Matrix

variable {n : Type} [Fintype n] [DecidableEq n] {G A : Type} [AddCommGroup A] [Module ℝ A]

/-- Where the motion `exp(q(t) x) g0` is at time `t`, and its first and second left derivatives there: pose, velocity and acceleration all follow the
one tangent vector `x`, by the amount `q(t)`. -/
def OnAxis (M : G → Matrix n n ℝ) (hat : A → Matrix n n ℝ) (x : A) (g0 : G) (q : Polynomial ℝ) (t : ℝ) (g : G) (d d2 : A) : Prop :=
  M g = NormedSpace.exp (q.eval t • hat x) * M g0 ∧ d = q.derivative.eval t • x ∧ d2 = q.derivative.derivative.eval t • x

/-- The same for motions seen from the body: `g0 exp(q(t) x)` with right derivatives. -/
def OnBodyAxis (M : G → Matrix n n ℝ) (hat : A → Matrix n n ℝ) (x : A) (g0 : G) (q : Polynomial ℝ) (t : ℝ) (g : G) (d d2 : A) : Prop :=
  M g = M g0 * NormedSpace.exp (q.eval t • hat x) ∧ d = q.derivative.eval t • x ∧ d2 = q.derivative.derivative.eval t • x

end Verif.Spec
