import Verif.Model.ExpDouble
import Mathlib.Data.Finset.Lattice.Fold
/-! # resim/math/multivariate_gaussian.cc in binary64 arithmetic

A finite double is its rational value; sums inside a matrix product are evaluated in any order, fused or not; `std::sqrt` is correctly rounded.  The
eigenvalues and eigenvectors are whatever Eigen's solver returned, and the standard normal numbers whatever the generator drew.  Simplification: overflow is
not modelled.  The checks of dimensions and symmetry are in `Model/Stats`. -/
namespace Verif.GaussianDouble
open SampleIntervalDouble TransformDouble ExpDouble Matrix

/-- `TOL_BASE`, resim/math/multivariate_gaussian.cc:60. -/
def tolBase : ℚ := round64 (1 / 10 ^ 15)

/-- `tol` of `sanitize_eigenvalues`, resim/math/multivariate_gaussian.cc:65-66. -/
def tol {d : ℕ} [NeZero d] (cov : Matrix (Fin d) (Fin d) ℚ) : ℚ :=
  max (round64 (round64 (Finset.univ.sup' Finset.univ_nonempty (fun p : Fin d × Fin d => cov p.1 p.2) -
    Finset.univ.inf' Finset.univ_nonempty (fun p : Fin d × Fin d => cov p.1 p.2)) * tolBase)) tolBase

/-- The check and the clamping of `sanitize_eigenvalues` and the square roots of the constructor, resim/math/multivariate_gaussian.cc:34-44,69-71:
`values` are what the solver returned, `roots` is the diagonal of `sqrt_eigenvalues_mat_`. -/
def Roots {d : ℕ} [NeZero d] (cov : Matrix (Fin d) (Fin d) ℚ) (values roots : Fin d → ℚ) : Prop :=
  (∀ k, -tol cov < values k) ∧ ∀ k, SqrtOf (max (values k) 0) (roots k)

/-- One row of `samples`, resim/math/multivariate_gaussian.cc:47-50: the row `z` of the standard normal numbers times the diagonal matrix, times the
transposed eigenvectors, plus the mean. -/
def Sample {d : ℕ} (vectors : Matrix (Fin d) (Fin d) ℚ) (roots mu z r : Fin d → ℚ) : Prop :=
  ∃ c : Fin d → ℚ, (∀ k, c k = round64 (z k * roots k)) ∧ ∀ j, ∃ p, Evaluates c (vectors j) Finset.univ p ∧ r j = round64 (p + mu j)

end Verif.GaussianDouble
