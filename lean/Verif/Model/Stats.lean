import Verif.Model.Outcome
import Mathlib.Data.Matrix.Diagonal
import Mathlib.LinearAlgebra.Matrix.Notation
import Mathlib.Analysis.Real.Sqrt
/-! # resim/math/sample_statistics.hh and resim/math/multivariate_gaussian.cc

Matrices have any number of rows and columns; entries are real numbers (no rounding).  Eigen's symmetric eigenvalue solver and the random number
generator are inputs. -/
namespace Verif.Stats
open Matrix

noncomputable section

/-- `samples.colwise().mean()`, used at resim/math/sample_statistics.hh:21,35: the sum of each column divided by the number of rows. -/
def colMean {n d : Nat} (s : Matrix (Fin n) (Fin d) ℝ) : Fin d → ℝ := fun j => (∑ i, s i j) / n

/-- `mean`, resim/math/sample_statistics.hh:20-22.  Without rows the quotient is 0/0, which is not a number; modelled as undefined. -/
def mean {n d : Nat} (s : Matrix (Fin n) (Fin d) ℝ) : Outcome (Fin d → ℝ) := if n = 0 then .ub "0/0" else .ok (colMean s)

/-- The type of `sample_count` is a 32 bit unsigned integer, resim/math/sample_statistics.hh:30: the number of rows wraps. -/
def sampleCount (n : Nat) : Nat := n % 2 ^ 32

/-- `zero_mean`, resim/math/sample_statistics.hh:34-35. -/
def zeroMean {n d : Nat} (s : Matrix (Fin n) (Fin d) ℝ) : Matrix (Fin n) (Fin d) ℝ := Matrix.of fun i j => s i j - colMean s j

/-- `covariance`, resim/math/sample_statistics.hh:29-39. -/
def covariance {n d : Nat} (s : Matrix (Fin n) (Fin d) ℝ) : Outcome (Matrix (Fin d) (Fin d) ℝ) := do
  Outcome.reassert (sampleCount n > 1) "At least two samples are needed to compute a covariance matrix"
  return (((sampleCount n - 1 : Nat) : ℝ)⁻¹ • ((zeroMean s)ᵀ * zeroMean s))

/-- How Eigen's solver reports its success, used at resim/math/multivariate_gaussian.cc:34. -/
inductive Info where
  | success
  | numericalIssue
  | noConvergence
  deriving DecidableEq

/-- What `SelfAdjointEigenSolver` returns, resim/math/multivariate_gaussian.cc:33-40. -/
structure Solved (d : Nat) where
  info : Info
  eigenvalues : Fin d → ℝ
  eigenvectors : Matrix (Fin d) (Fin d) ℝ

/-- The sum of the squares of the entries, as in Eigen's `isApprox`, called at resim/math/multivariate_gaussian.cc:32. -/
def sumSquares {d : Nat} (m : Matrix (Fin d) (Fin d) ℝ) : ℝ := ∑ i, ∑ j, m i j ^ 2

/-- `cov_.isApprox(cov_.transpose())`, resim/math/multivariate_gaussian.cc:32, with Eigen's default precision for doubles, 1e-12. -/
def approxSymmetric {d : Nat} (cov : Matrix (Fin d) (Fin d) ℝ) : Prop :=
  sumSquares (cov - covᵀ) ≤ (1e-12) ^ 2 * min (sumSquares cov) (sumSquares covᵀ)

instance {d : Nat} (cov : Matrix (Fin d) (Fin d) ℝ) : Decidable (approxSymmetric cov) := Classical.propDecidable _

/-- `tol` of `sanitize_eigenvalues`, resim/math/multivariate_gaussian.cc:60-66; `big` and `small` are `maxCoeff()` and `minCoeff()`. -/
def tolerance (big small : ℝ) : ℝ := max ((big - small) * 1e-15) 1e-15

/-- `maxCoeff()` of a matrix that is not empty, resim/math/multivariate_gaussian.cc:66. -/
def maxCoeff {d : Nat} [NeZero d] (m : Matrix (Fin d) (Fin d) ℝ) : ℝ := Finset.univ.sup' Finset.univ_nonempty fun p : Fin d × Fin d => m p.1 p.2

/-- `minCoeff()` of a matrix that is not empty, resim/math/multivariate_gaussian.cc:66. -/
def minCoeff {d : Nat} [NeZero d] (m : Matrix (Fin d) (Fin d) ℝ) : ℝ := Finset.univ.inf' Finset.univ_nonempty fun p : Fin d × Fin d => m p.1 p.2

/-- `minCoeff()` of a vector that is not empty, resim/math/multivariate_gaussian.cc:69. -/
def minEntry {d : Nat} [NeZero d] (v : Fin d → ℝ) : ℝ := Finset.univ.inf' Finset.univ_nonempty v

/-- `sanitize_eigenvalues`, resim/math/multivariate_gaussian.cc:59-72: the new eigenvalues. -/
def sanitize {d : Nat} [NeZero d] (cov : Matrix (Fin d) (Fin d) ℝ) (eigenvalues : Fin d → ℝ) : Outcome (Fin d → ℝ) := do
  Outcome.reassert (minEntry eigenvalues > -tolerance (maxCoeff cov) (minCoeff cov)) "Symmetric PSD matrices have positive eigenvalues"
  return fun i => max (eigenvalues i) 0

/-- The members of `Gaussian`, resim/math/multivariate_gaussian.hh:76-84; `dims_` is the index `d`. -/
structure Gaussian (d : Nat) where
  mu : Fin d → ℝ
  cov : Matrix (Fin d) (Fin d) ℝ
  eigenvalues : Fin d → ℝ
  eigenvectors : Matrix (Fin d) (Fin d) ℝ
  sqrtEigenvalues : Fin d → ℝ

/-- The constructor of `Gaussian` after the check of the dimensions, resim/math/multivariate_gaussian.cc:27-45.  `solver` is Eigen's solver.  Without
any dimension `maxCoeff()` is called on an empty matrix, which is undefined. -/
def Gaussian.ofSquare {d : Nat} (solver : Matrix (Fin d) (Fin d) ℝ → Solved d) (mu : Fin d → ℝ) (cov : Matrix (Fin d) (Fin d) ℝ) : Outcome (Gaussian d) := do
  Outcome.reassert (approxSymmetric cov) "Covariance matrix must be symmetric"
  Outcome.reassert ((solver cov).info ≠ .numericalIssue) "Eigen solver error."
  if hd : d = 0 then .ub "maxCoeff of an empty matrix"
  else
    let values ← @sanitize d ⟨hd⟩ cov (solver cov).eigenvalues
    .ok { mu, cov, eigenvalues := values, eigenvectors := (solver cov).eigenvectors, sqrtEigenvalues := fun i => Real.sqrt (values i) }

/-- The constructor of `Gaussian`, resim/math/multivariate_gaussian.cc:19-45.  Simplification: the mean has fewer than 2^32 rows, so that `dims_` is their
number. -/
def Gaussian.make {d r c : Nat} (solver : Matrix (Fin d) (Fin d) ℝ → Solved d) (mu : Fin d → ℝ) (cov : Matrix (Fin r) (Fin c) ℝ) : Outcome (Gaussian d) :=
  if h : r = d ∧ c = d then Gaussian.ofSquare solver mu (cov.submatrix (Fin.cast h.1.symm) (Fin.cast h.2.symm))
  else .throw "Mean and covariance should have the same dimensionality"

/-- `samples`, resim/math/multivariate_gaussian.cc:47-50; `iid` is what `iid_samples` (52-57) drew. -/
def Gaussian.samples {n d : Nat} (g : Gaussian d) (iid : Matrix (Fin n) (Fin d) ℝ) : Matrix (Fin n) (Fin d) ℝ :=
  Matrix.of fun i j => ((iid * Matrix.diagonal g.sqrtEigenvalues) * g.eigenvectorsᵀ) i j + g.mu j

end
end Verif.Stats
