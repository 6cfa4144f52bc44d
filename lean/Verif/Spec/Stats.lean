import Verif.Model.Stats
/-! # Mean, covariance and eigendecomposition in textbook terms -/
namespace Verif.Spec.Stats
open Matrix Verif.Stats

noncomputable section

/-- Samples mapped by an affine function: every row `x` becomes `A x + b`. -/
def affine {n d e : Nat} (s : Matrix (Fin n) (Fin d) ℝ) (a : Matrix (Fin e) (Fin d) ℝ) (b : Fin e → ℝ) : Matrix (Fin n) (Fin e) ℝ :=
  Matrix.of fun i => a *ᵥ s i + b

/-- The average of column `j`. -/
def average {n d : Nat} (s : Matrix (Fin n) (Fin d) ℝ) (j : Fin d) : ℝ := (∑ i, s i j) / n

/-- The unbiased sample covariance of columns `j` and `k`. -/
def unbiased {n d : Nat} (s : Matrix (Fin n) (Fin d) ℝ) (j k : Fin d) : ℝ :=
  (∑ i, (s i j - average s j) * (s i k - average s k)) / ((n : ℝ) - 1)

/-- `xᵀ M x`. -/
def quadratic {d : Nat} (m : Matrix (Fin d) (Fin d) ℝ) (x : Fin d → ℝ) : ℝ := ∑ i, ∑ j, x i * m i j * x j

/-- Squared length. -/
def lengthSq {d : Nat} (x : Fin d → ℝ) : ℝ := ∑ i, x i ^ 2

/-- The symmetric matrix with the same entries on and below the diagonal: the part of its argument that Eigen's solver reads. -/
def lower {d : Nat} (m : Matrix (Fin d) (Fin d) ℝ) : Matrix (Fin d) (Fin d) ℝ := Matrix.of fun i j => if j ≤ i then m i j else m j i

/-- The solver works: it returns an orthogonal eigendecomposition of the symmetric matrix it read. -/
def Works {d : Nat} (solver : Matrix (Fin d) (Fin d) ℝ → Solved d) : Prop :=
  ∀ m, (solver m).info = .success ∧ (solver m).eigenvectorsᵀ * (solver m).eigenvectors = 1 ∧
    (solver m).eigenvectors * Matrix.diagonal (solver m).eigenvalues * (solver m).eigenvectorsᵀ = lower m

/-- The largest difference of two entries. -/
def IsSpread {d : Nat} (m : Matrix (Fin d) (Fin d) ℝ) (w : ℝ) : Prop :=
  (∀ i j k l, m i j - m k l ≤ w) ∧ ∃ i j k l, m i j - m k l = w

/-- How far below zero an eigenvalue may be, for a matrix of spread `w`. -/
def slack (w : ℝ) : ℝ := max (w * 1e-15) 1e-15

end
end Verif.Spec.Stats
