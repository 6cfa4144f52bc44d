import Verif.Spec.Stats
import Verif.Spec.Double
/-! # How accurate a computed mean and covariance should be -/
namespace Verif.Spec.Stats
open Matrix

noncomputable section

/-- The entries as real numbers. -/
def reals {n d : ℕ} (s : Matrix (Fin n) (Fin d) ℚ) : Matrix (Fin n) (Fin d) ℝ := Matrix.of fun i j => (s i j : ℝ)

/-- The average magnitude in column `j`. -/
def averageAbs {n d : ℕ} (s : Matrix (Fin n) (Fin d) ℝ) (j : Fin d) : ℝ := (∑ i, |s i j|) / n

/-- The standard deviation of column `j`. -/
def deviation {n d : ℕ} (s : Matrix (Fin n) (Fin d) ℝ) (j : Fin d) : ℝ := Real.sqrt (unbiased s j j)

/-- The error allowed for the mean of column `j`: the number of samples times the rounding unit times the average magnitude (and underflow). -/
def meanError {n d : ℕ} (s : Matrix (Fin n) (Fin d) ℝ) (j : Fin d) : ℝ :=
  1.002 * (n + 1) * 2 ^ (-53 : ℤ) * averageAbs s j + 4 * 2 ^ (-1075 : ℤ)

/-- The sum of the variances. -/
def totalVariance {n d : ℕ} (s : Matrix (Fin n) (Fin d) ℝ) : ℝ := ∑ j, unbiased s j j

end
end Verif.Spec.Stats
