import Verif.Model.TransformDouble
import Verif.Model.Stats
/-! # resim/math/sample_statistics.hh in binary64 arithmetic

A finite double is its rational value.  As in `Model/TransformDouble` the model is a relation that admits every order of the additions inside a sum and
every fusing of a product with an addition there.  Simplifications: overflow is not modelled, the sign of zero is dropped, and the mean of a column
(an expression that Eigen may evaluate more than once) has one value within a call. -/
namespace Verif.StatsDouble
open SampleIntervalDouble TransformDouble Verif.Stats Matrix

/-- `samples.colwise().mean()` for one column, used at resim/math/sample_statistics.hh:21,35: a sum (of the entries times one, which is exact for doubles)
divided by the number of rows.  Without rows there is no result (0/0). -/
def ColMean {n : ℕ} (x : Fin n → ℚ) (m : ℚ) : Prop := ∃ s, Evaluates x (fun _ => 1) Finset.univ s ∧ m = round64 (s / n)

/-- `mean`, resim/math/sample_statistics.hh:20-22. -/
def MeanOf {n d : ℕ} (s : Matrix (Fin n) (Fin d) ℚ) (m : Fin d → ℚ) : Prop := ∀ j, ColMean (fun i => s i j) (m j)

/-- `zero_mean`, resim/math/sample_statistics.hh:34-35. -/
def zeroMean {n d : ℕ} (s : Matrix (Fin n) (Fin d) ℚ) (m : Fin d → ℚ) : Matrix (Fin n) (Fin d) ℚ := Matrix.of fun i j => round64 (s i j - m j)

/-- `covariance`, resim/math/sample_statistics.hh:29-39, where it does not throw. -/
def CovarianceOf {n d : ℕ} (s : Matrix (Fin n) (Fin d) ℚ) (c : Matrix (Fin d) (Fin d) ℚ) : Prop :=
  sampleCount n > 1 ∧ ∃ m, MeanOf s m ∧ ∀ j k, ∃ p, Evaluates (fun i => zeroMean s m i j) (fun i => zeroMean s m i k) Finset.univ p ∧
    c j k = round64 (p / (sampleCount n - 1 : ℕ))

end Verif.StatsDouble
