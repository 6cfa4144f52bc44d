import Verif.Proofs.MatrixExp
import Mathlib.Analysis.Complex.Trigonometric
/-! # Taylor bounds for the small-angle coefficients -/
namespace Verif
open SO3

theorem taylor8 (t : ℝ) (h : |t| ≤ 1) :
    |Real.cos t - (1 - t ^ 2 / 2 + t ^ 4 / 24 - t ^ 6 / 720)| ≤ |t| ^ 8 / 35000 ∧
    |Real.sin t - (t - t ^ 3 / 6 + t ^ 5 / 120 - t ^ 7 / 5040)| ≤ |t| ^ 8 / 35000 := by
  have hx : ‖(t : ℂ) * Complex.I‖ ≤ 1 := by simpa using h
  have hb := Complex.exp_bound hx (n := 8) (by norm_num)
  have hn : ‖(t : ℂ) * Complex.I‖ = |t| := by simp
  rw [hn] at hb
  have hfac : ((Nat.factorial 8 : ℕ) : ℝ) = 40320 := by norm_num [Nat.factorial]
  have hb' : ‖Complex.exp (t * Complex.I) - ∑ m ∈ Finset.range 8, (t * Complex.I) ^ m / (m.factorial : ℂ)‖ ≤ |t| ^ 8 / 35000 := by
    refine hb.trans ?_
    rw [hfac, div_eq_mul_inv]
    apply mul_le_mul_of_nonneg_left _ (by positivity)
    norm_num
  have hsum : ∑ m ∈ Finset.range 8, ((t : ℂ) * Complex.I) ^ m / (m.factorial : ℂ) =
      ((1 - t ^ 2 / 2 + t ^ 4 / 24 - t ^ 6 / 720 : ℝ) : ℂ) + ((t - t ^ 3 / 6 + t ^ 5 / 120 - t ^ 7 / 5040 : ℝ) : ℂ) * Complex.I := by
    have i2 := Complex.I_sq
    have i3 : Complex.I ^ 3 = -Complex.I := by rw [pow_succ, i2]; ring
    have i4 : Complex.I ^ 4 = 1 := by rw [pow_succ, i3]; linear_combination -i2
    have i5 : Complex.I ^ 5 = Complex.I := by rw [pow_succ, i4]; ring
    have i6 : Complex.I ^ 6 = -1 := by rw [pow_succ, i5]; linear_combination i2
    have i7 : Complex.I ^ 7 = -Complex.I := by rw [pow_succ, i6]; ring
    simp only [Finset.sum_range_succ, Finset.sum_range_zero, mul_pow, i2, i3, i4, i5, i6, i7]
    push_cast
    norm_num [Nat.factorial]
    ring
  rw [hsum, Complex.exp_mul_I, ← Complex.ofReal_cos, ← Complex.ofReal_sin] at hb'
  have e : (Real.cos t : ℂ) + Real.sin t * Complex.I - (((1 - t ^ 2 / 2 + t ^ 4 / 24 - t ^ 6 / 720 : ℝ) : ℂ) + ((t - t ^ 3 / 6 + t ^ 5 / 120 - t ^ 7 / 5040 : ℝ) : ℂ) * Complex.I)
      = ⟨Real.cos t - (1 - t ^ 2 / 2 + t ^ 4 / 24 - t ^ 6 / 720), Real.sin t - (t - t ^ 3 / 6 + t ^ 5 / 120 - t ^ 7 / 5040)⟩ := by
    apply Complex.ext <;> simp [-Complex.ofReal_cos, -Complex.ofReal_sin, -Complex.ofReal_sub, -Complex.ofReal_add]
  rw [e] at hb'
  exact ⟨(Complex.abs_re_le_norm _).trans hb', (Complex.abs_im_le_norm _).trans hb'⟩

end Verif
