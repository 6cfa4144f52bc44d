import Verif.Model.TestElements
import Verif.Proofs.SE3Log
import Mathlib.Analysis.Real.Pi.Bounds
/-! # Sizes of the test vectors -/
namespace Verif.TestElements
open SO3

theorem random3_norm {r : ℕ → ℝ} (hr : ∀ n, |r n| ≤ 1) (n : ℕ) : eucNorm (random3 r n) < Real.pi := by
  have h : ∀ k, r k ^ 2 ≤ 1 := fun k => by
    have := abs_le.mp (hr k)
    nlinarith
  refine lt_of_le_of_lt (b := 3) (Real.sqrt_le_iff.mpr ⟨by norm_num, ?_⟩) Real.pi_gt_three
  rw [sqNorm_eq]
  simp only [random3, Matrix.cons_val_zero, Matrix.cons_val_one, Matrix.cons_val]
  linarith [h n, h (n + 1), h (n + 2)]

theorem tiny_norm {r : ℕ → ℝ} (hr : ∀ n, |r n| ≤ 1) (n : ℕ) : eucNorm ((1e-6 : ℝ) • random3 r n) < 0.002 := by
  have h : ∀ k, r k ^ 2 ≤ 1 := fun k => by
    have := abs_le.mp (hr k)
    nlinarith
  refine lt_of_le_of_lt (b := 0.001) (Real.sqrt_le_iff.mpr ⟨by norm_num, ?_⟩) (by norm_num)
  rw [sqNorm_eq]
  simp only [random3, Pi.smul_apply, smul_eq_mul, Matrix.cons_val_zero, Matrix.cons_val_one, Matrix.cons_val, mul_pow]
  norm_num
  linarith [h n, h (n + 1), h (n + 2)]

theorem large_norm : eucNorm largeRotation < Real.pi ∧ Real.pi - 0.01 < eucNorm largeRotation := by
  have hp := Real.pi_gt_three
  have hp2 := Real.pi_le_four
  have e : sqNorm largeRotation = 3 * ((Real.pi - 0.01) / 1.732) ^ 2 := by
    rw [sqNorm_eq]
    simp only [largeRotation, Matrix.cons_val_zero, Matrix.cons_val_one, Matrix.cons_val]
    ring
  constructor
  · refine (Real.sqrt_lt' Real.pi_pos).mpr ?_
    rw [e, div_pow, ← mul_div_assoc, div_lt_iff₀ (by norm_num)]
    nlinarith
  · refine (Real.lt_sqrt (by linarith)).mpr ?_
    rw [e, div_pow, ← mul_div_assoc, lt_div_iff₀ (by norm_num)]
    nlinarith

theorem ones_norm : eucNorm (1 : V3) < Real.pi ∧ eucNorm (-1 : V3) < Real.pi := by
  have h : Real.sqrt 3 < Real.pi := (Real.sqrt_lt' Real.pi_pos).mpr (by nlinarith [Real.pi_gt_three])
  constructor
  · rw [eucNorm, sqNorm_eq]; norm_num; exact h
  · rw [eucNorm, sqNorm_eq]; norm_num; exact h

/-- All test vectors of rotations are shorter than pi. -/
theorem vectors3 {r : ℕ → ℝ} (hr : ∀ n, |r n| ≤ 1) {count : ℕ} {vs : List V3} (h : makeTestVectors3 r count = .ok vs) :
    7 ≤ count ∧ vs.length = count ∧ largeRotation ∈ vs ∧ ∀ v ∈ vs, eucNorm v < Real.pi := by
  by_cases hc : count ≥ 7
  · rw [makeTestVectors3, Outcome.reassert_true hc, Outcome.ok_bind] at h
    injection h with h
    refine ⟨hc, by rw [← h]; simp; omega, by rw [← h]; simp, fun v hv => ?_⟩
    rw [← h] at hv
    simp only [List.cons_append, List.nil_append, List.mem_cons, List.mem_map] at hv
    rcases hv with rfl | rfl | rfl | rfl | rfl | ⟨i, -, rfl⟩
    · rw [eucNorm, sqNorm_eq]; simpa using Real.pi_pos
    · exact ones_norm.1
    · exact ones_norm.2
    · exact large_norm.1
    · exact (tiny_norm hr 0).trans (by linarith [Real.pi_gt_three])
    · exact random3_norm hr _
  · rw [makeTestVectors3, Outcome.reassert_false hc, Outcome.throw_bind] at h
    cases h

/-- All test twists turn by less than pi. -/
theorem vectors6 {r : ℕ → ℝ} (hr : ∀ n, |r n| ≤ 1) {count : ℕ} {xs : List Twist} (h : makeTestVectors6 r count = .ok xs) :
    7 ≤ count ∧ xs.length = count ∧ (largeRotation, (1e6 : ℝ) • random3 r 0) ∈ xs ∧ ∀ x ∈ xs, eucNorm x.1 < Real.pi := by
  by_cases hc : count ≥ 7
  · rw [makeTestVectors6, Outcome.reassert_true hc, Outcome.ok_bind] at h
    injection h with h
    refine ⟨hc, by rw [← h]; simp; omega, by rw [← h]; simp, fun v hv => ?_⟩
    rw [← h] at hv
    simp only [List.cons_append, List.nil_append, List.mem_cons, List.mem_map] at hv
    rcases hv with rfl | rfl | rfl | rfl | rfl | ⟨i, -, rfl⟩
    · rw [eucNorm, sqNorm_eq]; simpa using Real.pi_pos
    · exact ones_norm.1
    · exact ones_norm.2
    · exact large_norm.1
    · exact (tiny_norm hr 3).trans (by linarith [Real.pi_gt_three])
    · exact random3_norm hr _
  · rw [makeTestVectors6, Outcome.reassert_false hc, Outcome.throw_bind] at h
    cases h

end Verif.TestElements
