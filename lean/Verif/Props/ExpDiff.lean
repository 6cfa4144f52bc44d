import Verif.Proofs.ExpDiff
import Verif.Props.TinyAngle
/-! # Property C74: `SO3::exp_diff` is the differential of `SO3::exp` -/
namespace Verif.Props
open Matrix Spec SO3

/-- C74: along any path `x` through tangent space with velocity `v` at time `t`, the rotation `exp (x s)` turns with angular velocity
`exp_diff (x t) v` (in the frame rotated into) at time `t`.  Angles strictly between 0 and 0.002, where the coefficients are a truncated series, are in
`c74_small_angle_close`. -/
theorem c74_differential (x : ℝ → V3) (v : V3) (t : ℝ) (h : HasDerivAt x v t) (hx : x t = 0 ∨ 0.002 ≤ eucNorm (x t)) (i j : Fin 3) :
    HasDerivAt (fun s => SO3.exp (x s) i j) ((rotHat (expDiff (x t) *ᵥ v) * SO3.exp (x t)) i j) t := by
  rcases hx with h0 | hx
  · have := exp_deriv_zero h h0 i j
    refine this.congr_deriv ?_
    rw [expDiff_mulVec, h0, exp_zero]
    have : sqNorm 0 = 0 := sqNorm_eq_zero.mpr rfl
    rw [this, c28_zero.1]
    simp
  · have h0 : x t ≠ 0 := by
      intro h0; rw [h0, eucNorm_zero] at hx; norm_num at hx
    refine (exp_deriv h h0 i j).congr_deriv ?_
    rw [expDiff_mulVec, trueDiff, ← eucNorm_sq]
    obtain ⟨ha, hb, hc⟩ := c28_exact_above (eucNorm (x t)) hx
    rw [ha, hb, hc]

/-- C74 below the threshold: the rotation turns with an angular velocity `y` that differs from `exp_diff (x t) v` by at most 2e-16 of the length of `v`. -/
theorem c74_small_angle_close (x : ℝ → V3) (v : V3) (t : ℝ) (h : HasDerivAt x v t) (hx : eucNorm (x t) < 0.002) :
    ∃ y : V3, (∀ i j, HasDerivAt (fun s => SO3.exp (x s) i j) ((rotHat y * SO3.exp (x t)) i j) t) ∧
      eucNorm (expDiff (x t) *ᵥ v - y) ≤ 2e-16 * eucNorm v := by
  by_cases h0 : x t = 0
  · refine ⟨expDiff (x t) *ᵥ v, c74_differential x v t h (.inl h0), ?_⟩
    rw [sub_self, eucNorm_zero]
    have := eucNorm_nonneg v
    positivity
  · refine ⟨trueDiff (x t) v, exp_deriv h h0, ?_⟩
    have hp := eucNorm_pos h0
    obtain ⟨ha, hb, hc⟩ := c28_tiny_coefficients (eucNorm (x t)) hp hx
    rw [expDiff_mulVec, trueDiff, ← eucNorm_sq]
    generalize x t = w at *
    have ht3 : (eucNorm w - Real.sin (eucNorm w)) / eucNorm w ^ 3 ≤ 1 := by
      have := Real.sin_gt_sub_cube hp
      rw [div_le_one (pow_pos hp 3)]
      have := pow_pos hp 3
      linarith
    have ht2 : (1 - Real.cos (eucNorm w)) / eucNorm w ^ 2 ≤ 1 := by
      rw [div_le_one (pow_pos hp 2)]
      have := Real.one_sub_sq_div_two_le_cos (x := eucNorm w)
      have := pow_pos hp 2
      linarith
    have ht1 : Real.sin (eucNorm w) / eucNorm w ≤ 1 := by
      rw [div_le_one hp]; exact Real.sin_le hp.le
    generalize (expDiffCoeffs (eucNorm w ^ 2)).a = a at *
    generalize (expDiffCoeffs (eucNorm w ^ 2)).b = b at *
    generalize (expDiffCoeffs (eucNorm w ^ 2)).c = c at *
    generalize Real.sin (eucNorm w) / eucNorm w = a' at *
    generalize (1 - Real.cos (eucNorm w)) / eucNorm w ^ 2 = b' at *
    generalize (eucNorm w - Real.sin (eucNorm w)) / eucNorm w ^ 3 = c' at *
    have e : a • v + b • (w ⨯₃ v) + (c * (w ⬝ᵥ v)) • w - (a' • v + b' • (w ⨯₃ v) + (c' * (w ⬝ᵥ v)) • w) =
        (a - a') • v + (b - b') • (w ⨯₃ v) + ((c - c') * (w ⬝ᵥ v)) • w := by module
    rw [e]
    have hv := eucNorm_nonneg v
    have hd : |w ⬝ᵥ v| ≤ eucNorm w * eucNorm v := abs_dot_le w v
    have d1 : eucNorm (w ⨯₃ v) ≤ 0.002 * eucNorm v := (eucNorm_cross_le w v).trans (mul_le_mul_of_nonneg_right hx.le hv)
    have d2 : |w ⬝ᵥ v| * eucNorm w ≤ 0.002 * eucNorm v * 0.002 :=
      mul_le_mul (hd.trans (mul_le_mul_of_nonneg_right hx.le hv)) hx.le hp.le (by positivity)
    calc _ ≤ |a - a'| * eucNorm v + |b - b'| * eucNorm (w ⨯₃ v) + |c - c'| * (|w ⬝ᵥ v| * eucNorm w) := by
          refine (eucNorm_add_le _ _).trans (add_le_add ((eucNorm_add_le _ _).trans (le_of_eq ?_)) (le_of_eq ?_))
          · rw [eucNorm_smul, eucNorm_smul]
          · rw [eucNorm_smul, abs_mul, mul_assoc]
      _ ≤ 1e-16 * eucNorm v + 1e-16 * (0.002 * eucNorm v) + 1e-16 * (0.002 * eucNorm v * 0.002) := by
          refine add_le_add (add_le_add ?_ ?_) ?_
          · exact mul_le_mul_of_nonneg_right (by nlinarith) hv
          · exact mul_le_mul (by nlinarith) d1 (eucNorm_nonneg _) (by norm_num)
          · exact mul_le_mul (by nlinarith) d2 (by positivity) (by norm_num)
      _ ≤ 2e-16 * eucNorm v := by nlinarith

/-- A path through the region of each theorem. -/
theorem exTurning : (∀ t, HasDerivAt (fun s : ℝ => s • (![1, 2, 2] : V3)) ![1, 2, 2] t) ∧
    0.002 ≤ eucNorm ((1 : ℝ) • (![1, 2, 2] : V3)) ∧ 0 < eucNorm ((0.0001 : ℝ) • (![1, 2, 2] : V3)) ∧ eucNorm ((0.0001 : ℝ) • (![1, 2, 2] : V3)) < 0.002 := by
  have hn : eucNorm (![1, 2, 2] : V3) = 3 := by
    have : sqNorm (![1, 2, 2] : V3) = 3 ^ 2 := by rw [sqNorm_eq]; simp; norm_num
    rw [eucNorm, this, Real.sqrt_sq (by norm_num)]
  have hd : ∀ t : ℝ, HasDerivAt (fun s : ℝ => s • (![1, 2, 2] : V3)) ![1, 2, 2] t := fun t => by
    simpa using (hasDerivAt_id t).smul_const (![1, 2, 2] : V3)
  refine ⟨hd, ?_, ?_, ?_⟩ <;> rw [eucNorm_smul, hn] <;> norm_num

/-! ## Instances of the theorems above -/

/-- `c74_differential` for a turn about an axis, at an angle of 3. -/
example (i j : Fin 3) : HasDerivAt (fun s : ℝ => SO3.exp (s • (![1, 2, 2] : V3)) i j)
    ((rotHat (expDiff ((1 : ℝ) • (![1, 2, 2] : V3)) *ᵥ ![1, 2, 2]) * SO3.exp ((1 : ℝ) • (![1, 2, 2] : V3))) i j) 1 :=
  c74_differential (fun s : ℝ => s • (![1, 2, 2] : V3)) _ 1 (exTurning.1 1) (.inr exTurning.2.1) i j

end Verif.Props
