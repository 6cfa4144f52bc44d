import Verif.Proofs.TinyAngle
/-! # Property C28: the small-angle branch of the exponential coefficients -/
namespace Verif.Props
open SO3

/-- C28.  For every angle `t` with `0 < t < 0.002` the three coefficients computed by the code agree with their exact expressions up to a
relative error below 1e-16.  (The angle zero is exact: see `c28_zero`.) -/
theorem c28_tiny_coefficients (t : ℝ) (h0 : 0 < t) (h1 : t < 0.002) :
    |(expDiffCoeffs (t ^ 2)).a - Real.sin t / t| < 1e-16 * (Real.sin t / t) ∧
    |(expDiffCoeffs (t ^ 2)).b - (1 - Real.cos t) / t ^ 2| < 1e-16 * ((1 - Real.cos t) / t ^ 2) ∧
    |(expDiffCoeffs (t ^ 2)).c - (t - Real.sin t) / t ^ 3| < 1e-16 * ((t - Real.sin t) / t ^ 3) := by
  have hlt : t ^ 2 < tinySquareAngle := by unfold tinySquareAngle; nlinarith
  obtain ⟨hc, hs⟩ := taylor8 t (by rw [abs_of_pos h0]; linarith)
  rw [abs_of_pos h0] at hc hs
  have ht2 : t ^ 2 ≤ 4e-6 := by nlinarith
  have ht4 : t ^ 4 ≤ 16e-12 := by nlinarith [sq_nonneg t]
  have ht5 : t ^ 5 ≤ 32e-15 := by
    have : t ^ 5 = t ^ 4 * t := by ring
    rw [this]; nlinarith [pow_pos h0 4]
  have ht6 : t ^ 6 ≤ 64e-18 := by
    have : t ^ 6 = t ^ 4 * t ^ 2 := by ring
    rw [this]; nlinarith [pow_pos h0 4, pow_pos h0 2]
  have p5 : 0 < t ^ 5 := pow_pos h0 5
  -- exact expressions in terms of remainders
  obtain ⟨rc, hrc⟩ : ∃ r, r = Real.cos t - (1 - t ^ 2 / 2 + t ^ 4 / 24 - t ^ 6 / 720) := ⟨_, rfl⟩
  obtain ⟨rs, hrs⟩ : ∃ r, r = Real.sin t - (t - t ^ 3 / 6 + t ^ 5 / 120 - t ^ 7 / 5040) := ⟨_, rfl⟩
  rw [← hrc, abs_le] at hc
  rw [← hrs, abs_le] at hs
  have eb : (1 - Real.cos t) / t ^ 2 = (1 / 2 - t ^ 2 / 24 + t ^ 4 / 720) - rc / t ^ 2 := by
    rw [hrc]; field_simp; ring
  have ec : (t - Real.sin t) / t ^ 3 = (1 / 6 - t ^ 2 / 120 + t ^ 4 / 5040) - rs / t ^ 3 := by
    rw [hrs]; field_simp; ring
  have ea : Real.sin t / t = (1 - t ^ 2 / 6 + t ^ 4 / 120 - t ^ 6 / 5040) + rs / t := by
    rw [hrs]; field_simp; ring
  have bb : |rc / t ^ 2| ≤ t ^ 6 / 35000 := by
    rw [abs_div, abs_of_pos (pow_pos h0 2), div_le_iff₀ (pow_pos h0 2)]
    calc |rc| ≤ t ^ 8 / 35000 := abs_le.mpr hc
      _ = _ := by ring
  have bc : |rs / t ^ 3| ≤ t ^ 5 / 35000 := by
    rw [abs_div, abs_of_pos (pow_pos h0 3), div_le_iff₀ (pow_pos h0 3)]
    calc |rs| ≤ t ^ 8 / 35000 := abs_le.mpr hs
      _ = _ := by ring
  have ba : |rs / t| ≤ t ^ 6 * t / 35000 := by
    rw [abs_div, abs_of_pos h0, div_le_iff₀ h0]
    calc |rs| ≤ t ^ 8 / 35000 := abs_le.mpr hs
      _ = _ := by ring
  rw [abs_le] at bb bc ba
  have ha7 : t ^ 6 * t ≤ 64e-18 := by nlinarith [pow_pos h0 6]
  unfold expDiffCoeffs
  rw [if_pos hlt]
  simp only
  rw [ea, eb, ec]
  refine ⟨?_, ?_, ?_⟩
  · have : 1 - t ^ 2 * (1 / 6 - t ^ 2 * (1 / 120 - t ^ 2 * (1 / 5040))) -
        (1 - t ^ 2 / 6 + t ^ 4 / 120 - t ^ 6 / 5040 + rs / t) = -(rs / t) := by ring
    rw [this, abs_neg]
    refine lt_of_le_of_lt (abs_le.mpr ba) ?_
    have := ba.1
    nlinarith [pow_pos h0 4, pow_pos h0 6]
  · have : 0.5 - t ^ 2 * (1 / 24 - t ^ 2 * (1 / 720)) - (1 / 2 - t ^ 2 / 24 + t ^ 4 / 720 - rc / t ^ 2) = rc / t ^ 2 := by ring
    rw [this]
    refine lt_of_le_of_lt (abs_le.mpr bb) ?_
    have := bb.2
    nlinarith [pow_pos h0 4, pow_pos h0 6]
  · have : 1 / 6 - t ^ 2 * (1 / 120 - t ^ 2 * (1 / 5040)) - (1 / 6 - t ^ 2 / 120 + t ^ 4 / 5040 - rs / t ^ 3) = rs / t ^ 3 := by ring
    rw [this]
    refine lt_of_le_of_lt (abs_le.mpr bc) ?_
    have := bc.2
    nlinarith [pow_pos h0 4, pow_pos h0 6]

/-- C28.  At angle zero the coefficients are the limits 1, 1/2 and 1/6. -/
theorem c28_zero : (expDiffCoeffs 0).a = 1 ∧ (expDiffCoeffs 0).b = 1 / 2 ∧ (expDiffCoeffs 0).c = 1 / 6 := by
  unfold expDiffCoeffs
  rw [if_pos (by unfold tinySquareAngle; norm_num)]
  norm_num

/-- C28, the other side of the switch: from the threshold on, the coefficients are the exact expressions. -/
theorem c28_exact_above (t : ℝ) (h : 0.002 ≤ t) :
    (expDiffCoeffs (t ^ 2)).a = Real.sin t / t ∧ (expDiffCoeffs (t ^ 2)).b = (1 - Real.cos t) / t ^ 2 ∧
    (expDiffCoeffs (t ^ 2)).c = (t - Real.sin t) / t ^ 3 := by
  have hp : 0 < t := by linarith
  have hle : tinySquareAngle ≤ t ^ 2 := by unfold tinySquareAngle; nlinarith
  have hs : Real.sqrt (t ^ 2) = t := Real.sqrt_sq hp.le
  obtain ⟨hb, hc⟩ := SE3.coeff_exact hle
  rw [hs] at hb hc
  refine ⟨?_, hb, hc⟩
  rw [SE3.coeff_a _ (sq_nonneg t), hc]
  field_simp
  ring

example : (0 : ℝ) < 0.001 ∧ (0.001 : ℝ) < 0.002 := by norm_num

end Verif.Props
