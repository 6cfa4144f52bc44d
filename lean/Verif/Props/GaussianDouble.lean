import Verif.Proofs.GaussianDouble
/-! # C122: the Gaussian sampler in doubles -/
namespace Verif.Props
open Verif.Spec SampleIntervalDouble TransformDouble ExpDouble GaussianDouble Matrix

/-- C122, a row of samples: each entry is the mean plus the scaled and rotated standard normal numbers, up to `d + 2` roundings of the terms that are added
(and up to underflow). -/
theorem c122_sample {d : ℕ} (hd : d < 2 ^ 32) {vectors : Matrix (Fin d) (Fin d) ℚ} {roots mu z r : Fin d → ℚ} (h : Sample vectors roots mu z r) (j : Fin d) :
    |(r j : ℝ) - (mu j + ∑ k, (vectors j k : ℝ) * (roots k * z k))| ≤
      1.01 * (d + 2) * 2 ^ (-53 : ℤ) * (|(mu j : ℝ)| + ∑ k, |(vectors j k : ℝ) * (roots k * z k)|) +
      (2 * (∑ k, |(vectors j k : ℝ)|) + 3 * d + 1) * 2 ^ (-1075 : ℤ) := sample_close hd h j

/-- Two dimensions with the mean of the documented example: the first coordinate of a draw is 20 + 0.6 * 5 * 1 - 0.8 * 0 * 2 up to 2e-14. -/
example : ∃ r, Sample !![3 / 5, -4 / 5; 4 / 5, 3 / 5] ![5, 0] ![20, 2] ![1, 2] r ∧ |(r 0 : ℝ) - 23| ≤ 2e-14 := by
  obtain ⟨r, h⟩ := sample_some (d := 2) !![3 / 5, -4 / 5; 4 / 5, 3 / 5] ![5, 0] ![20, 2] ![1, 2]
  refine ⟨r, h, ?_⟩
  have := c122_sample (by norm_num) h 0
  simp only [Fin.sum_univ_two] at this
  change _ ≤ 1.01 * _ * U * _ + _ * H at this
  have hU := U_tiny.1; have hH := tiny_numbers.2
  norm_num [abs_of_pos] at this hU hH ⊢
  linarith

/-- C122, the square roots: none is negative (or the root of a negative number), and they are accurate relative to the eigenvalue that is used. -/
theorem c122_roots {d : ℕ} [NeZero d] {cov : Matrix (Fin d) (Fin d) ℚ} {values roots : Fin d → ℚ} (h : Roots cov values roots) (k : Fin d) :
    0 ≤ roots k ∧ (values k ≤ 0 → roots k = 0) ∧ (0 ≤ values k → |(roots k : ℝ) ^ 2 - values k| ≤ 2.001 * 2 ^ (-53 : ℤ) * values k) := by
  have r := root_sq (le_max_right (values k) 0) (h.2 k)
  refine ⟨r.1, fun hk => ?_, fun hk => ?_⟩
  · have := r.2
    rw [max_eq_right hk, Rat.cast_zero, mul_zero, sub_zero] at this
    exact_mod_cast pow_eq_zero_iff (two_ne_zero) |>.mp (abs_eq_zero.mp (le_antisymm this (abs_nonneg _)))
  · have := r.2
    rw [max_eq_left hk] at this
    exact this

/-- C122, the tolerance for negative eigenvalues is a quadrillionth of the range of the covariance, or of one if that is more, up to four roundings. -/
theorem c122_tolerance {d : ℕ} [NeZero d] (cov : Matrix (Fin d) (Fin d) ℚ) :
    |(tol cov : ℝ) - 1e-15 * max (entryRange cov : ℝ) 1| ≤ 4 * 2 ^ (-53 : ℤ) * (1e-15 * max (entryRange cov : ℝ) 1) := tol_close cov

theorem tol_lower {d : ℕ} [NeZero d] (cov : Matrix (Fin d) (Fin d) ℚ) : (0.9e-15 : ℚ) ≤ tol cov := by
  have h := (abs_le.mp (tol_close cov)).1
  have hU := U_tiny.1
  have m : (1 : ℝ) ≤ max (entryRange cov : ℝ) 1 := le_max_right _ _
  have : (0.9e-15 : ℝ) ≤ tol cov := by nlinarith
  have e : ((0.9e-15 : ℚ) : ℝ) = 0.9e-15 := by norm_num
  rw [← e] at this
  exact_mod_cast this

/-- Eigenvalues 25 and -1e-16 are accepted, and the second one counts as zero. -/
example : ∃ roots, Roots !![9, 12; 12, 16] ![25, -1e-16] roots ∧ roots 1 = 0 ∧ |(roots 0 : ℝ) ^ 2 - 25| ≤ 2.001 * 2 ^ (-53 : ℤ) * 25 := by
  have t := tol_lower !![9, 12; 12, 16]
  obtain ⟨roots, h⟩ := roots_some (cov := !![9, 12; 12, 16]) (values := ![25, -1e-16]) (by
    intro k
    fin_cases k <;> norm_num at t ⊢ <;> linarith)
  have h0 := (c122_roots h 0).2.2 (by norm_num)
  exact ⟨roots, h, (c122_roots h 1).2.1 (by norm_num), by simpa using h0⟩

/-- C122, covariance: let the eigenvalues and eigenvectors that the solver returned reproduce the requested covariance up to `ε` in each entry, with rows
of (nearly) unit length.  Then the linear map that is applied to standard normal numbers has the requested covariance as its square up to `ε`, two roundings
of the largest eigenvalue and the tolerance for negative eigenvalues. -/
theorem c122_covariance {d : ℕ} [NeZero d] {cov vectors : Matrix (Fin d) (Fin d) ℚ} {values roots : Fin d → ℚ} (h : Roots cov values roots) {ε Λ : ℝ}
    (hs : ∀ i j, |(∑ k, (vectors i k : ℝ) * values k * vectors j k) - cov i j| ≤ ε) (hv : ∀ i, ∑ k, (vectors i k : ℝ) ^ 2 ≤ 1.01)
    (hΛ : ∀ k, (values k : ℝ) ≤ Λ) (h0 : 0 ≤ Λ) (i j : Fin d) :
    |(∑ k, ((vectors i k : ℝ) * roots k) * (vectors j k * roots k)) - cov i j| ≤ ε + 1.01 * (2.001 * 2 ^ (-53 : ℤ) * Λ + tol cov) :=
  factor_close h hs hv hΛ h0 i j

/-- The covariance of that example, with an error of the solver of 1e-16. -/
example : ∃ roots, Roots !![9, 12; 12, 16] ![25, -1e-16] roots ∧ ∀ i j,
    |(∑ k, (((!![3 / 5, -4 / 5; 4 / 5, 3 / 5] : Matrix (Fin 2) (Fin 2) ℚ) i k : ℝ) * roots k) * (((!![3 / 5, -4 / 5; 4 / 5, 3 / 5] : Matrix (Fin 2) (Fin 2) ℚ) j k : ℝ) * roots k)) -
      ((!![9, 12; 12, 16] : Matrix (Fin 2) (Fin 2) ℚ) i j : ℝ)| ≤ 1e-16 + 1.01 * (2.001 * 2 ^ (-53 : ℤ) * 25 + tol (!![9, 12; 12, 16] : Matrix (Fin 2) (Fin 2) ℚ)) := by
  have t := tol_lower !![9, 12; 12, 16]
  obtain ⟨roots, h⟩ := roots_some (cov := !![9, 12; 12, 16]) (values := ![25, -1e-16]) (by
    intro k
    fin_cases k <;> norm_num at t ⊢ <;> linarith)
  refine ⟨roots, h, fun i j => c122_covariance h (fun i j => ?_) (fun i => ?_) (fun k => ?_) (by norm_num) i j⟩
  · fin_cases i <;> fin_cases j <;> norm_num [Fin.sum_univ_two, abs_le]
  · fin_cases i <;> norm_num [Fin.sum_univ_two]
  · fin_cases k <;> norm_num

end Verif.Props
