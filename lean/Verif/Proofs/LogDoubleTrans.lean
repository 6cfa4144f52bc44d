import Verif.Proofs.LogDoubleTurn
import Verif.Proofs.ExpDoubleTrans
import Verif.Proofs.Between
/-! # Rounding errors of the logarithm of rigid motions -/
namespace Verif.LogDouble
open SampleIntervalDouble TransformDouble ExpDouble Verif.Spec Matrix SO3

/-- The exact coefficient of the logarithm next to those of the exponential. -/
structure Second (θ A B C K : ℝ) : Prop where
  left : K * A = B / 2 - C
  right : K * (θ ^ 2 * B) = B - A / 2

theorem second_some {θ A B C : ℝ} (hθ : 0 ≤ θ) (h3 : θ ≤ 3.2) (h : Exact θ A B C) : ∃ K, Second θ A B C K := by
  rcases hθ.eq_or_lt with e | hp
  · obtain ⟨rfl, rfl, rfl⟩ := h.zero e.symm
    exact ⟨1 / 12, by norm_num, by rw [← e]; norm_num⟩
  · obtain ⟨rfl, rfl, rfl⟩ := h.pos hp
    have hc : 0 < 1 - Real.cos θ := by
      rcases le_or_gt θ Real.pi with h1 | h1
      · have : Real.cos θ < 1 := by
          rw [← Real.cos_zero]
          exact Real.cos_lt_cos_of_nonneg_of_le_pi le_rfl h1 hp
        linarith
      · have := Real.cos_neg_of_pi_div_two_lt_of_lt (x := θ) (by linarith [Real.pi_pos]) (by linarith [Real.pi_gt_three])
        linarith
    have hs := Real.sin_sq_add_cos_sq θ
    refine ⟨((1 - Real.cos θ) / θ ^ 2 - Real.sin θ / θ / 2) / (1 - Real.cos θ), ?_, ?_⟩
    · field_simp
      generalize Real.cos θ = c at *
      generalize Real.sin θ = s at *
      have : s ^ 2 = (1 - c) * (1 + c) := by linear_combination hs
      linear_combination (-θ) * this
    · field_simp

/-- The exact logarithm of the translation is inverted by the exact exponential. -/
theorem xexp_second {w : V3} {A B C K : ℝ} (h : Exact (eucNorm w) A B C) (hK : Second (eucNorm w) A B C K) (t : V3) :
    (SE3.xexp (w, t - (1 / 2 : ℝ) • (w ⨯₃ t) + K • (w ⨯₃ (w ⨯₃ t)))).2 = t := by
  have hAC := (exact_bounds (eucNorm_nonneg w) h).2.2.2.2.2
  obtain ⟨l, r⟩ := hK
  have c3 := SE3.cross3 w
  have dd : ∀ u : V3, (w ⬝ᵥ u) • w = w ⨯₃ (w ⨯₃ u) + (eucNorm w ^ 2) • u := by
    intro u
    rw [eucNorm_sq, sqNorm_eq]
    ext i
    fin_cases i <;> simp [cross_apply, dotProduct, Fin.sum_univ_three] <;> ring
  rw [xexp_exact h]
  rw [mul_smul, dd]
  simp only [map_add, map_sub, map_smul, c3]
  generalize w ⨯₃ (w ⨯₃ t) = k2
  generalize w ⨯₃ t = k1
  generalize eucNorm w = θ at *
  have z1 : -(1 / 2) + B + C * θ ^ 2 / 2 - K * B * θ ^ 2 = 0 := by linear_combination -r + hAC / 2
  have z2 : K - B / 2 + C - K * C * θ ^ 2 = 0 := by linear_combination l - K * hAC
  have e : A • (t - (1 / 2 : ℝ) • k1 + K • k2) + B • (k1 - (1 / 2 : ℝ) • k2 + K • -θ ^ 2 • k1) +
      C • (k2 - (1 / 2 : ℝ) • -θ ^ 2 • k1 + K • -θ ^ 2 • k2 + θ ^ 2 • (t - (1 / 2 : ℝ) • k1 + K • k2)) =
      (A + C * θ ^ 2) • (t - (1 / 2 : ℝ) • k1 + K • k2) + (B + C * θ ^ 2 / 2 - K * B * θ ^ 2) • k1 + (-(B / 2) + C - K * C * θ ^ 2) • k2 := by module
  rw [e, show A + C * θ ^ 2 = 1 by linear_combination hAC, show B + C * θ ^ 2 / 2 - K * B * θ ^ 2 = 1 / 2 by linear_combination z1,
    show -(B / 2) + C - K * C * θ ^ 2 = -K by linear_combination z2]
  module

/-- The exact exponential is inverted by the exact logarithm of the translation. -/
theorem second_xexp {w : V3} {A B C K : ℝ} (h : Exact (eucNorm w) A B C) (hK : Second (eucNorm w) A B C K) (v : V3) :
    (SE3.xexp (w, v)).2 - (1 / 2 : ℝ) • (w ⨯₃ (SE3.xexp (w, v)).2) + K • (w ⨯₃ (w ⨯₃ (SE3.xexp (w, v)).2)) = v := by
  have hAC := (exact_bounds (eucNorm_nonneg w) h).2.2.2.2.2
  obtain ⟨l, r⟩ := hK
  have c3 := SE3.cross3 w
  have dd : ∀ u : V3, (w ⬝ᵥ u) • w = w ⨯₃ (w ⨯₃ u) + (eucNorm w ^ 2) • u := by
    intro u
    rw [eucNorm_sq, sqNorm_eq]
    ext i
    fin_cases i <;> simp [cross_apply, dotProduct, Fin.sum_univ_three] <;> ring
  rw [xexp_exact h]
  rw [mul_smul, dd]
  simp only [map_add, map_smul, c3]
  generalize w ⨯₃ (w ⨯₃ v) = k2
  generalize w ⨯₃ v = k1
  generalize eucNorm w = θ at *
  have z1 : B - 1 / 2 * (1 - C * θ ^ 2) - K * B * θ ^ 2 = 0 := by linear_combination -r + hAC / 2
  have z2 : C - B / 2 + K * (1 - C * θ ^ 2) = 0 := by linear_combination l - K * hAC
  subst hAC
  have e : (1 - θ ^ 2 * C) • v + B • k1 + C • (k2 + θ ^ 2 • v) - (1 / 2 : ℝ) • ((1 - θ ^ 2 * C) • k1 + B • k2 + C • (-θ ^ 2 • k1 + θ ^ 2 • k1)) +
      K • ((1 - θ ^ 2 * C) • k2 + B • -θ ^ 2 • k1 + C • (-θ ^ 2 • k2 + θ ^ 2 • k2)) =
      v + (B - 1 / 2 * (1 - C * θ ^ 2) - K * B * θ ^ 2) • k1 + (C - B / 2 + K * (1 - C * θ ^ 2)) • k2 := by module
  rw [e, z1, z2]
  module

/-- Bounds on the coefficients near half a turn. -/
theorem near_pi {θ A B C : ℝ} (h : Exact θ A B C) (h2 : 2.999 ≤ θ) (h3 : θ ≤ 3.2) : |A| ≤ 0.05 ∧ 1.85 ≤ θ ^ 2 * B ∧ 0.18 ≤ B ∧ B ≤ 0.223 := by
  have hp : 0 < θ := by linarith
  obtain ⟨rfl, rfl, rfl⟩ := h.pos hp
  have p1 := Real.pi_gt_d4
  have p2 := Real.pi_lt_d4
  have hd : |θ - Real.pi| ≤ 0.15 := by rw [abs_le]; constructor <;> linarith
  have hc := (cos_lip θ Real.pi).trans hd
  have hs := (sin_lip θ Real.pi).trans hd
  rw [Real.cos_pi] at hc
  rw [Real.sin_pi, sub_zero] at hs
  have hc' := abs_le.mp hc
  have hc1 := Real.neg_one_le_cos θ
  have e : θ ^ 2 * ((1 - Real.cos θ) / θ ^ 2) = 1 - Real.cos θ := by field_simp
  have t1 : 8.99 ≤ θ ^ 2 := by nlinarith
  have t2 : θ ^ 2 ≤ 10.24 := by nlinarith
  refine ⟨?_, by rw [e]; linarith, ?_, ?_⟩
  · rw [abs_div, abs_of_pos hp, div_le_iff₀ hp]
    have hs2 : |Real.sin θ| ≤ 0.1499 := by
      have hd2 : |θ - Real.pi| ≤ 0.1499 := by
        have p3 := Real.pi_gt_d4
        have p4 := Real.pi_lt_d4
        rw [abs_le]; constructor <;> linarith
      have := (sin_lip θ Real.pi).trans hd2
      rwa [Real.sin_pi, sub_zero] at this
    linarith
  · rw [le_div_iff₀ (by positivity)]; linarith
  · rw [div_le_iff₀ (by positivity)]; linarith

/-- The sine of an angle up to about three is not small against the angle. -/
theorem sinc_ge {θ A B C : ℝ} (hθ : 0 ≤ θ) (h : Exact θ A B C) (h3 : θ ≤ 3.0001) : 0.0469 ≤ A := by
  rcases hθ.eq_or_lt with e | hp
  · obtain ⟨rfl, -, -⟩ := h.zero e.symm; norm_num
  obtain ⟨rfl, -, -⟩ := h.pos hp
  rw [le_div_iff₀ hp]
  have p1 := Real.pi_gt_d4
  have p2 := Real.pi_lt_d4
  rcases le_or_gt θ (Real.pi / 2) with h1 | h1
  · have := Real.mul_le_sin hθ h1
    have h2 : 0.0469 ≤ 2 / Real.pi := by rw [le_div_iff₀ Real.pi_pos]; linarith
    exact (mul_le_mul_of_nonneg_right h2 hθ).trans this
  · rw [← Real.sin_pi_sub]
    have m : Real.sin 0.1414 ≤ Real.sin (Real.pi - θ) := Real.sin_le_sin_of_le_of_le_pi_div_two (by linarith) (by linarith) (by linarith)
    have g := Real.sin_gt_sub_cube (x := 0.1414) (by norm_num)
    norm_num at g
    norm_num at m ⊢
    linarith

theorem second_bounds {θ A B C K : ℝ} (hθ : 0 ≤ θ) (h3 : θ ≤ 3.2) (h : Exact θ A B C) (hK : Second θ A B C K) :
    θ ^ 2 * |K| ≤ 3 ∧ |K| ≤ 4 := by
  obtain ⟨bA, bB, bB', bC, bC', eA⟩ := exact_bounds hθ h
  obtain ⟨l, r⟩ := hK
  have p1 := Real.pi_gt_d2
  have p2 := Real.pi_lt_d2
  rw [scale_abs (sq_nonneg θ)]
  rcases hθ.eq_or_lt with e | hp
  · obtain ⟨rfl, rfl, rfl⟩ := h.zero e.symm
    have : K = 1 / 12 := by linarith
    rw [← e, this]
    norm_num
  have hB : 0.18 ≤ B ∧ |A| ≤ 1 ∧ (2.999 ≤ θ → |A| ≤ 0.05) ∧ (θ < 2.999 → 0 ≤ A) := by
    rcases le_or_gt 2.999 θ with g | g
    · obtain ⟨n1, -, n2, -⟩ := near_pi h g h3
      exact ⟨n2, bA, fun _ => n1, fun g' => absurd g' (by linarith)⟩
    · refine ⟨?_, bA, fun g' => absurd g' (by linarith), fun _ => by have := sinc_ge hθ h (by linarith); linarith⟩
      obtain ⟨-, rfl, -⟩ := h.pos hp
      rw [le_div_iff₀ (by positivity)]
      have e : 1 - Real.cos θ = 2 * Real.sin (θ / 2) ^ 2 := by
        have := Real.cos_two_mul' (θ / 2)
        rw [mul_div_cancel₀ _ (two_ne_zero' ℝ)] at this
        linarith [Real.sin_sq_add_cos_sq (θ / 2)]
      have := Real.mul_le_sin (x := θ / 2) (by linarith) (by linarith)
      have h4 : 0.63 ≤ 2 / Real.pi := by rw [le_div_iff₀ Real.pi_pos]; linarith
      have h5 := (mul_le_mul_of_nonneg_right h4 (by linarith : 0 ≤ θ / 2)).trans this
      have h6 := mul_self_le_mul_self (by linarith) h5
      rw [e]
      nlinarith
  obtain ⟨hB0, hA1, hA2, hA3⟩ := hB
  have hB1 := (abs_le.mp bB).2
  have key : |θ ^ 2 * K| ≤ 3 := by
    have e : θ ^ 2 * K * B = B - A / 2 := by linear_combination r
    generalize θ ^ 2 * K = x at *
    have hA1' := abs_le.mp hA1
    have hx : |x| * B ≤ 3 * B := by
      rw [← abs_of_pos (by linarith : 0 < B), ← abs_mul, e, abs_of_pos (by linarith : 0 < B), abs_le]
      constructor
      · linarith
      · rcases le_or_gt 2.999 θ with g | g
        · have := abs_le.mp (hA2 g); linarith
        · have := hA3 g; linarith
    exact le_of_mul_le_mul_right hx (by linarith)
  refine ⟨key, ?_⟩
  rcases le_or_gt θ (Real.pi / 2) with h1 | h1
  · obtain ⟨eA', -, -⟩ := h.pos hp
    have hA : 0.63 ≤ A := by
      rw [eA', le_div_iff₀ hp]
      have h4 : 0.63 ≤ 2 / Real.pi := by rw [le_div_iff₀ Real.pi_pos]; linarith
      exact (mul_le_mul_of_nonneg_right h4 hθ).trans (Real.mul_le_sin hθ h1)
    have hx : |K| * A ≤ 4 * A := by
      rw [← abs_of_pos (by linarith : 0 < A), ← abs_mul, l, abs_of_pos (by linarith : 0 < A)]
      have b1 := abs_le.mp bB
      have b2 := abs_le.mp bC
      rw [abs_le]; constructor <;> linarith
    exact le_of_mul_le_mul_right hx (by linarith)
  · have t : 2.4 ≤ θ ^ 2 := by nlinarith
    rw [abs_mul, abs_of_nonneg (sq_nonneg θ)] at key
    have := mul_le_mul_of_nonneg_right t (abs_nonneg K)
    linarith

theorem round_const (x : ℚ) (hx : |(x : ℝ)| ≤ 1 / 10) : |((round64 x : ℚ) : ℝ) - x| ≤ 0.11 * U := by
  have := rnd x
  have h2 := mul_le_mul_of_nonneg_left hx U_pos.le
  have := H_tiny
  have := H_pos
  have := U_pos
  linarith

/-- The exact coefficient for small turns. -/
theorem second_series {θ A B C K : ℝ} (hθ : 0 ≤ θ) (hE : Exact θ A B C) (hK : Second θ A B C K) (ht : θ ^ 2 ≤ 4.01e-6) :
    |K - (1 / 12 + θ ^ 2 * (1 / 720))| ≤ 1.1e-12 := by
  have hU := U_pos; have hU1 := U_tiny.1
  have t0 := sq_nonneg θ
  obtain ⟨sB, sC⟩ := series_exact hθ hE (ht.trans (by norm_num))
  obtain ⟨bA, bB, -, bC, -, eA⟩ := exact_bounds hθ hE
  have mt : |θ ^ 2| ≤ 0.01 := by rw [abs_of_nonneg t0]; linarith
  have t4 : θ ^ 2 * θ ^ 2 ≤ 4.01e-6 * θ ^ 2 := mul_le_mul_of_nonneg_right ht t0
  have t40 : 0 ≤ θ ^ 2 * θ ^ 2 := mul_nonneg t0 t0
  have sB' := abs_le.mp sB
  have sC' := abs_le.mp sC
  have e4 : θ ^ 4 = θ ^ 2 * θ ^ 2 := by ring
  rw [e4] at sB' sC'
  have hA : |A - (1 - θ ^ 2 * (1 / 6) + θ ^ 2 * θ ^ 2 * (1 / 120))| ≤ 1e-15 := by
    have e : A - (1 - θ ^ 2 * (1 / 6) + θ ^ 2 * θ ^ 2 * (1 / 120)) =
        θ ^ 2 * ((1 / 6 - θ ^ 2 * (1 / 120) + θ ^ 2 * θ ^ 2 * (1 / 5040)) - C) - θ ^ 2 * (θ ^ 2 * θ ^ 2) * (1 / 5040) := by rw [eA]; ring
    have a1 : |θ ^ 2 * ((1 / 6 - θ ^ 2 * (1 / 120) + θ ^ 2 * θ ^ 2 * (1 / 5040)) - C)| ≤ 0.01 * (0.1 * U) := by
      rw [abs_mul]; exact mul_le_mul mt (by rw [abs_le]; exact sC') (abs_nonneg _) (by norm_num)
    have a2 : θ ^ 2 * (θ ^ 2 * θ ^ 2) ≤ 4.01e-6 * (4.01e-6 * 4.01e-6) := mul_le_mul ht (t4.trans (mul_le_mul_of_nonneg_left ht (by norm_num))) t40 (by norm_num)
    have a3 : 0 ≤ θ ^ 2 * (θ ^ 2 * θ ^ 2) := mul_nonneg t0 t40
    have a1' := abs_le.mp a1
    rw [e, abs_le]; constructor <;> linarith
  have hA' := abs_le.mp hA
  have hA1 : 0.99 ≤ A := by linarith
  have t42 : θ ^ 2 * θ ^ 2 ≤ 1.61e-11 := by linarith
  have hd : |A * (K - (1 / 12 + θ ^ 2 * (1 / 720)))| ≤ 1e-12 := by
    have e : A * (K - (1 / 12 + θ ^ 2 * (1 / 720))) = (B / 2 - C) - A * (1 / 12 + θ ^ 2 * (1 / 720)) := by linear_combination hK.left
    have g : |A * (1 / 12 + θ ^ 2 * (1 / 720)) - (1 - θ ^ 2 * (1 / 6) + θ ^ 2 * θ ^ 2 * (1 / 120)) * (1 / 12 + θ ^ 2 * (1 / 720))| ≤ 1e-15 := by
      rw [← sub_mul, abs_mul, abs_of_nonneg (by positivity : 0 ≤ 1 / 12 + θ ^ 2 * (1 / 720))]
      have := mul_le_mul hA (by linarith : 1 / 12 + θ ^ 2 * (1 / 720) ≤ 1) (by positivity) (by norm_num)
      linarith
    have g' := abs_le.mp g
    have a2 : θ ^ 2 * (θ ^ 2 * θ ^ 2) ≤ 1 * (θ ^ 2 * θ ^ 2) := mul_le_mul_of_nonneg_right (by linarith) t40
    have a3 : 0 ≤ θ ^ 2 * (θ ^ 2 * θ ^ 2) := mul_nonneg t0 t40
    have ex : (1 - θ ^ 2 * (1 / 6) + θ ^ 2 * θ ^ 2 * (1 / 120)) * (1 / 12 + θ ^ 2 * (1 / 720)) =
        1 / 12 - θ ^ 2 * (1 / 80) + θ ^ 2 * θ ^ 2 * (1 / 1440 - 1 / 4320) + θ ^ 2 * (θ ^ 2 * θ ^ 2) * (1 / 86400) := by ring
    rw [ex] at g'
    rw [e, abs_le]; constructor <;> linarith
  rw [abs_mul, abs_of_pos (by linarith)] at hd
  have := mul_le_mul_of_nonneg_right hA1 (abs_nonneg (K - (1 / 12 + θ ^ 2 * (1 / 720))))
  linarith

/-- The coefficient below the threshold, with the expression as written in the code. -/
theorem order2_small {q k : ℚ} {θ A B C K : ℝ} (hθ : 0 ≤ θ) (hE : Exact θ A B C) (hK : Second θ A B C K) (hq : |(q : ℝ) - θ ^ 2| ≤ 3.001 * U * θ ^ 2 + 6 * H)
    (hlt : q < round64 4e-6)
    (h : Evaluates ![1, q] ![round64 (1 / 12), round64 (round64 (round64 (1 / 720) + q) + round64 (1 / 30240))] Finset.univ k) :
    |(k : ℝ) - K| ≤ 1.8e-10 ∧ θ ^ 2 ≤ 4.1e-6 := by
  have hU := U_pos; have hU1 := U_tiny.1; have hH := H_tiny; have hH0 := H_pos
  have h4 := abs_le.mp round_4e6
  have hlt' : (q : ℝ) < (round64 4e-6 : ℚ) := Rat.cast_lt.mpr hlt
  have t0 := sq_nonneg θ
  have hUt : U * θ ^ 2 ≤ 1.2e-16 * θ ^ 2 := mul_le_mul_of_nonneg_right hU1 t0
  have ht : θ ^ 2 ≤ 4.01e-6 := by
    have := (abs_le.mp hq).1
    linarith
  have hq' : |(q : ℝ) - θ ^ 2| ≤ 1e-15 := hq.trans (by linarith)
  obtain ⟨sB, sC⟩ := series_exact hθ hE (ht.trans (by norm_num))
  obtain ⟨bA, bB, -, bC, -, eA⟩ := exact_bounds hθ hE
  have hq'' := abs_le.mp hq'
  -- what the code computes
  have r1 := round_const (1 / 12) (by norm_num [abs_le])
  have r2 := round_const (1 / 720) (by norm_num [abs_le])
  have r3 := round_const (1 / 30240) (by norm_num [abs_le])
  have r4 := rnd (round64 (1 / 720) + q)
  have r5 := rnd (round64 (round64 (1 / 720) + q) + round64 (1 / 30240))
  have ev := eval2 h
  generalize round64 (round64 (round64 (1 / 720) + q) + round64 (1 / 30240)) = z at *
  generalize round64 (round64 (1 / 720) + q) = y at *
  generalize round64 (1 / 12) = c1 at *
  generalize round64 (1 / 720) = c2 at *
  generalize round64 (1 / 30240) = c3 at *
  push_cast at r1 r2 r3 r4 r5 ev
  have r1' := abs_le.mp r1
  have r2' := abs_le.mp r2
  have r3' := abs_le.mp r3
  have m4 : |(c2 : ℝ) + q| ≤ 0.01 := by rw [abs_le]; constructor <;> linarith
  have r4' := abs_le.mp (r4.trans (by have := mul_le_mul_of_nonneg_left m4 hU.le; linarith : _ ≤ 0.02 * U))
  have m5 : |(y : ℝ) + c3| ≤ 0.01 := by rw [abs_le]; constructor <;> linarith
  have r5' := abs_le.mp (r5.trans (by have := mul_le_mul_of_nonneg_left m5 hU.le; linarith : _ ≤ 0.02 * U))
  have hz : |(z : ℝ) - (1 / 720 + θ ^ 2 + 1 / 30240)| ≤ 2e-15 := by rw [abs_le]; constructor <;> linarith
  have hz' := abs_le.mp hz
  have mz : |(z : ℝ)| ≤ 0.01 := by rw [abs_le]; constructor <;> linarith
  have mt : |θ ^ 2| ≤ 0.01 := by rw [abs_of_nonneg t0]; linarith
  have mz2 : |(1 / 720 + θ ^ 2 + 1 / 30240 : ℝ)| ≤ 0.01 := by rw [abs_of_nonneg (by positivity)]; linarith
  have mq : |(q : ℝ)| ≤ 0.01 := by rw [abs_le]; constructor <;> linarith
  have pz := prod_err hq' hz mq mz2
  have pz' := abs_le.mp pz
  have mqz : |(q : ℝ) * z| ≤ 0.01 := by rw [abs_mul]; have := mul_le_mul mq mz (abs_nonneg _) (by norm_num); linarith
  have mc : |1 * (c1 : ℝ)| ≤ 0.1 := by rw [one_mul, abs_le]; constructor <;> linarith
  have hev : 2.001 * U * (|1 * (c1 : ℝ)| + |(q : ℝ) * z|) + 4 * H ≤ 1e-15 := by
    have := mul_le_mul_of_nonneg_left (add_le_add mc mqz) (by positivity : 0 ≤ 2.001 * U)
    linarith only [this, hU1, hH, hH0]
  have ev' := abs_le.mp (ev.trans hev)
  have hK1 := second_series hθ hE hK ht
  have t4 : θ ^ 2 * θ ^ 2 ≤ 4.01e-6 * θ ^ 2 := mul_le_mul_of_nonneg_right ht t0
  have t40 : 0 ≤ θ ^ 2 * θ ^ 2 := mul_nonneg t0 t0
  have hK1' := abs_le.mp hK1
  have ex : θ ^ 2 * (1 / 720 + θ ^ 2 + 1 / 30240) = θ ^ 2 * (1 / 720) + θ ^ 2 * θ ^ 2 + θ ^ 2 * (1 / 30240) := by ring
  rw [ex] at pz'
  refine ⟨?_, ht.trans (by norm_num)⟩
  rw [abs_le]; constructor <;> linarith

/-- A computed quotient, scaled. -/
theorem quot_err {n d k : ℚ} {t N D K en ed M : ℝ} (hk : k = round64 (n / d)) (ht : 0 ≤ t) (ht' : t ≤ 11) (hn : t * |(n : ℝ) - N| ≤ en) (hd : |(d : ℝ) - D| ≤ ed)
    (hK : K * D = N) (hKM : t * |K| ≤ 3) (hM : 0 < M) (hMd : M ≤ d) (hen : en + 3 * ed ≤ M) :
    t * |(k : ℝ) - K| ≤ (en + 3 * ed) / M + 4.1 * U := by
  have hU := U_pos; have hH := H_tiny; have hH0 := H_pos
  have hdp : (0 : ℝ) < d := by linarith
  have q1 : t * |(n : ℝ) / d - K| ≤ (en + 3 * ed) / M := by
    have e : (n : ℝ) / d - K = ((n - N) + K * (D - d)) / d := by field_simp; rw [← hK]; ring
    have e2 : |(n : ℝ) / d - K| ≤ (|(n : ℝ) - N| + |K| * |(d : ℝ) - D|) / d := by
      rw [e, abs_div, abs_of_pos hdp, abs_sub_comm (d : ℝ), ← abs_mul]
      gcongr
      exact abs_add_le _ _
    have e3 : t * (|(n : ℝ) - N| + |K| * |(d : ℝ) - D|) ≤ en + 3 * ed := by
      have := mul_le_mul hKM hd (abs_nonneg _) (by norm_num)
      linarith
    calc t * |(n : ℝ) / d - K| ≤ t * ((|(n : ℝ) - N| + |K| * |(d : ℝ) - D|) / d) := mul_le_mul_of_nonneg_left e2 ht
      _ = t * (|(n : ℝ) - N| + |K| * |(d : ℝ) - D|) / d := by ring
      _ ≤ (en + 3 * ed) / M := div_le_div₀ ((mul_nonneg ht (by positivity)).trans e3) e3 hM hMd
  have q2 := rnd (n / d)
  rw [← hk] at q2
  push_cast at q2
  have q3 : t * |(n : ℝ) / d| ≤ 4 := by
    have h1 : |(n : ℝ) / d| ≤ |(n : ℝ) / d - K| + |K| := by
      have : (n : ℝ) / d = ((n : ℝ) / d - K) + K := by ring
      nth_rewrite 1 [this]
      exact abs_add_le _ _
    have h2 := mul_le_mul_of_nonneg_left h1 ht
    have h3 : (en + 3 * ed) / M ≤ 1 := by rw [div_le_one hM]; exact hen
    linarith
  have q4 : |(k : ℝ) - K| ≤ |(k : ℝ) - (n : ℝ) / d| + |(n : ℝ) / d - K| := by
    have : (k : ℝ) - K = ((k : ℝ) - (n : ℝ) / d) + ((n : ℝ) / d - K) := by ring
    rw [this]; exact abs_add_le _ _
  have q5 := mul_le_mul_of_nonneg_left (q4.trans (add_le_add q2 le_rfl)) ht
  have q6 := mul_le_mul_of_nonneg_left q3 hU.le
  have q7 := mul_le_mul_of_nonneg_right ht' hH0.le
  linarith

theorem abs_le_of_near (x y : ℝ) : |x| ≤ |x - y| + |y| := by
  have : x = (x - y) + y := by ring
  nth_rewrite 1 [this]; exact abs_add_le _ _

/-- Near half a turn. -/
theorem order2_far {q a b k n : ℚ} {θ A B C K : ℝ} (h3 : θ ≤ 3.2) (hθ : 0 ≤ θ) (hqe' : |(q : ℝ) - θ ^ 2| ≤ 31 * U)
    (ha : |(a : ℝ) - A| ≤ 10 * U) (hb3 : θ ^ 2 * |(b : ℝ) - B| ≤ 49.5 * U) (hE : Exact θ A B C) (hK : Second θ A B C K) (k1 : θ ^ 2 * |K| ≤ 3)
    (hq9 : (9 : ℝ) < q) (hn : Evaluates ![1, -(1 / 2)] ![b, a] Finset.univ n) (hk : k = round64 (n / round64 (b * q))) :
    θ ^ 2 * |(k : ℝ) - K| ≤ 200 * U ∧ 8.999 ≤ θ ^ 2 := by
  have hU := U_pos; have hU1 := U_tiny.1; have hH := H_tiny; have hH0 := H_pos
  have t0 := sq_nonneg θ
  have t1 : θ ^ 2 ≤ 10.24 := by nlinarith
  have t9 : 8.999 ≤ θ ^ 2 := by have := abs_le.mp hqe'; linarith
  have hθ9 : 2.999 ≤ θ := by nlinarith
  obtain ⟨n1, n2, n3, n4⟩ := near_pi hE hθ9 h3
  have n1' := abs_le.mp n1
  have ha' := abs_le.mp ha
  have hbb : |(b : ℝ) - B| ≤ 5.6 * U := by
    have := mul_le_mul_of_nonneg_right t9 (abs_nonneg ((b : ℝ) - B))
    linarith
  have hbb' := abs_le.mp hbb
  have ev := eval2 hn
  push_cast at ev
  have m1 : |1 * (b : ℝ)| ≤ 0.23 := by rw [one_mul, abs_le]; constructor <;> linarith
  have m2 : |-(1 / 2) * (a : ℝ)| ≤ 0.03 := by rw [abs_le]; constructor <;> linarith
  have hev : 2.001 * U * (|1 * (b : ℝ)| + |-(1 / 2) * (a : ℝ)|) + 4 * H ≤ 0.6 * U := by
    have := mul_le_mul_of_nonneg_left (add_le_add m1 m2) (by positivity : 0 ≤ 2.001 * U)
    linarith only [this, hU, hH, hH0]
  have ev' := abs_le.mp (ev.trans hev)
  have hnn : |(n : ℝ) - (B - A / 2)| ≤ 11.3 * U := by rw [abs_le]; constructor <;> linarith
  have mb : |(b : ℝ)| ≤ 0.23 := by rw [abs_le]; constructor <;> linarith
  have hbq : |(b : ℝ) * q - θ ^ 2 * B| ≤ 57 * U := by
    have e : (b : ℝ) * q - θ ^ 2 * B = b * (q - θ ^ 2) + θ ^ 2 * (b - B) := by ring
    rw [e]
    refine (abs_add_le _ _).trans ?_
    rw [abs_mul (b : ℝ), abs_mul (θ ^ 2), abs_of_nonneg t0]
    have := mul_le_mul mb hqe' (abs_nonneg _) (by norm_num)
    linarith
  have hbq' := abs_le.mp hbq
  have tB : θ ^ 2 * B ≤ 2.3 := by
    have := mul_le_mul t1 n4 (by linarith) (by norm_num)
    linarith
  have hd := rnd (b * q)
  push_cast at hd
  have md : |(b : ℝ) * q| ≤ 2.4 := by rw [abs_le]; constructor <;> linarith
  have hmd : U * |(b : ℝ) * q| + H ≤ 2.5 * U := by
    have := mul_le_mul_of_nonneg_left md hU.le
    linarith only [this, hU, hH, hH0]
  have hd' := abs_le.mp (hd.trans hmd)
  have hdd : |((round64 (b * q) : ℚ) : ℝ) - θ ^ 2 * B| ≤ 60 * U := by rw [abs_le]; constructor <;> linarith
  have hdd' := abs_le.mp hdd
  have hen : θ ^ 2 * |(n : ℝ) - (B - A / 2)| ≤ 116 * U := by
    have := mul_le_mul t1 hnn (abs_nonneg _) (by norm_num)
    linarith
  have fin := quot_err hk t0 (by linarith) hen hdd hK.right k1 (by norm_num : (0 : ℝ) < 1.8) (by linarith) (by linarith)
  have fin2 : (116 * U + 3 * (60 * U)) / 1.8 ≤ 170 * U := by rw [div_le_iff₀ (by norm_num)]; linarith
  exact ⟨by linarith only [fin, fin2, hU], t9⟩

/-- In between. -/
theorem order2_mid {a b c k n : ℚ} {θ A B C K : ℝ} (hθ9 : θ ≤ 3.0001) (hθ : 0 ≤ θ)
    (hN : Near θ a b c A B C) (hE : Exact θ A B C) (hK : Second θ A B C K) (k1 : θ ^ 2 * |K| ≤ 3)
    (hn : Evaluates ![b, -1] ![1 / 2, c] Finset.univ n) (hk : k = round64 (n / a)) :
    θ ^ 2 * |(k : ℝ) - K| ≤ 2200 * U := by
  have hU := U_pos; have hU1 := U_tiny.1; have hH := H_tiny; have hH0 := H_pos
  have t0 := sq_nonneg θ
  have t9 : θ ^ 2 ≤ 9.01 := by nlinarith
  obtain ⟨bA, bB, bB', bC, bC', eA⟩ := exact_bounds hθ hE
  have hA := sinc_ge hθ hE hθ9
  have ha' := abs_le.mp hN.ha
  have hc := hN.hc
  have ev := eval2 hn
  push_cast at ev
  have hb4 : θ ^ 2 * |(b : ℝ) - B| ≤ 46.7 * U := by
    have := mul_le_mul_of_nonneg_right hθ9 hU.le
    have := hN.hb2
    linarith
  have m1 : θ ^ 2 * |(b : ℝ) * (1 / 2)| ≤ 1.6 := by
    rw [abs_mul, abs_of_pos (by norm_num : (0 : ℝ) < 1 / 2)]
    have e2 := mul_le_mul_of_nonneg_left (abs_le_of_near (b : ℝ) B) t0
    have e3 : θ ^ 2 * |B| ≤ 3.0001 := by
      have : θ ^ 2 * |B| = θ * (θ * |B|) := by ring
      rw [this]
      have := mul_le_mul hθ9 bB' (by positivity) (by norm_num)
      linarith
    linarith
  have m2 : θ ^ 2 * |-1 * (c : ℝ)| ≤ 2.01 := by
    rw [neg_one_mul, abs_neg]
    have e2 := mul_le_mul_of_nonneg_left (abs_le_of_near (c : ℝ) C) t0
    linarith
  have hen : θ ^ 2 * |(n : ℝ) - (B / 2 - C)| ≤ 72 * U := by
    have e : |(n : ℝ) - (B / 2 - C)| ≤ |(n : ℝ) - ((b : ℝ) * (1 / 2) + -1 * c)| + (|(b : ℝ) - B| / 2 + |(c : ℝ) - C|) := by
      have : (n : ℝ) - (B / 2 - C) = ((n : ℝ) - ((b : ℝ) * (1 / 2) + -1 * c)) + (((b : ℝ) - B) / 2 - (c - C)) := by ring
      rw [this]
      refine (abs_add_le _ _).trans (add_le_add le_rfl ?_)
      refine (abs_sub _ _).trans ?_
      rw [abs_div, abs_of_pos (by norm_num : (0 : ℝ) < 2)]
    have e2 := mul_le_mul_of_nonneg_left (e.trans (add_le_add ev le_rfl)) t0
    have e3 := mul_le_mul_of_nonneg_left (add_le_add m1 m2) (by positivity : 0 ≤ 2.001 * U)
    have e4 := mul_le_mul_of_nonneg_right t9 hH0.le
    linarith only [e2, e3, e4, hb4, hc, hH, hH0, hU]
  have fin := quot_err hk t0 (by linarith) hen hN.ha hK.left k1 (by norm_num : (0 : ℝ) < 0.0468) (by linarith) (by linarith)
  have fin2 : (72 * U + 3 * (10 * U)) / 0.0468 ≤ 2185 * U := by rw [div_le_iff₀ (by norm_num)]; linarith
  linarith only [fin, fin2, hU]

/-- The coefficient of the logarithm. -/
theorem order2_err {w : Fin 3 → ℚ} {q a b c k : ℚ} {A B C K : ℝ} (h3 : eucNorm (realVec w) ≤ 3.2) (hq : SquaredNorm w q) (hco : ExpDiffCoeffs q a b c)
    (h : Order2 q a b c k) (hE : Exact (eucNorm (realVec w)) A B C) (hK : Second (eucNorm (realVec w)) A B C K) :
    eucNorm (realVec w) ^ 2 * |(k : ℝ) - K| ≤ 2200 * U ∧ |(k : ℝ) - K| ≤ 1 := by
  have hU := U_pos; have hU1 := U_tiny.1; have hU2 := U_tiny.2; have hH := H_tiny; have hH0 := H_pos
  have hθ := eucNorm_nonneg (realVec w)
  have hbig : eucNorm (realVec w) ≤ 2 ^ (500 : ℤ) :=
    h3.trans (le_trans (by norm_num : (3.2 : ℝ) ≤ 2 ^ (3 : ℤ)) (zpow_le_zpow_right₀ (by norm_num) (by norm_num)))
  have hN := near_coeffs hbig hq hco hE
  have hqe := squaredNorm_error hq
  obtain ⟨k1, k2⟩ := second_bounds hθ h3 hE hK
  generalize eucNorm (realVec w) = θ at *
  have t0 := sq_nonneg θ
  have t1 : θ ^ 2 ≤ 10.24 := by nlinarith
  have hUt : U * θ ^ 2 ≤ 10.24 * U := by have := mul_le_mul_of_nonneg_left t1 hU.le; linarith
  have hqe1 : |(q : ℝ) - θ ^ 2| ≤ 31 * U := hqe.trans (by linarith)
  have hqe' := abs_le.mp hqe1
  unfold Order2 at h
  split_ifs at h with c1 c2
  · obtain ⟨o1, o2⟩ := order2_small hθ hE hK hqe c1 h
    refine ⟨?_, by linarith⟩
    have := mul_le_mul o2 o1 (abs_nonneg _) (by norm_num)
    linarith
  · obtain ⟨n, hn, hk⟩ := h
    have hb3 : θ ^ 2 * |(b : ℝ) - B| ≤ 49.5 * U := by
      have := mul_le_mul_of_nonneg_right h3 hU.le
      have := hN.hb2
      linarith
    obtain ⟨f1, f2⟩ := order2_far h3 hθ hqe1 hN.ha hb3 hE hK k1 (by exact_mod_cast c2) hn hk
    refine ⟨by linarith, ?_⟩
    have := mul_le_mul_of_nonneg_right f2 (abs_nonneg ((k : ℝ) - K))
    linarith
  · obtain ⟨n, hn, hk⟩ := h
    have hq9 : (q : ℝ) ≤ 9 := by exact_mod_cast not_lt.mp c2
    have t9 : θ ^ 2 ≤ 9.0001 := by linarith
    have hθ9 : θ ≤ 3.0001 := by nlinarith
    have h4 := abs_le.mp round_4e6
    have hge' : ((round64 4e-6 : ℚ) : ℝ) ≤ q := Rat.cast_le.mpr (not_lt.mp c1)
    have t4 : 3.9e-6 ≤ θ ^ 2 := by linarith
    have fin3 := order2_mid hθ9 hθ hN hE hK k1 hn hk
    refine ⟨fin3, ?_⟩
    have := mul_le_mul_of_nonneg_right t4 (abs_nonneg ((k : ℝ) - K))
    linarith

end Verif.LogDouble
