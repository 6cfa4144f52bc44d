import Verif.Proofs.ApproxDouble
import Mathlib.Analysis.SpecialFunctions.Trigonometric.Bounds
/-! # Approximate equality of what is computed: round trips through the logarithm -/
namespace Verif.ApproxDouble
open SampleIntervalDouble TransformDouble ExpDouble LogDouble MessageDouble Verif.Spec Matrix SO3

/-! ## The length of the translation part -/

theorem second_coeff {θ A B C : ℝ} (hθ : 0 ≤ θ) (h3 : θ ≤ 3.2) (h : Exact θ A B C) : 0.163 ≤ B ∧ 2 * B ≤ 1 ∧ A ^ 2 + θ ^ 2 * B ^ 2 = 2 * B := by
  have hb := (exact_bounds hθ h).2.1
  refine ⟨?_, by linarith [(abs_le.mp hb).2], ?_⟩
  · rcases hθ.eq_or_lt with e | hp
    · obtain ⟨-, rfl, -⟩ := h.zero e.symm; norm_num
    · obtain ⟨-, rfl, -⟩ := h.pos hp
      rw [le_div_iff₀ (by positivity)]
      have y0 : 0 < θ / 4 := by linarith
      have s1 := Real.sin_gt_sub_cube y0
      have c1 := Real.one_sub_sq_div_two_le_cos (x := θ / 4)
      have e1 : Real.sin (θ / 2) = 2 * Real.sin (θ / 4) * Real.cos (θ / 4) := by
        rw [← Real.sin_two_mul]; congr 1; ring
      have e2 : Real.cos θ = 1 - 2 * Real.sin (θ / 2) ^ 2 := by
        have := Real.cos_two_mul (θ / 2)
        rw [show 2 * (θ / 2) = θ by ring] at this
        have := Real.sin_sq_add_cos_sq (θ / 2)
        linarith
      have y2 : (θ / 4) ^ 2 ≤ 0.64 := by nlinarith
      have s2 : 0.84 * (θ / 4) ≤ Real.sin (θ / 4) := by nlinarith
      have c2 : 0.68 ≤ Real.cos (θ / 4) := by linarith
      have s3 : 1.142 * (θ / 4) ≤ Real.sin (θ / 2) := by
        rw [e1]
        have := mul_le_mul s2 c2 (by norm_num) (by linarith)
        linarith
      have s4 := mul_le_mul s3 s3 (by positivity) (by linarith)
      rw [e2]
      nlinarith
  · rcases hθ.eq_or_lt with e | hp
    · obtain ⟨rfl, rfl, -⟩ := h.zero e.symm; rw [← e]; norm_num
    · obtain ⟨rfl, rfl, -⟩ := h.pos hp
      have hs := Real.sin_sq_add_cos_sq θ
      field_simp
      linear_combination hs

/-- The square of the length of the translation, from below. -/
theorem xexp_key {w : V3} (h3 : eucNorm w ≤ 3.2) {A B C : ℝ} (hE : Exact (eucNorm w) A B C) (v : V3) : 2 * B * sqNorm v ≤ sqNorm (SE3.xexp (w, v)).2 := by
  have hθ := eucNorm_nonneg w
  obtain ⟨b1, b2, b3⟩ := second_coeff hθ h3 hE
  have hAC := (exact_bounds hθ hE).2.2.2.2.2
  rw [xexp_exact hE]
  have e : sqNorm (A • v + B • (w ⨯₃ v) + (C * (w ⬝ᵥ v)) • w) =
      A ^ 2 * sqNorm v + B ^ 2 * (eucNorm w ^ 2 * sqNorm v - (w ⬝ᵥ v) ^ 2) + (C ^ 2 * eucNorm w ^ 2 + 2 * A * C) * (w ⬝ᵥ v) ^ 2 := by
    rw [eucNorm_sq]
    simp only [sqNorm_eq, cross_apply, dotProduct, Fin.sum_univ_three, Pi.add_apply, Pi.smul_apply, smul_eq_mul, Matrix.cons_val_zero, Matrix.cons_val_one,
      Matrix.cons_val]
    ring
  rw [e]
  rcases hθ.eq_or_lt with h0 | hp
  · have hw : w = 0 := by
      by_contra hne
      have := eucNorm_pos hne
      linarith
    subst hw
    rw [zero_dotProduct, ← b3]
    linarith [sq_nonneg B]
  · have k : 0 ≤ C ^ 2 * eucNorm w ^ 2 + 2 * A * C - B ^ 2 := by
      have t : eucNorm w ^ 2 * (C ^ 2 * eucNorm w ^ 2 + 2 * A * C - B ^ 2) = 1 - 2 * B := by
        rw [← b3, hAC]; ring
      have t2 : 0 < eucNorm w ^ 2 := by positivity
      by_contra hc
      have := mul_neg_of_pos_of_neg t2 (not_le.mp hc)
      linarith
    have k2 := mul_nonneg k (sq_nonneg (w ⬝ᵥ v))
    rw [← b3]
    linarith

/-- The exponential of a motion by up to half a turn does not shorten the translation part too much. -/
theorem xexp_lower {w : V3} (h3 : eucNorm w ≤ 3.2) (v : V3) : eucNorm v ≤ 1.76 * eucNorm (SE3.xexp (w, v)).2 := by
  obtain ⟨A, B, C, hE⟩ := exact_some (eucNorm w)
  have hθ := eucNorm_nonneg w
  obtain ⟨b1, b2, b3⟩ := second_coeff hθ h3 hE
  have key := xexp_key h3 hE v
  have n0 := sqNorm_nonneg v
  refine (sq_le_sq₀ (eucNorm_nonneg _) (by have := eucNorm_nonneg (SE3.xexp (w, v)).2; linarith)).mp ?_
  rw [mul_pow, eucNorm_sq, eucNorm_sq]
  nlinarith

/-! ## Sharper errors of the translations -/

/-- The computed translation of an exponential against the exact one. -/
theorem exp_fine {w v : Fin 3 → ℚ} {g : Stored} (h : ExpSE3 w v g) (h3 : eucNorm (realVec w) ≤ 3.2) :
    eucNorm (realVec g.trans - (SE3.xexp (realVec w, realVec v)).2) ≤ 2450 * U * eucNorm (realVec v) + 400 * H := by
  obtain ⟨-, q, a, b, c, d, x, hq, hc, hx, hd, ht⟩ := h
  have hU := U_pos; have hU1 := U_tiny.1; have hH0 := H_pos
  have hθ := eucNorm_nonneg (realVec w)
  have hn := eucNorm_nonneg (realVec v)
  have h500 : eucNorm (realVec w) ≤ 2 ^ (500 : ℤ) :=
    h3.trans (le_trans (by norm_num : (3.2 : ℝ) ≤ 2 ^ (3 : ℤ)) (zpow_le_zpow_right₀ (by norm_num) (by norm_num)))
  obtain ⟨A, B, C, hE⟩ := exact_some (eucNorm (realVec w))
  have hN := near_coeffs h500 hq hc hE
  obtain ⟨hA, hB, hB', hC, hC', -⟩ := exact_bounds hθ hE
  have mb : |(b : ℝ)| ≤ 0.6 := by have := abs_le_of_near (b : ℝ) B; linarith [hN.hb']
  have mb' : eucNorm (realVec w) * |(b : ℝ)| ≤ 1.001 := by
    have := mul_le_mul_of_nonneg_left (abs_le_of_near (b : ℝ) B) hθ
    linarith [hN.hb]
  rw [xexp_exact hE]
  have e : realVec g.trans - (A • realVec v + B • (realVec w ⨯₃ realVec v) + (C * (realVec w ⬝ᵥ realVec v)) • realVec w) =
      (realVec g.trans - (A • realVec v + (b : ℝ) • (realVec w ⨯₃ realVec v) + (C * (realVec w ⬝ᵥ realVec v)) • realVec w)) +
      ((b : ℝ) - B) • (realVec w ⨯₃ realVec v) := by module
  rw [e]
  refine (eucNorm_add_le _ _).trans ?_
  have p1 : eucNorm (realVec g.trans - (A • realVec v + (b : ℝ) • (realVec w ⨯₃ realVec v) + (C * (realVec w ⬝ᵥ realVec v)) • realVec w)) ≤
      2 * (80 * U * eucNorm (realVec v) + 40 * (1 + eucNorm (realVec w)) * H) := by
    refine eucNorm_le_of_entries fun i => ?_
    have := trans_entry_of (β := 0) (B := b) hθ hn (by linarith) hN.ha (by rw [sub_self, abs_zero, mul_zero]) (by rw [sub_self, abs_zero]; norm_num)
      hN.hc hN.hc' hA mb mb' hC hC' (cross_err hx i) (eval3_vec hd)
      ((abs_entry_le _ i).trans (eucNorm_cross_le _ _)) (abs_dot_le _ _) (abs_entry_le (realVec v) i) (abs_entry_le (realVec w) i) (ht i)
    rw [zero_mul, zero_add] at this
    simpa [realVec] using this
  have p2 : eucNorm (((b : ℝ) - B) • (realVec w ⨯₃ realVec v)) ≤ 2290 * U * eucNorm (realVec v) := by
    rw [eucNorm_smul]
    have c1 := mul_le_mul_of_nonneg_left (eucNorm_cross_le (realVec w) (realVec v)) (abs_nonneg ((b : ℝ) - B))
    have c2 := mul_le_mul_of_nonneg_right hN.hb hn
    have e2 : |(b : ℝ) - B| * (eucNorm (realVec w) * eucNorm (realVec v)) = eucNorm (realVec w) * |(b : ℝ) - B| * eucNorm (realVec v) := by ring
    linarith
  have p3 := mul_le_mul_of_nonneg_right h3 hH0.le
  linarith

/-- The computed translation part of a logarithm against the exact one. -/
theorem log_fine {g : Stored} {w v : Fin 3 → ℚ} (h : LogSE3 g w v) (h3 : eucNorm (realVec w) ≤ 3.2) :
    ∃ u : V3, (SE3.xexp (realVec w, u)).2 = realVec g.trans ∧ eucNorm (realVec v - u) ≤ 2282 * U * eucNorm (realVec g.trans) + 500 * H := by
  obtain ⟨-, q, a, b, c, k, x, y, hq, hc, ho, hx, hy, hv⟩ := h
  have hU := U_pos; have hU1 := U_tiny.1; have hH0 := H_pos
  have hθ := eucNorm_nonneg (realVec w)
  have hT := eucNorm_nonneg (realVec g.trans)
  obtain ⟨A, B, C, hE⟩ := exact_some (eucNorm (realVec w))
  obtain ⟨K, hK⟩ := second_some hθ h3 hE
  obtain ⟨o1, o2⟩ := order2_err h3 hq hc ho hE hK
  obtain ⟨k1, k2⟩ := second_bounds hθ h3 hE hK
  refine ⟨_, xexp_second hE hK _, ?_⟩
  have c1 := eucNorm_cross_le (realVec w) (realVec g.trans)
  have c2 := eucNorm_cross_le (realVec w) (realVec w ⨯₃ realVec g.trans)
  have c3 := c2.trans (mul_le_mul_of_nonneg_left c1 hθ)
  have e : realVec v - (realVec g.trans - (1 / 2 : ℝ) • (realVec w ⨯₃ realVec g.trans) + K • (realVec w ⨯₃ (realVec w ⨯₃ realVec g.trans))) =
      (realVec v - (realVec g.trans - (1 / 2 : ℝ) • (realVec w ⨯₃ realVec g.trans) + (k : ℝ) • (realVec w ⨯₃ (realVec w ⨯₃ realVec g.trans)))) +
      ((k : ℝ) - K) • (realVec w ⨯₃ (realVec w ⨯₃ realVec g.trans)) := by module
  rw [e]
  refine (eucNorm_add_le _ _).trans ?_
  have kθ : eucNorm (realVec w) ^ 2 * |(k : ℝ)| ≤ 3.01 := by
    have := mul_le_mul_of_nonneg_left (abs_le_of_near (k : ℝ) K) (sq_nonneg (eucNorm (realVec w)))
    linarith
  have kk : |(k : ℝ)| ≤ 5 := by have := abs_le_of_near (k : ℝ) K; linarith
  have p1 : eucNorm (realVec v - (realVec g.trans - (1 / 2 : ℝ) • (realVec w ⨯₃ realVec g.trans) + (k : ℝ) • (realVec w ⨯₃ (realVec w ⨯₃ realVec g.trans)))) ≤
      2 * (41 * U * eucNorm (realVec g.trans) + 250 * H) := by
    refine eucNorm_le_of_entries fun i => ?_
    have := log_entry_of (κ := 0) (K := k) (by linarith) hθ h3 hT (abs_entry_le (realVec g.trans) i) (cross_err hx i) ((abs_entry_le _ i).trans c1) (crossed_twice h3 hx hy i)
      ((abs_entry_le _ i).trans c3) (by rw [sub_self, abs_zero, mul_zero]) (by rw [sub_self, abs_zero]; norm_num) kθ kk (hv i)
    rw [zero_mul, zero_add] at this
    exact this
  have p2 : eucNorm (((k : ℝ) - K) • (realVec w ⨯₃ (realVec w ⨯₃ realVec g.trans))) ≤ 2200 * U * eucNorm (realVec g.trans) := by
    rw [eucNorm_smul]
    have q1 := mul_le_mul_of_nonneg_left c3 (abs_nonneg ((k : ℝ) - K))
    have q2 := mul_le_mul_of_nonneg_right o1 hT
    have e2 : |(k : ℝ) - K| * (eucNorm (realVec w) * (eucNorm (realVec w) * eucNorm (realVec g.trans))) =
      eucNorm (realVec w) ^ 2 * |(k : ℝ) - K| * eucNorm (realVec g.trans) := by ring
    linarith
  linarith

/-- The translation after a logarithm and an exponential. -/
theorem relay_trans {g g' : Stored} {w v : Fin 3 → ℚ} (h3 : eucNorm (realVec w) ≤ 3.2) (h : LogSE3 g w v) (he : ExpSE3 w v g') :
    eucNorm (realVec g'.trans - realVec g.trans) ≤ 6600 * U * eucNorm (realVec g.trans) + 1000 * H := by
  have hU := U_pos; have hU1 := U_tiny.1; have hH0 := H_pos
  have hT := eucNorm_nonneg (realVec g.trans)
  obtain ⟨u, hu, h1⟩ := log_fine h h3
  have h2 := exp_fine he h3
  have n1 := xexp_lower h3 u
  rw [hu] at n1
  have n2 := eucNorm_le_add (realVec v) u
  have x : eucNorm ((SE3.xexp (realVec w, realVec v)).2 - realVec g.trans) ≤ 2282 * U * eucNorm (realVec g.trans) + 500 * H := by
    rw [← hu, xexp_sub]
    refine (SE3.xexp_norm _).trans ?_
    rw [hu]; exact h1
  have e : realVec g'.trans - realVec g.trans = (realVec g'.trans - (SE3.xexp (realVec w, realVec v)).2) + ((SE3.xexp (realVec w, realVec v)).2 - realVec g.trans) := by abel
  rw [e]
  refine (eucNorm_add_le _ _).trans ?_
  have u0 : 0 ≤ U * eucNorm (realVec g.trans) := by positivity
  have m := mul_le_mul_of_nonneg_left (n2.trans (add_le_add h1 n1)) hU.le
  have u1 : U * (U * eucNorm (realVec g.trans)) ≤ 1.2e-16 * (U * eucNorm (realVec g.trans)) := mul_le_mul_of_nonneg_right hU1 u0
  have u2 : U * H ≤ 1.2e-16 * H := mul_le_mul_of_nonneg_right hU1 hH0.le
  linarith

/-- The rotation of an exponential. -/
theorem expSO3_fine {w : Fin 3 → ℚ} {m : Matrix (Fin 3) (Fin 3) ℚ} (h : ExpSO3 w m) :
    TurnsAlike ((100 + 18 * eucNorm (realVec w)) * U) (realRot m) (SO3.exp (realVec w)) := by
  have hU := U_pos
  have h0 := eucNorm_nonneg (realVec w)
  refine turnsAlike_mono (turnsAlike_of_entries (e := (33 + 6 * eucNorm (realVec w)) * U) fun i j => ?_) (by nlinarith)
  rcases le_total ((2 : ℝ) ^ (-500 : ℤ)) (eucNorm (realVec w)) with hθ | hθ
  · exact expSO3_large h hθ i j
  · exact (expSO3_tiny h hθ i j).trans (by nlinarith)

/-- The rotation after a logarithm and an exponential. -/
theorem relay_rot {m m' : Matrix (Fin 3) (Fin 3) ℚ} {R : M3} {δ : ℝ} (hR : IsRotation R) (hm : TurnsAlike δ (realRot m) R) (hδ : δ ≤ 1 / 1000)
    {w : Fin 3 → ℚ} (h : LogSO3 m w) (he : ExpSO3 w m') :
    eucNorm (realVec w) ≤ 3.2 ∧ TurnsAlike (22 * δ + 400 * U) (realRot m') R ∧ TurnsAlike (158 * U) (realRot m') (SO3.exp (realVec w)) := by
  have hU := U_pos
  obtain ⟨b1, b2⟩ := logSO3_near hR hm hδ h
  have h3 := b2.trans pi_small
  have x := expSO3_fine he
  have hwU := mul_le_mul_of_nonneg_right h3 hU.le
  have y : TurnsAlike (158 * U) (realRot m') (SO3.exp (realVec w)) := turnsAlike_mono x (by linarith)
  exact ⟨h3, turnsAlike_mono (turnsAlike_trans y b1) (by linarith), y⟩

/-! ## Answers -/

theorem sum_sq_vec (t : Fin 3 → ℚ) : ∑ i, (t i : ℝ) ^ 2 = eucNorm (realVec t) ^ 2 := by
  rw [eucNorm_sq, sqNorm_eq, Fin.sum_univ_three]; rfl

theorem sum_sq_diff (a b : Fin 3 → ℚ) : ∑ i, ((a i : ℝ) - b i) ^ 2 = eucNorm (realVec a - realVec b) ^ 2 := by
  rw [eucNorm_sq, sqNorm_eq, Fin.sum_univ_three]; rfl

theorem column_sq (m : M3) : ∑ p : Fin 3 × Fin 3, (m p.1 p.2) ^ 2 = ∑ j, eucNorm (m *ᵥ Pi.single j 1) ^ 2 := by
  rw [Fintype.sum_prod_type, Finset.sum_comm]
  refine Finset.sum_congr rfl fun j _ => ?_
  rw [eucNorm_sq, sqNorm_eq, Fin.sum_univ_three]
  simp

theorem unit_single (j : Fin 3) : eucNorm (Pi.single j 1 : V3) = 1 := by
  rw [eucNorm, sqNorm_eq]; fin_cases j <;> simp

/-- Two stored rotations that turn like the same one are reported as approximately equal. -/
theorem rotations_agree {a b : Matrix (Fin 3) (Fin 3) ℚ} {R : M3} {e f : ℝ} (hR : IsRotation R) (ha : TurnsAlike e (realRot a) R) (hb : TurnsAlike f (realRot b) R)
    (hef : e + f ≤ 9.99e-13) {r : Bool} (h : RotationApprox a b r) : r = true := by
  have hU := U_pos; have hU1 := U_tiny.1; have hH := H_pos; have hH2 := tiny_numbers.2
  have he0 := turnsAlike_nonneg ha
  have hf0 := turnsAlike_nonneg hb
  have s := (approx_sq (by simp) h).2
  by_contra hr
  rw [Bool.not_eq_true] at hr
  have s := s hr
  have col : ∀ j, eucNorm (R *ᵥ Pi.single j 1) = 1 := fun j => by rw [eucNorm, sqNorm_mulVec hR, ← eucNorm, unit_single]
  have low : ∀ (c : Matrix (Fin 3) (Fin 3) ℚ) (ε : ℝ), TurnsAlike ε (realRot c) R → ε ≤ 1e-12 → 2.99999 ≤ ∑ p : Fin 3 × Fin 3, (entries c p : ℝ) ^ 2 := by
    intro c ε hc hε
    change _ ≤ ∑ p : Fin 3 × Fin 3, (realRot c p.1 p.2) ^ 2
    rw [column_sq, Fin.sum_univ_three]
    have k : ∀ j, 0.999999 ≤ eucNorm (realRot c *ᵥ Pi.single j 1) ^ 2 := fun j => by
      have h1 := hc (Pi.single j 1)
      rw [unit_single, mul_one] at h1
      have h2 := eucNorm_le_add (R *ᵥ Pi.single j 1) (realRot c *ᵥ Pi.single j 1)
      rw [col, ← eucNorm_neg, neg_sub] at h2
      have h3 : 1 - 1e-12 ≤ eucNorm (realRot c *ᵥ Pi.single j 1) := by linarith
      have := mul_le_mul h3 h3 (by norm_num) (by linarith)
      rw [sq]
      linarith
    linarith [k 0, k 1, k 2]
  have up : ∑ p : Fin 3 × Fin 3, ((entries a p : ℝ) - entries b p) ^ 2 ≤ 3 * (e + f) ^ 2 := by
    have eq : ∀ p : Fin 3 × Fin 3, ((entries a p : ℝ) - entries b p) ^ 2 = ((realRot a - realRot b) p.1 p.2) ^ 2 := fun p => rfl
    simp only [eq]
    rw [column_sq, Fin.sum_univ_three]
    have hb' : TurnsAlike f R (realRot b) := fun v => by rw [← eucNorm_neg, neg_sub]; exact hb v
    have k : ∀ j, eucNorm ((realRot a - realRot b) *ᵥ Pi.single j 1) ^ 2 ≤ (e + f) ^ 2 := fun j => by
      have h1 := turnsAlike_trans ha hb' (Pi.single j 1)
      rw [unit_single, mul_one, ← sub_mulVec] at h1
      exact pow_le_pow_left₀ (eucNorm_nonneg _) h1 2
    linarith [k 0, k 1, k 2]
  have la := low a e ha (by linarith)
  have lb := low b f hb (by linarith)
  have lm := le_min la lb
  have q : (e + f) ^ 2 ≤ 9.99e-13 ^ 2 := pow_le_pow_left₀ (by linarith) hef 2
  generalize min (∑ p : Fin 3 × Fin 3, (entries a p : ℝ) ^ 2) (∑ p : Fin 3 × Fin 3, (entries b p : ℝ) ^ 2) = μ at *
  have k1 : (1 - 1e-10) * (1e-24 * 2.99999) ≤ (1 - 30 * U) * (1e-24 * μ) := by
    refine mul_le_mul (by linarith) (by linarith) (by norm_num) (by linarith)
  norm_num at q
  linarith

theorem H_below : H ≤ 1e-29 * 1e-147 ^ 2 := by
  have h1 : (10 : ℝ) ^ 323 ≤ 2 ^ 1075 := by exact_mod_cast (by decide +kernel : (10 : ℕ) ^ 323 ≤ 2 ^ 1075)
  have e1 : (1e-29 : ℝ) = (10 ^ 29)⁻¹ := by norm_num
  have e2 : (1e-147 : ℝ) = (10 ^ 147)⁻¹ := by norm_num
  have e3 : (2 : ℝ) ^ (-1075 : ℤ) = (2 ^ 1075)⁻¹ := by rw [_root_.zpow_neg]; rfl
  unfold TransformDouble.H
  rw [e3, e1, e2, inv_pow, ← pow_mul, ← mul_inv, ← pow_add]
  exact inv_anti₀ (by positivity) h1

/-- Two translations that are close relative to their lengths are reported as approximately equal. -/
theorem translations_agree {a b : Fin 3 → ℚ} (ha : 1e-147 ≤ eucNorm (realVec a)) (hb : eucNorm (realVec b - realVec a) ≤ 9.9e-13 * eucNorm (realVec a))
    {r : Bool} (h : ApproxOf a b r) : r = true := by
  have hU := U_pos; have hU1 := U_tiny.1; have hH := H_pos
  have s := (approx_sq (by simp) h).2
  by_contra hr
  rw [Bool.not_eq_true] at hr
  have s := s hr
  rw [sum_sq_vec, sum_sq_vec, sum_sq_diff, show eucNorm (realVec a - realVec b) = eucNorm (realVec b - realVec a) by rw [← eucNorm_neg, neg_sub]] at s
  have n := eucNorm_le_add (realVec a) (realVec b)
  rw [show eucNorm (realVec a - realVec b) = eucNorm (realVec b - realVec a) by rw [← eucNorm_neg, neg_sub]] at n
  have hd := eucNorm_nonneg (realVec b - realVec a)
  generalize eucNorm (realVec b - realVec a) = d at *
  generalize eucNorm (realVec a) = x at *
  generalize eucNorm (realVec b) = y at *
  have hx : 0 < x := by linarith
  have hy : (1 - 1e-12) * x ≤ y := by linarith
  have m : ((1 - 1e-12) * x) ^ 2 ≤ min (x ^ 2) (y ^ 2) :=
    le_min (pow_le_pow_left₀ (by linarith) (by linarith) 2) (pow_le_pow_left₀ (by linarith) hy 2)
  have d2 : d ^ 2 ≤ (9.9e-13 * x) ^ 2 := pow_le_pow_left₀ hd hb 2
  have hH3 := H_below
  have x2 : (1e-147 : ℝ) ^ 2 ≤ x ^ 2 := pow_le_pow_left₀ (by norm_num) ha 2
  have k1 : (1 - 1e-10) * (1e-24 * ((1 - 1e-12) * x) ^ 2) ≤ (1 - 30 * U) * (1e-24 * min (x ^ 2) (y ^ 2)) := by
    refine mul_le_mul (by linarith) (mul_le_mul_of_nonneg_left m (by norm_num)) (by positivity) (by linarith)
  have e1 : ((1 - 1e-12) * x) ^ 2 = (1 - 1e-12) ^ 2 * x ^ 2 := by ring
  have e2 : (9.9e-13 * x) ^ 2 = 9.9e-13 ^ 2 * x ^ 2 := by ring
  rw [e1] at k1
  rw [e2] at d2
  have x3 : (0 : ℝ) < x ^ 2 := by positivity
  have k3 := mul_le_mul_of_nonneg_left x2 (by norm_num : (0 : ℝ) ≤ 1e-29)
  generalize (1e-147 : ℝ) ^ 2 = z at *
  generalize x ^ 2 = X at *
  norm_num at k1 d2
  linarith

section
variable {ι : Type} [DecidableEq ι]

theorem evaluates_zero {x y : ι → ℚ} {s : Finset ι} {r : ℚ} (h : Evaluates x y s r) (h0 : ∀ i, x i * y i = 0) : r = 0 := by
  induction h with
  | product i => rw [h0, round64_zero]
  | add _ _ _ a b => rw [a, b, add_zero, round64_zero]
  | fused i _ _ a => rw [a, h0, add_zero, round64_zero]

theorem round64_under {q : ℚ} (h0 : 0 ≤ q) (h : q ≤ 2 ^ (-1076 : ℤ)) : round64 q = 0 := by
  have h1 := round64_mono h
  have h2 : round64 (2 ^ (-1076 : ℤ)) = 0 := by decide +kernel
  rw [h2] at h1
  exact le_antisymm h1 (round64_nonneg h0)

theorem evaluates_under {x : ι → ℚ} {s : Finset ι} {r : ℚ} (h : Evaluates x x s r) (h0 : ∀ i, x i * x i ≤ 2 ^ (-1076 : ℤ)) : r = 0 := by
  induction h with
  | product i => exact round64_under (mul_self_nonneg _) (h0 i)
  | add _ _ _ a b => rw [a, b, add_zero, round64_zero]
  | fused i _ _ a => rw [a, add_zero]; exact round64_under (mul_self_nonneg _) (h0 i)

variable [Fintype ι]

/-- Where the computed distance is zero the answer is positive. -/
theorem agree_of_zero {a b : ι → ℚ} {r : Bool} (h : ApproxOf a b r)
    (h0 : ∀ d, Evaluates (fun i => round64 (a i - b i)) (fun i => round64 (a i - b i)) Finset.univ d → d = 0) : r = true := by
  obtain ⟨d, sa, sb, hd, ha, hb, rfl⟩ := h
  rw [h0 d hd]
  have p : 0 ≤ min sa sb := le_min (StatsDouble.evaluates_self_nonneg ha) (StatsDouble.evaluates_self_nonneg hb)
  exact decide_eq_true (round64_nonneg (mul_nonneg (round64_nonneg (mul_self_nonneg _)) p))

theorem agree_self {a : ι → ℚ} {r : Bool} (h : ApproxOf a a r) : r = true :=
  agree_of_zero h fun _ hd => evaluates_zero hd fun i => by rw [sub_self, round64_zero, mul_zero]

theorem agree_tiny {a b : ι → ℚ} {r : Bool} (ha : ∀ i, |a i| ≤ 2 ^ (-540 : ℤ)) (hb : ∀ i, |b i| ≤ 2 ^ (-540 : ℤ)) (h : ApproxOf a b r) : r = true := by
  refine agree_of_zero h fun _ hd => evaluates_under hd fun i => ?_
  have e := round64_error (a i - b i)
  have z0 : (0 : ℚ) < 2 ^ (-540 : ℤ) := by positivity
  have z1 : (2 : ℚ) ^ (-1075 : ℤ) ≤ 2 ^ (-540 : ℤ) := zpow_le_zpow_right₀ (by norm_num) (by norm_num)
  have z2 : (2 : ℚ) ^ (-1076 : ℤ) = (4 * 2 ^ (-540 : ℤ)) ^ 2 := by
    rw [show (4 : ℚ) = 2 ^ (2 : ℤ) by norm_num, ← zpow_add₀ two_ne_zero, ← zpow_natCast, ← _root_.zpow_mul]; norm_num
  have d : |a i - b i| ≤ 2 * 2 ^ (-540 : ℤ) := by
    have := abs_sub (a i) (b i)
    linarith [ha i, hb i]
  have u1 : (2 : ℚ) ^ (-53 : ℤ) ≤ 1 / 1000 := by norm_num
  rw [z2, ← sq, ← sq_abs]
  refine pow_le_pow_left₀ (abs_nonneg _) ?_ 2
  generalize (2 : ℚ) ^ (-540 : ℤ) = z at *
  have t := abs_add_le (round64 (a i - b i) - (a i - b i)) (a i - b i)
  rw [sub_add_cancel] at t
  have m := mul_le_mul d u1 (by positivity) (by linarith)
  generalize (2 : ℚ) ^ (-1075 : ℤ) = y at *
  generalize |a i - b i| * (2 : ℚ) ^ (-53 : ℤ) = p at *
  linarith only [e, z1, d, t, m, z0]

theorem approx_some [Nonempty ι] (a b : ι → ℚ) : ∃ r, ApproxOf a b r := by
  obtain ⟨d, hd⟩ := Evaluates.some (fun i => round64 (a i - b i)) (fun i => round64 (a i - b i)) (Finset.univ_nonempty (α := ι))
  obtain ⟨sa, ha⟩ := Evaluates.some a a (Finset.univ_nonempty (α := ι))
  obtain ⟨sb, hb⟩ := Evaluates.some b b (Finset.univ_nonempty (α := ι))
  exact ⟨_, d, sa, sb, hd, ha, hb, rfl⟩
end

/-- A transform without translation has none after a message. -/
theorem relay_zero {g g' : Stored} (h : Relay g g') (h0 : g.trans = 0) : g'.trans = 0 := by
  obtain ⟨w, v, ⟨-, q, a, b, c, k, x, y, -, -, -, hx, hy, hv⟩, -, q', a', b', c', d, z, -, -, hz, hd, ht⟩ := h
  rw [h0] at hx hv
  have cr : ∀ {s t : Fin 3 → ℚ}, Cross w s t → s = 0 → t = 0 := by
    rintro s t ⟨c0, c1, c2⟩ rfl
    ext i
    fin_cases i
    · exact evaluates_zero c0 fun i => by fin_cases i <;> simp
    · exact evaluates_zero c1 fun i => by fin_cases i <;> simp
    · exact evaluates_zero c2 fun i => by fin_cases i <;> simp
  have hx0 := cr hx rfl
  have hy0 := cr hy hx0
  have hv0 : v = 0 := by
    ext i
    refine evaluates_zero (hv i) fun j => ?_
    rw [hx0, hy0]
    fin_cases j <;> simp
  have hz0 := cr hz hv0
  have hd0 : d = 0 := evaluates_zero hd fun i => by rw [hv0]; simp
  ext i
  refine evaluates_zero (ht i) fun j => ?_
  rw [hz0, hd0, hv0, mul_zero, round64_zero]
  fin_cases j <;> simp

/-- A rotation and what is read from a message it was written to. -/
theorem relay_agrees_rot {m m' : Matrix (Fin 3) (Fin 3) ℚ} {R : M3} {δ : ℝ} (hR : IsRotation R) (hm : TurnsAlike δ (realRot m) R) (hδ : δ ≤ 4e-14)
    (h : RelayRotation m m') {r : Bool} (hr : RotationApprox m m' r) : r = true := by
  obtain ⟨w, h1, h2⟩ := h
  have hU1 := U_tiny.1
  obtain ⟨-, k, -⟩ := relay_rot hR hm (hδ.trans (by norm_num)) h1 h2
  exact rotations_agree hR hm k (by linarith) hr

/-- A transform and what is read from a message it was written to. -/
theorem relay_agrees {g g' : Stored} {R : M3} {δ : ℝ} (hR : IsRotation R) (hm : TurnsAlike δ (realRot g.rot) R) (hδ : δ ≤ 4e-14)
    (ht : g.trans = 0 ∨ 1e-147 ≤ eucNorm (realVec g.trans)) (h : Relay g g') {r : Bool} (hr : TransformApprox g g' r) : r = true := by
  have hU1 := U_tiny.1
  obtain ⟨x, hx, hr⟩ := hr
  have hrel : RelayRotation g.rot g'.rot := by obtain ⟨w, v, h1, h2⟩ := h; exact ⟨w, h1.1, h2.1⟩
  rw [relay_agrees_rot hR hm hδ hrel hx, if_pos rfl] at hr
  rcases ht with h0 | ht
  · rw [relay_zero h h0, h0] at hr
    exact agree_self hr
  · obtain ⟨w, v, h1, h2⟩ := h
    obtain ⟨h3, -, -⟩ := relay_rot hR hm (hδ.trans (by norm_num)) h1.1 h2.1
    refine translations_agree ht ((relay_trans h3 h1 h2).trans ?_) hr
    have hH := H_below
    have n := eucNorm_nonneg (realVec g.trans)
    have k := mul_le_mul_of_nonneg_right hU1 n
    have k2 : H ≤ 1e-29 * (1e-147 * eucNorm (realVec g.trans)) := by
      refine hH.trans (mul_le_mul_of_nonneg_left ?_ (by norm_num))
      rw [sq]
      exact mul_le_mul_of_nonneg_left ht (by norm_num)
    have k3 : (1e-147 : ℝ) * eucNorm (realVec g.trans) ≤ 1 * eucNorm (realVec g.trans) := mul_le_mul_of_nonneg_right (by norm_num) n
    generalize (1e-147 : ℝ) * eucNorm (realVec g.trans) = z at *
    linarith

/-- After a message the rotation is close to an exact one. -/
theorem relayed_rotation {m m' : Matrix (Fin 3) (Fin 3) ℚ} {R : M3} {δ : ℝ} (hR : IsRotation R) (hm : TurnsAlike δ (realRot m) R) (hδ : δ ≤ 1 / 1000) {n : ℕ}
    (h : Times RelayRotation (n + 1) m m') : ∃ R', IsRotation R' ∧ TurnsAlike 4e-14 (realRot m') R' := by
  have hU1 := U_tiny.1
  obtain ⟨c, hc, w, h1, h2⟩ := h
  obtain ⟨S, hS, hs⟩ : ∃ S, IsRotation S ∧ TurnsAlike (1 / 1000) (realRot c) S := by
    cases n with
    | zero => cases hc; exact ⟨R, hR, turnsAlike_mono hm hδ⟩
    | succ k =>
      obtain ⟨S, s1, s2, -⟩ := relays_rotation hR hm hδ k _ hc
      exact ⟨S, s1, turnsAlike_mono s2 (by linarith)⟩
  obtain ⟨-, -, k⟩ := relay_rot hS hs le_rfl h1 h2
  exact ⟨_, isRotation_exp _, turnsAlike_mono k (by linarith)⟩

/-! ## Lengths -/

theorem H_square : 31 * H ≤ 1e-160 ^ 2 := by
  have h1 : (31 : ℝ) * 10 ^ 320 ≤ 2 ^ 1075 := by exact_mod_cast (by decide +kernel : 31 * (10 : ℕ) ^ 320 ≤ 2 ^ 1075)
  have e2 : (1e-160 : ℝ) ^ 2 = (10 ^ 320)⁻¹ := by
    rw [show (1e-160 : ℝ) = (10 ^ 160)⁻¹ by norm_num, inv_pow, ← pow_mul]
  have e3 : (2 : ℝ) ^ (-1075 : ℤ) = (2 ^ 1075)⁻¹ := by rw [_root_.zpow_neg]; rfl
  unfold H
  rw [e2, e3, ← div_eq_mul_inv, div_le_iff₀ (by positivity), inv_mul_eq_div, le_div_iff₀ (by positivity)]
  exact h1

section
variable {ι : Type} [Fintype ι]

theorem apart_sq (a b : ι → ℚ) : apart a b ^ 2 = ∑ i, ((a i : ℝ) - b i) ^ 2 := Real.sq_sqrt (Finset.sum_nonneg fun _ _ => sq_nonneg _)

theorem size_sq (a : ι → ℚ) : size a ^ 2 = ∑ i, (a i : ℝ) ^ 2 := Real.sq_sqrt (Finset.sum_nonneg fun _ _ => sq_nonneg _)

theorem min_size (a b : ι → ℚ) : ∃ m : ℝ, 0 ≤ m ∧ m ^ 2 = min (∑ i, (a i : ℝ) ^ 2) (∑ i, (b i : ℝ) ^ 2) ∧ min (size a) (size b) = m := by
  refine ⟨min (size a) (size b), le_min (Real.sqrt_nonneg _) (Real.sqrt_nonneg _), ?_, rfl⟩
  have a0 : 0 ≤ size a := Real.sqrt_nonneg _
  have b0 : 0 ≤ size b := Real.sqrt_nonneg _
  rw [← size_sq, ← size_sq]
  rcases le_total (size a) (size b) with h | h
  · rw [min_eq_left h, min_eq_left (pow_le_pow_left₀ a0 h 2)]
  · rw [min_eq_right h, min_eq_right (pow_le_pow_left₀ b0 h 2)]
end

theorem size_vec (a : Fin 3 → ℚ) : size a = eucNorm (realVec a) := by
  rw [size, sum_sq_vec, Real.sqrt_sq (eucNorm_nonneg _)]

theorem apart_vec (a b : Fin 3 → ℚ) : apart a b = eucNorm (realVec a - realVec b) := by
  rw [apart, sum_sq_diff, Real.sqrt_sq (eucNorm_nonneg _)]

theorem rotation_apart (a b : Matrix (Fin 3) (Fin 3) ℚ) (x : V3) : eucNorm (realRot a *ᵥ x - realRot b *ᵥ x) ≤ apart (entries a) (entries b) * eucNorm x := by
  have d0 : 0 ≤ apart (entries a) (entries b) := Real.sqrt_nonneg _
  refine le_of_sq_le_sq ?_ (mul_nonneg d0 (eucNorm_nonneg _))
  rw [mul_pow, apart_sq, eucNorm_sq, eucNorm_sq, ← sub_mulVec]
  have eq : ∀ p : Fin 3 × Fin 3, ((entries a p : ℝ) - entries b p) ^ 2 = ((realRot a - realRot b) p.1 p.2) ^ 2 := fun p => rfl
  simp only [eq]
  generalize realRot a - realRot b = m
  have cs : ∀ i, (m *ᵥ x) i ^ 2 ≤ (∑ j, m i j ^ 2) * ∑ j, x j ^ 2 := fun i => Finset.sum_mul_sq_le_sq_mul_sq Finset.univ (m i) x
  have e : ∀ y : V3, sqNorm y = ∑ i, y i ^ 2 := fun y => by rw [sqNorm_eq, Fin.sum_univ_three]
  rw [e, e, Fintype.sum_prod_type, Finset.sum_mul]
  exact Finset.sum_le_sum fun i _ => cs i

theorem rotation_size {a : Matrix (Fin 3) (Fin 3) ℚ} {R : M3} {e : ℝ} (hR : IsRotation R) (ha : TurnsAlike e (realRot a) R) (he : e ≤ 1 / 1000) :
    size (entries a) ≤ 1.735 := by
  have col : ∀ j, eucNorm (R *ᵥ Pi.single j 1) = 1 := fun j => by rw [eucNorm, sqNorm_mulVec hR, ← eucNorm, unit_single]
  refine Real.sqrt_le_iff.mpr ⟨by norm_num, ?_⟩
  change ∑ p : Fin 3 × Fin 3, (realRot a p.1 p.2) ^ 2 ≤ _
  rw [column_sq, Fin.sum_univ_three]
  have k : ∀ j, eucNorm (realRot a *ᵥ Pi.single j 1) ^ 2 ≤ 1.001 ^ 2 := fun j => by
    have h1 := ha (Pi.single j 1)
    rw [unit_single, mul_one] at h1
    have h2 := eucNorm_le_add (realRot a *ᵥ Pi.single j 1) (R *ᵥ Pi.single j 1)
    rw [col] at h2
    exact pow_le_pow_left₀ (eucNorm_nonneg _) (by linarith) 2
  have := k 0; have := k 1; have := k 2
  norm_num at *
  linarith

theorem close_of_apart {a b : TCurveDouble.Tangent} (h : apart (six a) (six b) ≤ 1e-12 * (1 + 2e-15) * min (size (six a)) (size (six b)) + 1e-160) :
    CloseTangents 1.01e-12 1e-160 a b := by
  have n1 := eucNorm_nonneg (realVec a.1)
  have n2 := eucNorm_nonneg (realVec a.2)
  have d0 : 0 ≤ apart (six a) (six b) := Real.sqrt_nonneg _
  have s1 : size (six a) ≤ eucNorm (realVec a.1) + eucNorm (realVec a.2) := by
    refine Real.sqrt_le_iff.mpr ⟨by positivity, ?_⟩
    rw [Fintype.sum_sum_type]
    change ∑ i, (a.1 i : ℝ) ^ 2 + ∑ i, (a.2 i : ℝ) ^ 2 ≤ _
    rw [sum_sq_vec, sum_sq_vec]
    nlinarith [mul_nonneg n1 n2]
  have s2 : apart (six a) (six b) ^ 2 = eucNorm (realVec a.1 - realVec b.1) ^ 2 + eucNorm (realVec a.2 - realVec b.2) ^ 2 := by
    rw [apart_sq, Fintype.sum_sum_type, ← sum_sq_diff, ← sum_sq_diff]; rfl
  have k : apart (six a) (six b) ≤ 1.01e-12 * (eucNorm (realVec a.1) + eucNorm (realVec a.2)) + 1e-160 := by
    refine h.trans (add_le_add_left ?_ _)
    exact mul_le_mul (by norm_num) ((min_le_left _ _).trans s1) (le_min (Real.sqrt_nonneg _) (Real.sqrt_nonneg _)) (by norm_num)
  exact ⟨(le_of_sq_le_sq (by rw [s2]; exact le_add_of_nonneg_right (sq_nonneg _)) d0).trans k,
    (le_of_sq_le_sq (by rw [s2]; exact le_add_of_nonneg_left (sq_nonneg _)) d0).trans k⟩

end Verif.ApproxDouble
