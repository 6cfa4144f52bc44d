import Verif.Proofs.LogDouble
/-! # Rounding errors of the rotation logarithm: angle and axis -/
namespace Verif.LogDouble
open SampleIntervalDouble TransformDouble ExpDouble Verif.Spec Matrix SO3

theorem toH_near {p q : Quat} {c : ℝ} (h0 : |p.w - q.w| ≤ c) (h1 : ∀ i, |p.v i - q.v i| ≤ c) : ‖toH p - toH q‖ ≤ 2 * c := by
  have e : toH p - toH q = toH ⟨p.w - q.w, p.v - q.v⟩ := by ext <;> simp
  have hc := (abs_nonneg _).trans h0
  refine (sq_le_sq₀ (norm_nonneg _) (by linarith)).mp ?_
  rw [e, norm_toH_sq, qsq, sqNorm_eq]
  simp only [Pi.sub_apply]
  have a := fun x (hx : |x| ≤ c) => sq_le_sq' (abs_le.mp hx).1 (abs_le.mp hx).2
  linarith [a _ h0, a _ (h1 0), a _ (h1 1), a _ (h1 2)]

open scoped Quaternion in
theorem normalized_near {x y : ℍ[ℝ]} {ρ d : ℝ} (hy : ‖y‖ = 1) (hρ : ‖x‖ = ρ) (h0 : 0 < ρ) (h : ‖x - y‖ ≤ d) : ‖ρ⁻¹ • x - y‖ ≤ 2 * d := by
  have e : ρ⁻¹ • x - y = (ρ⁻¹ - 1) • x + (x - y) := by rw [sub_smul, one_smul]; abel
  rw [e]
  refine (norm_add_le _ _).trans ?_
  rw [norm_smul, hρ, Real.norm_eq_abs]
  have h1 : |ρ⁻¹ - 1| * ρ = |1 - ρ| := by
    nth_rewrite 2 [← abs_of_pos h0]
    rw [← abs_mul, sub_mul, inv_mul_cancel₀ h0.ne', one_mul]
  have h2 : |1 - ρ| ≤ d := by
    have := (abs_norm_sub_norm_le x y).trans h
    rwa [hρ, hy, abs_sub_comm] at this
  linarith

theorem quatMatrix_sign {Q : Quat} {σ : ℝ} (h : σ = 1 ∨ σ = -1) : quatMatrix ⟨σ * Q.w, σ • Q.v⟩ = quatMatrix Q ∧ qsq ⟨σ * Q.w, σ • Q.v⟩ = qsq Q := by
  rcases h with rfl | rfl
  · simp
  · rw [neg_one_mul, neg_one_smul, quatMatrix_neg]
    refine ⟨rfl, ?_⟩
    rw [qsq, qsq, sqNorm_eq, sqNorm_eq]
    simp

/-- The argument of a point in the first quadrant. -/
theorem arg_first {x y : ℝ} (hx : 0 ≤ x) (hy : 0 < y) :
    0 < Real.sqrt (x ^ 2 + y ^ 2) ∧ 0 ≤ Complex.arg ⟨x, y⟩ ∧ Complex.arg ⟨x, y⟩ ≤ Real.pi / 2 ∧ Real.cos (Complex.arg ⟨x, y⟩) = x / Real.sqrt (x ^ 2 + y ^ 2) ∧
    Real.sin (Complex.arg ⟨x, y⟩) = y / Real.sqrt (x ^ 2 + y ^ 2) := by
  have hn : ‖(⟨x, y⟩ : ℂ)‖ = Real.sqrt (x ^ 2 + y ^ 2) := by
    rw [Complex.norm_def, Complex.normSq_mk, ← pow_two, ← pow_two]
  have hz : (⟨x, y⟩ : ℂ) ≠ 0 := by
    intro e
    have := congrArg Complex.im e
    simp at this
    linarith
  refine ⟨Real.sqrt_pos.mpr (by positivity), Complex.arg_nonneg_iff.mpr hy.le, ?_, ?_, ?_⟩
  · exact (abs_le.mp (Complex.abs_arg_le_pi_div_two_iff.mpr hx)).2
  · rw [Complex.cos_arg hz, hn]
  · rw [Complex.sin_arg, hn]

theorem two_H : (2 : ℝ) ^ (-1074 : ℤ) = 2 * H := by
  unfold TransformDouble.H
  rw [show (-1074 : ℤ) = -1075 + 1 by norm_num, zpow_add₀ (two_ne_zero), zpow_one]
  ring

/-- Errors of angle and axis where the vector part is not tiny. -/
theorem turn_err {q : Quat64} {r : ℚ} {w axis : Fin 3 → ℚ} {a : ℚ} (hr : 0 < r)
    (hn : |(r : ℝ) - eucNorm (realVec q.v)| ≤ 2.52 * U * eucNorm (realVec q.v)) (ha : Atan2Of r |q.w| a)
    (hax : ∀ i, axis i = round64 (q.v i / if q.w < 0 then -r else r)) (hw : ∀ i, w i = round64 (axis i * (2 * a))) {σ : ℝ}
    (hσ : σ = if (q.w : ℝ) < 0 then -1 else 1) :
    eucNorm (realVec w - (2 * Complex.arg ⟨|(q.w : ℝ)|, r⟩) • ((σ / eucNorm (realVec q.v)) • realVec q.v)) ≤ 60 * U := by
  obtain ⟨hU, -⟩ := U_tiny
  have hU0 := U_pos
  have hH := H_tiny
  have hH0 := H_pos
  have hrp : (0 : ℝ) < r := by exact_mod_cast hr
  obtain ⟨N, hN⟩ : ∃ N, N = eucNorm (realVec q.v) := ⟨_, rfl⟩
  rw [← hN] at hn ⊢
  have hN0 : 0 ≤ N := hN ▸ eucNorm_nonneg _
  have hN1 : 0 < N := by
    rcases hN0.eq_or_lt with e | e
    · rw [← e] at hn; simp at hn; linarith
    · exact e
  obtain ⟨-, g0, g1, -, -⟩ := arg_first (abs_nonneg (q.w : ℝ)) hrp
  unfold Atan2Of at ha
  rw [Rat.cast_abs, two_U, two_H] at ha
  generalize Complex.arg ⟨|(q.w : ℝ)|, r⟩ = φ at *
  have hpi := Real.pi_lt_d2
  rw [abs_of_nonneg g0] at ha
  have ha1 : |2 * (a : ℝ) - 2 * φ| ≤ 6.31 * U := by
    rw [← mul_sub, abs_mul, abs_of_pos (by norm_num : (0 : ℝ) < 2)]
    have := mul_le_mul_of_nonneg_left (g1.trans (by linarith : Real.pi / 2 ≤ 1.575)) hU0.le
    linarith
  have hσ2 : |σ| = 1 := by rw [hσ]; split_ifs <;> simp
  refine (eucNorm_le_of_entries (c := 30 * U) fun i => ?_).trans (by linarith)
  simp only [Pi.sub_apply, Pi.smul_apply, smul_eq_mul]
  change |(w i : ℝ) - 2 * φ * (σ / N * (q.v i : ℝ))| ≤ 30 * U
  have hvi : |(q.v i : ℝ)| ≤ N := hN ▸ abs_entry_le (realVec q.v) i
  have hx : |σ / N * (q.v i : ℝ)| ≤ 1 := by
    rw [abs_mul, abs_div, hσ2, abs_of_pos hN1, one_div]
    rw [inv_mul_le_iff₀ hN1]; linarith
  -- the axis
  have hq : ((q.v i / (if q.w < 0 then -r else r) : ℚ) : ℝ) = σ / r * (q.v i : ℝ) := by
    have : (q.w < 0) ↔ (q.w : ℝ) < 0 := by exact_mod_cast Iff.rfl
    rw [hσ]
    by_cases h : q.w < 0
    · rw [if_pos h, if_pos (this.mp h)]; push_cast; field_simp
    · rw [if_neg h, if_neg (fun e => h (this.mpr e))]; push_cast; field_simp
  have hd : |σ / r * (q.v i : ℝ) - σ / N * (q.v i : ℝ)| ≤ 2.53 * U := by
    have e : σ / r * (q.v i : ℝ) - σ / N * (q.v i : ℝ) = (σ / N * (q.v i : ℝ)) * ((N - r) / r) := by field_simp
    have hr2 : (1 - 2.52 * U) * N ≤ r := by linarith [(abs_le.mp hn).1]
    have : |(N - r) / r| ≤ 2.53 * U := by
      rw [abs_div, abs_of_pos hrp, div_le_iff₀ hrp, abs_sub_comm]
      have h1 := mul_le_mul_of_nonneg_left hr2 hU0.le
      have h2 : 0 ≤ U * N := by positivity
      have h3 : U * (U * N) ≤ 1.2e-16 * (U * N) := mul_le_mul_of_nonneg_right hU h2
      nlinarith
    rw [e, abs_mul]
    calc |σ / N * (q.v i : ℝ)| * |(N - r) / r| ≤ 1 * (2.53 * U) := mul_le_mul hx this (abs_nonneg _) zero_le_one
      _ = _ := one_mul _
  have hr1 := rnd (q.v i / if q.w < 0 then -r else r)
  rw [← hax i, hq] at hr1
  have hd' := abs_le.mp hd
  have hx' := abs_le.mp hx
  have hb1 : |σ / r * (q.v i : ℝ)| ≤ 1.001 := by rw [abs_le]; constructor <;> linarith
  have hr2 := abs_le.mp (hr1.trans (by have := mul_le_mul_of_nonneg_left hb1 hU0.le; linarith : _ ≤ 1.01 * U))
  have hax1 : |(axis i : ℝ) - σ / N * (q.v i : ℝ)| ≤ 3.6 * U := by rw [abs_le]; constructor <;> linarith
  have hax2 := abs_le.mp hax1
  have hax3 : |(axis i : ℝ)| ≤ 1.001 := by rw [abs_le]; constructor <;> linarith
  have hp := prod_err hax1 ha1 hax3 (by rw [abs_of_nonneg (by linarith)]; linarith : |2 * φ| ≤ 3.15)
  have hr3 := rnd (axis i * (2 * a))
  rw [← hw i] at hr3
  push_cast at hr3
  have hb2 : |(axis i : ℝ) * (2 * a)| ≤ 3.2 := by
    have ha2 := abs_le.mp ha1
    have : |2 * (a : ℝ)| ≤ 3.16 := by rw [abs_le]; constructor <;> linarith
    rw [abs_mul]
    have := mul_le_mul hax3 this (abs_nonneg _) (by norm_num)
    linarith
  have hr4 := mul_le_mul_of_nonneg_left hb2 hU0.le
  have e : (w i : ℝ) - 2 * φ * (σ / N * (q.v i : ℝ)) = ((w i : ℝ) - axis i * (2 * a)) + (axis i * (2 * a) - (σ / N * (q.v i : ℝ)) * (2 * φ)) := by ring
  rw [e]
  refine (abs_add_le _ _).trans ?_
  linarith

/-- The real part of a unit quaternion whose vector part is small. -/
theorem real_part {x : ℝ} {v : V3} {c : ℝ} (h : qsq ⟨x, v⟩ = 1) (hv : ∀ i, |v i| ≤ c) (hc1 : c ≤ 0.013) (hx0 : -0.0122 ≤ x) : |1 - x| ≤ c := by
  rw [qsq, sqNorm_eq] at h
  simp only at h
  have hc0 : 0 ≤ c := (abs_nonneg _).trans (hv 0)
  have sq := fun i => sq_le_sq' (abs_le.mp (hv i)).1 (abs_le.mp (hv i)).2
  have t0 := sq 0; have t1 := sq 1; have t2 := sq 2
  have p0 := sq_nonneg (v 0); have p1 := sq_nonneg (v 1); have p2 := sq_nonneg (v 2)
  have hx2 : 1 - 3 * c ^ 2 ≤ x ^ 2 := by linarith
  have hc2 : c ^ 2 ≤ 0.013 * c := by nlinarith
  have hx1 : x ^ 2 ≤ 1 := by linarith
  have hx3 : x ≤ 1 := by nlinarith
  have hxp : 0 ≤ x := by
    by_contra hneg
    push Not at hneg
    have : x ^ 2 ≤ 0.0122 ^ 2 := by nlinarith
    nlinarith
  rw [abs_le]; constructor <;> nlinarith

/-- The computed logarithm where the vector part is tiny. -/
theorem tiny_turn {q : Quat64} {N : ℝ} {n angle : ℚ} {w axis : Fin 3 → ℚ} (hN : N = eucNorm (realVec q.v)) (hNs : N ≤ 2.001 * U) (hqw : 0.95 ≤ |(q.w : ℝ)|)
    (hn : StableNorm q.v n)
    (hA : if n ≠ 0 then ∃ a, Atan2Of n |q.w| a ∧ angle = 2 * a ∧ ∀ i, axis i = round64 (q.v i / if q.w < 0 then -n else n) else angle = 0 ∧ axis = ![1, 0, 0])
    (hw : ∀ i, w i = round64 (axis i * angle)) (i : Fin 3) : |(w i : ℝ)| ≤ 30 * U := by
  obtain ⟨hU, hU1⟩ := U_tiny
  have hU0 := U_pos
  have hH := H_tiny
  have hH0 := H_pos
  have hN0 : 0 ≤ N := hN ▸ eucNorm_nonneg _
  have hvN : ∀ i, |(q.v i : ℝ)| ≤ N := fun i => hN ▸ abs_entry_le (realVec q.v) i
  rw [hw i]
  by_cases hn0 : n ≠ 0
  · rw [if_pos hn0] at hA
    obtain ⟨a, ha, hang, hax⟩ := hA
    rcases hn with ⟨-, e⟩ | ⟨n1, n2, n3⟩
    · exact absurd e hn0
    have hsum : ∑ i, (q.v i : ℝ) ^ 2 = N ^ 2 := by
      rw [hN, eucNorm_sq, sqNorm_eq, Fin.sum_univ_three]; rfl
    rw [hsum] at n1 n2
    have n3' : (0 : ℝ) < n := by exact_mod_cast n3
    have hn1 : (n : ℝ) ≤ 2 * N := by nlinarith
    have hn2 : N ≤ 2 * n := by nlinarith
    have hb : |((q.v i / (if q.w < 0 then -n else n) : ℚ) : ℝ)| ≤ 2 := by
      push_cast
      rw [abs_div]
      have : |((if q.w < 0 then -n else n : ℚ) : ℝ)| = n := by
        split_ifs
        · push_cast; rw [abs_neg, abs_of_pos n3']
        · exact abs_of_pos n3'
      rw [this, div_le_iff₀ n3']
      exact (hvN i).trans hn2
    have hr1 := rnd (q.v i / if q.w < 0 then -n else n)
    rw [← hax i] at hr1
    have hb' := abs_le.mp hb
    have hr2 := abs_le.mp (hr1.trans (by have := mul_le_mul_of_nonneg_left hb hU0.le; linarith : _ ≤ 2.01 * U))
    have hax1 : |(axis i : ℝ)| ≤ 2.001 := by rw [abs_le]; constructor <;> linarith
    obtain ⟨g, g0, g1, -, g2⟩ := arg_first (abs_nonneg (q.w : ℝ)) n3'
    unfold Atan2Of at ha
    rw [Rat.cast_abs, two_U, two_H] at ha
    have hsq : |(q.w : ℝ)| ≤ Real.sqrt (|(q.w : ℝ)| ^ 2 + n ^ 2) := Real.le_sqrt_of_sq_le (by nlinarith)
    have hpi := Real.pi_lt_d2
    have hpi0 := Real.pi_pos
    have hφ : Complex.arg ⟨|(q.w : ℝ)|, n⟩ ≤ 7 * U := by
      have h1 := Real.mul_le_sin g0 g1
      rw [g2] at h1
      have h2 : (n : ℝ) / Real.sqrt (|(q.w : ℝ)| ^ 2 + n ^ 2) ≤ 4.22 * U := by
        rw [div_le_iff₀ g]
        have : 4.22 * U * 0.95 ≤ 4.22 * U * Real.sqrt (|(q.w : ℝ)| ^ 2 + n ^ 2) := mul_le_mul_of_nonneg_left (hqw.trans hsq) (by positivity)
        linarith
      have h3 : Complex.arg ⟨|(q.w : ℝ)|, n⟩ = Real.pi / 2 * (2 / Real.pi * Complex.arg ⟨|(q.w : ℝ)|, n⟩) := by field_simp
      rw [h3]
      have h4 := mul_le_mul_of_nonneg_left (h1.trans h2) (by positivity : 0 ≤ Real.pi / 2)
      nlinarith
    generalize Complex.arg ⟨|(q.w : ℝ)|, n⟩ = φ at *
    rw [abs_of_nonneg g0] at ha
    have ha1 : |(a : ℝ)| ≤ 7.1 * U := by
      have h1 : U * φ ≤ 1.2e-16 * (7 * U) := (mul_le_mul_of_nonneg_right hU g0).trans (by linarith)
      have h2 := abs_le.mp ha
      rw [abs_le]; constructor <;> linarith
    have hr3 := rnd (axis i * angle)
    rw [hang] at hr3 ⊢
    push_cast at hr3
    have hp : |(axis i : ℝ) * (2 * a)| ≤ 28.6 * U := by
      rw [abs_mul, abs_mul, abs_of_pos (by norm_num : (0 : ℝ) < 2)]
      have := mul_le_mul hax1 (mul_le_mul_of_nonneg_left ha1 (by norm_num : (0 : ℝ) ≤ 2)) (by positivity) (by norm_num)
      linarith
    have hr4 := mul_le_mul_of_nonneg_left hp hU0.le
    have hr5 : U * (28.6 * U) ≤ 1.2e-16 * (28.6 * U) := mul_le_mul_of_nonneg_right hU (by positivity)
    have hr6 := abs_le.mp hr3
    have hp' := abs_le.mp hp
    rw [abs_le]; constructor <;> linarith
  · rw [if_neg hn0] at hA
    obtain ⟨rfl, -⟩ := hA
    rw [mul_zero]
    have := rnd 0
    simp at this
    have h2 := abs_le.mp this
    rw [abs_le]; constructor <;> linarith

/-- The computed logarithm next to a rotation vector of a quaternion that is close to one of the rotation. -/
theorem log_core {m : Matrix (Fin 3) (Fin 3) ℚ} {R : M3} {δ : ℝ} (hR : IsRotation R) (hm : TurnsAlike δ (realRot m) R) (hδ : δ ≤ 1 / 1000)
    {w : Fin 3 → ℚ} (h : LogSO3 m w) :
    ∃ (φ : ℝ) (n : V3) (Q : Quat), 0 ≤ φ ∧ φ ≤ Real.pi / 2 ∧ sqNorm n = 1 ∧ quatMatrix Q = R ∧ qsq Q = 1 ∧
      eucNorm (realVec w - (2 * φ) • n) ≤ 60 * U ∧ ‖toH (turnQuat φ n) - toH Q‖ ≤ 10.8 * δ + 90 * U := by
  obtain ⟨hU, hU1⟩ := U_tiny
  have hU0 := U_pos
  have hH := H_tiny
  have hH0 := H_pos
  have hδ0 := turnsAlike_nonneg hm
  obtain ⟨q, angle, axis, hq, hA, hw⟩ := h
  obtain ⟨Q, hQR, hQ1, hQw, hQv⟩ := quat_err hR hm hδ hq
  obtain ⟨ε, hε⟩ : ∃ ε, ε = 2.7 * δ + 19 * U := ⟨_, rfl⟩
  rw [← hε] at hQw hQv
  have hε0 : 0 ≤ ε := by rw [hε]; positivity
  have hε1 : ε ≤ 0.0121 := by rw [hε]; linarith
  obtain ⟨σ, hσ⟩ : ∃ σ : ℝ, σ = if (q.w : ℝ) < 0 then -1 else 1 := ⟨_, rfl⟩
  have hσ' : σ = 1 ∨ σ = -1 := by rw [hσ]; split_ifs <;> simp
  have hσ1 : |σ| = 1 := by rcases hσ' with h | h <;> simp [h]
  have hσw : σ * (q.w : ℝ) = |(q.w : ℝ)| := by
    rw [hσ]; split_ifs with h
    · rw [abs_of_neg h]; ring
    · rw [abs_of_nonneg (not_lt.mp h)]; ring
  obtain ⟨s1, s2⟩ := quatMatrix_sign (Q := Q) hσ'
  have hw' : abs (|(q.w : ℝ)| - σ * Q.w) ≤ ε := by
    rw [← hσw, ← mul_sub, abs_mul, hσ1, one_mul]; exact hQw
  have hv' : ∀ i, |σ * (q.v i : ℝ) - (σ • Q.v) i| ≤ ε := by
    intro i
    rw [Pi.smul_apply, smul_eq_mul, ← mul_sub, abs_mul, hσ1, one_mul]; exact hQv i
  have hQ2 := s2.trans hQ1
  obtain ⟨r, n, hr, hn, hA⟩ := hA
  obtain ⟨N, hN⟩ : ∃ N, N = eucNorm (realVec q.v) := ⟨_, rfl⟩
  have hN0 : 0 ≤ N := hN ▸ eucNorm_nonneg _
  have hlow := tiny_numbers
  have hvN : ∀ i, |(q.v i : ℝ)| ≤ N := fun i => hN ▸ abs_entry_le (realVec q.v) i
  split_ifs at hn with hlt
  · -- the vector part is tiny
    have hlt' : (r : ℝ) < 2 * U := by
      rw [← two_U]
      have : ((2 ^ (-52 : ℤ) : ℚ) : ℝ) = 2 ^ (-52 : ℤ) := by rw [Rat.cast_zpow, Rat.cast_ofNat]
      rw [← this]
      exact_mod_cast hlt
    have hNs : N ≤ 2.001 * U := by
      by_cases hc : (2 : ℝ) ^ (-500 : ℤ) ≤ N
      · have := (abs_le.mp (norm_err hr (hN ▸ hc))).1
        rw [← hN] at this
        have h3 : U * N ≤ 1.2e-16 * N := mul_le_mul_of_nonneg_right hU hN0
        nlinarith
      · have := not_le.mp hc
        linarith
    have hQv2 : ∀ i, |(σ • Q.v) i| ≤ ε + 2.001 * U := by
      intro i
      have a := abs_le.mp (hv' i)
      have b : |σ * (q.v i : ℝ)| ≤ 2.001 * U := by rw [abs_mul, hσ1, one_mul]; exact (hvN i).trans hNs
      have b' := abs_le.mp b
      rw [abs_le]; constructor <;> linarith
    have hQw2 : |1 - σ * Q.w| ≤ ε + 2.001 * U :=
      real_part hQ2 hQv2 (by linarith) (by linarith [(abs_le.mp hw').2, abs_nonneg (q.w : ℝ)])
    have hqw : 0.95 ≤ |(q.w : ℝ)| := by linarith [(abs_le.mp hw').1, (abs_le.mp hQw2).2]
    refine ⟨0, ![1, 0, 0], ⟨σ * Q.w, σ • Q.v⟩, le_rfl, by positivity, by rw [sqNorm_eq]; simp, s1.trans hQR, hQ2, ?_, ?_⟩
    · rw [mul_zero, zero_smul, sub_zero]
      refine (eucNorm_le_of_entries (c := 30 * U) fun i => ?_).trans (by linarith)
      exact tiny_turn hN hNs hqw hn hA hw i
    · refine (toH_near (c := ε + 2.001 * U) ?_ ?_).trans (by rw [hε]; linarith)
      · simpa [turnQuat] using hQw2
      · intro i
        have := hQv2 i
        simp only [turnQuat, Real.sin_zero, zero_smul, Pi.zero_apply, zero_sub, abs_neg]
        exact this
  · -- the vector part is not tiny
    have hge : 2 * U ≤ (r : ℝ) := by
      rw [← two_U]
      have : ((2 ^ (-52 : ℤ) : ℚ) : ℝ) = 2 ^ (-52 : ℤ) := by rw [Rat.cast_zpow, Rat.cast_ofNat]
      rw [← this]
      exact_mod_cast not_lt.mp hlt
    have hNb : (2 : ℝ) ^ (-500 : ℤ) ≤ N := by
      by_contra hc
      have := abs_le.mp (norm_tiny hr (hN ▸ (not_le.mp hc).le))
      linarith
    have hNp : 0 < N := lt_of_lt_of_le two_500_pos hNb
    have hre := norm_err hr (hN ▸ hNb)
    have hrp : (0 : ℝ) < r := by linarith
    have hrp' : 0 < r := by exact_mod_cast hrp
    rw [hn, if_pos hrp'.ne'] at hA
    obtain ⟨a, ha, rfl, hax⟩ := hA
    have hT := turn_err hrp' hre ha hax hw hσ
    obtain ⟨g, g0, g1, gc, gs⟩ := arg_first (abs_nonneg (q.w : ℝ)) hrp
    rw [← hN] at hT hre
    have hunit : sqNorm ((σ / N) • realVec q.v) = 1 := by
      rw [sqNorm_smul, ← eucNorm_sq, ← hN, div_pow]
      rcases hσ' with h | h <;> rw [h] <;> field_simp
    refine ⟨_, _, ⟨σ * Q.w, σ • Q.v⟩, g0, g1, hunit, s1.trans hQR, hQ2, hT, ?_⟩
    have hNsmall : N ≤ 1.03 := by
      have h1 : ∀ i, |realVec q.v i - Q.v i| ≤ ε := hQv
      have h2 : eucNorm (realVec q.v - Q.v) ≤ 2 * ε := eucNorm_le_of_entries h1
      have h3 : eucNorm Q.v ≤ 1 := by
        refine Real.sqrt_le_one.mpr ?_
        rw [qsq] at hQ1
        nlinarith [sq_nonneg Q.w]
      have h4 : realVec q.v = (realVec q.v - Q.v) + Q.v := by abel
      have h5 := eucNorm_add_le (realVec q.v - Q.v) Q.v
      rw [← h4, ← hN] at h5
      linarith
    generalize hρ : Real.sqrt (|(q.w : ℝ)| ^ 2 + (r : ℝ) ^ 2) = ρ at *
    have hρ2 : ρ ^ 2 = |(q.w : ℝ)| ^ 2 + (r : ℝ) ^ 2 := by rw [← hρ]; exact Real.sq_sqrt (by positivity)
    have hx : ‖toH ⟨|(q.w : ℝ)|, ((r : ℝ) / N * σ) • realVec q.v⟩ - toH ⟨σ * Q.w, σ • Q.v⟩‖ ≤ 2 * (ε + 2.6 * U) := by
      refine toH_near (hw'.trans (by linarith)) fun i => ?_
      have e : (((r : ℝ) / N * σ) • realVec q.v) i - (σ • Q.v) i = (σ * (q.v i : ℝ) - (σ • Q.v) i) + (r - N) * (σ / N * (q.v i : ℝ)) := by
        change (r : ℝ) / N * σ * (q.v i : ℝ) - _ = _
        field_simp
        ring
      have hb : |σ / N * (q.v i : ℝ)| ≤ 1 := by
        rw [abs_mul, abs_div, hσ1, abs_of_pos hNp, one_div, inv_mul_le_iff₀ hNp, mul_one]
        exact hvN i
      simp only
      rw [e]
      refine (abs_add_le _ _).trans (add_le_add (hv' i) ?_)
      rw [abs_mul]
      have h1 := mul_le_mul hre hb (abs_nonneg _) (by positivity)
      have h2 := mul_le_mul_of_nonneg_left hNsmall hU0.le
      linarith
    have hxn : ‖toH ⟨|(q.w : ℝ)|, ((r : ℝ) / N * σ) • realVec q.v⟩‖ = ρ := by
      refine (sq_eq_sq₀ (norm_nonneg _) g.le).mp ?_
      rw [norm_toH_sq, qsq, sqNorm_smul, ← eucNorm_sq, ← hN, hρ2, mul_pow, div_pow]
      rcases hσ' with h | h <;> rw [h] <;> field_simp
    have := normalized_near (norm_toH hQ2) hxn g hx
    have e : toH (turnQuat (Complex.arg ⟨|(q.w : ℝ)|, r⟩) ((σ / N) • realVec q.v)) = ρ⁻¹ • toH ⟨|(q.w : ℝ)|, ((r : ℝ) / N * σ) • realVec q.v⟩ := by
      ext <;> simp [turnQuat, gc, gs] <;> field_simp
    rw [e]
    refine this.trans ?_
    rw [hε]
    linarith

end Verif.LogDouble
