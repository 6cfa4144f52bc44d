import Verif.Proofs.ExpDouble
import Verif.Proofs.TinyAngle
import Verif.Proofs.SE3Log
/-! # Rounding errors of the coefficients and of the translation of the exponential map of SE3 -/
namespace Verif.ExpDouble
open SampleIntervalDouble TransformDouble Binary64 Verif.Spec Matrix SO3

/-- The exact coefficients of an angle. -/
structure Exact (θ A B C : ℝ) : Prop where
  zero : θ = 0 → A = 1 ∧ B = 1 / 2 ∧ C = 1 / 6
  pos : 0 < θ → A = Real.sin θ / θ ∧ B = (1 - Real.cos θ) / θ ^ 2 ∧ C = (θ - Real.sin θ) / θ ^ 3

theorem exact_some (θ : ℝ) : ∃ A B C, Exact θ A B C := by
  by_cases h : θ = 0
  · exact ⟨1, 1 / 2, 1 / 6, fun _ => ⟨rfl, rfl, rfl⟩, fun h' => absurd h h'.ne'⟩
  · exact ⟨_, _, _, fun h' => absurd h' h, fun _ => ⟨rfl, rfl, rfl⟩⟩

theorem xexp_exact {w : V3} {A B C : ℝ} (h : Exact (eucNorm w) A B C) (v : V3) :
    (SE3.xexp (w, v)).2 = A • v + B • (w ⨯₃ v) + (C * (w ⬝ᵥ v)) • w := by
  rw [SE3.xexp_cross]
  by_cases h0 : w = 0
  · subst h0
    obtain ⟨rfl, -, -⟩ := h.zero eucNorm_zero
    simp
  · have hp := eucNorm_pos h0
    obtain ⟨rfl, rfl, rfl⟩ := h.pos hp
    have e : w ⨯₃ (w ⨯₃ v) = (w ⬝ᵥ v) • w - (eucNorm w ^ 2) • v := by
      rw [eucNorm_sq, sqNorm_eq]
      ext i; fin_cases i <;> simp [cross_apply, dotProduct, Fin.sum_univ_three] <;> ring
    simp only
    rw [e]
    have h1 : (eucNorm w - Real.sin (eucNorm w)) / eucNorm w ^ 3 * eucNorm w ^ 2 = 1 - Real.sin (eucNorm w) / eucNorm w := by field_simp
    ext i
    simp only [Pi.add_apply, Pi.smul_apply, Pi.sub_apply, smul_eq_mul]
    linear_combination (-(v i)) * h1

theorem exact_bounds {θ A B C : ℝ} (hθ : 0 ≤ θ) (h : Exact θ A B C) :
    |A| ≤ 1 ∧ |B| ≤ 1 / 2 ∧ θ * |B| ≤ 1 ∧ |C| ≤ 2 ∧ θ ^ 2 * |C| ≤ 2 ∧ A = 1 - θ ^ 2 * C := by
  rcases hθ.eq_or_lt with h0 | h0
  · obtain ⟨rfl, rfl, rfl⟩ := h.zero h0.symm
    subst h0
    norm_num [abs_of_pos]
  · obtain ⟨rfl, rfl, rfl⟩ := h.pos h0
    have hs : |Real.sin θ| ≤ θ := by have := Real.abs_sin_le_abs (x := θ); rwa [abs_of_pos h0] at this
    have hc := one_sub_cos_le θ hθ
    have hc2 := Real.one_sub_sq_div_two_le_cos (x := θ)
    have hs' := abs_le.mp hs
    have hA : |Real.sin θ / θ| ≤ 1 := by rw [abs_div, abs_of_pos h0]; exact (div_le_one h0).mpr hs
    have hB0 : 0 ≤ (1 - Real.cos θ) / θ ^ 2 := by have := hc.1; positivity
    have hC0 : 0 ≤ (θ - Real.sin θ) / θ ^ 3 := div_nonneg (by linarith) (by positivity)
    have e : Real.sin θ / θ = 1 - θ ^ 2 * ((θ - Real.sin θ) / θ ^ 3) := by field_simp; ring
    refine ⟨hA, ?_, ?_, ?_, ?_, e⟩
    · rw [abs_of_nonneg hB0, div_le_iff₀ (by positivity)]; linarith
    · rw [abs_of_nonneg hB0, ← mul_div_assoc, div_le_one (by positivity)]; nlinarith
    · rw [abs_of_nonneg hC0, div_le_iff₀ (by positivity)]
      rcases le_or_gt θ 1 with h1 | h1
      · have := Real.sin_gt_sub_cube h0
        have : 0 < θ ^ 3 := by positivity
        linarith
      · have : θ ≤ θ ^ 3 := le_self_pow₀ h1.le (by norm_num)
        linarith
    · rw [abs_of_nonneg hC0]
      have := abs_le.mp hA
      linarith

/-- What the computed coefficients are within. -/
structure Near (θ a b c A B C : ℝ) : Prop where
  ha : |a - A| ≤ 10 * U
  hb : θ * |b - B| ≤ 2290 * U
  hb' : |b - B| ≤ 1 / 10
  hc : θ ^ 2 * |c - C| ≤ 40 * U
  hc' : |c - C| ≤ 1 / 10
  hb2 : θ ^ 2 * |b - B| ≤ (4.3 + 14.1 * θ) * U

theorem round_4e6 : |((round64 4e-6 : ℚ) : ℝ) - 4e-6| ≤ 1e-9 := by
  have h := rnd 4e-6
  have hU := U_pos; have hU1 := U_tiny.1; have hH := H_tiny
  have e : (((4e-6 : ℚ)) : ℝ) = 4e-6 := by norm_num
  rw [e, abs_of_pos (by norm_num : (0 : ℝ) < 4e-6)] at h
  refine h.trans ?_
  nlinarith

theorem tinyCoeff_error {k0 k1 k2 q r : ℚ} {θ : ℝ} (h : TinyCoeff k0 k1 k2 q r) (h0 : 0 ≤ k0 ∧ k0 ≤ 1 / 2) (h1 : 0 ≤ k1 ∧ k1 ≤ 1 / 24)
    (h2 : 0 ≤ k2 ∧ k2 ≤ 1 / 720) (hq : |(q : ℝ) - θ ^ 2| ≤ 0.01 * U) (ht : θ ^ 2 ≤ 0.00001) :
    |(r : ℝ) - (k0 - θ ^ 2 * k1 + θ ^ 4 * k2)| ≤ 2 * U := by
  obtain ⟨t, hT, hR⟩ := h
  have hU := U_pos; have hU1 := U_tiny.1; have hH := H_tiny; have hH0 := H_pos
  have g0 : (0 : ℝ) ≤ k0 ∧ (k0 : ℝ) ≤ 1 / 2 := ⟨by exact_mod_cast h0.1, by have : (k0 : ℝ) ≤ ((1 / 2 : ℚ) : ℝ) := Rat.cast_le.mpr h0.2; norm_num at this ⊢; linarith⟩
  have g1 : (0 : ℝ) ≤ k1 ∧ (k1 : ℝ) ≤ 1 / 24 := ⟨by exact_mod_cast h1.1, by have : (k1 : ℝ) ≤ ((1 / 24 : ℚ) : ℝ) := Rat.cast_le.mpr h1.2; norm_num at this ⊢; linarith⟩
  have g2 : (0 : ℝ) ≤ k2 ∧ (k2 : ℝ) ≤ 1 / 720 := ⟨by exact_mod_cast h2.1, by have : (k2 : ℝ) ≤ ((1 / 720 : ℚ) : ℝ) := Rat.cast_le.mpr h2.2; norm_num at this ⊢; linarith⟩
  have r0 := rnd k0
  have r1 := rnd k1
  have r2 := rnd k2
  rw [abs_of_nonneg g0.1] at r0
  rw [abs_of_nonneg g1.1] at r1
  rw [abs_of_nonneg g2.1] at r2
  have eT := eval2 hT
  have eR := eval2 hR
  generalize round64 k0 = K0 at *
  generalize round64 k1 = K1 at *
  generalize round64 k2 = K2 at *
  have s0 : |(K0 : ℝ) - k0| ≤ 0.51 * U := by nlinarith
  have s1 : |(K1 : ℝ) - k1| ≤ 0.05 * U := by nlinarith
  have s2 : |(K2 : ℝ) - k2| ≤ 0.01 * U := by nlinarith
  have m0 : |(K0 : ℝ)| ≤ 0.51 := by rw [abs_le] at s0 ⊢; constructor <;> linarith [g0.1, g0.2]
  have m1 : |(K1 : ℝ)| ≤ 0.05 := by rw [abs_le] at s1 ⊢; constructor <;> linarith [g1.1, g1.2]
  have m2 : |(K2 : ℝ)| ≤ 0.01 := by rw [abs_le] at s2 ⊢; constructor <;> linarith [g2.1, g2.2]
  have t0 := sq_nonneg θ
  have mq : |(q : ℝ)| ≤ 0.00002 := by rw [abs_le] at hq ⊢; constructor <;> linarith
  have p2 : |(q : ℝ) * K2 - θ ^ 2 * k2| ≤ 0.001 * U := by
    have := prod_err hq s2 mq (show |(k2 : ℝ)| ≤ 0.01 by rw [abs_of_nonneg g2.1]; linarith [g2.2])
    linarith
  have p2m : |(q : ℝ) * K2| ≤ 0.000001 := by
    rw [abs_mul]; have := mul_le_mul mq m2 (abs_nonneg _) (by norm_num); linarith
  push_cast at eT eR
  rw [one_mul, neg_mul, abs_neg] at eT eR
  have eT' : |(t : ℝ) - (k1 - θ ^ 2 * k2)| ≤ 0.2 * U := by
    have : 2.001 * U * (|(K1 : ℝ)| + |(q : ℝ) * K2|) ≤ 0.11 * U := by nlinarith
    rw [abs_le] at eT p2 s1 ⊢; constructor <;> linarith
  have tt : |(k1 : ℝ) - θ ^ 2 * k2| ≤ 0.05 := by
    have a1 : 0 ≤ θ ^ 2 * k2 := mul_nonneg t0 g2.1
    have a2 : θ ^ 2 * k2 ≤ 0.00001 * (1 / 720) := mul_le_mul ht g2.2 g2.1 (by norm_num)
    rw [abs_le]; constructor <;> linarith [g1.1, g1.2]
  have mt : |(t : ℝ)| ≤ 0.06 := by rw [abs_le] at eT' tt ⊢; constructor <;> linarith
  have p3 : |(q : ℝ) * t - θ ^ 2 * (k1 - θ ^ 2 * k2)| ≤ 0.01 * U := by
    have := prod_err hq eT' mq tt
    linarith
  have p3m : |(q : ℝ) * t| ≤ 0.00001 := by
    rw [abs_mul]; have := mul_le_mul mq mt (abs_nonneg _) (by norm_num); linarith
  have : 2.001 * U * (|(K0 : ℝ)| + |(q : ℝ) * t|) ≤ 1.1 * U := by nlinarith
  have e : (k0 : ℝ) - θ ^ 2 * k1 + θ ^ 4 * k2 = k0 - θ ^ 2 * (k1 - θ ^ 2 * k2) := by ring
  rw [e]
  rw [abs_le] at eR p3 s0 ⊢; constructor <;> linarith

/-- The series against the exact coefficients. -/
theorem series_exact {θ A B C : ℝ} (hθ : 0 ≤ θ) (h : Exact θ A B C) (ht : θ ^ 2 ≤ 4.1e-6) :
    |(1 / 2 - θ ^ 2 * (1 / 24) + θ ^ 4 * (1 / 720)) - B| ≤ 0.1 * U ∧ |(1 / 6 - θ ^ 2 * (1 / 120) + θ ^ 4 * (1 / 5040)) - C| ≤ 0.1 * U := by
  have hU := U_pos; have hU2 := U_tiny.2
  rcases hθ.eq_or_lt with h0 | h0
  · obtain ⟨rfl, rfl, rfl⟩ := h.zero h0.symm
    subst h0
    norm_num
    exact hU.le
  · obtain ⟨-, rfl, rfl⟩ := h.pos h0
    have h1 : θ ≤ 0.0021 := by nlinarith
    obtain ⟨tc, ts⟩ := taylor8 θ (by rw [abs_of_pos h0]; linarith)
    rw [abs_of_pos h0] at tc ts
    have e6 : θ ^ 6 ≤ 1e-15 := by
      have : θ ^ 6 ≤ 0.0021 ^ 6 := pow_le_pow_left₀ hθ h1 6
      exact this.trans (by norm_num)
    have e5 : θ ^ 5 ≤ 1e-13 := by
      have : θ ^ 5 ≤ 0.0021 ^ 5 := pow_le_pow_left₀ hθ h1 5
      exact this.trans (by norm_num)
    constructor
    · have e : (1 / 2 - θ ^ 2 * (1 / 24) + θ ^ 4 * (1 / 720)) - (1 - Real.cos θ) / θ ^ 2 =
          (Real.cos θ - (1 - θ ^ 2 / 2 + θ ^ 4 / 24 - θ ^ 6 / 720)) / θ ^ 2 := by field_simp; ring
      rw [e, abs_div, abs_of_pos (by positivity : 0 < θ ^ 2), div_le_iff₀ (by positivity)]
      refine tc.trans ?_
      have : θ ^ 8 = θ ^ 6 * θ ^ 2 := by ring
      rw [this]
      have p : 0 < θ ^ 2 := by positivity
      nlinarith
    · have e : (1 / 6 - θ ^ 2 * (1 / 120) + θ ^ 4 * (1 / 5040)) - (θ - Real.sin θ) / θ ^ 3 =
          (Real.sin θ - (θ - θ ^ 3 / 6 + θ ^ 5 / 120 - θ ^ 7 / 5040)) / θ ^ 3 := by field_simp; ring
      rw [e, abs_div, abs_of_pos (by positivity : 0 < θ ^ 3), div_le_iff₀ (by positivity)]
      refine ts.trans ?_
      have : θ ^ 8 = θ ^ 5 * θ ^ 3 := by ring
      rw [this]
      have p : 0 < θ ^ 3 := by positivity
      nlinarith

theorem near_small {q a b c : ℚ} {θ A B C : ℝ} (hθ : 0 ≤ θ) (hE : Exact θ A B C) (hq : |(q : ℝ) - θ ^ 2| ≤ 3.001 * U * θ ^ 2 + 6 * H)
    (hlt : q < round64 4e-6) (hb : TinyCoeff 0.5 (1 / 24) (1 / 720) q b) (hc : TinyCoeff (1 / 6) (1 / 120) (1 / 5040) q c)
    (ha : Evaluates ![1, -q] ![1, c] Finset.univ a) : Near θ a b c A B C := by
  have hU := U_pos; have hU1 := U_tiny.1; have hH := H_tiny; have hH0 := H_pos
  have h4 := abs_le.mp round_4e6
  have hlt' : (q : ℝ) < (round64 4e-6 : ℚ) := Rat.cast_lt.mpr hlt
  have t0 := sq_nonneg θ
  have ht : θ ^ 2 ≤ 4.1e-6 := by
    have := (abs_le.mp hq).1
    nlinarith
  have hq' : |(q : ℝ) - θ ^ 2| ≤ 0.001 * U := hq.trans (by nlinarith)
  have h1 : θ ≤ 0.0021 := by nlinarith
  obtain ⟨sB, sC⟩ := series_exact hθ hE ht
  obtain ⟨bA, bB, -, bC, -, eA⟩ := exact_bounds hθ hE
  have b1 := tinyCoeff_error hb (by norm_num) (by norm_num) (by norm_num) (hq'.trans (by linarith)) (ht.trans (by norm_num))
  have c1 := tinyCoeff_error hc (by norm_num) (by norm_num) (by norm_num) (hq'.trans (by linarith)) (ht.trans (by norm_num))
  have b2 : |(b : ℝ) - B| ≤ 2.2 * U := by
    push_cast at b1
    norm_num at b1 sB
    rw [abs_le] at b1 sB ⊢; constructor <;> linarith
  have c2 : |(c : ℝ) - C| ≤ 2.2 * U := by
    push_cast at c1
    norm_num at c1 sC
    rw [abs_le] at c1 sC ⊢; constructor <;> linarith
  have mq : |(q : ℝ)| ≤ 0.00002 := by rw [abs_le] at hq' ⊢; constructor <;> linarith
  have eA' := eval2 ha
  push_cast at eA'
  rw [one_mul, neg_mul, abs_neg, abs_one] at eA'
  have p1 := prod_err hq' c2 mq bC
  have mc : |(c : ℝ)| ≤ 2.1 := by rw [abs_le] at c2 bC ⊢; constructor <;> linarith
  have p2 : |(q : ℝ) * c| ≤ 0.0001 := by
    rw [abs_mul]; have := mul_le_mul mq mc (abs_nonneg _) (by norm_num); linarith
  have p3 : 2.001 * U * (1 + |(q : ℝ) * c|) ≤ 2.01 * U := by nlinarith
  refine ⟨?_, ?_, ?_, ?_, ?_, ?_⟩
  · rw [eA]
    rw [abs_le] at eA' p1 ⊢; constructor <;> linarith
  · have := mul_le_mul h1 b2 (abs_nonneg _) (by norm_num); linarith
  · linarith
  · have := mul_le_mul ht c2 (abs_nonneg _) (by norm_num); linarith
  · linarith
  · have := mul_le_mul ht b2 (abs_nonneg _) (by norm_num)
    have : 0 ≤ θ * U := by positivity
    linarith

theorem scale_abs {t : ℝ} (ht : 0 ≤ t) (x : ℝ) : t * |x| = |t * x| := by rw [abs_mul, abs_of_nonneg ht]

/-- A rounded result, scaled. -/
theorem rnd_scaled {x : ℚ} {t X e m M : ℝ} (ht : 0 ≤ t) (hX : |t * (x : ℝ) - X| ≤ e) (hm : |X| + e ≤ m) (hH : H * t ≤ M) :
    |t * ((round64 x : ℚ) : ℝ) - X| ≤ e + U * m + M := by
  have h1 := mul_le_mul_of_nonneg_left (rnd x) ht
  rw [scale_abs ht, mul_add, mul_left_comm, scale_abs ht, mul_sub] at h1
  have h2 : |t * (x : ℝ)| ≤ m := by
    have e1 : t * (x : ℝ) = (t * x - X) + X := by ring
    rw [e1]; refine (abs_add_le _ _).trans ?_; linarith
  have h3 := mul_le_mul_of_nonneg_left h2 U_pos.le
  have e1 : t * ((round64 x : ℚ) : ℝ) - X = (t * (round64 x : ℚ) - t * x) + (t * x - X) := by ring
  rw [e1]
  refine (abs_add_le _ _).trans ?_
  linarith

theorem H_scaled {θ : ℝ} (hθ : 0 ≤ θ) (hθ' : θ ≤ 2 ^ (500 : ℤ)) : H * θ ^ 2 ≤ 0.00001 * U := by
  have hU := U_pos; have hH0 := H_pos
  have a1 : θ ^ 2 ≤ ((2 : ℝ) ^ (500 : ℤ)) ^ 2 := pow_le_pow_left₀ hθ hθ' 2
  have a2 : H * ((2 : ℝ) ^ (500 : ℤ)) ^ 2 = 2 ^ (-22 : ℤ) * U := by
    unfold H U
    rw [← zpow_natCast, ← _root_.zpow_mul, ← zpow_add₀ two_ne_zero, ← zpow_add₀ two_ne_zero]; rfl
  have a3 : (2 : ℝ) ^ (-22 : ℤ) ≤ 0.00001 := by norm_num
  exact (mul_le_mul_of_nonneg_left a1 hH0.le).trans (a2.le.trans (mul_le_mul_of_nonneg_right a3 hU.le))

/-- The reciprocal of the angle and its square. -/
theorem recip_err {angle : ℚ} {θ : ℝ} (hθ1 : 0.0019 ≤ θ) (hθ' : θ ≤ 2 ^ (500 : ℤ)) (hang : |(angle : ℝ) - θ| ≤ 2.52 * U * θ) :
    |θ * ((round64 (1 / angle) : ℚ) : ℝ) - 1| ≤ 3.6 * U ∧
    |θ ^ 2 * ((round64 (round64 (1 / angle) * round64 (1 / angle)) : ℚ) : ℝ) - 1| ≤ 8.3 * U := by
  have hU := U_pos; have hU1 := U_tiny.1; have hH0 := H_pos
  have hp : 0 < θ := by linarith
  have hH2 := H_scaled hp.le hθ'
  have hH1 : H * θ ≤ 0.01 * U := by
    have h1 : H * θ * 0.0019 ≤ H * θ * θ := mul_le_mul_of_nonneg_left hθ1 (by positivity)
    have h2 : H * θ * θ = H * θ ^ 2 := by ring
    linarith
  have hUθ : U * θ ≤ 1.2e-16 * θ := mul_le_mul_of_nonneg_right hU1 hp.le
  have hang' := abs_le.mp hang
  have hr0 : 0.9999 * θ ≤ angle := by linarith
  have hr1 : (0 : ℝ) < angle := by linarith
  have i2 : |θ * ((1 / angle : ℚ) : ℝ) - 1| ≤ 2.53 * U := by
    push_cast
    have e : θ * (1 / (angle : ℝ)) - 1 = (θ - angle) / angle := by field_simp
    rw [e, abs_div, abs_of_pos hr1, div_le_iff₀ hr1, abs_sub_comm]
    refine hang.trans ?_
    have := mul_le_mul_of_nonneg_left hr0 hU.le
    linarith
  have i4 : |θ * ((round64 (1 / angle) : ℚ) : ℝ) - 1| ≤ 3.6 * U := by
    have := rnd_scaled hp.le i2 (m := 1.001) (by rw [abs_one]; linarith) hH1
    linarith
  refine ⟨i4, ?_⟩
  generalize round64 (1 / angle) = I at *
  have i5 : |θ * (I : ℝ)| ≤ 1.0001 := by rw [abs_le] at i4 ⊢; constructor <;> linarith
  have j2 : |θ ^ 2 * ((I * I : ℚ) : ℝ) - 1| ≤ 7.21 * U := by
    have h1 := prod_err i4 i4 i5 (show |(1 : ℝ)| ≤ 1 by simp)
    have e : θ ^ 2 * ((I * I : ℚ) : ℝ) - 1 = (θ * I) * (θ * I) - 1 * 1 := by push_cast; ring
    rw [e]; linarith
  have := rnd_scaled (sq_nonneg θ) j2 (m := 1.001) (by rw [abs_one]; linarith) hH2
  linarith

theorem mul_scaled {o J : ℚ} {θ X e f : ℝ} (ho : |(o : ℝ) - X| ≤ e) (hJ : |θ ^ 2 * (J : ℝ) - 1| ≤ 8.3 * U) (hX : |X| ≤ f) :
    |θ ^ 2 * ((o * J : ℚ) : ℝ) - X| ≤ 1.0001 * e + 8.3 * U * f := by
  have hU := U_pos; have hU1 := U_tiny.1
  have e1 : θ ^ 2 * ((o * J : ℚ) : ℝ) - X = (o - X) * (θ ^ 2 * J) + X * (θ ^ 2 * J - 1) := by push_cast; ring
  have j5 : |θ ^ 2 * (J : ℝ)| ≤ 1.0001 := by rw [abs_le] at hJ ⊢; constructor <;> linarith
  rw [e1]
  refine (abs_add_le _ _).trans ?_
  rw [abs_mul ((o : ℝ) - X), abs_mul X]
  have c1 := mul_le_mul ho j5 (abs_nonneg _) ((abs_nonneg _).trans ho)
  have c3 := mul_le_mul hX hJ (abs_nonneg _) ((abs_nonneg _).trans hX)
  linarith

theorem near_large {q a b c angle s k : ℚ} {θ A B C : ℝ} (hθ : 0 ≤ θ) (hθ' : θ ≤ 2 ^ (500 : ℤ)) (hE : Exact θ A B C)
    (hq : |(q : ℝ) - θ ^ 2| ≤ 3.001 * U * θ ^ 2 + 6 * H)
    (hge : round64 4e-6 ≤ q) (hr : SqrtOf q angle) (hs : SinOf angle s) (hk : CosOf angle k)
    (ha : a = round64 (s * round64 (1 / angle)))
    (hb : b = round64 (round64 (1 - k) * round64 (round64 (1 / angle) * round64 (1 / angle))))
    {o : ℚ} (ho : Evaluates ![1, -s] ![1, round64 (1 / angle)] Finset.univ o)
    (hc : c = round64 (o * round64 (round64 (1 / angle) * round64 (1 / angle)))) : Near θ a b c A B C := by
  have hU := U_pos; have hU1 := U_tiny.1; have hH := H_tiny; have hH0 := H_pos
  have t0 := sq_nonneg θ
  have ht : 3.9e-6 ≤ θ ^ 2 := by
    have h4 := abs_le.mp round_4e6
    have hge' : ((round64 4e-6 : ℚ) : ℝ) ≤ q := Rat.cast_le.mpr hge
    have := (abs_le.mp hq).2
    have := mul_le_mul_of_nonneg_right hU1 t0
    linarith
  have hθ1 : 0.0019 ≤ θ := by nlinarith
  have hp : 0 < θ := by linarith
  have hHU : 6 * H ≤ 0.001 * U * θ ^ 2 := by
    have := H_small (b := θ ^ 2) (le_trans (le_trans (zpow_le_zpow_right₀ (by norm_num) (by norm_num : (-1000 : ℤ) ≤ -20)) (by norm_num)) ht)
    linarith
  have hq' : |(q : ℝ) - θ ^ 2| ≤ 3.002 * U * θ ^ 2 := hq.trans (by linarith)
  have hang := sqrt_err hp hq' hr
  obtain ⟨-, tk, -, -⟩ := trig_err hs hk hang
  have hH2 := H_scaled hθ hθ'
  clear hq hge hr hq' hHU hk
  obtain ⟨i4, j4⟩ := recip_err hθ1 hθ' hang
  generalize round64 (1 / angle) = I at *
  generalize round64 (I * I) = J at *
  have i5 : |θ * (I : ℝ)| ≤ 1.0001 := by rw [abs_le] at i4 ⊢; constructor <;> linarith
  have hUθ : U * θ ≤ 1.2e-16 * θ := mul_le_mul_of_nonneg_right hU1 hp.le
  -- the coefficient of the vector
  obtain ⟨eA, eB, eC⟩ := hE.pos hp
  obtain ⟨bA, bB, bB', bC, bC', eAC⟩ := exact_bounds hθ hE
  have nA' : |(s : ℝ) * I - A| ≤ 8.3 * U := by
    have hsθ : Real.sin θ = θ * A := by rw [eA]; field_simp
    have hr2 : |(angle : ℝ)| ≤ 1.0001 * θ := by rw [abs_le] at hang ⊢; constructor <;> linarith
    have hs2 : |(s : ℝ) - θ * A| ≤ 4.6 * U * θ := by
      have a1 : |Real.sin angle - Real.sin θ| ≤ 2.52 * U * θ := (sin_lip _ _).trans hang
      have a2 : |(s : ℝ) - Real.sin angle| ≤ 2 * U * |Real.sin angle| := by have := hs; unfold SinOf at this; rwa [two_U] at this
      have a3 : |Real.sin (angle : ℝ)| ≤ 1.0001 * θ := (Real.abs_sin_le_abs (x := (angle : ℝ))).trans hr2
      rw [hsθ] at a1
      have a4 := mul_le_mul_of_nonneg_left a3 hU.le
      rw [abs_le] at a1 a2 ⊢; constructor <;> linarith
    have e : (s : ℝ) * I - A = (s - θ * A) / θ * (θ * I) + A * (θ * I - 1) := by field_simp; ring
    rw [e]
    refine (abs_add_le _ _).trans ?_
    rw [abs_mul (((s : ℝ) - θ * A) / θ), abs_mul A, abs_div, abs_of_pos hp]
    have b1 : |(s : ℝ) - θ * A| / θ ≤ 4.6 * U := by rw [div_le_iff₀ hp]; exact hs2
    have b2 := mul_le_mul b1 i5 (abs_nonneg _) (by positivity)
    have b3 := mul_le_mul bA i4 (abs_nonneg _) zero_le_one
    linarith
  have a3 : |(s : ℝ) * I| ≤ 1.0001 := by rw [abs_le] at nA' bA ⊢; constructor <;> linarith
  have nA : |(a : ℝ) - A| ≤ 10 * U := by
    have a1 := rnd (s * I)
    rw [← ha] at a1
    push_cast at a1
    have := mul_le_mul_of_nonneg_left a3 hU.le
    rw [abs_le] at a1 nA' ⊢; constructor <;> linarith
  -- the coefficient of the cross product
  have b4 : θ ^ 2 * |(b : ℝ) - B| ≤ (4.3 + 14.1 * θ) * U := by
    have k1 := rnd (1 - k)
    push_cast at k1
    rw [hb]
    generalize round64 (1 - k) = o' at *
    have oc := one_sub_cos_le θ hθ
    have hBθ : 1 - Real.cos θ = θ ^ 2 * B := by rw [eB]; field_simp
    have c2 : |θ ^ 2 * B| ≤ θ := by rw [← hBθ, abs_of_nonneg oc.1]; exact oc.2
    have o1 : |(o' : ℝ) - θ ^ 2 * B| ≤ (4.1 + 4 * θ) * U := by
      rw [← hBθ]
      have c2 := Real.cos_le_one θ
      have c3 := Real.neg_one_le_cos θ
      have mk : |(1 : ℝ) - k| ≤ 2.001 + 0.001 * θ := by
        rw [abs_le] at tk ⊢; constructor <;> linarith
      have := mul_le_mul_of_nonneg_left mk hU.le
      have hUθ0 : 0 ≤ U * θ := by positivity
      rw [abs_le] at tk k1 ⊢; constructor <;> linarith
    have b2 := mul_scaled o1 j4 c2
    have hUθ0 : 0 ≤ U * θ := by positivity
    have b3 := rnd_scaled t0 b2 (m := 0.001 + 1.001 * θ) (by linarith) hH2
    rw [scale_abs t0, mul_sub]
    linarith
  have nB : θ * |(b : ℝ) - B| ≤ 2290 * U := by
    have e : θ * (θ * |(b : ℝ) - B|) ≤ θ * (2290 * U) := by
      have : θ * (θ * |(b : ℝ) - B|) = θ ^ 2 * |(b : ℝ) - B| := by ring
      rw [this]; refine b4.trans ?_
      have := mul_le_mul_of_nonneg_right hθ1 hU.le
      linarith
    exact le_of_mul_le_mul_left e hp
  -- the coefficient of the dot product
  have nC : θ ^ 2 * |(c : ℝ) - C| ≤ 40 * U := by
    have d1 := eval2 ho
    push_cast at d1
    rw [one_mul, neg_mul, abs_neg, abs_one] at d1
    rw [hc]
    have hCθ : θ ^ 2 * C = 1 - A := by linarith
    have p1 : |(o : ℝ) - θ ^ 2 * C| ≤ 12.5 * U := by
      rw [hCθ]
      have := mul_le_mul_of_nonneg_left a3 hU.le
      rw [abs_le] at d1 nA' ⊢; constructor <;> linarith
    have mC : |θ ^ 2 * C| ≤ 2 := by rw [abs_mul, abs_of_nonneg t0]; exact bC'
    have c2 := mul_scaled p1 j4 mC
    have c3 := rnd_scaled t0 c2 (m := 2.001) (by linarith) hH2
    rw [scale_abs t0, mul_sub]
    linarith
  refine ⟨nA, nB, ?_, nC, ?_, b4⟩
  · have : 0.0019 * |(b : ℝ) - B| ≤ θ * |(b : ℝ) - B| := mul_le_mul_of_nonneg_right hθ1 (abs_nonneg _)
    linarith
  · have : 3.9e-6 * |(c : ℝ) - C| ≤ θ ^ 2 * |(c : ℝ) - C| := mul_le_mul_of_nonneg_right ht (abs_nonneg _)
    linarith

/-- The computed coefficients against the exact ones. -/
theorem near_coeffs {w : Fin 3 → ℚ} {q a b c : ℚ} {A B C : ℝ} (hw : eucNorm (realVec w) ≤ 2 ^ (500 : ℤ)) (hq : SquaredNorm w q)
    (h : ExpDiffCoeffs q a b c) (hE : Exact (eucNorm (realVec w)) A B C) : Near (eucNorm (realVec w)) a b c A B C := by
  unfold ExpDiffCoeffs at h
  split at h
  · next hlt => exact near_small (eucNorm_nonneg _) hE (squaredNorm_error hq) hlt h.1 h.2.1 h.2.2
  · next hge =>
    obtain ⟨angle, s, k, h1, h2, h3, h4, h5, o, ho, h6⟩ := h
    exact near_large (eucNorm_nonneg _) hw hE (squaredNorm_error hq) (not_lt.mp hge) h1 h2 h3 h4 h5 ho h6

theorem cross_err {w v x : Fin 3 → ℚ} (h : Cross w v x) (i : Fin 3) :
    |(x i : ℝ) - (realVec w ⨯₃ realVec v) i| ≤ 2.001 * U * (eucNorm (realVec w) * eucNorm (realVec v)) + 4 * H := by
  have hU := U_pos
  have k2 := abs_sum_le (realVec w) ![realVec v 1, realVec v 0, realVec v 2]
  have k1 := abs_sum_le (realVec w) ![realVec v 2, realVec v 1, realVec v 0]
  have k0 := abs_sum_le (realVec w) ![realVec v 0, realVec v 2, realVec v 1]
  have e2 : eucNorm ![realVec v 1, realVec v 0, realVec v 2] = eucNorm (realVec v) := by
    simp only [eucNorm, sqNorm_eq]; congr 1; simp; ring
  have e1 : eucNorm ![realVec v 2, realVec v 1, realVec v 0] = eucNorm (realVec v) := by
    simp only [eucNorm, sqNorm_eq]; congr 1; simp; ring
  have e0 : eucNorm ![realVec v 0, realVec v 2, realVec v 1] = eucNorm (realVec v) := by
    simp only [eucNorm, sqNorm_eq]; congr 1; simp; ring
  rw [e2] at k2
  rw [e1] at k1
  rw [e0] at k0
  simp only [Fin.sum_univ_three, Matrix.cons_val_zero, Matrix.cons_val_one, Matrix.cons_val, realVec] at k0 k1 k2
  obtain ⟨h0, h1, h2⟩ := h
  have f0 := eval2 h0
  have f1 := eval2 h1
  have f2 := eval2 h2
  push_cast at f0 f1 f2
  rw [neg_mul, abs_neg] at f0 f1 f2
  fin_cases i <;> simp only [cross_apply, realVec] <;> simp
  · refine (le_of_eq ?_).trans (f0.trans (add_le_add (mul_le_mul_of_nonneg_left ?_ (by positivity)) le_rfl))
    · congr 1
    · have := abs_nonneg ((w 0 : ℝ) * v 0); linarith
  · refine (le_of_eq ?_).trans (f1.trans (add_le_add (mul_le_mul_of_nonneg_left ?_ (by positivity)) le_rfl))
    · congr 1
    · have := abs_nonneg ((w 1 : ℝ) * v 1); linarith
  · refine (le_of_eq ?_).trans (f2.trans (add_le_add (mul_le_mul_of_nonneg_left ?_ (by positivity)) le_rfl))
    · congr 1
    · have := abs_nonneg ((w 2 : ℝ) * v 2); linarith

/-- One entry of the translation, where the second coefficient is off by `β`. -/
theorem trans_entry_of {a b c d xi vi wi t : ℚ} {θ n A B C D X β : ℝ} (hθ : 0 ≤ θ) (hn : 0 ≤ n) (hβ : β ≤ 2290 * U)
    (na : |(a : ℝ) - A| ≤ 10 * U) (nb : θ * |(b : ℝ) - B| ≤ β) (nb' : |(b : ℝ) - B| ≤ 1 / 10) (nc : θ ^ 2 * |(c : ℝ) - C| ≤ 40 * U) (nc' : |(c : ℝ) - C| ≤ 1 / 10)
    (hA : |A| ≤ 1) (hB : |B| ≤ 0.6) (hB' : θ * |B| ≤ 1.001) (hC : |C| ≤ 2) (hC' : θ ^ 2 * |C| ≤ 2)
    (hx : |(xi : ℝ) - X| ≤ 2.001 * U * (θ * n) + 4 * H) (hd : |(d : ℝ) - D| ≤ 3.001 * U * (θ * n) + 6 * H)
    (hX : |X| ≤ θ * n) (hD : |D| ≤ θ * n) (hv : |(vi : ℝ)| ≤ n) (hw : |(wi : ℝ)| ≤ θ)
    (ht : Evaluates ![a, b, round64 (c * d)] ![vi, xi, wi] Finset.univ t) :
    |(t : ℝ) - (A * vi + B * X + C * D * wi)| ≤ β * n + 80 * U * n + 40 * (1 + θ) * H := by
  have hU := U_pos; have hU1 := U_tiny.1; have hH := H_tiny; have hH0 := H_pos
  have hβn : β * n ≤ 2290 * U * n := mul_le_mul_of_nonneg_right hβ hn
  have mb : |(b : ℝ)| ≤ 0.7 := by rw [abs_le] at hB nb' ⊢; constructor <;> linarith
  have mc : |(c : ℝ)| ≤ 2.1 := by rw [abs_le] at hC nc' ⊢; constructor <;> linarith
  have tri : ∀ p q : ℝ, |p| ≤ |p - q| + |q| := fun p q => by
    have := abs_add_le (p - q) q; rwa [sub_add_cancel] at this
  have mb' : θ * |(b : ℝ)| ≤ 1.002 := by
    have := mul_le_mul_of_nonneg_left (tri b B) hθ
    linarith
  have mc' : θ ^ 2 * |(c : ℝ)| ≤ 2.001 := by
    have := mul_le_mul_of_nonneg_left (tri c C) (sq_nonneg θ)
    linarith
  have hUn : 0 ≤ U * n := by positivity
  have hUn' : U * n ≤ 1.2e-16 * n := mul_le_mul_of_nonneg_right hU1 hn
  have hHθ : 0 ≤ θ * H := by positivity
  have hUH : U * H ≤ 1.2e-16 * H := mul_le_mul_of_nonneg_right hU1 hH0.le
  have hUHθ : U * (θ * H) ≤ 1.2e-16 * (θ * H) := mul_le_mul_of_nonneg_right hU1 hHθ
  -- the three products
  have s1 : |(a : ℝ) * vi - A * vi| ≤ 10 * (U * n) := by
    rw [← sub_mul, abs_mul]
    have := mul_le_mul na hv (abs_nonneg _) (by positivity); linarith
  have m1 : |A * (vi : ℝ)| ≤ n := by
    rw [abs_mul]; have := mul_le_mul hA hv (abs_nonneg _) zero_le_one; linarith
  have s2 : |(b : ℝ) * xi - B * X| ≤ β * n + 3 * (U * n) + 2.8 * H := by
    have e : (b : ℝ) * xi - B * X = b * (xi - X) + (b - B) * X := by ring
    rw [e]
    refine (abs_add_le _ _).trans ?_
    rw [abs_mul, abs_mul]
    have c1 : |(b : ℝ)| * |(xi : ℝ) - X| ≤ 2.006 * (U * n) + 2.8 * H := by
      have d1 := mul_le_mul_of_nonneg_left hx (abs_nonneg (b : ℝ))
      have d2 := mul_le_mul_of_nonneg_right mb' hUn
      have d3 := mul_le_mul_of_nonneg_right mb hH0.le
      have e2 : |(b : ℝ)| * (2.001 * U * (θ * n) + 4 * H) = 2.001 * (θ * |(b : ℝ)| * (U * n)) + 4 * (|(b : ℝ)| * H) := by ring
      linarith
    have c2 : |(b : ℝ) - B| * |X| ≤ β * n := by
      have d1 := mul_le_mul_of_nonneg_left hX (abs_nonneg ((b : ℝ) - B))
      have d2 := mul_le_mul_of_nonneg_right nb hn
      have e2 : |(b : ℝ) - B| * (θ * n) = θ * |(b : ℝ) - B| * n := by ring
      linarith
    linarith
  have m2 : |B * X| ≤ 1.001 * n := by
    rw [abs_mul]
    have d1 := mul_le_mul_of_nonneg_left hX (abs_nonneg B)
    have d2 := mul_le_mul_of_nonneg_right hB' hn
    have e2 : |B| * (θ * n) = θ * |B| * n := by ring
    linarith
  have m3 : |C * D * (wi : ℝ)| ≤ 2 * n := by
    rw [abs_mul, abs_mul]
    have d1 := mul_le_mul (mul_le_mul_of_nonneg_left hD (abs_nonneg C)) hw (abs_nonneg _) (by positivity)
    have d2 := mul_le_mul_of_nonneg_right hC' hn
    have e2 : |C| * (θ * n) * θ = θ ^ 2 * |C| * n := by ring
    linarith
  have s3 : |((round64 (c * d) : ℚ) : ℝ) * wi - C * D * wi| ≤ 50 * (U * n) + 15 * (θ * H) := by
    have r := rnd (c * d)
    push_cast at r
    have e0 : |(c : ℝ) * d - C * D| ≤ |(c : ℝ)| * |(d : ℝ) - D| + |(c : ℝ) - C| * |D| := by
      have e : (c : ℝ) * d - C * D = c * (d - D) + (c - C) * D := by ring
      rw [e]; refine (abs_add_le _ _).trans ?_
      rw [abs_mul, abs_mul]
    have c1 : θ * (|(c : ℝ)| * |(d : ℝ) - D|) ≤ 6.01 * (U * n) + 12.6 * (θ * H) := by
      have d1 := mul_le_mul_of_nonneg_left (mul_le_mul_of_nonneg_left hd (abs_nonneg (c : ℝ))) hθ
      have d2 := mul_le_mul_of_nonneg_right mc' hUn
      have d3 := mul_le_mul_of_nonneg_right mc hHθ
      have e2 : θ * (|(c : ℝ)| * (3.001 * U * (θ * n) + 6 * H)) = 3.001 * (θ ^ 2 * |(c : ℝ)| * (U * n)) + 6 * (|(c : ℝ)| * (θ * H)) := by ring
      linarith
    have c2 : θ * (|(c : ℝ) - C| * |D|) ≤ 40 * (U * n) := by
      have d1 := mul_le_mul_of_nonneg_left (mul_le_mul_of_nonneg_left hD (abs_nonneg ((c : ℝ) - C))) hθ
      have d2 := mul_le_mul_of_nonneg_right nc hn
      have e2 : θ * (|(c : ℝ) - C| * (θ * n)) = θ ^ 2 * |(c : ℝ) - C| * n := by ring
      linarith
    have c3 : θ * |C * D| ≤ 2 * n := by
      rw [abs_mul]
      have d1 := mul_le_mul_of_nonneg_left (mul_le_mul_of_nonneg_left hD (abs_nonneg C)) hθ
      have d2 := mul_le_mul_of_nonneg_right hC' hn
      have e2 : θ * (|C| * (θ * n)) = θ ^ 2 * |C| * n := by ring
      linarith
    have e1 := mul_le_mul_of_nonneg_left e0 hθ
    have c4 : θ * |(c : ℝ) * d| ≤ 2.001 * n + 13 * (θ * H) := by
      have := mul_le_mul_of_nonneg_left (tri ((c : ℝ) * d) (C * D)) hθ
      linarith
    have c5 := mul_le_mul_of_nonneg_left c4 hU.le
    have c6 := mul_le_mul_of_nonneg_left r hθ
    have c7 := tri (((round64 (c * d) : ℚ) : ℝ) - C * D) ((c : ℝ) * d - C * D)
    have e5 : ((round64 (c * d) : ℚ) : ℝ) - C * D - ((c : ℝ) * d - C * D) = ((round64 (c * d) : ℚ) : ℝ) - (c : ℝ) * d := by ring
    rw [e5] at c7
    have c8 := mul_le_mul_of_nonneg_left c7 hθ
    rw [← sub_mul, abs_mul]
    have c9 := mul_le_mul_of_nonneg_left hw (abs_nonneg (((round64 (c * d) : ℚ) : ℝ) - C * D))
    have e6 : θ * (U * |(c : ℝ) * d| + H) = U * (θ * |(c : ℝ) * d|) + θ * H := by ring
    linarith
  have r := eval3 ht
  generalize round64 (c * d) = e at *
  have q1 := tri ((a : ℝ) * vi) (A * vi)
  have q2 := tri ((b : ℝ) * xi) (B * X)
  have q3 := tri ((e : ℝ) * wi) (C * D * wi)
  have q : |(a : ℝ) * vi| + |(b : ℝ) * xi| + |(e : ℝ) * wi| ≤ 4.01 * n + 3 * H + 15 * (θ * H) := by linarith
  have q' := mul_le_mul_of_nonneg_left q hU.le
  have r' : 3.001 * U * (|(a : ℝ) * vi| + |(b : ℝ) * xi| + |(e : ℝ) * wi|) ≤ 13 * (U * n) + 1 * H + 1 * (θ * H) := by linarith
  rw [abs_le] at s1 s2 s3 r ⊢
  constructor <;> linarith

/-- One entry of the translation. -/
theorem trans_entry {a b c d xi vi wi t : ℚ} {θ n A B C D X : ℝ} (hθ : 0 ≤ θ) (hn : 0 ≤ n) (hN : Near θ a b c A B C)
    (hA : |A| ≤ 1) (hB : |B| ≤ 1 / 2) (hB' : θ * |B| ≤ 1) (hC : |C| ≤ 2) (hC' : θ ^ 2 * |C| ≤ 2)
    (hx : |(xi : ℝ) - X| ≤ 2.001 * U * (θ * n) + 4 * H) (hd : |(d : ℝ) - D| ≤ 3.001 * U * (θ * n) + 6 * H)
    (hX : |X| ≤ θ * n) (hD : |D| ≤ θ * n) (hv : |(vi : ℝ)| ≤ n) (hw : |(wi : ℝ)| ≤ θ)
    (ht : Evaluates ![a, b, round64 (c * d)] ![vi, xi, wi] Finset.univ t) :
    |(t : ℝ) - (A * vi + B * X + C * D * wi)| ≤ 2500 * U * n + 40 * (1 + θ) * H := by
  have hUn : 0 ≤ U * n := mul_nonneg U_pos.le hn
  have := trans_entry_of hθ hn le_rfl hN.ha hN.hb hN.hb' hN.hc hN.hc' hA (by linarith) (by linarith) hC hC' hx hd hX hD hv hw ht
  linarith

/-- The computed translation against the exact one. -/
theorem expSE3_error {w v : Fin 3 → ℚ} {g : Stored} (h : ExpSE3 w v g) (hw : eucNorm (realVec w) ≤ 2 ^ (500 : ℤ)) :
    eucNorm (realVec g.trans - (SE3.xexp (realVec w, realVec v)).2) ≤
      5000 * U * eucNorm (realVec v) + 100 * (1 + eucNorm (realVec w)) * H := by
  obtain ⟨-, q, a, b, c, d, x, hq, hc, hx, hd, ht⟩ := h
  have hU := U_pos; have hH0 := H_pos
  have hθ := eucNorm_nonneg (realVec w)
  have hn := eucNorm_nonneg (realVec v)
  obtain ⟨A, B, C, hE⟩ := exact_some (eucNorm (realVec w))
  have hN := near_coeffs hw hq hc hE
  obtain ⟨hA, hB, hB', hC, hC', -⟩ := exact_bounds hθ hE
  rw [xexp_exact hE]
  refine (eucNorm_le_of_entries (c := 2500 * U * eucNorm (realVec v) + 40 * (1 + eucNorm (realVec w)) * H) fun i => ?_).trans ?_
  · have := trans_entry hθ hn hN hA hB hB' hC hC' (cross_err hx i) (eval3_vec hd)
      ((abs_entry_le _ i).trans (eucNorm_cross_le _ _)) (abs_dot_le _ _) (abs_entry_le (realVec v) i) (abs_entry_le (realVec w) i) (ht i)
    simpa [realVec] using this
  · nlinarith

/-- The exact differential. -/
noncomputable def exactDiff (w : V3) (A B C : ℝ) : M3 := A • 1 + B • crossMatrix w + C • vecMulVec w w

theorem H_theta {θ : ℝ} (hθ : 0 ≤ θ) (hθ' : θ ≤ 2 ^ (500 : ℤ)) : 1000 * (1 + θ) * H ≤ U := by
  have hH := H_tiny; have hH0 := H_pos; have hU := U_pos
  have h2 := H_scaled hθ hθ'
  have h3 : θ ≤ 1 + θ ^ 2 := by nlinarith [sq_nonneg (θ - 1)]
  have h4 := mul_le_mul_of_nonneg_right h3 hH0.le
  linarith

theorem expDiff_error {w : Fin 3 → ℚ} {m : Matrix (Fin 3) (Fin 3) ℚ} (h : ExpDiffSO3 w m) (hw : eucNorm (realVec w) ≤ 2 ^ (500 : ℤ))
    {A B C : ℝ} (hE : Exact (eucNorm (realVec w)) A B C) : TurnsAlike (8000 * U) (realRot m) (exactDiff (realVec w) A B C) := by
  obtain ⟨q, a, b, c, hq, hc, ht⟩ := h
  have hU := U_pos; have hH0 := H_pos
  have hθ := eucNorm_nonneg (realVec w)
  have hN := near_coeffs hw hq hc hE
  obtain ⟨hA, hB, hB', hC, hC', -⟩ := exact_bounds hθ hE
  have hent : ∀ i j, |realRot m i j - exactDiff (realVec w) A B C i j| ≤ 2600 * U := by
    intro i j
    have e1 : ∀ i, |((w i : ℚ) : ℝ)| ≤ eucNorm (realVec w) := abs_entry_le (realVec w)
    have ex : ((!![0, -w 2, w 1; w 2, 0, -w 0; -w 1, w 0, 0] i j : ℚ) : ℝ) = crossMatrix (realVec w) i j := by
      fin_cases i <;> fin_cases j <;> simp [crossMatrix, realVec]
    have mx : |crossMatrix (realVec w) i j| ≤ eucNorm (realVec w) * 1 := by
      rw [mul_one]
      have e0 := e1 0; have e2 := e1 1; have e3 := e1 2
      fin_cases i <;> fin_cases j <;> simp [crossMatrix, realVec, abs_neg] <;> assumption
    have := trans_entry (n := 1) (X := crossMatrix (realVec w) i j) (D := w i) hθ zero_le_one hN hA hB hB' hC hC'
      (by rw [ex, sub_self, abs_zero]; positivity) (by rw [sub_self, abs_zero]; positivity) mx (by rw [mul_one]; exact e1 i)
      (by split <;> simp) (e1 j) (ht i j)
    have h2 := H_theta hθ hw
    have e : exactDiff (realVec w) A B C i j = A * ((if i = j then 1 else 0 : ℚ) : ℝ) + B * crossMatrix (realVec w) i j + C * w i * w j := by
      simp only [exactDiff, Matrix.add_apply, Matrix.smul_apply, smul_eq_mul, vecMulVec_apply, Matrix.one_apply, realVec]
      split <;> push_cast <;> ring
    rw [e]
    change |((m i j : ℚ) : ℝ) - _| ≤ _
    linarith
  intro v
  refine (turnsAlike_of_entries hent v).trans (mul_le_mul_of_nonneg_right ?_ (eucNorm_nonneg v))
  linarith

theorem exactDiff_mulVec (w v : V3) (A B C : ℝ) : exactDiff w A B C *ᵥ v = A • v + B • (w ⨯₃ v) + (C * (w ⬝ᵥ v)) • w := by
  unfold exactDiff
  simp only [Matrix.add_mulVec, Matrix.smul_mulVec, Matrix.one_mulVec, crossMatrix_mulVec]
  congr 1
  ext i
  simp [Matrix.mulVec, vecMulVec_apply, dotProduct, Fin.sum_univ_three]
  ring

/-! ## Results exist -/

theorem rat_near (y : ℝ) {e : ℝ} (he : 0 < e) : ∃ r : ℚ, |(r : ℝ) - y| ≤ e * |y| := by
  by_cases h : y = 0
  · exact ⟨0, by simp [h]⟩
  · have hp : 0 < e * |y| := mul_pos he (abs_pos.mpr h)
    obtain ⟨r, h1, h2⟩ := exists_rat_btwn (by linarith : y - e * |y| < y + e * |y|)
    exact ⟨r, abs_le.mpr ⟨by linarith, by linarith⟩⟩

theorem sqrtOf_some (x : ℚ) : ∃ r, SqrtOf x r := by
  obtain ⟨r, h⟩ := rat_near (Real.sqrt x) U_pos
  exact ⟨r, by rwa [abs_of_nonneg (Real.sqrt_nonneg _)] at h⟩

theorem sinOf_some (x : ℚ) : ∃ r, SinOf x r := rat_near _ (by positivity)
theorem cosOf_some (x : ℚ) : ∃ r, CosOf x r := rat_near _ (by positivity)

theorem univ2 : (Finset.univ : Finset (Fin 2)).Nonempty := ⟨0, Finset.mem_univ _⟩
theorem univ3 : (Finset.univ : Finset (Fin 3)).Nonempty := ⟨0, Finset.mem_univ _⟩

theorem expSO3_some (w : Fin 3 → ℚ) : ∃ m, ExpSO3 w m := by
  obtain ⟨q, hq⟩ := Evaluates.some w w univ3
  obtain ⟨angle, hangle⟩ := sqrtOf_some q
  obtain ⟨n, hn⟩ : ∃ n, Normalized w n := by
    by_cases h : 0 < q
    · exact ⟨_, q, hq, by rw [if_pos h]; exact ⟨angle, hangle, fun i => rfl⟩⟩
    · exact ⟨w, q, hq, by rw [if_neg h]⟩
  obtain ⟨s, hs⟩ := sinOf_some angle
  obtain ⟨c, hc⟩ := cosOf_some angle
  let k : Fin 3 → ℚ := fun i => round64 (round64 (1 - c) * n i)
  choose d hd using fun i => Evaluates.some ![k i, 1] ![n i, c] univ2
  obtain ⟨m01, h01⟩ := Evaluates.some ![k 0, -s] ![n 1, n 2] univ2
  obtain ⟨m10, h10⟩ := Evaluates.some ![k 0, s] ![n 1, n 2] univ2
  obtain ⟨m02, h02⟩ := Evaluates.some ![k 0, s] ![n 2, n 1] univ2
  obtain ⟨m20, h20⟩ := Evaluates.some ![k 0, -s] ![n 2, n 1] univ2
  obtain ⟨m12, h12⟩ := Evaluates.some ![k 1, -s] ![n 2, n 0] univ2
  obtain ⟨m21, h21⟩ := Evaluates.some ![k 1, s] ![n 2, n 0] univ2
  refine ⟨!![d 0, m01, m02; m10, d 1, m12; m20, m21, d 2], angle, n, ⟨q, hq, hangle⟩, hn, s, c, hs, hc, k, fun i => rfl, ?_,
    h01, h10, h02, h20, h12, h21⟩
  intro i
  fin_cases i
  · exact hd 0
  · exact hd 1
  · exact hd 2

theorem expDiffCoeffs_some (q : ℚ) : ∃ a b c, ExpDiffCoeffs q a b c := by
  unfold ExpDiffCoeffs
  have ht : ∀ k0 k1 k2, ∃ r, TinyCoeff k0 k1 k2 q r := fun k0 k1 k2 => by
    obtain ⟨t, h1⟩ := Evaluates.some ![1, -q] ![round64 k1, round64 k2] univ2
    obtain ⟨r, h2⟩ := Evaluates.some ![1, -q] ![round64 k0, t] univ2
    exact ⟨r, t, h1, h2⟩
  split
  · obtain ⟨b, hb⟩ := ht 0.5 (1 / 24) (1 / 720)
    obtain ⟨c, hc⟩ := ht (1 / 6) (1 / 120) (1 / 5040)
    obtain ⟨a, ha⟩ := Evaluates.some ![1, -q] ![1, c] univ2
    exact ⟨a, b, c, hb, hc, ha⟩
  · obtain ⟨angle, h1⟩ := sqrtOf_some q
    obtain ⟨s, h2⟩ := sinOf_some angle
    obtain ⟨k, h3⟩ := cosOf_some angle
    obtain ⟨p, hp⟩ := Evaluates.some ![1, -s] ![1, round64 (1 / angle)] univ2
    exact ⟨_, _, _, angle, s, k, h1, h2, h3, rfl, rfl, p, hp, rfl⟩

theorem expSE3_some (w v : Fin 3 → ℚ) : ∃ g, ExpSE3 w v g := by
  obtain ⟨m, hm⟩ := expSO3_some w
  obtain ⟨q, hq⟩ := Evaluates.some w w univ3
  obtain ⟨a, b, c, h⟩ := expDiffCoeffs_some q
  obtain ⟨d, hd⟩ := Evaluates.some w v univ3
  obtain ⟨x0, h0⟩ := Evaluates.some ![w 1, -w 2] ![v 2, v 1] univ2
  obtain ⟨x1, h1⟩ := Evaluates.some ![w 2, -w 0] ![v 0, v 2] univ2
  obtain ⟨x2, h2⟩ := Evaluates.some ![w 0, -w 1] ![v 1, v 0] univ2
  choose t ht using fun i => Evaluates.some ![a, b, round64 (c * d)] ![v i, ![x0, x1, x2] i, w i] univ3
  exact ⟨⟨m, t⟩, hm, q, a, b, c, d, ![x0, x1, x2], hq, h, ⟨h0, h1, h2⟩, hd, ht⟩

theorem expDiffSO3_some (w : Fin 3 → ℚ) : ∃ m, ExpDiffSO3 w m := by
  obtain ⟨q, hq⟩ := Evaluates.some w w univ3
  obtain ⟨a, b, c, h⟩ := expDiffCoeffs_some q
  choose m hm using fun i j => Evaluates.some ![a, b, round64 (c * w i)]
    ![if i = j then 1 else 0, !![0, -w 2, w 1; w 2, 0, -w 0; -w 1, w 0, 0] i j, w j] univ3
  exact ⟨m, q, a, b, c, hq, h, hm⟩

end Verif.ExpDouble
