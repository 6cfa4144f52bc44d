import Verif.Proofs.TCurveDoubleParts
import Verif.Proofs.Shadow
/-! # Time curves in doubles: the errors of the polynomials -/
namespace Verif.TCurveDouble
open Verif.Spec Verif.TransformDouble Verif.ExpDouble Verif.LogDouble Verif.SampleIntervalDouble Matrix SO3

/-- The polynomial that the loop evaluates. -/
noncomputable def poly (t : ℝ) : List ℚ → ℝ
  | [] => 0
  | m :: ms => t * ((m : ℝ) + poly t ms)

/-- The sum of the magnitudes of the coefficients. -/
noncomputable def mags : List ℚ → ℝ
  | [] => 0
  | m :: ms => |(m : ℝ)| + mags ms

theorem mags_nonneg : ∀ ms, 0 ≤ mags ms
  | [] => le_rfl
  | _ :: ms => add_nonneg (abs_nonneg _) (mags_nonneg ms)

theorem poly_le {t : ℝ} (h0 : 0 ≤ t) (h1 : t ≤ 1) : ∀ ms, |poly t ms| ≤ mags ms
  | [] => by simp [poly, mags]
  | m :: ms => by
    have := poly_le h0 h1 ms
    rw [poly, abs_mul, abs_of_nonneg h0]
    refine (mul_le_of_le_one_left (abs_nonneg _) h1).trans ((abs_add_le _ _).trans (add_le_add le_rfl this))

theorem horner_near {t : ℚ} (h0 : 0 ≤ t) (h1 : t ≤ 1) : ∀ (ms : List ℚ) (r : ℚ), ms.length ≤ 10 → Horner t ms r →
    |(r : ℝ) - poly t ms| ≤ ms.length * (2.1 * U * mags ms + 3 * H)
  | [], r, _, h => by
    have : r = 0 := h
    simp [this, poly]
  | m :: ms, r, hl, h => by
    obtain ⟨acc, ha, hr⟩ := h
    have hU := U_pos; have hU1 := U_tiny.1; have hH := H_pos
    have hl' : ms.length ≤ 9 := by rw [List.length_cons] at hl; omega
    have t0 : (0 : ℝ) ≤ t := by exact_mod_cast h0
    have t1 : (t : ℝ) ≤ 1 := by exact_mod_cast h1
    have ih := horner_near h0 h1 ms acc (by omega) ha
    have hp := poly_le t0 t1 ms
    have hm0 := mags_nonneg ms
    have hS : mags (m :: ms) = |(m : ℝ)| + mags ms := rfl
    have hS0 := mags_nonneg (m :: ms)
    obtain ⟨S, hSS⟩ : ∃ S, S = mags (m :: ms) := ⟨_, rfl⟩
    have hmS : mags ms ≤ S := by rw [hSS, hS]; linarith [abs_nonneg (m : ℝ)]
    rw [← hSS] at hS hS0 ⊢
    have hn : ((ms.length : ℕ) : ℝ) ≤ 9 := by exact_mod_cast hl'
    have hn0 : (0 : ℝ) ≤ (ms.length : ℕ) := Nat.cast_nonneg _
    obtain ⟨n, hnn⟩ : ∃ n : ℝ, n = (ms.length : ℕ) := ⟨_, rfl⟩
    rw [List.length_cons, Nat.cast_succ]
    rw [← hnn] at ih hn hn0 ⊢
    have hE : |(acc : ℝ) - poly t ms| ≤ n * (2.1 * U * S + 3 * H) :=
      ih.trans (mul_le_mul_of_nonneg_left (by have := mul_le_mul_of_nonneg_left hmS hU.le; linarith) hn0)
    have hE9 : n * (2.1 * U * S + 3 * H) ≤ 9 * (2.1 * U * S + 3 * H) :=
      mul_le_mul_of_nonneg_right hn (by have := mul_nonneg hU.le hS0; linarith)
    have hUS : U * S ≤ 1.2e-16 * S := mul_le_mul_of_nonneg_right hU1 hS0
    have hUS0 := mul_nonneg hU.le hS0
    have hUH : U * H ≤ 1.2e-16 * H := mul_le_mul_of_nonneg_right hU1 hH.le
    obtain ⟨i, hi⟩ : ∃ i, i = round64 (m + acc) := ⟨_, rfl⟩
    rw [← hi] at hr
    have r1 := rnd (m + acc)
    rw [← hi] at r1
    push_cast at r1
    have hin : |(m : ℝ) + acc| ≤ 1.0001 * S + 28 * H := by
      have e : (m : ℝ) + acc = m + (poly t ms + (acc - poly t ms)) := by ring
      rw [e]
      refine (abs_add_le _ _).trans ((add_le_add le_rfl ((abs_add_le _ _).trans (add_le_add hp hE))).trans ?_)
      linarith only [hS, hE9, hUS, hUS0, hS0, hH]
    have r1' : |(i : ℝ) - (m + acc)| ≤ 1.0002 * U * S + 1.001 * H := by
      have := mul_le_mul_of_nonneg_left hin hU.le
      linarith only [r1, this, hUH, hUS0, hH]
    have hi' : |(i : ℝ)| ≤ 1.0002 * S + 30 * H := by
      have := abs_sub_abs_le_abs_sub (i : ℝ) (m + acc)
      linarith only [this, r1', hin, hUS, hUS0, hS0, hH]
    have r2 : |(r : ℝ) - t * i| ≤ 1.0003 * U * S + 1.001 * H := by
      rcases hr with hr | hr
      · have := rnd (t * i)
        rw [← hr] at this
        push_cast at this
        rw [abs_mul, abs_of_nonneg t0] at this
        have h3 := mul_le_mul_of_nonneg_left ((mul_le_of_le_one_left (abs_nonneg (i : ℝ)) t1).trans hi') hU.le
        linarith only [this, h3, hUH, hUS0, hH]
      · rw [hr]
        push_cast
        rw [sub_self, abs_zero]
        linarith only [hUS0, hH]
    have e : (r : ℝ) - poly t (m :: ms) = (r - t * i) + t * (((i : ℝ) - (m + acc)) + (acc - poly t ms)) := by
      rw [poly]; ring
    rw [e]
    refine (abs_add_le _ _).trans ?_
    have h5 : |(t : ℝ) * (((i : ℝ) - (m + acc)) + (acc - poly t ms))| ≤ (1.0002 * U * S + 1.001 * H) + n * (2.1 * U * S + 3 * H) := by
      rw [abs_mul, abs_of_nonneg t0]
      exact (mul_le_of_le_one_left (abs_nonneg _) t1).trans ((abs_add_le _ _).trans (add_le_add r1' hE))
    linarith only [r2, h5, hUS0, hH]

variable {ε B : ℝ}

/-- A last addition (of the constant term, or none) and rounding. -/
theorem coeff_near (C : Ctx ε B) {t m h r : ℚ} (h0 : 0 ≤ t) (h1 : t ≤ 1) {ms : List ℚ} (hl : ms.length ≤ 5) (hh : Horner t ms h) (hr : r = round64 (m + h))
    (hS : 1 ≤ |(m : ℝ)| + mags ms) : |(r : ℝ) - (m + poly t ms)| ≤ 1.2 * (|(m : ℝ)| + mags ms) * ε := by
  have hU := C.hU; have hU1 := U_tiny.1; have hH := C.hH; have hε := C.pos; have hU0 := U_pos
  have t0 : (0 : ℝ) ≤ t := by exact_mod_cast h0
  have t1 : (t : ℝ) ≤ 1 := by exact_mod_cast h1
  have hn := horner_near h0 h1 ms h (by omega) hh
  have hp := poly_le t0 t1 ms
  have hl' : ((ms.length : ℕ) : ℝ) ≤ 5 := by exact_mod_cast hl
  obtain ⟨S, hSS⟩ : ∃ S, S = |(m : ℝ)| + mags ms := ⟨_, rfl⟩
  rw [← hSS] at hS ⊢
  have hm : mags ms ≤ S := by rw [hSS]; linarith [abs_nonneg (m : ℝ)]
  have hm0 := mags_nonneg ms
  have hUS : U * S ≤ 1.2e-16 * S := mul_le_mul_of_nonneg_right hU1 (by linarith)
  have hεS : U * S ≤ 0.1 * ε * S := mul_le_mul_of_nonneg_right hU.2 (by linarith)
  have hUm : U * mags ms ≤ U * S := mul_le_mul_of_nonneg_left hm hU.1
  have hUm0 := mul_nonneg hU.1 hm0
  have hUS0 := mul_pos hU0 (show 0 < S by linarith)
  have hn' : |(h : ℝ) - poly t ms| ≤ 10.5 * (U * S) + 15 * H := by
    refine hn.trans ((mul_le_mul_of_nonneg_right hl' (by linarith [hH.1])).trans ?_)
    linarith only [hUm]
  have hr' := rnd (m + h)
  rw [← hr] at hr'
  push_cast at hr'
  have hb : |(m : ℝ) + h| ≤ 1.001 * S + 15 * H := by
    have e : (m : ℝ) + h = m + (poly t ms + (h - poly t ms)) := by ring
    rw [e]
    refine (abs_add_le _ _).trans ((add_le_add le_rfl ((abs_add_le _ _).trans (add_le_add hp hn'))).trans ?_)
    linarith only [hUS, hSS, hS]
  have hb' := mul_le_mul_of_nonneg_left hb hU.1
  have hUH : U * H ≤ 1.2e-16 * H := mul_le_mul_of_nonneg_right hU1 hH.1
  have hεS2 : ε ≤ ε * S := le_mul_of_one_le_right hε.le hS
  have e : (r : ℝ) - (m + poly t ms) = (r - (m + h)) + (h - poly t ms) := by ring
  rw [e]
  refine (abs_add_le _ _).trans ((add_le_add hr' hn').trans ?_)
  linarith only [hb', hUH, hεS, hεS2, hH.2.1, hH.1]

/-- The coefficients of one term: errors and sizes. -/
structure CNear (ε : ℝ) (a da d2a : ℚ) (k : PolyCoeffs) (c0 c1 c2 κ0 κ1 κ2 : ℝ) : Prop where
  h0 : |(a : ℝ) - k.a| ≤ c0 * ε
  h1 : |(da : ℝ) - k.da| ≤ c1 * ε
  h2 : |(d2a : ℝ) - k.d2a| ≤ c2 * ε
  k0 : |k.a| ≤ κ0
  k1 : |k.da| ≤ κ1
  k2 : |k.d2a| ≤ κ2

theorem coeffs_near (C : Ctx ε B) {c : Fin 5 → ℚ} {t a da d2a : ℚ} (h0 : 0 ≤ t) (h1 : t ≤ 1) (h : Coeffs c t a da d2a) {c' : Fin 5 → ℝ}
    (hc : ∀ i, c' i = (c i : ℝ)) {S0 S1 S2 κ0 κ1 κ2 : ℝ}
    (s0 : |c' 0| + |c' 1| + |c' 2| + |c' 3| + |c' 4| = S0)
    (s1 : |c' 0| + (|2 * c' 1| + |3 * c' 2| + |4 * c' 3| + |5 * c' 4|) = S1)
    (s2 : |2 * c' 1| + (|6 * c' 2| + |12 * c' 3| + |20 * c' 4|) = S2) (l0 : 1 ≤ S0) (l1 : 1 ≤ S1) (l2 : 1 ≤ S2)
    (k0 : |(Quintic.coeffs c' t).a| ≤ κ0) (k1 : |(Quintic.coeffs c' t).da| ≤ κ1) (k2 : |(Quintic.coeffs c' t).d2a| ≤ κ2) :
    CNear ε a da d2a (Quintic.coeffs c' t) (1.2 * S0) (1.2 * S1) (1.2 * S2) κ0 κ1 κ2 := by
  obtain ⟨x, hx, ha⟩ := h.a
  obtain ⟨y, hy, hda⟩ := h.da
  obtain ⟨z, hz, hd2⟩ := h.d2a
  refine ⟨?_, ?_, ?_, k0, k1, k2⟩
  · have e1 : |((0 : ℚ) : ℝ)| + mags [c 0, c 1, c 2, c 3, c 4] = S0 := by
      rw [← s0]; simp only [mags, hc, Rat.cast_zero, abs_zero]; ring
    have := coeff_near C (m := 0) (r := a) h0 h1 (by simp) hx (by rw [zero_add]; exact ha) (by rw [e1]; exact l0)
    rw [e1] at this
    refine (le_of_eq ?_).trans this
    congr 1
    rw [Quintic.coeffs_a]
    simp only [poly, hc, Rat.cast_zero]
    ring
  · have e1 : |(c 0 : ℝ)| + mags [2 * c 1, 3 * c 2, 4 * c 3, 5 * c 4] = S1 := by
      rw [← s1]; simp only [mags, hc]; push_cast; ring
    have := coeff_near C (m := c 0) h0 h1 (by simp) hy hda (by rw [e1]; exact l1)
    rw [e1] at this
    refine (le_of_eq ?_).trans this
    congr 1
    rw [Quintic.coeffs_da]
    simp only [poly, hc]
    push_cast
    ring
  · have e1 : |((2 * c 1 : ℚ) : ℝ)| + mags [6 * c 2, 12 * c 3, 20 * c 4] = S2 := by
      rw [← s2]; simp only [mags, hc]; push_cast; ring
    have := coeff_near C (m := 2 * c 1) h0 h1 (by simp) hz hd2 (by rw [e1]; exact l2)
    rw [e1] at this
    refine (le_of_eq ?_).trans this
    congr 1
    rw [Quintic.coeffs_d2a]
    simp only [poly, hc]
    push_cast
    ring

theorem destOrig_le {t : ℝ} (h0 : 0 ≤ t) (h1 : t ≤ 1) :
    |(Quintic.destFromOrig t).a| ≤ 1 ∧ |(Quintic.destFromOrig t).da| ≤ 1.9 ∧ |(Quintic.destFromOrig t).d2a| ≤ 6 := by
  refine ⟨(Quintic.abs_le_one h0 h1).1, ?_, ?_⟩
  · have e : (Quintic.destFromOrig t).da = 30 * (t * (1 - t)) ^ 2 := by
      rw [Quintic.destFromOrig, Quintic.coeffs_da]
      simp only [Quintic.destOrigTable, Matrix.cons_val_zero, Matrix.cons_val_one, Matrix.cons_val]
      ring
    rw [e]
    have s0 : 0 ≤ t * (1 - t) := mul_nonneg h0 (by linarith)
    have s1 : t * (1 - t) ≤ 1 / 4 := by nlinarith [sq_nonneg (t - 1 / 2)]
    rw [abs_of_nonneg (by positivity)]
    nlinarith
  · have e : (Quintic.destFromOrig t).d2a = 60 * (t * (1 - t)) * (1 - 2 * t) := by
      rw [Quintic.destFromOrig, Quintic.coeffs_d2a]
      simp only [Quintic.destOrigTable, Matrix.cons_val_zero, Matrix.cons_val_one, Matrix.cons_val]
      ring
    rw [e]
    refine abs_le_of_sq_le_sq ?_ (by norm_num)
    obtain ⟨s, hs⟩ : ∃ s, s = t * (1 - t) := ⟨_, rfl⟩
    have s0 : 0 ≤ s := by rw [hs]; exact mul_nonneg h0 (by linarith)
    have e2 : (60 * (t * (1 - t)) * (1 - 2 * t)) ^ 2 = 3600 * s ^ 2 * (1 - 4 * s) := by rw [hs]; ring
    rw [e2]
    have : 0 ≤ (s - 1 / 6) ^ 2 * (4 * s + 1 / 3) := mul_nonneg (sq_nonneg _) (by linarith)
    nlinarith

theorem dOrig_le {t : ℝ} (h0 : 0 ≤ t) (h1 : t ≤ 1) :
    |(Quintic.dOrig t).a| ≤ 0.3 ∧ |(Quintic.dOrig t).da| ≤ 1 ∧ |(Quintic.dOrig t).d2a| ≤ 4 := by
  have s0 : 0 ≤ t * (1 - t) := mul_nonneg h0 (by linarith)
  have s1 : t * (1 - t) ≤ 1 / 4 := by nlinarith [sq_nonneg (t - 1 / 2)]
  have t2 : 0 ≤ t ^ 2 * (1 - t) := mul_nonneg (sq_nonneg _) (by linarith)
  refine ⟨?_, ?_, ?_⟩
  · have e : (Quintic.dOrig t).a = (t * (1 - t)) * ((1 - t) ^ 2 * (1 + 3 * t)) := by
      rw [Quintic.dOrig, Quintic.coeffs_a]
      simp only [Quintic.dOrigTable, Matrix.cons_val_zero, Matrix.cons_val_one, Matrix.cons_val]
      ring
    rw [e]
    have r0 : 0 ≤ (1 - t) ^ 2 * (1 + 3 * t) := by positivity
    have r1 : (1 - t) ^ 2 * (1 + 3 * t) ≤ 1.2 := by nlinarith [sq_nonneg (t - 1 / 4)]
    rw [abs_of_nonneg (mul_nonneg s0 r0)]
    nlinarith [mul_le_mul s1 r1 r0 (by norm_num)]
  · have e : (Quintic.dOrig t).da = (1 - t) ^ 2 * (1 + 2 * t) - 15 * (t * (1 - t)) ^ 2 := by
      rw [Quintic.dOrig, Quintic.coeffs_da]
      simp only [Quintic.dOrigTable, Matrix.cons_val_zero, Matrix.cons_val_one, Matrix.cons_val]
      ring
    rw [e]
    have r0 : 0 ≤ (1 - t) ^ 2 * (1 + 2 * t) := by positivity
    have r1 : (1 - t) ^ 2 * (1 + 2 * t) ≤ 1 := by nlinarith
    have r2 : (t * (1 - t)) ^ 2 ≤ 1 / 16 := by nlinarith
    rw [abs_le]
    constructor <;> linarith [sq_nonneg (t * (1 - t))]
  · have e : (Quintic.dOrig t).d2a = -36 * t + 96 * t ^ 2 - 60 * t ^ 3 := by
      rw [Quintic.dOrig, Quintic.coeffs_d2a]
      simp only [Quintic.dOrigTable, Matrix.cons_val_zero, Matrix.cons_val_one, Matrix.cons_val]
      ring
    rw [e, abs_le]
    constructor
    · have k : 0 ≤ (1 - t) * (t - 1 / 4) ^ 2 := mul_nonneg (by linarith) (sq_nonneg _)
      nlinarith [sq_nonneg (t - 0.1875)]
    · have k : 0 ≤ t * (t - 0.82) ^ 2 := mul_nonneg h0 (sq_nonneg _)
      nlinarith [sq_nonneg (t - 0.905)]

theorem dDest_le {t : ℝ} (h0 : 0 ≤ t) (h1 : t ≤ 1) :
    |(Quintic.dDest t).a| ≤ 0.3 ∧ |(Quintic.dDest t).da| ≤ 1 ∧ |(Quintic.dDest t).d2a| ≤ 4 := by
  obtain ⟨k0, k1, k2⟩ := dOrig_le (t := 1 - t) (by linarith) (by linarith)
  have e0 : (Quintic.dDest t).a = -(Quintic.dOrig (1 - t)).a := by
    rw [Quintic.dOrig, Quintic.dDest, Quintic.coeffs_a, Quintic.coeffs_a]
    simp only [Quintic.dOrigTable, Quintic.dDestTable, Matrix.cons_val_zero, Matrix.cons_val_one, Matrix.cons_val]
    ring
  have e1 : (Quintic.dDest t).da = (Quintic.dOrig (1 - t)).da := by
    rw [Quintic.dOrig, Quintic.dDest, Quintic.coeffs_da, Quintic.coeffs_da]
    simp only [Quintic.dOrigTable, Quintic.dDestTable, Matrix.cons_val_zero, Matrix.cons_val_one, Matrix.cons_val]
    ring
  have e2 : (Quintic.dDest t).d2a = -(Quintic.dOrig (1 - t)).d2a := by
    rw [Quintic.dOrig, Quintic.dDest, Quintic.coeffs_d2a, Quintic.coeffs_d2a]
    simp only [Quintic.dOrigTable, Quintic.dDestTable, Matrix.cons_val_zero, Matrix.cons_val_one, Matrix.cons_val]
    ring
  rw [e0, e1, e2, abs_neg, abs_neg]
  exact ⟨k0, k1, k2⟩

theorem d2Orig_le {t : ℝ} (h0 : 0 ≤ t) (h1 : t ≤ 1) :
    |(Quintic.d2Orig t).a| ≤ 0.05 ∧ |(Quintic.d2Orig t).da| ≤ 0.3 ∧ |(Quintic.d2Orig t).d2a| ≤ 1 := by
  have s0 : 0 ≤ t * (1 - t) := mul_nonneg h0 (by linarith)
  have s1 : t * (1 - t) ≤ 1 / 4 := by nlinarith [sq_nonneg (t - 1 / 2)]
  refine ⟨?_, ?_, ?_⟩
  · have e : (Quintic.d2Orig t).a = (t * (1 - t)) ^ 2 * (1 - t) / 2 := by
      rw [Quintic.d2Orig, Quintic.coeffs_a]
      simp only [Quintic.d2OrigTable, Matrix.cons_val_zero, Matrix.cons_val_one, Matrix.cons_val]
      ring
    rw [e]
    have r2 : (t * (1 - t)) ^ 2 ≤ 1 / 16 := by nlinarith
    have r0 := sq_nonneg (t * (1 - t))
    have r3 : (t * (1 - t)) ^ 2 * (1 - t) ≤ 1 / 16 * 1 := mul_le_mul r2 (by linarith) (by linarith) (by norm_num)
    have r4 : 0 ≤ (t * (1 - t)) ^ 2 * (1 - t) := mul_nonneg r0 (by linarith)
    rw [abs_of_nonneg (by linarith)]
    linarith
  · have e : (Quintic.d2Orig t).da = (t * (1 - t)) * ((1 - t) * (2 - 5 * t)) / 2 := by
      rw [Quintic.d2Orig, Quintic.coeffs_da]
      simp only [Quintic.d2OrigTable, Matrix.cons_val_zero, Matrix.cons_val_one, Matrix.cons_val]
      ring
    rw [e]
    have r1 : |(1 - t) * (2 - 5 * t)| ≤ 2 := by rw [abs_le]; constructor <;> nlinarith [sq_nonneg (t - 0.7)]
    have r2 : |t * (1 - t) * ((1 - t) * (2 - 5 * t))| ≤ 1 / 4 * 2 := by
      rw [abs_mul, abs_of_nonneg s0]
      exact mul_le_mul s1 r1 (abs_nonneg _) (by norm_num)
    rw [abs_div, abs_two]
    linarith
  · have e : (Quintic.d2Orig t).d2a = 1 - t * (9 - 18 * t + 10 * t ^ 2) := by
      rw [Quintic.d2Orig, Quintic.coeffs_d2a]
      simp only [Quintic.d2OrigTable, Matrix.cons_val_zero, Matrix.cons_val_one, Matrix.cons_val]
      ring
    rw [e, abs_le]
    constructor
    · have k : 0 ≤ (1 - t) * (t - 1 / 3) ^ 2 := mul_nonneg (by linarith) (sq_nonneg _)
      nlinarith [sq_nonneg (t - 1 / 3)]
    · have k : 0 ≤ t * (9 - 18 * t + 10 * t ^ 2) := mul_nonneg h0 (by nlinarith [sq_nonneg (t - 0.9)])
      linarith

theorem d2Dest_le {t : ℝ} (h0 : 0 ≤ t) (h1 : t ≤ 1) :
    |(Quintic.d2Dest t).a| ≤ 0.05 ∧ |(Quintic.d2Dest t).da| ≤ 0.3 ∧ |(Quintic.d2Dest t).d2a| ≤ 1 := by
  obtain ⟨k0, k1, k2⟩ := d2Orig_le (t := 1 - t) (by linarith) (by linarith)
  have e0 : (Quintic.d2Dest t).a = (Quintic.d2Orig (1 - t)).a := by
    rw [Quintic.d2Orig, Quintic.d2Dest, Quintic.coeffs_a, Quintic.coeffs_a]
    simp only [Quintic.d2OrigTable, Quintic.d2DestTable, Matrix.cons_val_zero, Matrix.cons_val_one, Matrix.cons_val]
    ring
  have e1 : (Quintic.d2Dest t).da = -(Quintic.d2Orig (1 - t)).da := by
    rw [Quintic.d2Orig, Quintic.d2Dest, Quintic.coeffs_da, Quintic.coeffs_da]
    simp only [Quintic.d2OrigTable, Quintic.d2DestTable, Matrix.cons_val_zero, Matrix.cons_val_one, Matrix.cons_val]
    ring
  have e2 : (Quintic.d2Dest t).d2a = (Quintic.d2Orig (1 - t)).d2a := by
    rw [Quintic.d2Orig, Quintic.d2Dest, Quintic.coeffs_d2a, Quintic.coeffs_d2a]
    simp only [Quintic.d2OrigTable, Quintic.d2DestTable, Matrix.cons_val_zero, Matrix.cons_val_one, Matrix.cons_val]
    ring
  rw [e0, e1, e2, abs_neg]
  exact ⟨k0, k1, k2⟩

/-- The coefficients of the five terms. -/
theorem tables_near (C : Ctx ε B) {t a da d2a : ℚ} (h0 : 0 ≤ t) (h1 : t ≤ 1) :
    (Coeffs destOrigTable t a da d2a → CNear ε a da d2a (Quintic.destFromOrig t) 37.2 144 432 1 1.9 6) ∧
    (Coeffs dOrigTable t a da d2a → CNear ε a da d2a (Quintic.dOrig t) 21.6 79.2 230.4 0.3 1 4) ∧
    (Coeffs dDestTable t a da d2a → CNear ε a da d2a (Quintic.dDest t) 16.8 66 201.6 0.3 1 4) ∧
    (Coeffs d2OrigTable t a da d2a → CNear ε a da d2a (Quintic.d2Orig t) 4.8 16.8 45.6 0.05 0.3 1) ∧
    (Coeffs d2DestTable t a da d2a → CNear ε a da d2a (Quintic.d2Dest t) 2.4 9.6 30 0.05 0.3 1) := by
  have t0 : (0 : ℝ) ≤ t := by exact_mod_cast h0
  have t1 : (t : ℝ) ≤ 1 := by exact_mod_cast h1
  refine ⟨fun h => ?_, fun h => ?_, fun h => ?_, fun h => ?_, fun h => ?_⟩
  · obtain ⟨k0, k1, k2⟩ := destOrig_le t0 t1
    have := coeffs_near C h0 h1 h (c' := Quintic.destOrigTable) (fun i => by fin_cases i <;> simp [destOrigTable, Quintic.destOrigTable])
      (S0 := 31) (S1 := 120) (S2 := 360)
      (by simp [Quintic.destOrigTable]; norm_num) (by simp [Quintic.destOrigTable]; norm_num) (by simp [Quintic.destOrigTable]; norm_num)
      (by norm_num) (by norm_num) (by norm_num) k0 k1 k2
    norm_num at this ⊢
    exact this
  · obtain ⟨k0, k1, k2⟩ := dOrig_le t0 t1
    have := coeffs_near C h0 h1 h (c' := Quintic.dOrigTable) (fun i => by fin_cases i <;> simp [dOrigTable, Quintic.dOrigTable])
      (S0 := 18) (S1 := 66) (S2 := 192)
      (by simp [Quintic.dOrigTable]; norm_num) (by simp [Quintic.dOrigTable]; norm_num) (by simp [Quintic.dOrigTable]; norm_num)
      (by norm_num) (by norm_num) (by norm_num) k0 k1 k2
    norm_num at this ⊢
    exact this
  · obtain ⟨k0, k1, k2⟩ := dDest_le t0 t1
    have := coeffs_near C h0 h1 h (c' := Quintic.dDestTable) (fun i => by fin_cases i <;> simp [dDestTable, Quintic.dDestTable])
      (S0 := 14) (S1 := 55) (S2 := 168)
      (by simp [Quintic.dDestTable]; norm_num) (by simp [Quintic.dDestTable]; norm_num) (by simp [Quintic.dDestTable]; norm_num)
      (by norm_num) (by norm_num) (by norm_num) k0 k1 k2
    norm_num at this ⊢
    exact this
  · obtain ⟨k0, k1, k2⟩ := d2Orig_le t0 t1
    have := coeffs_near C h0 h1 h (c' := Quintic.d2OrigTable) (fun i => by fin_cases i <;> simp [d2OrigTable, Quintic.d2OrigTable] <;> norm_num)
      (S0 := 4) (S1 := 14) (S2 := 38)
      (by simp [Quintic.d2OrigTable]; norm_num) (by simp [Quintic.d2OrigTable]; norm_num) (by simp [Quintic.d2OrigTable]; norm_num)
      (by norm_num) (by norm_num) (by norm_num) k0 k1 k2
    norm_num at this ⊢
    exact this
  · obtain ⟨k0, k1, k2⟩ := d2Dest_le t0 t1
    have := coeffs_near C h0 h1 h (c' := Quintic.d2DestTable) (fun i => by fin_cases i <;> simp [d2DestTable, Quintic.d2DestTable] <;> norm_num)
      (S0 := 2) (S1 := 8) (S2 := 25)
      (by simp [Quintic.d2DestTable]; norm_num) (by simp [Quintic.d2DestTable]; norm_num) (by simp [Quintic.d2DestTable]; norm_num)
      (by norm_num) (by norm_num) (by norm_num) k0 k1 k2
    norm_num at this ⊢
    exact this

end Verif.TCurveDouble
