import Verif.Proofs.SO3Construct
import Mathlib.Analysis.SpecialFunctions.Trigonometric.Bounds
import Mathlib.Analysis.Complex.Trigonometric
/-! # When a product of turns about x, y and z is the exponential of the vector of its angles -/
namespace Verif.Euler
open Matrix SO3

theorem tan_le {x : ℝ} (h0 : 0 ≤ x) (h1 : x ≤ 1) : Real.tan x ≤ x + x ^ 3 := by
  have hx : |x| ≤ 1 := by rwa [abs_of_nonneg h0]
  have s := (abs_le.mp (Real.sin_bound hx)).2
  have c := (abs_le.mp (Real.cos_bound hx)).1
  rw [abs_of_nonneg h0] at s c
  have cp : 0 < Real.cos x := Real.cos_pos_of_le_one hx
  rw [Real.tan_eq_sin_div_cos, div_le_iff₀ cp]
  have p3 : 0 ≤ x ^ 3 := by positivity
  have q4 : x ^ 4 ≤ x ^ 3 := pow_le_pow_of_le_one h0 h1 (by norm_num)
  have q5 : x ^ 5 ≤ x ^ 3 := pow_le_pow_of_le_one h0 h1 (by norm_num)
  have q7 : x ^ 7 ≤ x ^ 3 := pow_le_pow_of_le_one h0 h1 (by norm_num)
  have k := mul_le_mul_of_nonneg_left c (show 0 ≤ x + x ^ 3 by positivity)
  nlinarith

/-- The first pair of equations cannot hold for positive angles. -/
theorem no_pos {a b c ta tb tc : ℝ} (a0 : 0 < a) (b0 : 0 < b) (c0 : 0 < c) (ha : a ≤ ta) (hb : b ≤ tb) (hc : c ≤ tc) (hb1 : b ≤ 1 → tb ≤ b + b ^ 3)
    (e1 : (ta + tb * tc) * b = (tb - ta * tc) * a) (e2 : (tb - ta * tc) * c = (tc + ta * tb) * b) : False := by
  have tcp : 0 < tc := by linarith
  have tap : 0 < ta := by linarith
  have f1 : tb * (a - b * tc) = ta * (b + a * tc) := by linear_combination -e1
  have f2 : tb * (c - b * ta) = tc * (b + c * ta) := by linear_combination e2
  have g1 : 0 < a - b * tc := by
    by_contra h
    rw [not_lt] at h
    have h1 : tb * (a - b * tc) ≤ 0 := mul_nonpos_of_nonneg_of_nonpos (by linarith) h
    have h2 : 0 < ta * (b + a * tc) := by positivity
    linarith
  have g2 : 0 < c - b * ta := by
    by_contra h
    rw [not_lt] at h
    have h1 : tb * (c - b * ta) ≤ 0 := mul_nonpos_of_nonneg_of_nonpos (by linarith) h
    have h2 : 0 < tc * (b + c * ta) := by positivity
    linarith
  have k1 : b * c < a := by nlinarith
  have k2 : b * a < c := by nlinarith
  have b1 : b < 1 := by
    by_contra h
    rw [not_lt] at h
    nlinarith
  have hb2 := hb1 b1.le
  have l1 : a * (b + a * tc) ≤ (b + b ^ 3) * (a - b * tc) := by
    have h1 : a * (b + a * tc) ≤ ta * (b + a * tc) := mul_le_mul_of_nonneg_right ha (by positivity)
    have h2 : tb * (a - b * tc) ≤ (b + b ^ 3) * (a - b * tc) := mul_le_mul_of_nonneg_right hb2 g1.le
    linarith
  have l2 : c * (b + c * ta) ≤ (b + b ^ 3) * (c - b * ta) := by
    have h1 : c * (b + c * ta) ≤ tc * (b + c * ta) := mul_le_mul_of_nonneg_right hc (by positivity)
    have h2 : tb * (c - b * ta) ≤ (b + b ^ 3) * (c - b * ta) := mul_le_mul_of_nonneg_right hb2 g2.le
    linarith
  have m1 : tc * b ^ 2 ≤ (a * b) * b ^ 2 := by
    have : 0 ≤ tc * (a ^ 2 + b ^ 4) := by positivity
    nlinarith
  have m2 : ta * b ^ 2 ≤ (c * b) * b ^ 2 := by
    have : 0 ≤ ta * (c ^ 2 + b ^ 4) := by positivity
    nlinarith
  have bp : 0 < b ^ 2 := by positivity
  have n1 := le_of_mul_le_mul_right m1 bp
  have n2 := le_of_mul_le_mul_right m2 bp
  nlinarith

/-- Nor if the middle angle is negative and the others are positive (`b` is its negative here). -/
theorem no_neg {a b c ta tb tc : ℝ} (a0 : 0 < a) (b0 : 0 < b) (c0 : 0 < c) (ha : a ≤ ta) (hb : b ≤ tb) (hc : c ≤ tc) (ha1 : a ≤ 1 → ta ≤ a + a ^ 3)
    (hc1 : c ≤ 1 → tc ≤ c + c ^ 3) (e1 : (ta - tb * tc) * b = (tb + ta * tc) * a) (e2 : (tb + ta * tc) * c = (tc - ta * tb) * b) : False := by
  have f1 : ta * (b - a * tc) = tb * (a + b * tc) := by linear_combination e1
  have f2 : tc * (b - c * ta) = tb * (c + b * ta) := by linear_combination -e2
  have tcp : 0 < tc := by linarith
  have tap : 0 < ta := by linarith
  have tbp : 0 < tb := by linarith
  have g1 : 0 < b - a * tc := by
    by_contra h
    rw [not_lt] at h
    have h1 : ta * (b - a * tc) ≤ 0 := mul_nonpos_of_nonneg_of_nonpos tap.le h
    have h2 : 0 < tb * (a + b * tc) := by positivity
    linarith
  have g2 : 0 < b - c * ta := by
    by_contra h
    rw [not_lt] at h
    have h1 : tc * (b - c * ta) ≤ 0 := mul_nonpos_of_nonneg_of_nonpos tcp.le h
    have h2 : 0 < tb * (c + b * ta) := by positivity
    linarith
  have s1 : b * tc < ta := by
    have h1 : b * (a + b * tc) ≤ tb * (a + b * tc) := mul_le_mul_of_nonneg_right hb (by positivity)
    have h2 : 0 < ta * (a * tc) := by positivity
    have h3 : b * (b * tc) < b * ta := by nlinarith
    exact lt_of_mul_lt_mul_left h3 b0.le
  have s2 : b * ta < tc := by
    have h1 : b * (c + b * ta) ≤ tb * (c + b * ta) := mul_le_mul_of_nonneg_right hb (by positivity)
    have h2 : 0 < tc * (c * ta) := by positivity
    have h3 : b * (b * ta) < b * tc := by nlinarith
    exact lt_of_mul_lt_mul_left h3 b0.le
  have b1 : b < 1 := by
    by_contra h
    rw [not_lt] at h
    nlinarith
  have a1 : a < 1 := by
    have h1 : a * (b * ta) < b := by nlinarith
    have h2 : b * (a * ta) < b * 1 := by nlinarith
    have h3 := lt_of_mul_lt_mul_left h2 b0.le
    nlinarith
  have c1 : c < 1 := by
    have h1 : c * (b * tc) < b := by nlinarith
    have h2 : b * (c * tc) < b * 1 := by nlinarith
    have h3 := lt_of_mul_lt_mul_left h2 b0.le
    nlinarith
  have l1 : b * (a + b * tc) ≤ (a + a ^ 3) * (b - a * tc) := by
    have h1 : b * (a + b * tc) ≤ tb * (a + b * tc) := mul_le_mul_of_nonneg_right hb (by positivity)
    have h2 : ta * (b - a * tc) ≤ (a + a ^ 3) * (b - a * tc) := mul_le_mul_of_nonneg_right (ha1 a1.le) g1.le
    linarith
  have l2 : b * (c + b * ta) ≤ (c + c ^ 3) * (b - c * ta) := by
    have h1 : b * (c + b * ta) ≤ tb * (c + b * ta) := mul_le_mul_of_nonneg_right hb (by positivity)
    have h2 : tc * (b - c * ta) ≤ (c + c ^ 3) * (b - c * ta) := mul_le_mul_of_nonneg_right (hc1 c1.le) g2.le
    linarith
  have m1 : tc * a ^ 2 ≤ (a * b) * a ^ 2 := by
    have : 0 ≤ tc * (b ^ 2 + a ^ 4) := by positivity
    nlinarith
  have m2 : ta * c ^ 2 ≤ (c * b) * c ^ 2 := by
    have : 0 ≤ ta * (b ^ 2 + c ^ 4) := by positivity
    nlinarith
  have n1 := le_of_mul_le_mul_right m1 (show 0 < a ^ 2 by positivity)
  have n2 := le_of_mul_le_mul_right m2 (show 0 < c ^ 2 by positivity)
  nlinarith

/-- The equations that say that the axis of the product is along the vector of the angles (`a`, `b`, `c` are half the angles) have no solution less than half a
turn with no angle zero. -/
theorem no_solution {a b c : ℝ} (ha : |a| < Real.pi / 2) (hb : |b| < Real.pi / 2) (hc : |c| < Real.pi / 2) (a0 : a ≠ 0) (b0 : b ≠ 0) (c0 : c ≠ 0)
    (e1 : (Real.tan a + Real.tan b * Real.tan c) * b = (Real.tan b - Real.tan a * Real.tan c) * a)
    (e2 : (Real.tan b - Real.tan a * Real.tan c) * c = (Real.tan c + Real.tan a * Real.tan b) * b) : False := by
  have key : ∀ a b c : ℝ, |a| < Real.pi / 2 → |b| < Real.pi / 2 → |c| < Real.pi / 2 → 0 < a → b ≠ 0 → 0 < c →
      (Real.tan a + Real.tan b * Real.tan c) * b = (Real.tan b - Real.tan a * Real.tan c) * a →
      (Real.tan b - Real.tan a * Real.tan c) * c = (Real.tan c + Real.tan a * Real.tan b) * b → False := by
    intro a b c ha hb hc a0 b0 c0 e1 e2
    rw [abs_lt] at ha hb hc
    have la := Real.le_tan a0.le ha.2
    have lc := Real.le_tan c0.le hc.2
    rcases lt_or_gt_of_ne b0 with h | h
    · have lb := Real.le_tan (x := -b) (by linarith) (by linarith)
      refine no_neg (b := -b) (tb := Real.tan (-b)) a0 (by linarith) c0 la lb lc (fun h => tan_le a0.le h) (fun h => tan_le c0.le h) ?_ ?_
      · rw [Real.tan_neg]
        linear_combination -e1
      · rw [Real.tan_neg]
        linear_combination -e2
    · exact no_pos a0 h c0 la (Real.le_tan h.le hb.2) lc (fun h' => tan_le h.le h') e1 e2
  rcases lt_or_gt_of_ne a0 with pa | pa <;> rcases lt_or_gt_of_ne c0 with pc | pc
  · refine key (-a) b (-c) (by rwa [abs_neg]) hb (by rwa [abs_neg]) (by linarith) b0 (by linarith) ?_ ?_ <;> rw [Real.tan_neg, Real.tan_neg]
    · linear_combination -e1
    · linear_combination -e2
  · refine key (-a) (-b) c (by rwa [abs_neg]) (by rwa [abs_neg]) hc (by linarith) (neg_ne_zero.mpr b0) pc ?_ ?_ <;> rw [Real.tan_neg, Real.tan_neg]
    · linear_combination e1
    · linear_combination -e2
  · refine key a (-b) (-c) ha (by rwa [abs_neg]) (by rwa [abs_neg]) pa (neg_ne_zero.mpr b0) (by linarith) ?_ ?_ <;> rw [Real.tan_neg, Real.tan_neg]
    · linear_combination -e1
    · linear_combination e2
  · exact key a b c ha hb hc pa b0 pc e1 e2

/-- If the product of the turns fixes a vector, the vector is along the axis of the product, which is written with half angles. -/
theorem axis_of_fixed {ca sa cb sb cc sc w0 w1 w2 : ℝ} (na : ca ^ 2 + sa ^ 2 = 1) (nb : cb ^ 2 + sb ^ 2 = 1) (nc : cc ^ 2 + sc ^ 2 = 1)
    (h0 : (cb ^ 2 - sb ^ 2) * ((cc ^ 2 - sc ^ 2) * w0 - 2 * sc * cc * w1) + 2 * sb * cb * w2 = w0)
    (h1 : (ca ^ 2 - sa ^ 2) * (2 * sc * cc * w0 + (cc ^ 2 - sc ^ 2) * w1) -
      2 * sa * ca * (-(2 * sb * cb) * ((cc ^ 2 - sc ^ 2) * w0 - 2 * sc * cc * w1) + (cb ^ 2 - sb ^ 2) * w2) = w1)
    (h2 : 2 * sa * ca * (2 * sc * cc * w0 + (cc ^ 2 - sc ^ 2) * w1) +
      (ca ^ 2 - sa ^ 2) * (-(2 * sb * cb) * ((cc ^ 2 - sc ^ 2) * w0 - 2 * sc * cc * w1) + (cb ^ 2 - sb ^ 2) * w2) = w2) :
    (sa * cb * cc + ca * sb * sc) * w1 = (ca * sb * cc - sa * cb * sc) * w0 ∧ (ca * sb * cc - sa * cb * sc) * w2 = (ca * cb * sc + sa * sb * cc) * w1 := by
  have H0 : (ca ^ 2 + sa ^ 2) * ((cb ^ 2 - sb ^ 2) * ((cc ^ 2 - sc ^ 2) * w0 - 2 * sc * cc * w1) + 2 * sb * cb * (cc ^ 2 + sc ^ 2) * w2) =
      (ca ^ 2 + sa ^ 2) * (cb ^ 2 + sb ^ 2) * (cc ^ 2 + sc ^ 2) * w0 := by
    rw [na, nb, nc]; linear_combination h0
  have H1 : (ca ^ 2 - sa ^ 2) * (cb ^ 2 + sb ^ 2) * (2 * sc * cc * w0 + (cc ^ 2 - sc ^ 2) * w1) -
      2 * sa * ca * (-(2 * sb * cb) * ((cc ^ 2 - sc ^ 2) * w0 - 2 * sc * cc * w1) + (cb ^ 2 - sb ^ 2) * (cc ^ 2 + sc ^ 2) * w2) =
      (ca ^ 2 + sa ^ 2) * (cb ^ 2 + sb ^ 2) * (cc ^ 2 + sc ^ 2) * w1 := by
    rw [na, nb, nc]; linear_combination h1
  have H2 : 2 * sa * ca * (cb ^ 2 + sb ^ 2) * (2 * sc * cc * w0 + (cc ^ 2 - sc ^ 2) * w1) +
      (ca ^ 2 - sa ^ 2) * (-(2 * sb * cb) * ((cc ^ 2 - sc ^ 2) * w0 - 2 * sc * cc * w1) + (cb ^ 2 - sb ^ 2) * (cc ^ 2 + sc ^ 2) * w2) =
      (ca ^ 2 + sa ^ 2) * (cb ^ 2 + sb ^ 2) * (cc ^ 2 + sc ^ 2) * w2 := by
    rw [na, nb, nc]; linear_combination h2
  have N : (ca ^ 2 + sa ^ 2) * (cb ^ 2 + sb ^ 2) * (cc ^ 2 + sc ^ 2) = 1 := by rw [na, nb, nc]; norm_num
  generalize hq0 : ca * cb * cc - sa * sb * sc = q0 at *
  have u2 : 2 * ((ca ^ 2 + sa ^ 2) * (cb ^ 2 + sb ^ 2) * (cc ^ 2 + sc ^ 2)) *
      ((sa * cb * cc + ca * sb * sc) * w1 - (ca * sb * cc - sa * cb * sc) * w0) = 0 := by
    subst hq0
    linear_combination (ca * cb * cc - sa * sb * sc) * H2 - (sa * cb * cc + ca * sb * sc) * H1 + (ca * sb * cc - sa * cb * sc) * H0
  have u0 : 2 * ((ca ^ 2 + sa ^ 2) * (cb ^ 2 + sb ^ 2) * (cc ^ 2 + sc ^ 2)) *
      ((ca * sb * cc - sa * cb * sc) * w2 - (ca * cb * sc + sa * sb * cc) * w1) = 0 := by
    subst hq0
    linear_combination (ca * cb * cc - sa * sb * sc) * H0 - (ca * sb * cc - sa * cb * sc) * H2 + (ca * cb * sc + sa * sb * cc) * H1
  rw [N] at u2 u0
  exact ⟨by linarith, by linarith⟩

theorem exp_mulVec_self (w : V3) : SO3.exp w *ᵥ w = w := by
  by_cases h : w = 0
  · rw [h, mulVec_zero]
  · have hk : normalized w = (eucNorm w)⁻¹ • w := normalized_of_ne h
    have hp := eucNorm_pos h
    have hq : w ⬝ᵥ w = eucNorm w ^ 2 := (eucNorm_sq w).symm
    rw [SO3.exp, angleAxisMatrix_eq, hk]
    simp only [add_mulVec, smul_mulVec, one_mulVec, vecMulVec_mulVec, op_smul_eq_smul, crossMatrix_mulVec, map_smul, LinearMap.smul_apply, cross_self, smul_zero,
      smul_dotProduct, smul_eq_mul, hq, add_zero, smul_smul]
    rw [← add_smul]
    have : Real.cos (eucNorm w) + (1 - Real.cos (eucNorm w)) * ((eucNorm w)⁻¹ * eucNorm w ^ 2 * (eucNorm w)⁻¹) = 1 := by
      field_simp
      ring
    rw [this, one_smul]

/-- The product of the turns is the exponential of the vector of their angles only if an angle is zero, for angles of less than half a turn. -/
theorem zero_of_eq {f t s : ℝ} (hf : |f| < Real.pi) (ht : |t| < Real.pi) (hs : |s| < Real.pi)
    (h : angleAxisMatrix f ![1, 0, 0] * angleAxisMatrix t ![0, 1, 0] * angleAxisMatrix s ![0, 0, 1] = SO3.exp ![f, t, s]) : f = 0 ∨ t = 0 ∨ s = 0 := by
  by_contra hn
  rw [not_or, not_or] at hn
  obtain ⟨f0, t0, s0⟩ := hn
  have fix : SO3.exp ![f, t, s] *ᵥ ![f, t, s] = ![f, t, s] := exp_mulVec_self _
  rw [← h] at fix
  have half : ∀ x : ℝ, |x| < Real.pi → |x / 2| < Real.pi / 2 ∧ 0 < Real.cos (x / 2) ∧ Real.cos x = Real.cos (x / 2) ^ 2 - Real.sin (x / 2) ^ 2 ∧
      Real.sin x = 2 * Real.sin (x / 2) * Real.cos (x / 2) := by
    intro x hx
    have hx' := abs_lt.mp hx
    refine ⟨by rw [abs_div, abs_two]; linarith, Real.cos_pos_of_mem_Ioo ⟨by linarith, by linarith⟩, ?_, ?_⟩
    · rw [← Real.cos_two_mul']
      congr 1
      ring
    · rw [← Real.sin_two_mul]
      congr 1
      ring
  obtain ⟨f1, f2, f3, f4⟩ := half f hf
  obtain ⟨t1, t2, t3, t4⟩ := half t ht
  obtain ⟨s1, s2, s3, s4⟩ := half s hs
  have F0 := congrFun fix 0
  have F1 := congrFun fix 1
  have F2 := congrFun fix 2
  simp only [angleAxisMatrix, mulVec, dotProduct, mul_apply, Fin.sum_univ_three, of_apply, cons_val_zero, cons_val_one, cons_val, Pi.smul_apply, smul_eq_mul, f3, f4, t3,
    t4, s3, s4] at F0 F1 F2
  have sq : ∀ x : ℝ, Real.cos x ^ 2 + Real.sin x ^ 2 = 1 := Real.cos_sq_add_sin_sq
  obtain ⟨g1, g2⟩ := axis_of_fixed (w0 := f) (w1 := t) (w2 := s) (sq (f / 2)) (sq (t / 2)) (sq (s / 2)) (by linear_combination F0) (by linear_combination F1)
    (by linear_combination F2)
  refine no_solution f1 t1 s1 (by simpa using f0) (by simpa using t0) (by simpa using s0) ?_ ?_
  · rw [Real.tan_eq_sin_div_cos, Real.tan_eq_sin_div_cos, Real.tan_eq_sin_div_cos]
    field_simp
    linear_combination g1
  · rw [Real.tan_eq_sin_div_cos, Real.tan_eq_sin_div_cos, Real.tan_eq_sin_div_cos]
    field_simp
    linear_combination g2

end Verif.Euler
