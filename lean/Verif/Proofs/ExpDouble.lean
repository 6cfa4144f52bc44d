import Verif.Model.ExpDouble
import Verif.Proofs.TransformDouble
import Verif.Proofs.Shadow
/-! # Rounding errors of the exponential maps -/
namespace Verif.ExpDouble
open SampleIntervalDouble TransformDouble Binary64 Verif.Spec Matrix SO3

variable {ι : Type} [DecidableEq ι]

/-- Forward error of an inner product, with a sharper term for underflow. -/
theorem evaluates_error {x y : ι → ℚ} {s : Finset ι} {r : ℚ} (h : Evaluates x y s r) :
    |r - ∑ i ∈ s, x i * y i| ≤ ((1 + u) ^ s.card - 1) * (∑ i ∈ s, |x i * y i|) + (2 * s.card - 1) * (1 + u) ^ s.card * η := by
  have hu := u_pos
  have hη := η_pos
  induction h with
  | product i =>
    have := round64_error (x i * y i)
    simp only [Finset.sum_singleton, Finset.card_singleton, pow_one]
    change _ ≤ |x i * y i| * u + η at this
    have := mul_pos hu hη
    push_cast
    linarith
  | @add s t a b h1 h2 hd ih1 ih2 =>
    have c1 := h1.card_pos
    have c2 := h2.card_pos
    rw [Finset.sum_union hd, Finset.sum_union hd, Finset.card_union_of_disjoint hd]
    have hr := round64_error (a + b)
    change _ ≤ |a + b| * u + η at hr
    set S := ∑ i ∈ s, x i * y i
    set T := ∑ i ∈ t, x i * y i
    set A := ∑ i ∈ s, |x i * y i|
    set C := ∑ i ∈ t, |x i * y i|
    have hS : |S| ≤ A := Finset.abs_sum_le_sum_abs _ _
    have hT : |T| ≤ C := Finset.abs_sum_le_sum_abs _ _
    have hA : 0 ≤ A := (abs_nonneg _).trans hS
    have hC : 0 ≤ C := (abs_nonneg _).trans hT
    have hab : |a + b| ≤ |a - S| + |b - T| + (A + C) := by
      have e : a + b = (a - S) + (b - T) + (S + T) := by ring
      rw [e]
      refine (abs_add_le _ _).trans (add_le_add (abs_add_le _ _) ((abs_add_le _ _).trans (add_le_add hS hT)))
    have htot : |round64 (a + b) - (S + T)| ≤ |round64 (a + b) - (a + b)| + (|a - S| + |b - T|) := by
      have e : round64 (a + b) - (S + T) = (round64 (a + b) - (a + b)) + ((a - S) + (b - T)) := by ring
      rw [e]
      exact (abs_add_le _ _).trans (add_le_add le_rfl (abs_add_le _ _))
    have p1 : (1 + u) * (1 + u) ^ s.card ≤ (1 + u) ^ (s.card + t.card) := by
      rw [← pow_succ']; exact pow_le_pow_right₀ (by linarith) (by omega)
    have p2 : (1 + u) * (1 + u) ^ t.card ≤ (1 + u) ^ (s.card + t.card) := by
      rw [← pow_succ']; exact pow_le_pow_right₀ (by linarith) (by omega)
    have p0 : 1 ≤ (1 + u) ^ (s.card + t.card) := one_le_pow₀ (by linarith)
    have d1 : (1 : ℚ) ≤ s.card := by exact_mod_cast c1
    have d2 : (1 : ℚ) ≤ t.card := by exact_mod_cast c2
    have q1 := mul_le_mul_of_nonneg_right p1 hA
    have q2 := mul_le_mul_of_nonneg_right p2 hC
    have q3 := mul_le_mul_of_nonneg_right p0 hη.le
    have q4 := mul_le_mul_of_nonneg_right hab hu.le
    have q5 := mul_le_mul_of_nonneg_left ih1 (by linarith : (0 : ℚ) ≤ 1 + u)
    have q6 := mul_le_mul_of_nonneg_left ih2 (by linarith : (0 : ℚ) ≤ 1 + u)
    have q7 := mul_le_mul_of_nonneg_right (mul_le_mul_of_nonneg_left p1 (by linarith : (0 : ℚ) ≤ 2 * s.card - 1)) hη.le
    have q8 := mul_le_mul_of_nonneg_right (mul_le_mul_of_nonneg_left p2 (by linarith : (0 : ℚ) ≤ 2 * t.card - 1)) hη.le
    push_cast
    generalize (1 + u) ^ (s.card + t.card) = P at *
    generalize (1 + u) ^ s.card = P1 at *
    generalize (1 + u) ^ t.card = P2 at *
    nlinarith
  | @fused s a i h1 hi ih =>
    have c1 := h1.card_pos
    rw [Finset.sum_insert hi, Finset.sum_insert hi, Finset.card_insert_of_notMem hi]
    have hr := round64_error (x i * y i + a)
    change _ ≤ |x i * y i + a| * u + η at hr
    set S := ∑ i ∈ s, x i * y i
    set A := ∑ i ∈ s, |x i * y i|
    set p := x i * y i
    have hS : |S| ≤ A := Finset.abs_sum_le_sum_abs _ _
    have hA : 0 ≤ A := (abs_nonneg _).trans hS
    have hab : |p + a| ≤ |a - S| + (|p| + A) := by
      have e : p + a = (a - S) + (p + S) := by ring
      rw [e]
      exact (abs_add_le _ _).trans (add_le_add le_rfl ((abs_add_le _ _).trans (add_le_add le_rfl hS)))
    have htot : |round64 (p + a) - (p + S)| ≤ |round64 (p + a) - (p + a)| + |a - S| := by
      have e : round64 (p + a) - (p + S) = (round64 (p + a) - (p + a)) + (a - S) := by ring
      rw [e]; exact abs_add_le _ _
    have p1 : (1 + u) * (1 + u) ^ s.card = (1 + u) ^ (s.card + 1) := by rw [← pow_succ']
    have p2 : (1 + u) ≤ (1 + u) ^ (s.card + 1) := le_self_pow₀ (by linarith) (by omega)
    have d1 : (1 : ℚ) ≤ s.card := by exact_mod_cast c1
    have q2 := mul_le_mul_of_nonneg_right p2 (abs_nonneg p)
    have q3 := mul_le_mul_of_nonneg_right p2 hη.le
    have q4 := mul_le_mul_of_nonneg_right hab hu.le
    have q5 := mul_le_mul_of_nonneg_left ih (by linarith : (0 : ℚ) ≤ 1 + u)
    rw [← p1] at q2 q3 ⊢
    push_cast
    generalize (1 + u) ^ s.card = P1 at *
    have q6 : 0 ≤ u * η := mul_nonneg hu.le hη.le
    nlinarith

theorem rnd (x : ℚ) : |((round64 x : ℚ) : ℝ) - x| ≤ U * |(x : ℝ)| + H := by
  have h : |round64 x - x| ≤ |x| * u + η := round64_error x
  have e : ((|x| * u + η : ℚ) : ℝ) = U * |(x : ℝ)| + H := by
    rw [Rat.cast_add, Rat.cast_mul, u_cast, η_cast, Rat.cast_abs, mul_comm]
  rw [← e, ← Rat.cast_sub, ← Rat.cast_abs]
  exact Rat.cast_le.mpr h

theorem eval2 {x0 x1 y0 y1 r : ℚ} (h : Evaluates ![x0, x1] ![y0, y1] Finset.univ r) :
    |(r : ℝ) - (x0 * y0 + x1 * y1)| ≤ 2.001 * U * (|(x0 : ℝ) * y0| + |(x1 : ℝ) * y1|) + 4 * H := by
  have h1 := evaluates_error h
  simp only [Fin.sum_univ_two, Matrix.cons_val_zero, Matrix.cons_val_one, Finset.card_univ, Fintype.card_fin] at h1
  have h2 : ((|r - (x0 * y0 + x1 * y1)| : ℚ) : ℝ) ≤ (((1 + u) ^ 2 - 1) * (|x0 * y0| + |x1 * y1|) + (2 * (2 : ℕ) - 1) * (1 + u) ^ 2 * η : ℚ) := by
    exact_mod_cast h1
  push_cast at h2
  rw [u_cast, η_cast] at h2
  have hU := U_pos; have hU1 := U_small; have hH := H_pos
  have p : (1 + U) ^ 2 - 1 ≤ 2.001 * U := by nlinarith
  have q := mul_le_mul_of_nonneg_right p (add_nonneg (abs_nonneg ((x0 : ℝ) * y0)) (abs_nonneg ((x1 : ℝ) * y1)))
  have q2 : (2 * 2 - 1) * (1 + U) ^ 2 * H ≤ 4 * H := by nlinarith
  linarith

theorem eval3 {x0 x1 x2 y0 y1 y2 r : ℚ} (h : Evaluates ![x0, x1, x2] ![y0, y1, y2] Finset.univ r) :
    |(r : ℝ) - (x0 * y0 + x1 * y1 + x2 * y2)| ≤ 3.001 * U * (|(x0 : ℝ) * y0| + |(x1 : ℝ) * y1| + |(x2 : ℝ) * y2|) + 6 * H := by
  have h1 := evaluates_error h
  simp only [Fin.sum_univ_three, Matrix.cons_val_zero, Matrix.cons_val_one, Matrix.cons_val, Finset.card_univ, Fintype.card_fin] at h1
  have h2 : ((|r - (x0 * y0 + x1 * y1 + x2 * y2)| : ℚ) : ℝ) ≤
      (((1 + u) ^ 3 - 1) * (|x0 * y0| + |x1 * y1| + |x2 * y2|) + (2 * (3 : ℕ) - 1) * (1 + u) ^ 3 * η : ℚ) := by
    exact_mod_cast h1
  push_cast at h2
  rw [u_cast, η_cast] at h2
  have hU := U_pos; have hU1 := U_small; have hH := H_pos
  have p := pow3
  have q := mul_le_mul_of_nonneg_right p (add_nonneg (add_nonneg (abs_nonneg ((x0 : ℝ) * y0)) (abs_nonneg ((x1 : ℝ) * y1))) (abs_nonneg ((x2 : ℝ) * y2)))
  have q2 : (2 * 3 - 1) * (1 + U) ^ 3 * H ≤ 6 * H := by nlinarith
  linarith

theorem eval3_vec {x y : Fin 3 → ℚ} {r : ℚ} (h : Evaluates x y Finset.univ r) :
    |(r : ℝ) - realVec x ⬝ᵥ realVec y| ≤ 3.001 * U * (eucNorm (realVec x) * eucNorm (realVec y)) + 6 * H := by
  have ex : x = ![x 0, x 1, x 2] := by ext i; fin_cases i <;> rfl
  have ey : y = ![y 0, y 1, y 2] := by ext i; fin_cases i <;> rfl
  rw [ex, ey] at h
  have h1 := eval3 h
  have h2 := abs_sum_le (realVec x) (realVec y)
  simp only [Fin.sum_univ_three] at h2
  have e : realVec x ⬝ᵥ realVec y = (x 0 : ℝ) * y 0 + x 1 * y 1 + x 2 * y 2 := by
    simp [dotProduct, Fin.sum_univ_three, realVec]
  rw [e]
  refine h1.trans (add_le_add (mul_le_mul_of_nonneg_left h2 ?_) le_rfl)
  have := U_pos; positivity

theorem prod_err {a A b B ea eb Ma MB : ℝ} (ha : |a - A| ≤ ea) (hb : |b - B| ≤ eb) (hM : |a| ≤ Ma) (hB : |B| ≤ MB) :
    |a * b - A * B| ≤ Ma * eb + ea * MB := by
  have e : a * b - A * B = a * (b - B) + (a - A) * B := by ring
  rw [e]
  refine (abs_add_le _ _).trans ?_
  rw [abs_mul, abs_mul]
  exact add_le_add (mul_le_mul hM hb (abs_nonneg _) ((abs_nonneg _).trans hM)) (mul_le_mul ha hB (abs_nonneg _) ((abs_nonneg _).trans ha))

theorem H_tiny : 1048576 * H ≤ U := by
  have := H_small (b := 1) (by rw [← zpow_zero (2 : ℝ)]; exact zpow_le_zpow_right₀ (by norm_num) (by norm_num))
  linarith

theorem two_U : (2 : ℝ) ^ (-52 : ℤ) = 2 * U := by
  unfold U
  rw [show (-52 : ℤ) = 1 + (-53) by norm_num, zpow_add₀ two_ne_zero, zpow_one]

theorem U_tiny : U ≤ 1.2e-16 ∧ 1e-16 ≤ U := by unfold U; constructor <;> norm_num

theorem sqrt_err {q r θ : ℝ} (hθ : 0 < θ) (hq : |q - θ ^ 2| ≤ 3.002 * U * θ ^ 2) (hr : |r - Real.sqrt q| ≤ U * Real.sqrt q) :
    |r - θ| ≤ 2.52 * U * θ := by
  have hU := U_pos; have hU1 := U_tiny.1
  have hq' := abs_le.mp hq
  have h2 : 0 < θ ^ 2 := by positivity
  have q0 : 0.99 * θ ^ 2 ≤ q := by nlinarith
  have hs0 : 0.99 * θ ≤ Real.sqrt q := by
    refine Real.le_sqrt_of_sq_le ?_
    nlinarith
  have hsq : Real.sqrt q ^ 2 = q := Real.sq_sqrt (by nlinarith)
  have h3 : |Real.sqrt q - θ| ≤ 1.51 * U * θ := by
    have e : |Real.sqrt q - θ| * (Real.sqrt q + θ) = |q - θ ^ 2| := by
      have e1 : q - θ ^ 2 = (Real.sqrt q - θ) * (Real.sqrt q + θ) := by linear_combination -hsq
      rw [e1, abs_mul, abs_of_pos (by linarith : 0 < Real.sqrt q + θ)]
    have h4 : |Real.sqrt q - θ| * (1.99 * θ) ≤ 3.002 * U * θ ^ 2 := by
      refine le_trans ?_ (e.le.trans hq)
      exact mul_le_mul_of_nonneg_left (by linarith) (abs_nonneg _)
    have h5 : |Real.sqrt q - θ| * (1.99 * θ) ≤ (1.51 * U * θ) * (1.99 * θ) := by nlinarith
    exact le_of_mul_le_mul_right h5 (by linarith)
  have h4 := abs_le.mp h3
  have e : r - θ = (r - Real.sqrt q) + (Real.sqrt q - θ) := by ring
  rw [e]
  refine (abs_add_le _ _).trans ?_
  have : U * Real.sqrt q ≤ 1.001 * U * θ := by
    have : Real.sqrt q ≤ 1.001 * θ := by nlinarith
    nlinarith
  nlinarith

theorem sin_lip (x y : ℝ) : |Real.sin x - Real.sin y| ≤ |x - y| := by
  have h1 := Real.sin_sub_sin x y
  rw [h1, abs_mul, abs_mul, abs_of_pos (by norm_num : (0 : ℝ) < 2)]
  have h2 : |Real.sin ((x - y) / 2)| ≤ |(x - y) / 2| := Real.abs_sin_le_abs
  have h3 := Real.abs_cos_le_one ((x + y) / 2)
  rw [abs_div, abs_of_pos (by norm_num : (0 : ℝ) < 2)] at h2
  have := mul_le_mul h2 h3 (abs_nonneg _) (by positivity)
  nlinarith

theorem cos_lip (x y : ℝ) : |Real.cos x - Real.cos y| ≤ |x - y| := by
  rw [← Real.sin_pi_div_two_sub, ← Real.sin_pi_div_two_sub]
  refine (sin_lip _ _).trans (le_of_eq ?_)
  rw [show Real.pi / 2 - x - (Real.pi / 2 - y) = -(x - y) by ring, abs_neg]

theorem one_sub_cos_le (θ : ℝ) (h : 0 ≤ θ) : 0 ≤ 1 - Real.cos θ ∧ 1 - Real.cos θ ≤ θ := by
  refine ⟨by linarith [Real.cos_le_one θ], ?_⟩
  have := cos_lip 0 θ
  rw [Real.cos_zero, zero_sub, abs_neg, abs_of_nonneg h] at this
  exact (le_abs_self _).trans this

/-- Sine and cosine of an angle known up to rounding. -/
theorem trig_err {ang s c : ℚ} {θ : ℝ} (hs : SinOf ang s) (hc : CosOf ang c) (ha : |(ang : ℝ) - θ| ≤ 2.52 * U * θ) :
    |(s : ℝ) - Real.sin θ| ≤ (2 + 2.52 * θ) * U ∧ |(c : ℝ) - Real.cos θ| ≤ (2 + 2.52 * θ) * U ∧ |(s : ℝ)| ≤ 1.001 ∧ |(c : ℝ)| ≤ 1.001 := by
  have hU := U_pos; have hU1 := U_tiny.1
  unfold SinOf at hs
  unfold CosOf at hc
  rw [two_U] at hs hc
  have s1 := Real.abs_sin_le_one (ang : ℝ)
  have c1 := Real.abs_cos_le_one (ang : ℝ)
  have s2 := (sin_lip ang θ).trans ha
  have c2 := (cos_lip ang θ).trans ha
  have s3 : |(s : ℝ) - Real.sin ang| ≤ 2 * U := hs.trans (by nlinarith)
  have c3 : |(c : ℝ) - Real.cos ang| ≤ 2 * U := hc.trans (by nlinarith)
  rw [abs_le] at s1 c1 s2 c2 s3 c3
  refine ⟨abs_le.mpr ⟨by linarith, by linarith⟩, abs_le.mpr ⟨by linarith, by linarith⟩, abs_le.mpr ⟨by linarith, by linarith⟩, abs_le.mpr ⟨by linarith, by linarith⟩⟩

/-! ## Rotations -/

theorem round64_pos_ge {x : ℚ} (h : 0 < round64 x) : 2 ^ (-1074 : ℤ) ≤ round64 x := by
  unfold round64 at h ⊢
  simp only at h ⊢
  set e := max (ulpExp x) (-1074)
  have he : (2 : ℚ) ^ (-1074 : ℤ) ≤ 2 ^ e := zpow_le_zpow_right₀ (by norm_num) (le_max_right _ _)
  have hp : (0 : ℚ) < 2 ^ e := two_zpow_pos _
  have hn : 0 < roundEven (x / 2 ^ e) := by
    by_contra hc
    have : ((roundEven (x / 2 ^ e) : ℤ) : ℚ) ≤ 0 := by exact_mod_cast not_lt.mp hc
    exact absurd h (not_lt.mpr (mul_nonpos_of_nonpos_of_nonneg this hp.le))
  have h1 : (1 : ℚ) ≤ (roundEven (x / 2 ^ e) : ℤ) := by exact_mod_cast hn
  exact he.trans (le_mul_of_one_le_left hp.le h1)

theorem evaluates_pos_ge {x y : ι → ℚ} {s : Finset ι} {r : ℚ} (h : Evaluates x y s r) (h0 : 0 < r) : 2 * H ≤ (r : ℝ) := by
  have h1 : 2 ^ (-1074 : ℤ) ≤ r := by
    cases h <;> exact round64_pos_ge h0
  have h2 : (((2 : ℚ) ^ (-1074 : ℤ) : ℚ) : ℝ) ≤ r := Rat.cast_le.mpr h1
  rw [Rat.cast_zpow, Rat.cast_ofNat] at h2
  refine le_trans (le_of_eq ?_) h2
  unfold H
  rw [show (-1074 : ℤ) = 1 + (-1075) by norm_num, zpow_add₀ two_ne_zero, zpow_one]

theorem squaredNorm_error {w : Fin 3 → ℚ} {q : ℚ} (h : SquaredNorm w q) :
    |(q : ℝ) - eucNorm (realVec w) ^ 2| ≤ 3.001 * U * eucNorm (realVec w) ^ 2 + 6 * H := by
  have := eval3_vec h
  rw [eucNorm_sq, SO3.sqNorm, ← SO3.sqNorm, ← eucNorm_sq]
  rw [show realVec w ⬝ᵥ realVec w = eucNorm (realVec w) ^ 2 from (eucNorm_sq _).symm] at this
  rwa [← sq] at this

/-- Away from the subnormal numbers the error of a squared norm is relative. -/
theorem squaredNorm_rel {w : Fin 3 → ℚ} {q : ℚ} (h : SquaredNorm w q) (hθ : (2 : ℝ) ^ (-500 : ℤ) ≤ eucNorm (realVec w)) :
    |(q : ℝ) - eucNorm (realVec w) ^ 2| ≤ 3.002 * U * eucNorm (realVec w) ^ 2 := by
  have h1 := squaredNorm_error h
  have h2 : (2 : ℝ) ^ (-1000 : ℤ) ≤ eucNorm (realVec w) ^ 2 := by
    have : (2 : ℝ) ^ (-1000 : ℤ) = ((2 : ℝ) ^ (-500 : ℤ)) ^ 2 := by
      rw [← zpow_natCast, ← _root_.zpow_mul]; rfl
    rw [this]
    exact pow_le_pow_left₀ (zpow_pos two_pos _).le hθ 2
  have h3 := H_small h2
  have := H_pos
  linarith

theorem two_500_pos : (0 : ℝ) < 2 ^ (-500 : ℤ) := zpow_pos two_pos _

theorem norm_err {w : Fin 3 → ℚ} {r : ℚ} (h : Norm w r) (hθ : (2 : ℝ) ^ (-500 : ℤ) ≤ eucNorm (realVec w)) :
    |(r : ℝ) - eucNorm (realVec w)| ≤ 2.52 * U * eucNorm (realVec w) := by
  obtain ⟨q, hq, hr⟩ := h
  exact sqrt_err (two_500_pos.trans_le hθ) (squaredNorm_rel hq hθ) hr

theorem normalized_err {w n : Fin 3 → ℚ} (h : Normalized w n) (hθ : (2 : ℝ) ^ (-500 : ℤ) ≤ eucNorm (realVec w)) (i : Fin 3) :
    |(n i : ℝ) - w i / eucNorm (realVec w)| ≤ 3.6 * U := by
  obtain ⟨q, hq, hn⟩ := h
  have hp := two_500_pos.trans_le hθ
  have hU := U_pos; have hU1 := U_tiny.1; have hH := H_tiny; have hH0 := H_pos
  have h1 := squaredNorm_rel hq hθ
  have hq0 : 0 < q := by
    have h2 := (abs_le.mp h1).1
    have h3 : 0 < eucNorm (realVec w) ^ 2 := by positivity
    have : (0 : ℝ) < q := by nlinarith
    exact_mod_cast this
  rw [if_pos hq0] at hn
  obtain ⟨r, hr, hn⟩ := hn
  have h2 := sqrt_err hp h1 hr
  have hw : |(w i : ℝ)| ≤ eucNorm (realVec w) := abs_entry_le (realVec w) i
  rw [hn i]
  generalize eucNorm (realVec w) = θ at *
  have h3 := abs_le.mp h2
  have hr0 : 0.9999 * θ ≤ r := by nlinarith
  have hr1 : (0 : ℝ) < r := by linarith
  have h4 : |(w i : ℝ) / r - w i / θ| ≤ 2.53 * U := by
    have e : (w i : ℝ) / r - w i / θ = (w i / θ) * ((θ - r) / r) := by field_simp
    rw [e, abs_mul, abs_div, abs_div, abs_of_pos hp, abs_of_pos hr1, abs_sub_comm]
    have a1 : |(w i : ℝ)| / θ ≤ 1 := (div_le_one hp).mpr hw
    have a2 : |(r : ℝ) - θ| / r ≤ 2.53 * U := by
      rw [div_le_iff₀ hr1]
      refine h2.trans ?_
      nlinarith
    have := mul_le_mul a1 a2 (by positivity) zero_le_one
    linarith
  have h5 : |(w i : ℝ) / r| ≤ 1.0002 := by
    rw [abs_div, abs_of_pos hr1, div_le_iff₀ hr1]
    linarith
  have h6 := rnd (w i / r)
  push_cast at h6
  have h7 := mul_le_mul_of_nonneg_left h5 hU.le
  rw [abs_le] at h4 h6 ⊢
  constructor <;> linarith

/-- One entry of the matrix of an angle and an axis. -/
theorem entry_err {c a k b m sv dv : ℚ} {sg C n1 n2 E : ℝ}
    (hc : |(c : ℝ) - C| ≤ E) (hc1 : |(c : ℝ)| ≤ 1.001) (hC : |C| ≤ 1)
    (ha : |(a : ℝ) - n1| ≤ 3.6 * U) (hb : |(b : ℝ) - n2| ≤ 3.6 * U)
    (h1 : |n1| ≤ 1) (h2 : |n2| ≤ 1)
    (hk : k = round64 (round64 (1 - c) * a)) (hm : Evaluates ![k, sv] ![b, dv] Finset.univ m)
    (hp : |(sv : ℝ) * dv - sg| ≤ 3.604 * U + E) (hq : |(sv : ℝ) * dv| ≤ 1.003) :
    |(m : ℝ) - ((1 - C) * n1 * n2 + sg)| ≤ 29 * U + 2 * E := by
  have hU := U_pos; have hU1 := U_tiny.1; have hH := H_tiny; have hH0 := H_pos
  have o1 : |(1 : ℝ) - c| ≤ 2.001 := by rw [abs_le] at hc1 ⊢; constructor <;> linarith
  have o2 := rnd (1 - c)
  push_cast at o2
  have o3 := mul_le_mul_of_nonneg_left o1 hU.le
  generalize round64 (1 - c) = o at *
  have o4 : |(o : ℝ) - (1 - C)| ≤ E + 2.002 * U := by
    rw [abs_le] at o2 hc ⊢; constructor <;> linarith
  have o5 : |(o : ℝ)| ≤ 2.0011 := by rw [abs_le] at o1 o2 ⊢; constructor <;> linarith
  have a1 : |(a : ℝ)| ≤ 1.0001 := by rw [abs_le] at ha h1 ⊢; constructor <;> linarith
  have b1 : |(b : ℝ)| ≤ 1.0001 := by rw [abs_le] at hb h2 ⊢; constructor <;> linarith
  have hC2 : |1 - C| ≤ 2 := by rw [abs_le] at hC ⊢; constructor <;> linarith
  have p1 := prod_err o4 ha o5 h1
  have p2 : |(o : ℝ) * a| ≤ 2.0014 := by
    rw [abs_mul]; have := mul_le_mul o5 a1 (abs_nonneg _) (by norm_num); linarith
  have p3 := rnd (o * a)
  rw [← hk] at p3
  push_cast at p3
  have p4 := mul_le_mul_of_nonneg_left p2 hU.le
  have k1 : |(k : ℝ) - (1 - C) * n1| ≤ 11.3 * U + E := by
    rw [abs_le] at p1 p3 ⊢; constructor <;> linarith
  have k2 : |(k : ℝ)| ≤ 2.0015 := by rw [abs_le] at p2 p3 ⊢; constructor <;> linarith
  have q1 := prod_err k1 hb k2 h2
  have q2 : |(k : ℝ) * b| ≤ 2.002 := by
    rw [abs_mul]; have := mul_le_mul k2 b1 (abs_nonneg _) (by norm_num); linarith
  have r1 := eval2 hm
  have r2 : 2.001 * U * (|(k : ℝ) * b| + |(sv : ℝ) * dv|) ≤ 6.02 * U := by nlinarith
  rw [abs_le] at q1 hp r1 ⊢
  constructor <;> linarith

theorem entries_err {angle s c : ℚ} {n k : Fin 3 → ℚ} {N : V3} {θ : ℝ} (hs : SinOf angle s) (hc : CosOf angle c)
    (ha : |(angle : ℝ) - θ| ≤ 2.52 * U * θ) (hn : ∀ i, |(n i : ℝ) - N i| ≤ 3.6 * U) (hN : ∀ i, |N i| ≤ 1)
    (hk : ∀ i, k i = round64 (round64 (1 - c) * n i)) :
    (∀ i m, Evaluates ![k i, 1] ![n i, c] Finset.univ m → |(m : ℝ) - ((1 - Real.cos θ) * N i * N i + Real.cos θ)| ≤ (33 + 6 * θ) * U) ∧
    (∀ i j l m, Evaluates ![k i, s] ![n j, n l] Finset.univ m → |(m : ℝ) - ((1 - Real.cos θ) * N i * N j + Real.sin θ * N l)| ≤ (33 + 6 * θ) * U) ∧
    (∀ i j l m, Evaluates ![k i, -s] ![n j, n l] Finset.univ m → |(m : ℝ) - ((1 - Real.cos θ) * N i * N j - Real.sin θ * N l)| ≤ (33 + 6 * θ) * U) := by
  have hU := U_pos; have hU1 := U_tiny.1
  obtain ⟨t1, t2, t3, t4⟩ := trig_err hs hc ha
  have hE0 : 0 ≤ (2 + 2.52 * θ) * U := (abs_nonneg _).trans t1
  have hθ : 0 ≤ U * θ := by have := (abs_nonneg _).trans ha; linarith
  have hE : 29 * U + 2 * ((2 + 2.52 * θ) * U) ≤ (33 + 6 * θ) * U := by nlinarith
  have n1 : ∀ i, |(n i : ℝ)| ≤ 1.0001 := fun i => by
    have a := hn i; have b := hN i
    rw [abs_le] at a b ⊢; constructor <;> linarith
  have hsd : ∀ l, |(s : ℝ) * n l - Real.sin θ * N l| ≤ 3.604 * U + (2 + 2.52 * θ) * U := fun l => by
    have := prod_err t1 (hn l) t3 (hN l); linarith
  have hsm : ∀ l, |(s : ℝ) * n l| ≤ 1.003 := fun l => by
    rw [abs_mul]; have := mul_le_mul t3 (n1 l) (abs_nonneg _) (by norm_num); linarith
  refine ⟨fun i m hm => (entry_err t2 t4 (Real.abs_cos_le_one θ) (hn i) (hn i) (hN i) (hN i) (hk i) hm ?_ ?_).trans hE,
    fun i j l m hm => (entry_err t2 t4 (Real.abs_cos_le_one θ) (hn i) (hn j) (hN i) (hN j) (hk i) hm (hsd l) (hsm l)).trans hE,
    fun i j l m hm => ?_⟩
  · rw [Rat.cast_one, one_mul]; linarith
  · rw [Rat.cast_one, one_mul]; linarith
  · rw [sub_eq_add_neg]
    refine (entry_err t2 t4 (Real.abs_cos_le_one θ) (hn i) (hn j) (hN i) (hN j) (hk i) hm ?_ ?_).trans hE
    · have := hsd l
      rw [← abs_neg] at this
      rw [Rat.cast_neg]
      convert this using 2; ring
    · rw [Rat.cast_neg, neg_mul, abs_neg]; exact hsm l

/-- The computed rotation, tangent vectors away from the subnormal numbers: every entry. -/
theorem expSO3_large {w : Fin 3 → ℚ} {m : Matrix (Fin 3) (Fin 3) ℚ} (h : ExpSO3 w m) (hθ : (2 : ℝ) ^ (-500 : ℤ) ≤ eucNorm (realVec w)) (i j : Fin 3) :
    |(m i j : ℝ) - SO3.exp (realVec w) i j| ≤ (33 + 6 * eucNorm (realVec w)) * U := by
  obtain ⟨angle, n, h1, h2, s, c, hs, hc, k, hk, hd, h01, h10, h02, h20, h12, h21⟩ := h
  have hp := two_500_pos.trans_le hθ
  have hw0 : realVec w ≠ 0 := fun e => by rw [e, eucNorm_zero] at hp; exact lt_irrefl _ hp
  have hN : ∀ i, normalized (realVec w) i = w i / eucNorm (realVec w) := fun i => by
    rw [normalized_of_ne hw0]; simp [realVec]; ring
  have hn : ∀ i, |(n i : ℝ) - normalized (realVec w) i| ≤ 3.6 * U := fun i => by
    rw [hN]; exact normalized_err h2 hθ i
  have hN1 : ∀ i, |normalized (realVec w) i| ≤ 1 := fun i => by
    rw [hN, abs_div, abs_of_pos hp]; exact (div_le_one hp).mpr (abs_entry_le (realVec w) i)
  obtain ⟨e1, e2, e3⟩ := entries_err hs hc (norm_err h1 hθ) hn hN1 hk
  unfold SO3.exp SO3.angleAxisMatrix
  generalize normalized (realVec w) = N at *
  generalize eucNorm (realVec w) = θ at *
  fin_cases i <;> fin_cases j <;> simp
  · exact e1 0 _ (hd 0)
  · exact e3 0 1 2 _ h01
  · exact e2 0 2 1 _ h02
  · exact e2 0 1 2 _ h10
  · exact e1 1 _ (hd 1)
  · exact e3 1 2 0 _ h12
  · exact e3 0 2 1 _ h20
  · exact e2 1 2 0 _ h21
  · exact e1 2 _ (hd 2)

theorem tiny_numbers : (2 : ℝ) ^ (-500 : ℤ) ≤ 1e-60 ∧ H ≤ 1e-60 := by
  have h : (2 : ℝ) ^ (-200 : ℤ) ≤ 1e-60 := by norm_num
  exact ⟨(zpow_le_zpow_right₀ (by norm_num) (by norm_num)).trans h, (zpow_le_zpow_right₀ (by norm_num) (by norm_num)).trans h⟩

theorem norm_tiny {w : Fin 3 → ℚ} {r : ℚ} (h : Norm w r) (hθ : eucNorm (realVec w) ≤ 2 ^ (-500 : ℤ)) : |(r : ℝ)| ≤ 1e-29 := by
  obtain ⟨q, hq, hr⟩ := h
  have hU := U_pos; have hU1 := U_tiny.1
  have h1 := (abs_le.mp (squaredNorm_error hq)).2
  have h2 := hθ.trans tiny_numbers.1
  have h3 := tiny_numbers.2
  have h0 := eucNorm_nonneg (realVec w)
  have h4 : (q : ℝ) ≤ 9e-60 := by nlinarith
  have h5 : Real.sqrt q ≤ 3e-30 := Real.sqrt_le_iff.mpr ⟨by norm_num, h4.trans (by norm_num)⟩
  have h6 := Real.sqrt_nonneg (q : ℝ)
  have hr' : |(r : ℝ) - Real.sqrt q| ≤ U * Real.sqrt q := hr
  rw [abs_le] at hr' ⊢
  constructor <;> nlinarith

theorem normalized_tiny {w n : Fin 3 → ℚ} (h : Normalized w n) (hθ : eucNorm (realVec w) ≤ 2 ^ (-500 : ℤ)) (i : Fin 3) : |(n i : ℝ)| ≤ 3 := by
  obtain ⟨q, hq, hn⟩ := h
  have hU := U_pos; have hU1 := U_tiny.1; have hH := H_tiny; have hH0 := H_pos
  have hw : |(w i : ℝ)| ≤ eucNorm (realVec w) := abs_entry_le (realVec w) i
  have h2 := hθ.trans tiny_numbers.1
  split at hn
  · next hq0 =>
    obtain ⟨r, hr, hn⟩ := hn
    have h1 := (abs_le.mp (squaredNorm_error hq)).1
    have h3 := evaluates_pos_ge hq hq0
    have hq1 : (0 : ℝ) < q := by exact_mod_cast hq0
    have h0 := eucNorm_nonneg (realVec w)
    rw [hn i]
    generalize eucNorm (realVec w) = θ at *
    have h4 : θ ^ 2 ≤ 4.01 * q := by nlinarith [sq_nonneg θ]
    have hs := Real.sqrt_pos.mpr hq1
    have hsq := Real.sq_sqrt hq1.le
    have h5 : θ ≤ 2.01 * Real.sqrt q := by
      refine abs_le_of_sq_le_sq' ?_ (by linarith) |>.2
      nlinarith
    have hr' : |(r : ℝ) - Real.sqrt q| ≤ U * Real.sqrt q := hr
    have h6 : 0.999 * Real.sqrt q ≤ r := by rw [abs_le] at hr'; nlinarith
    have hr1 : (0 : ℝ) < r := by linarith
    have h7 : |(w i : ℝ) / r| ≤ 2.1 := by
      rw [abs_div, abs_of_pos hr1, div_le_iff₀ hr1]; linarith
    have h8 := rnd (w i / r)
    push_cast at h8
    have h9 := mul_le_mul_of_nonneg_left h7 hU.le
    rw [abs_le] at h7 h8 ⊢
    constructor <;> linarith
  · rw [hn]; linarith

theorem exp_tiny {w : V3} (hθ : eucNorm w ≤ 1e-60) (i j : Fin 3) : |SO3.exp w i j - (1 : M3) i j| ≤ 1e-59 := by
  by_cases h0 : w = 0
  · subst h0; rw [exp_zero, sub_self, abs_zero]; norm_num
  · have hp := eucNorm_pos h0
    have hN1 : ∀ i, |normalized w i| ≤ 1 := fun i => by
      rw [normalized_of_ne h0]
      simp only [Pi.smul_apply, smul_eq_mul, abs_mul, abs_inv, abs_of_pos hp]
      rw [inv_mul_le_iff₀ hp, mul_one]; exact abs_entry_le w i
    have hc := one_sub_cos_le _ hp.le
    have hs : |Real.sin (eucNorm w)| ≤ eucNorm w := by
      have := Real.abs_sin_le_abs (x := eucNorm w); rwa [abs_of_pos hp] at this
    unfold SO3.exp SO3.angleAxisMatrix
    generalize normalized w = N at *
    generalize eucNorm w = θ at *
    have pk : ∀ i j, |(1 - Real.cos θ) * N i * N j| ≤ θ := fun i j => by
      rw [abs_mul, abs_mul, abs_of_nonneg hc.1]
      have h1 := mul_le_mul hc.2 (hN1 i) (abs_nonneg _) hp.le
      have h2 := mul_le_mul h1 (hN1 j) (abs_nonneg _) (by linarith)
      linarith
    have ps : ∀ l, |Real.sin θ * N l| ≤ θ := fun l => by
      rw [abs_mul]
      have h1 := mul_le_mul hs (hN1 l) (abs_nonneg _) hp.le
      linarith
    have pc : |Real.cos θ - 1| ≤ θ := by rw [abs_sub_comm, abs_of_nonneg hc.1]; exact hc.2
    have fin : ∀ a b : ℝ, |a| ≤ θ → |b| ≤ θ → |a + b| ≤ 1e-59 ∧ |a - b| ≤ 1e-59 := fun a b ha hb => by
      rw [abs_le] at ha hb
      exact ⟨abs_le.mpr ⟨by linarith, by linarith⟩, abs_le.mpr ⟨by linarith, by linarith⟩⟩
    fin_cases i <;> fin_cases j <;> simp <;>
      first
      | exact (fin _ _ (pk _ _) (ps _)).1
      | exact (fin _ _ (pk _ _) (ps _)).2
      | (rw [add_sub_assoc]; exact (fin _ _ (pk _ _) pc).1)

/-- The computed rotation next to zero: every entry. -/
theorem expSO3_tiny {w : Fin 3 → ℚ} {m : Matrix (Fin 3) (Fin 3) ℚ} (h : ExpSO3 w m) (hθ : eucNorm (realVec w) ≤ 2 ^ (-500 : ℤ)) (i j : Fin 3) :
    |(m i j : ℝ) - SO3.exp (realVec w) i j| ≤ 33 * U := by
  obtain ⟨angle, n, h1, h2, s, c, hs, hc, k, hk, hd, h01, h10, h02, h20, h12, h21⟩ := h
  have hU := U_pos; have hU1 := U_tiny.1; have hU2 := U_tiny.2; have hH := H_tiny; have hH0 := H_pos
  have ht := exp_tiny (hθ.trans tiny_numbers.1) i j
  have hang := norm_tiny h1 hθ
  have hn := normalized_tiny h2 hθ
  unfold SinOf at hs
  unfold CosOf at hc
  rw [two_U] at hs hc
  have s1 : |(s : ℝ)| ≤ 1e-28 := by
    have := Real.abs_sin_le_abs (x := (angle : ℝ))
    have h0 := abs_nonneg (Real.sin (angle : ℝ))
    have e : (s : ℝ) = (s - Real.sin angle) + Real.sin angle := by ring
    rw [e]
    refine (abs_add_le _ _).trans ?_
    nlinarith
  have c1 : |(1 : ℝ) - c| ≤ 2.0001 * U := by
    have a1 := cos_lip 0 angle
    rw [Real.cos_zero, zero_sub, abs_neg] at a1
    have a2 := Real.abs_cos_le_one (angle : ℝ)
    have a3 : |(c : ℝ) - Real.cos angle| ≤ 2 * U := hc.trans (by nlinarith)
    rw [abs_le] at a1 a3 ⊢
    rw [abs_le] at hang
    have : |(angle : ℝ)| ≤ 1e-29 := abs_le.mpr hang
    constructor <;> linarith
  have o2 := rnd (1 - c)
  push_cast at o2
  have hkk : ∀ i, |(k i : ℝ)| ≤ 6.1 * U := by
    intro i
    have hk := hk i
    have p3 := rnd (round64 (1 - c) * n i)
    rw [← hk] at p3
    generalize round64 (1 - c) = o at *
    have hi := hn i
    push_cast at p3
    have o3 := mul_le_mul_of_nonneg_left c1 hU.le
    have o5 : |(o : ℝ)| ≤ 2.001 * U := by rw [abs_le] at c1 o2 ⊢; constructor <;> nlinarith
    have p2 : |(o : ℝ) * n i| ≤ 6.01 * U := by
      rw [abs_mul]; have := mul_le_mul o5 hi (abs_nonneg _) (by positivity); linarith
    have p4 := mul_le_mul_of_nonneg_left p2 hU.le
    rw [abs_le] at p2 p3 ⊢; constructor <;> nlinarith
  have hkn : ∀ i j, |(k i : ℝ) * n j| ≤ 18.3 * U := fun i j => by
    rw [abs_mul]; have := mul_le_mul (hkk i) (hn j) (abs_nonneg _) (by positivity); linarith
  have hsn : ∀ l, |(s : ℝ) * n l| ≤ 3e-28 := fun l => by
    rw [abs_mul]; have := mul_le_mul s1 (hn l) (abs_nonneg _) (by positivity); linarith
  have off : ∀ (i j : Fin 3) (sv dv m : ℚ), |(sv : ℝ) * dv| ≤ 3e-28 → Evaluates ![k i, sv] ![n j, dv] Finset.univ m → |(m : ℝ)| ≤ 25 * U := by
    intro i j sv dv m hq hm
    have r1 := eval2 hm
    have r0 := hkn i j
    have r2 : 2.001 * U * (|(k i : ℝ) * n j| + |(sv : ℝ) * dv|) ≤ 1 * U := by nlinarith
    rw [abs_le] at r0 hq r1 ⊢
    constructor <;> linarith
  have off' : ∀ (i j l : Fin 3) (m : ℚ), Evaluates ![k i, -s] ![n j, n l] Finset.univ m → |(m : ℝ)| ≤ 25 * U := fun i j l m hm =>
    off i j _ _ m (by rw [Rat.cast_neg, neg_mul, abs_neg]; exact hsn l) hm
  have diag : ∀ i, |(m i i : ℝ) - 1| ≤ 25 * U := by
    intro i
    have r1 := eval2 (hd i)
    have r0 := hkn i i
    rw [Rat.cast_one, one_mul] at r1
    have r3 : |(c : ℝ)| ≤ 1.001 := by rw [abs_le] at c1 ⊢; constructor <;> linarith
    have r2 : 2.001 * U * (|(k i : ℝ) * n i| + |(c : ℝ)|) ≤ 2.01 * U := by nlinarith
    rw [abs_le] at r0 c1 r1 ⊢
    constructor <;> linarith
  have key : |(m i j : ℝ) - (1 : M3) i j| ≤ 25 * U := by
    fin_cases i <;> fin_cases j <;> simp
    · exact diag 0
    · exact off' 0 1 2 _ h01
    · exact off 0 2 _ _ _ (hsn 1) h02
    · exact off 0 1 _ _ _ (hsn 2) h10
    · exact diag 1
    · exact off' 1 2 0 _ h12
    · exact off' 0 2 1 _ h20
    · exact off 1 2 _ _ _ (hsn 0) h21
    · exact diag 2
  rw [abs_le] at key ht ⊢
  constructor <;> linarith

theorem turnsAlike_of_entries {a b : M3} {e : ℝ} (h : ∀ i j, |a i j - b i j| ≤ e) : TurnsAlike (3 * e) a b := by
  have he : 0 ≤ e := (abs_nonneg _).trans (h 0 0)
  intro v
  rw [← sub_mulVec]
  refine Approx.eucNorm_mulVec_le (by linarith) ?_ v
  have hsq : ∀ i j, (a - b) i j * (a - b) i j ≤ e ^ 2 := fun i j => by
    rw [← sq]; exact sq_le_sq' (abs_le.mp (h i j)).1 (abs_le.mp (h i j)).2
  unfold Approx.matSq
  simp only [Fin.sum_univ_three]
  nlinarith [hsq 0 0, hsq 0 1, hsq 0 2, hsq 1 0, hsq 1 1, hsq 1 2, hsq 2 0, hsq 2 1, hsq 2 2]

/-- The computed rotation turns every vector almost as the exact one does. -/
theorem expSO3_error {w : Fin 3 → ℚ} {m : Matrix (Fin 3) (Fin 3) ℚ} (h : ExpSO3 w m) :
    TurnsAlike (100 * (1 + eucNorm (realVec w)) * U) (realRot m) (SO3.exp (realVec w)) := by
  have hU := U_pos
  have h0 := eucNorm_nonneg (realVec w)
  have h1 : TurnsAlike (3 * ((33 + 6 * eucNorm (realVec w)) * U)) (realRot m) (SO3.exp (realVec w)) := by
    refine turnsAlike_of_entries fun i j => ?_
    rcases le_total ((2 : ℝ) ^ (-500 : ℤ)) (eucNorm (realVec w)) with hθ | hθ
    · exact expSO3_large h hθ i j
    · exact (expSO3_tiny h hθ i j).trans (by nlinarith)
  intro v
  refine (h1 v).trans (mul_le_mul_of_nonneg_right ?_ (eucNorm_nonneg v))
  nlinarith

end Verif.ExpDouble
