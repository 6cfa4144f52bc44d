import Verif.Model.DistanceDouble
import Verif.Proofs.GuideDouble
/-! # Distances between poses in doubles: the estimates -/
namespace Verif.DistanceDouble
open Verif.Spec hiding Jet
open SampleIntervalDouble TransformDouble ExpDouble LogDouble Matrix SO3

/-- Below this length squares underflow. -/
noncomputable def S : ℝ := 2 ^ (-536 : ℤ)

theorem S_pos : 0 < S := zpow_pos two_pos _

theorem S_sq : S ^ 2 = 8 * H := by
  have : (2 : ℝ) ^ (-1072 : ℤ) = 2 ^ (3 : ℤ) * 2 ^ (-1075 : ℤ) := by
    rw [← zpow_add₀ two_ne_zero]; norm_num only
  unfold S H
  rw [← zpow_natCast, ← _root_.zpow_mul, show (-536 : ℤ) * (2 : ℕ) = -1072 by norm_num, this]
  norm_num only

theorem H_le_S : 1048576 * H ≤ S := by
  have : (2 : ℝ) ^ (20 : ℤ) * 2 ^ (-1075 : ℤ) ≤ 2 ^ (-536 : ℤ) := by
    rw [← zpow_add₀ two_ne_zero]
    exact zpow_le_zpow_right₀ (by norm_num) (by norm_num)
  unfold S H
  refine le_trans (le_of_eq ?_) this
  norm_num only

/-- The error of a norm, also where the squares underflow. -/
theorem norm_any {w : Fin 3 → ℚ} {r : ℚ} (h : Norm w r) : |(r : ℝ) - eucNorm (realVec w)| ≤ 4.002 * U * eucNorm (realVec w) + 1.001 * S := by
  obtain ⟨q, hq, hr⟩ := h
  have hr' : |(r : ℝ) - Real.sqrt q| ≤ U * Real.sqrt q := hr
  have h1 := squaredNorm_error hq
  have hU := U_pos; have hU1 := U_tiny.1; have hS := S_pos; have hSS := S_sq; have hH := H_pos
  have hθ := eucNorm_nonneg (realVec w)
  generalize eucNorm (realVec w) = θ at *
  have key : |Real.sqrt q - θ| ≤ 3.001 * U * θ + S := by
    have hs := Real.sqrt_nonneg (q : ℝ)
    have hup : Real.sqrt q ≤ θ + (3.001 * U * θ + S) := by
      refine Real.sqrt_le_iff.mpr ⟨by positivity, ?_⟩
      have := (abs_le.mp h1).2
      have e : (θ + (3.001 * U * θ + S)) ^ 2 = θ ^ 2 + 2 * (3.001 * U * θ ^ 2) + 2 * θ * S + (3.001 * U * θ + S) ^ 2 := by ring
      have e2 : S ^ 2 ≤ (3.001 * U * θ + S) ^ 2 := pow_le_pow_left₀ hS.le (by linarith [show 0 ≤ 3.001 * U * θ by positivity]) 2
      have e3 : 0 ≤ θ * S := by positivity
      have e4 : 0 ≤ 3.001 * U * θ ^ 2 := by positivity
      rw [e]; linarith
    have hlo : θ - (3.001 * U * θ + S) ≤ Real.sqrt q := by
      set k := 3.001 * U * θ + S with hk
      rcases le_or_gt θ k with c | c
      · linarith
      · refine Real.le_sqrt_of_sq_le ?_
        have := (abs_le.mp h1).1
        have k1 : 0 ≤ k := by positivity
        have k0 : S ≤ θ := by linarith [show 0 ≤ 3.001 * U * θ by positivity]
        have e : (θ - k) ^ 2 ≤ θ ^ 2 - θ * k := by nlinarith
        have e1 : θ * k = 3.001 * U * θ ^ 2 + θ * S := by rw [hk]; ring
        have e2 : S ^ 2 ≤ θ * S := by nlinarith
        linarith
    exact abs_le.mpr ⟨by linarith, by linarith⟩
  have k := abs_le.mp key
  have k2 : Real.sqrt q ≤ (1 + 3.001 * U) * θ + S := by linarith
  have k3 := mul_le_mul_of_nonneg_left k2 hU.le
  have k4 : U * ((1 + 3.001 * U) * θ + S) ≤ 1.001 * U * θ + 0.001 * S := by
    have : U * (3.001 * U) ≤ 0.001 * U := by nlinarith
    have := mul_le_mul_of_nonneg_right this hθ
    nlinarith
  have k5 := abs_le.mp hr'
  exact abs_le.mpr ⟨by linarith, by linarith⟩

theorem eucNorm_le_of_abs {v w : V3} {c : ℝ} (hc : 0 ≤ c) (h : ∀ i, |v i| ≤ c * |w i|) : eucNorm v ≤ c * eucNorm w := by
  refine Real.sqrt_le_iff.mpr ⟨mul_nonneg hc (eucNorm_nonneg _), ?_⟩
  rw [mul_pow, eucNorm_sq, sqNorm_eq, sqNorm_eq]
  have : ∀ i, v i ^ 2 ≤ c ^ 2 * w i ^ 2 := fun i => by
    have := pow_le_pow_left₀ (abs_nonneg _) (h i) 2
    rwa [mul_pow, sq_abs, sq_abs] at this
  linarith [this 0, this 1, this 2]

/-- The difference of two stored translations is precise relative to itself: differences of doubles do not underflow. -/
theorem difference_err {a b : Stored} (ha : ∀ i, IsDouble (a.trans i)) (hb : ∀ i, IsDouble (b.trans i)) {w : Fin 3 → ℚ}
    (h : ∀ i, w i = round64 (a.trans i - b.trans i)) :
    eucNorm (realVec w - (realVec a.trans - realVec b.trans)) ≤ U * eucNorm (realVec a.trans - realVec b.trans) := by
  refine eucNorm_le_of_abs U_pos.le fun i => ?_
  have h1 := round64_sub_error (hb i) (ha i)
  rw [← h i] at h1
  have h2 : ((|w i - (a.trans i - b.trans i)| : ℚ) : ℝ) ≤ (|a.trans i - b.trans i| * u : ℚ) := Rat.cast_le.mpr h1
  rw [Rat.cast_mul, u_cast] at h2
  push_cast at h2
  simp only [Pi.sub_apply, realVec]
  linarith

/-- Distance between two vectors that are close to two others. -/
theorem abs_norm_sub (v w : V3) : |eucNorm v - eucNorm w| ≤ eucNorm (v - w) := by
  have h1 := eucNorm_le_add v w
  have h2 := eucNorm_le_add w v
  rw [← eucNorm_neg (w - v), neg_sub] at h2
  exact abs_le.mpr ⟨by linarith, by linarith⟩

theorem distance_any {a b : Stored} (ha : ∀ i, IsDouble (a.trans i)) (hb : ∀ i, IsDouble (b.trans i)) {d : ℚ} (h : Distance a b d) :
    |(d : ℝ) - eucNorm (realVec a.trans - realVec b.trans)| ≤ 5.01 * U * eucNorm (realVec a.trans - realVec b.trans) + 1.001 * S := by
  obtain ⟨w, hw, hd⟩ := h
  have h1 := norm_any hd
  have h2 := (abs_norm_sub _ _).trans (difference_err ha hb hw)
  have hU := U_pos; have hU1 := U_tiny.1
  have h0 := eucNorm_nonneg (realVec a.trans - realVec b.trans)
  generalize eucNorm (realVec a.trans - realVec b.trans) = D at *
  generalize eucNorm (realVec w) = W at *
  have h3 := abs_le.mp h2
  have h4 : W ≤ (1 + U) * D := by linarith
  have h5 := mul_le_mul_of_nonneg_left h4 (by positivity : 0 ≤ 4.002 * U)
  have h6 : 4.002 * U * ((1 + U) * D) ≤ 4.005 * U * D := by
    have : 4.002 * U * (1 + U) ≤ 4.005 * U := by nlinarith
    nlinarith [mul_le_mul_of_nonneg_right this h0]
  have h7 := abs_le.mp h1
  exact abs_le.mpr ⟨by linarith, by linarith⟩

theorem distance_rel {a b : Stored} (ha : ∀ i, IsDouble (a.trans i)) (hb : ∀ i, IsDouble (b.trans i)) {d : ℚ} (h : Distance a b d)
    (hD : 2 ^ (-499 : ℤ) ≤ eucNorm (realVec a.trans - realVec b.trans)) :
    |(d : ℝ) - eucNorm (realVec a.trans - realVec b.trans)| ≤ 3.53 * U * eucNorm (realVec a.trans - realVec b.trans) := by
  obtain ⟨w, hw, hd⟩ := h
  have h2 := (abs_norm_sub _ _).trans (difference_err ha hb hw)
  have hU := U_pos; have hU1 := U_tiny.1
  have h0 := eucNorm_nonneg (realVec a.trans - realVec b.trans)
  have e : (2 : ℝ) ^ (-499 : ℤ) = 2 * 2 ^ (-500 : ℤ) := by
    rw [show (-499 : ℤ) = 1 + (-500) by norm_num, zpow_add₀ two_ne_zero, zpow_one]
  rw [e] at hD
  have h3 := abs_le.mp h2
  have h1 := norm_err hd (by nlinarith [h3.1])
  clear hD e
  generalize eucNorm (realVec a.trans - realVec b.trans) = D at *
  generalize eucNorm (realVec w) = W at *
  have h4 : W ≤ (1 + U) * D := by linarith
  have h5 := mul_le_mul_of_nonneg_left h4 (by positivity : 0 ≤ 2.52 * U)
  have h6 : 2.52 * U * ((1 + U) * D) ≤ 2.525 * U * D := by
    have : 2.52 * U * (1 + U) ≤ 2.525 * U := by nlinarith
    nlinarith [mul_le_mul_of_nonneg_right this h0]
  have h7 := abs_le.mp h1
  exact abs_le.mpr ⟨by linarith, by linarith⟩

theorem evaluates_congr {ι : Type} [DecidableEq ι] {x y x' y' : ι → ℚ} (e : ∀ i, x i * y i = x' i * y' i) {s : Finset ι} {r : ℚ} (h : Evaluates x y s r) :
    Evaluates x' y' s r := by
  induction h with
  | product i => rw [e i]; exact .product i
  | add _ _ hd ih1 ih2 => exact .add ih1 ih2 hd
  | fused i _ hi ih => rw [e i]; exact .fused i ih hi

theorem distance_swap {a b : Stored} {d : ℚ} (h : Distance a b d) : Distance b a d := by
  obtain ⟨w, hw, q, hq, hd⟩ := h
  refine ⟨-w, fun i => ?_, q, evaluates_congr (fun i => ?_) hq, hd⟩
  · rw [Pi.neg_apply, hw i, ← round64_neg, neg_sub]
  · simp

theorem evaluates_zero {ι : Type} [DecidableEq ι] {x y : ι → ℚ} (e : ∀ i, round64 (x i * y i) = 0) {s : Finset ι} {r : ℚ} (h : Evaluates x y s r) : r = 0 := by
  induction h with
  | product i => exact e i
  | add _ _ _ ih1 ih2 => rw [ih1, ih2, add_zero, round64_zero]
  | fused i _ _ ih => rw [ih, add_zero, e i]

theorem sqrtOf_zero {d : ℚ} (h : SqrtOf 0 d) : d = 0 := by
  unfold SqrtOf at h
  rw [Rat.cast_zero, Real.sqrt_zero, mul_zero, sub_zero] at h
  exact_mod_cast abs_eq_zero.mp (le_antisymm h (abs_nonneg _))

/-- The squares of numbers up to 2^-538 round to zero. -/
theorem square_zero {x : ℚ} (h : |x| ≤ 2 ^ (-538 : ℤ)) : round64 (x * x) = 0 := by
  have h1 : x * x ≤ 2 ^ (-1076 : ℤ) := by
    have := mul_le_mul h h (abs_nonneg _) (zpow_pos two_pos _).le
    rw [abs_mul_abs_self, ← zpow_add₀ two_ne_zero] at this
    exact this
  have h0 : 0 ≤ x * x := mul_self_nonneg x
  have h2 : 0 ≤ round64 (x * x) := by
    have := round64_mono h0
    rwa [round64_zero] at this
  by_contra hc
  have h3 := round64_pos_ge (lt_of_le_of_ne h2 (Ne.symm hc))
  have h4 := (abs_le.mp (round64_error (x * x))).2
  rw [abs_of_nonneg h0] at h4
  have e1 : (2 : ℚ) ^ (-1074 : ℤ) = 4 * 2 ^ (-1076 : ℤ) := by
    rw [show (-1074 : ℤ) = 2 + (-1076) by norm_num, zpow_add₀ two_ne_zero]; norm_num only
  have e2 : (2 : ℚ) ^ (-1075 : ℤ) = 2 * 2 ^ (-1076 : ℤ) := by
    rw [show (-1075 : ℤ) = 1 + (-1076) by norm_num, zpow_add₀ two_ne_zero, zpow_one]
  have hp : (0 : ℚ) < 2 ^ (-1076 : ℤ) := zpow_pos two_pos _
  rw [e2] at h4
  rw [e1] at h3
  generalize (2 : ℚ) ^ (-1076 : ℤ) = t at *
  have e3 : (2 : ℚ) ^ (-53 : ℤ) ≤ 1 / 2 := by norm_num
  generalize (2 : ℚ) ^ (-53 : ℤ) = z at *
  have h5 := mul_le_mul_of_nonneg_left e3 h0
  generalize x * x = y at *
  linarith

theorem isDouble_two_538 : IsDouble (2 ^ (-538 : ℤ)) := ⟨1, -538, by norm_num, by norm_num, by norm_num, by rw [Int.cast_one, one_mul]⟩

theorem round64_abs_le {x t : ℚ} (ht : IsDouble t) (h : |x| ≤ t) : |round64 x| ≤ t := by
  rw [abs_le] at h ⊢
  have h1 := round64_mono h.2
  have h2 := round64_mono h.1
  rw [round64_double ht] at h1
  rw [round64_neg, round64_double ht] at h2
  exact ⟨h2, h1⟩

theorem distance_zero {a b : Stored} {d : ℚ} (h : Distance a b d) (hc : ∀ i, |a.trans i - b.trans i| ≤ 2 ^ (-538 : ℤ)) : d = 0 := by
  obtain ⟨w, hw, q, hq, hd⟩ := h
  have : q = 0 := evaluates_zero (fun i => square_zero (by rw [hw i]; exact round64_abs_le isDouble_two_538 (hc i))) hq
  rw [this] at hd
  exact sqrtOf_zero hd

theorem norm_some (w : Fin 3 → ℚ) : ∃ d, Norm w d := by
  obtain ⟨q, hq⟩ := Evaluates.some w w univ3
  obtain ⟨d, hd⟩ := sqrtOf_some q
  exact ⟨d, q, hq, hd⟩

theorem distance_some (a b : Stored) : ∃ d, Distance a b d := by
  obtain ⟨d, hd⟩ := norm_some fun i => round64 (a.trans i - b.trans i)
  exact ⟨d, _, fun _ => rfl, hd⟩

theorem inverse_some (a : Stored) : ∃ c, Inverse a c := by
  choose t ht using fun i => Evaluates.some (a.rotᵀ i) (-a.trans) univ3
  exact ⟨⟨a.rotᵀ, t⟩, rfl, ht⟩

/-! ## The composed relative pose -/

/-- The last steps of both comparisons: from the translation of the computed product to its computed norm. -/
theorem composed_end {D s x t : ℝ} {d : ℚ} {c : Fin 3 → ℚ} (hd : Norm c d) (hs : D ≤ s) (hD : 0 ≤ D) (he : x ≤ 0.01 * s)
    (ht : t ≤ 14.2 * U * s + 2000 * H) (h : |eucNorm (realVec c) - D| ≤ x + t) : |(d : ℝ) - D| ≤ x + 18.3 * U * s + 1.1 * S := by
  have hU := U_pos; have hU1 := U_tiny.1; have hS := H_le_S; have hS0 := S_pos; have hH := H_pos
  have h1 := norm_any hd
  have h2 := abs_le.mp h
  generalize eucNorm (realVec c) = W at *
  have h3 : 14.2 * U * s ≤ 0.01 * s := mul_le_mul_of_nonneg_right (by linarith) (by linarith)
  have h4 : W ≤ 1.02 * s + 2000 * H := by linarith
  have h5 := mul_le_mul_of_nonneg_left h4 (by positivity : 0 ≤ 4.002 * U)
  have h6 : 4.002 * U * (1.02 * s + 2000 * H) ≤ 4.1 * U * s + H := by
    have e : 4.002 * U * (1.02 * s + 2000 * H) = 4.08204 * (U * s) + 8004 * U * H := by ring
    have e1 : 0 ≤ U * s := mul_nonneg hU.le (by linarith)
    have e2 : 8004 * U * H ≤ H := by nlinarith
    rw [e]; linarith
  have h7 := abs_le.mp h1
  exact abs_le.mpr ⟨by linarith, by linarith⟩

theorem composed_inverse {a b : Stored} {d : ℚ} (h : ComposedInverse a b d) {A : M3} {e : ℝ} (hA : IsRotation A) (ha : TurnsAlike e (realRot a.rot) A)
    (he : e ≤ 0.001) : |(d : ℝ) - eucNorm (realVec a.trans - realVec b.trans)| ≤
      e * eucNorm (realVec a.trans - realVec b.trans) + 18.3 * U * (eucNorm (realVec a.trans) + eucNorm (realVec b.trans)) + 1.1 * S := by
  obtain ⟨i, c, ⟨hi, ht⟩, ⟨-, hc⟩, hd⟩ := h
  have hU := U_pos; have hU1 := U_tiny.1; have hH := H_pos
  have he0 := turnsAlike_nonneg ha
  have hA' := SO3.isRotation_transpose hA
  have ha' := turnsAlike_transpose ha
  have e1 := rotated_error (a := a.rotᵀ) ht hA' ha'
  have hi' : TurnsAlike e (realRot i.rot) Aᵀ := by rw [hi]; exact ha'
  have e2 := applied_error hc hA' hi'
  have er : realRot i.rot = (realRot a.rot)ᵀ := by rw [hi]; rfl
  have er' : realRot a.rotᵀ = (realRot a.rot)ᵀ := rfl
  have en : realVec (-a.trans) = -realVec a.trans := by ext j; simp [realVec]
  rw [er', en, eucNorm_neg] at e1
  rw [er] at e2
  have n1 := turnsAlike_norm hA' ha' (realVec a.trans)
  have n2 := eucNorm_le_add (realVec i.trans) ((realRot a.rot)ᵀ *ᵥ (-realVec a.trans))
  rw [mulVec_neg, eucNorm_neg] at n2
  set x := realVec a.trans with hx
  set y := realVec b.trans with hy
  have v := ha' (y - x)
  have v1 := (abs_norm_sub ((realRot a.rot)ᵀ *ᵥ (y - x)) (Aᵀ *ᵥ (y - x))).trans v
  rw [eucNorm_mulVec hA'] at v1
  have es : eucNorm (y - x) = eucNorm (x - y) := by rw [← eucNorm_neg, neg_sub]
  rw [es] at v1
  have v2 := abs_norm_sub (realVec c.trans) ((realRot a.rot)ᵀ *ᵥ (y - x))
  have v3 : eucNorm (realVec c.trans - (realRot a.rot)ᵀ *ᵥ (y - x)) ≤ eucNorm (realVec c.trans - ((realRot a.rot)ᵀ *ᵥ y + realVec i.trans)) +
      eucNorm (realVec i.trans - (realRot a.rot)ᵀ *ᵥ -x) := by
    refine le_trans (le_of_eq ?_) (eucNorm_add_le _ _)
    congr 1
    rw [mulVec_sub, mulVec_neg]
    abel
  have hs : eucNorm (x - y) ≤ eucNorm x + eucNorm y := by
    have := eucNorm_add_le x (-y)
    rwa [eucNorm_neg, ← sub_eq_add_neg] at this
  have p1 := eucNorm_nonneg x
  have p2 := eucNorm_nonneg y
  have p3 := eucNorm_nonneg (x - y)
  rw [mulVec_neg] at e1 v3
  refine composed_end (t := eucNorm (realVec c.trans - (realRot a.rot)ᵀ *ᵥ (y - x))) hd hs p3 ?_ ?_ ?_
  · have := mul_le_mul he hs p3 (by norm_num)
    linarith
  · refine v3.trans ((add_le_add e2 e1).trans ?_)
    generalize eucNorm x = X at *
    generalize eucNorm y = Y at *
    have q1 : (1 + e) * X ≤ 1.001 * X := mul_le_mul_of_nonneg_right (by linarith) p1
    have q2 : (1 + e) * Y ≤ 1.001 * Y := mul_le_mul_of_nonneg_right (by linarith) p2
    have q3 := mul_le_mul_of_nonneg_left q1 (by positivity : 0 ≤ 6.002 * U)
    have q4 : 6.002 * U * (1.001 * X) ≤ 0.001 * X := by
      have : 6.002 * U * 1.001 ≤ 0.001 := by linarith
      nlinarith [mul_le_mul_of_nonneg_right this p1]
    have q5 : eucNorm (realVec i.trans) ≤ 1.002 * X + 250 * H := by
      have := n2.trans (add_le_add e1 n1)
      linarith
    have q6 := mul_le_mul_of_nonneg_left (add_le_add q2 q5) (by positivity : 0 ≤ 8.002 * U)
    have q7 : 8.002 * U * (1.001 * Y + (1.002 * X + 250 * H)) ≤ 8.02 * U * (X + Y) + H := by
      have r1 : 0 ≤ U * X := by positivity
      have r2 : 0 ≤ U * Y := by positivity
      have r3 : 8.002 * U * 250 * H ≤ H := by nlinarith
      nlinarith
    have q8 : 6.002 * U * (1.001 * X) ≤ 6.01 * U * (X + Y) := by
      have r1 : 0 ≤ U * X := by positivity
      have r2 : 0 ≤ U * Y := by positivity
      nlinarith
    have e3 : 8.02 * U * (X + Y) + 6.01 * U * (X + Y) ≤ 14.2 * U * (X + Y) := by
      have : 0 ≤ U * (X + Y) := by positivity
      nlinarith
    linarith
  · rw [abs_le] at v1 v2 ⊢
    constructor <;> linarith

theorem composed_arith {e f X Y T : ℝ} (he0 : 0 ≤ e) (he1 : e ≤ 0.005) (p1 : 0 ≤ X) (p2 : 0 ≤ Y) (hT : 0 ≤ T) (q5 : T ≤ 1.006 * Y + 250 * H) :
    8.002 * U * ((1 + e) * T + X) + 1250 * H + e * T + (6.002 * U * ((1 + e) * Y) + 250 * H + e * Y) + f * Y ≤
      (2.1 * e + f) * Y + (14.2 * U * (X + Y) + 2000 * H) := by
  have hU := U_pos; have hU1 := U_tiny.1; have hH := H_pos
  have r1 : 0 ≤ U * X := by positivity
  have r2 : 0 ≤ U * Y := by positivity
  have k0 : (1 + e) * T ≤ 1.005 * (1.006 * Y + 250 * H) := mul_le_mul (by linarith) q5 hT (by norm_num)
  have k1 := mul_le_mul_of_nonneg_left (add_le_add k0 (le_refl X)) (by positivity : 0 ≤ 8.002 * U)
  have k2 := mul_le_mul_of_nonneg_left q5 he0
  have k3 : e * (1.006 * Y + 250 * H) ≤ 1.006 * (e * Y) + 2 * H := by
    have := mul_le_mul_of_nonneg_right he1 hH.le
    linarith
  have k4 : 8.002 * U * (1.005 * (1.006 * Y + 250 * H) + X) ≤ 8.1 * (U * X) + 8.1 * (U * Y) + H := by
    have r3 : U * H ≤ 0.0001 * H := mul_le_mul_of_nonneg_right (by linarith) hH.le
    linarith
  have k5 : 6.002 * U * ((1 + e) * Y) ≤ 6.04 * (U * Y) := by
    have := mul_le_mul_of_nonneg_right he1 r2
    linarith
  have k7 : 0 ≤ e * Y := by positivity
  linarith

theorem composed_near {a b : Stored} {d : ℚ} (h : Composed a b d) {A B : M3} {e f : ℝ} (hA : IsRotation A) (ha : TurnsAlike e (realRot a.rot) A)
    (hB : IsRotation B) (hb : TurnsAlike e (realRot b.rot) B) (hf : TurnsAlike f A B) (he : 2.1 * e + f ≤ 0.01) :
    |(d : ℝ) - eucNorm (realVec a.trans - realVec b.trans)| ≤
      (2.1 * e + f) * eucNorm (realVec b.trans) + 18.3 * U * (eucNorm (realVec a.trans) + eucNorm (realVec b.trans)) + 1.1 * S := by
  obtain ⟨i, c, ⟨hi, ht⟩, ⟨-, hc⟩, hd⟩ := h
  have hU := U_pos; have hU1 := U_tiny.1; have hH := H_pos; have hHU := H_tiny
  have he0 := turnsAlike_nonneg ha
  have hf0 := turnsAlike_nonneg hf
  have hB' := SO3.isRotation_transpose hB
  have hb' := turnsAlike_transpose hb
  have e1 := rotated_error (a := b.rotᵀ) ht hB' hb'
  have e2 := applied_error hc hA ha
  have er' : realRot b.rotᵀ = (realRot b.rot)ᵀ := rfl
  have en : realVec (-b.trans) = -realVec b.trans := by ext j; simp [realVec]
  rw [er', en, eucNorm_neg, mulVec_neg] at e1
  have n1 := turnsAlike_norm hB' hb' (realVec b.trans)
  have n2 := eucNorm_le_add (realVec i.trans) (-((realRot b.rot)ᵀ *ᵥ (realVec b.trans)))
  rw [eucNorm_neg] at n2
  set x := realVec a.trans with hx
  set y := realVec b.trans with hy
  have hs : eucNorm (x - y) ≤ eucNorm x + eucNorm y := by
    have := eucNorm_add_le x (-y)
    rwa [eucNorm_neg, ← sub_eq_add_neg] at this
  have p1 := eucNorm_nonneg x
  have p2 := eucNorm_nonneg y
  have p3 := eucNorm_nonneg (x - y)
  have v1 := ha (realVec i.trans)
  have v2 : eucNorm (A *ᵥ realVec i.trans - A *ᵥ -(Bᵀ *ᵥ y)) ≤ 6.002 * U * ((1 + e) * eucNorm y) + 250 * H + e * eucNorm y := by
    rw [← mulVec_sub, eucNorm_mulVec hA]
    refine le_trans ?_ (add_le_add e1 (hb' y))
    have e : realVec i.trans - -(Bᵀ *ᵥ y) = (realVec i.trans - -((realRot b.rot)ᵀ *ᵥ y)) + -((realRot b.rot)ᵀ *ᵥ y - Bᵀ *ᵥ y) := by abel
    rw [e]
    refine (eucNorm_add_le _ _).trans ?_
    rw [eucNorm_neg]
  have v3 : eucNorm (A *ᵥ -(Bᵀ *ᵥ y) - -y) ≤ f * eucNorm y := by
    have := hf (Bᵀ *ᵥ y)
    rw [eucNorm_mulVec hB', mulVec_mulVec _ B, mul_eq_one_comm.mp hB.1, one_mulVec] at this
    rw [mulVec_neg, ← eucNorm_neg]
    refine le_trans (le_of_eq ?_) this
    congr 1
    abel
  have v4 : |eucNorm (realVec c.trans) - eucNorm (x - y)| ≤ eucNorm (realVec c.trans - (realRot a.rot *ᵥ realVec i.trans + x)) +
      eucNorm (realRot a.rot *ᵥ realVec i.trans - A *ᵥ realVec i.trans) + eucNorm (A *ᵥ realVec i.trans - A *ᵥ -(Bᵀ *ᵥ y)) +
      eucNorm (A *ᵥ -(Bᵀ *ᵥ y) - -y) := by
    refine (abs_norm_sub _ _).trans ?_
    have e : realVec c.trans - (x - y) = (realVec c.trans - (realRot a.rot *ᵥ realVec i.trans + x)) +
      (realRot a.rot *ᵥ realVec i.trans - A *ᵥ realVec i.trans) + (A *ᵥ realVec i.trans - A *ᵥ -(Bᵀ *ᵥ y)) + (A *ᵥ -(Bᵀ *ᵥ y) - -y) := by abel
    rw [e]
    refine (eucNorm_add_le _ _).trans (add_le_add ((eucNorm_add_le _ _).trans (add_le_add (eucNorm_add_le _ _) le_rfl)) le_rfl)
  have he1 : e ≤ 0.005 := by linarith
  have q1 : (1 + e) * eucNorm y ≤ 1.005 * eucNorm y := mul_le_mul_of_nonneg_right (by linarith) p2
  have q3 := mul_le_mul_of_nonneg_left q1 (by positivity : 0 ≤ 6.002 * U)
  have q4 : 6.002 * U * (1.005 * eucNorm y) ≤ 0.001 * eucNorm y := by
    have : 6.002 * U * 1.005 ≤ 0.001 := by linarith
    nlinarith [mul_le_mul_of_nonneg_right this p2]
  have q5 : eucNorm (realVec i.trans) ≤ 1.006 * eucNorm y + 250 * H := by
    have := n2.trans (add_le_add e1 n1)
    linarith
  refine composed_end (t := 14.2 * U * (eucNorm x + eucNorm y) + 2000 * H) hd hs p3 ?_ le_rfl ?_
  · have := mul_le_mul he (by linarith : eucNorm y ≤ eucNorm x + eucNorm y) p2 (by norm_num)
    linarith
  · refine v4.trans ((add_le_add (add_le_add (add_le_add e2 v1) v2) v3).trans ?_)
    exact composed_arith he0 he1 p1 p2 (eucNorm_nonneg _) q5

end Verif.DistanceDouble
