import Verif.Proofs.TransformDouble
import Mathlib.Analysis.SpecialFunctions.Exponential
/-! # C88: rounding errors of composed transforms -/
namespace Verif.Props
open Verif.Spec Verif.TransformDouble Matrix SO3

theorem one_le_growth {δ : ℝ} (hδ : 0 ≤ δ) (k : ℕ) : 1 ≤ growth δ k :=
  one_le_mul_of_one_le_of_one_le (one_le_pow₀ (by linarith)) (one_le_pow₀ (by have := U_pos; unfold U at this; linarith))

theorem growth_mono {δ : ℝ} (hδ : 0 ≤ δ) {j k : ℕ} (h : j ≤ k) : growth δ j ≤ growth δ k := by
  have hU : (0 : ℝ) < 2 ^ (-53 : ℤ) := U_pos
  exact mul_le_mul (pow_le_pow_right₀ (by linarith) h) (pow_le_pow_right₀ (by linarith) (by omega))
    (pow_nonneg (by linarith) _) (pow_nonneg (by linarith) _)

theorem growth_add (δ : ℝ) {j k : ℕ} (hj : 1 ≤ j) (hk : 1 ≤ k) : growth δ j * growth δ k * (1 + 10 * U) = growth δ (j + k) := by
  obtain ⟨j, rfl⟩ : ∃ i, j = i + 1 := ⟨j - 1, by omega⟩
  obtain ⟨k, rfl⟩ : ∃ i, k = i + 1 := ⟨k - 1, by omega⟩
  have e : j + 1 + (k + 1) - 1 = (j + k) + 1 := by omega
  unfold growth U
  rw [e, Nat.add_sub_cancel, Nat.add_sub_cancel]
  ring

theorem growth_one (δ : ℝ) : growth δ 1 = 1 + δ := by simp [growth]

theorem count_pos {α : Type} (x : Expr α) : 1 ≤ count x := by
  induction x with
  | given a => exact le_rfl
  | mul x y ih1 ih2 => unfold count; omega
  | inv x ih => exact ih

theorem count_le_errors {α : Type} (x : Expr α) : count x ≤ errors x := by
  induction x with
  | given a => exact le_rfl
  | mul x y ih1 ih2 => unfold count errors; omega
  | inv x ih => unfold count errors; omega

theorem arith_mul {U H B m k Fa Fb Ea na nb f : ℝ} (hU : 0 < U) (hH : 0 < H) (hB : 0 < B) (hHB : 1048576 * H ≤ U * B) (hm : 1 ≤ m)
    (hk : 1 ≤ k) (h1 : 1 ≤ Fa) (h2 : 1 ≤ Fb) (h4 : Ea ≤ Fa) (hb0 : 0 ≤ nb) (ha : na ≤ m * B * Fa) (hb : nb ≤ k * B * Fb)
    (hf : f ≤ k * B * (Fb - 1)) :
    8.002 * U * ((1 + (Ea - 1)) * nb + na) + 1250 * H + ((Ea - 1) * nb + (f + m * B * (Fa - 1))) ≤
      (m + k) * B * (Fa * Fb * (1 + 10 * U) - 1) := by
  have hF : Fa ≤ Fa * Fb := le_mul_of_one_le_right (by linarith) h2
  have i1 : Ea * nb ≤ Fa * (k * B * Fb) := mul_le_mul h4 hb hb0 (by linarith)
  have i2 : (Ea - 1) * nb ≤ (Fa - 1) * (k * B * Fb) := mul_le_mul (by linarith) hb hb0 (by linarith)
  have hmB : 0 < m * B := by positivity
  have hkB : 0 < k * B := by positivity
  have i3 : m * B * Fa ≤ m * B * (Fa * Fb) := mul_le_mul_of_nonneg_left hF hmB.le
  have i4 : B ≤ (m + k) * B * (Fa * Fb) := by
    have : 1 ≤ (m + k) * (Fa * Fb) := one_le_mul_of_one_le_of_one_le (by linarith) (by linarith)
    nlinarith
  have i5 : 8.002 * U * ((1 + (Ea - 1)) * nb + na) ≤ 8.002 * U * ((m + k) * B * (Fa * Fb)) := by
    refine mul_le_mul_of_nonneg_left ?_ (by positivity)
    have e : (1 + (Ea - 1)) * nb = Ea * nb := by ring
    rw [e]
    nlinarith
  have i6 : 1250 * H ≤ U * ((m + k) * B * (Fa * Fb)) := by
    have := mul_le_mul_of_nonneg_left i4 hU.le
    linarith
  have e : (m + k) * B * (Fa * Fb * (1 + 10 * U) - 1) = k * B * (Fa * Fb - 1) + m * B * (Fa * Fb - 1) + 10 * (U * ((m + k) * B * (Fa * Fb))) := by
    ring
  rw [e]
  have hpos : 0 ≤ U * ((m + k) * B * (Fa * Fb)) := by positivity
  nlinarith

theorem arith_inv {U H B n E F t f : ℝ} (hU : 0 < U) (hH : 0 < H) (hB : 0 < B) (hHB : 1048576 * H ≤ U * B) (hn : 1 ≤ n)
    (h1 : 1 ≤ E) (h2 : 1 ≤ F) (ht : t ≤ n * B * F) (hf : f ≤ n * B * (F - 1)) :
    6.002 * U * ((1 + (E - 1)) * t) + 250 * H + ((E - 1) * t + f) ≤ n * B * (F * E * (1 + 10 * U) - 1) := by
  have hnB : 0 < n * B := by positivity
  have i1 : E * t ≤ n * B * (F * E) := by nlinarith
  have i2 : (E - 1) * t ≤ (E - 1) * (n * B * F) := mul_le_mul_of_nonneg_left ht (by linarith)
  have i4 : B ≤ n * B * (F * E) := by
    have : 1 ≤ n * (F * E) := one_le_mul_of_one_le_of_one_le hn (one_le_mul_of_one_le_of_one_le h2 h1)
    nlinarith
  have i5 : 6.002 * U * ((1 + (E - 1)) * t) ≤ 6.002 * U * (n * B * (F * E)) := by
    refine mul_le_mul_of_nonneg_left ?_ (by positivity)
    linarith
  have i6 : 250 * H ≤ U * (n * B * (F * E)) := by
    have := mul_le_mul_of_nonneg_left i4 hU.le
    linarith
  have hpos : 0 ≤ U * (n * B * (F * E)) := by positivity
  have e : n * B * (F * E * (1 + 10 * U) - 1) = (E - 1) * (n * B * F) + n * B * (F - 1) + 10 * (U * (n * B * (F * E))) := by ring
  rw [e]
  linarith

/-- C88.  However an expression over transforms is bracketed, and in whatever order its inner products are evaluated, with or without fused
multiply-add: the computed rotation turns every vector like the exact one up to `growth δ n - 1` of its length, where `n` is the number of
transforms and `δ` their own relative error; and the computed translation is off by at most that fraction (counting inverses once more) of the
sum `n B` of the lengths of the translations. -/
theorem c88_expression {δ B : ℝ} (hδ : 0 ≤ δ) (hB : 2 ^ (-1000 : ℤ) ≤ B) {x : Expr Stored} {x' : Expr Pose} (h : SameExpr δ B x x')
    {c : Stored} (hc : Computes x c) :
    IsRotation (exactly x').1 ∧ eucNorm (exactly x').2 ≤ count x' * B ∧
    TurnsAlike (growth δ (count x') - 1) (realRot c.rot) (exactly x').1 ∧
    eucNorm (realVec c.trans - (exactly x').2) ≤ count x' * B * (growth δ (errors x') - 1) := by
  have hU := U_pos
  have hH := H_pos
  have hB0 : 0 < B := lt_of_lt_of_le (by positivity) hB
  have hHB := H_small hB
  induction h generalizing c with
  | given hg =>
    cases hc
    simp only [exactly, count, errors, growth_one]
    refine ⟨hg.rotation, ?_, ?_, ?_⟩
    · simpa using hg.bound
    · simpa using hg.rot
    · have := hg.trans; simp; linarith
  | @mul x y x' y' hx hy ihx ihy =>
    cases hc with
    | mul hcx hcy hm =>
    rename_i a b
    obtain ⟨ra, ta, ea, fa⟩ := ihx hcx
    obtain ⟨rb, tb, eb, fb⟩ := ihy hcy
    have g1 := one_le_growth hδ (errors x')
    have g2 := one_le_growth hδ (errors y')
    have gm := growth_mono hδ (count_le_errors x')
    have c1 : (1 : ℝ) ≤ count x' := by exact_mod_cast count_pos x'
    have c2 : (1 : ℝ) ≤ count y' := by exact_mod_cast count_pos y'
    refine ⟨isRotation_mul ra rb, ?_, ?_, ?_⟩
    · simp only [exactly, count]
      refine (eucNorm_add_le _ _).trans ?_
      rw [eucNorm_mulVec ra]
      push_cast
      linarith
    · have := mulRot_error hm.1 ra rb ea eb
      simp only [exactly, count]
      rw [← growth_add δ (count_pos x') (count_pos y')]
      simpa using this
    · simp only [exactly, count, errors]
      rw [← growth_add δ ((count_pos x').trans (count_le_errors x')) ((count_pos y').trans (count_le_errors y'))]
      push_cast
      have ha := applied_error hm.2 ra ea
      have hn1 : eucNorm (realVec a.trans) ≤ count x' * B * growth δ (errors x') := by
        have e : realVec a.trans = (realVec a.trans - (exactly x').2) + (exactly x').2 := by abel
        rw [e]
        refine (eucNorm_add_le _ _).trans ?_
        linarith
      have hn2 : eucNorm (realVec b.trans) ≤ count y' * B * growth δ (errors y') := by
        have e : realVec b.trans = (realVec b.trans - (exactly y').2) + (exactly y').2 := by abel
        rw [e]
        refine (eucNorm_add_le _ _).trans ?_
        linarith
      have e : realVec c.trans - ((exactly x').1 *ᵥ (exactly y').2 + (exactly x').2) =
          (realVec c.trans - (realRot a.rot *ᵥ realVec b.trans + realVec a.trans)) +
          ((realRot a.rot *ᵥ realVec b.trans - (exactly x').1 *ᵥ realVec b.trans) +
            ((exactly x').1 *ᵥ (realVec b.trans - (exactly y').2) + (realVec a.trans - (exactly x').2))) := by
        rw [mulVec_sub]; abel
      rw [e]
      refine (eucNorm_add_le _ _).trans ((add_le_add ha ((eucNorm_add_le _ _).trans
        (add_le_add (ea _) ((eucNorm_add_le _ _).trans (add_le_add (eucNorm_mulVec ra _).le fa))))).trans ?_)
      exact arith_mul hU hH hB0 hHB c1 c2 g1 g2 gm (eucNorm_nonneg _) hn1 hn2 fb
  | @inv x x' hx ih =>
    cases hc with
    | inv hcx hi =>
    rename_i a
    obtain ⟨ra, ta, ea, fa⟩ := ih hcx
    have g1 := one_le_growth hδ (errors x')
    have g3 := one_le_growth hδ (count x')
    have c1 : (1 : ℝ) ≤ count x' := by exact_mod_cast count_pos x'
    have ra' := isRotation_transpose ra
    have ea' : TurnsAlike (growth δ (count x') - 1) (realRot a.rot.transpose) (exactly x').1ᵀ := turnsAlike_transpose ea
    refine ⟨ra', ?_, ?_, ?_⟩
    · simp only [exactly, count]
      rw [eucNorm_neg, eucNorm_mulVec ra']
      exact ta
    · rw [hi.1]; exact ea'
    · simp only [exactly, count, errors]
      rw [← growth_add δ ((count_pos x').trans (count_le_errors x')) (count_pos x')]
      have hr := rotated_error hi.2 ra' ea'
      have en : realVec (-a.trans) = -realVec a.trans := by ext i; simp [realVec]
      rw [en] at hr
      have hn : eucNorm (realVec a.trans) ≤ count x' * B * growth δ (errors x') := by
        have e : realVec a.trans = (realVec a.trans - (exactly x').2) + (exactly x').2 := by abel
        rw [e]
        refine (eucNorm_add_le _ _).trans ?_
        linarith
      have e : realVec c.trans - -((exactly x').1ᵀ *ᵥ (exactly x').2) =
          (realVec c.trans - realRot a.rot.transpose *ᵥ -realVec a.trans) +
          ((realRot a.rot.transpose *ᵥ -realVec a.trans - (exactly x').1ᵀ *ᵥ -realVec a.trans) +
            (exactly x').1ᵀ *ᵥ -(realVec a.trans - (exactly x').2)) := by
        rw [mulVec_neg (realVec a.trans - _) (exactly x').1ᵀ, mulVec_sub, mulVec_neg (realVec a.trans) (exactly x').1ᵀ]
        abel
      rw [e]
      refine (eucNorm_add_le _ _).trans ((add_le_add hr ((eucNorm_add_le _ _).trans
        (add_le_add (ea' _) (eucNorm_mulVec ra' _).le))).trans ?_)
      rw [eucNorm_neg, eucNorm_neg]
      exact arith_inv hU hH hB0 hHB c1 g3 g1 hn fa

theorem arith_apply {U H B m Fa Ea na nb : ℝ} (hU : 0 < U) (hH : 0 < H) (hB : 0 < B) (hHB : 1048576 * H ≤ U * B) (hm : 1 ≤ m)
    (h1 : 1 ≤ Fa) (h4 : Ea ≤ Fa) (hb0 : 0 ≤ nb) (ha : na ≤ m * B * Fa) :
    8.002 * U * ((1 + (Ea - 1)) * nb + na) + 1250 * H + ((Ea - 1) * nb + m * B * (Fa - 1)) ≤
      (nb + m * B) * (Fa * (1 + 10 * U) - 1) := by
  have i1 : Ea * nb ≤ Fa * nb := mul_le_mul_of_nonneg_right h4 hb0
  have hmB : 0 < m * B := by positivity
  have i4 : B ≤ (nb + m * B) * Fa := by nlinarith [mul_nonneg hb0 (by linarith : (0 : ℝ) ≤ Fa)]
  have i5 : 8.002 * U * ((1 + (Ea - 1)) * nb + na) ≤ 8.002 * U * ((nb + m * B) * Fa) :=
    mul_le_mul_of_nonneg_left (by linarith) (by positivity)
  have i6 : 1250 * H ≤ U * ((nb + m * B) * Fa) := by
    have := mul_le_mul_of_nonneg_left i4 hU.le
    linarith
  have hpos : 0 ≤ U * ((nb + m * B) * Fa) := by positivity
  have e : (nb + m * B) * (Fa * (1 + 10 * U) - 1) = nb * (Fa - 1) + m * B * (Fa - 1) + 10 * (U * ((nb + m * B) * Fa)) := by ring
  rw [e]
  linarith

/-- C88, points: a point given by doubles comes out of the computed transform within the same fraction of the distances involved, its own and
those of the translations. -/
theorem c88_point {δ B : ℝ} (hδ : 0 ≤ δ) (hB : 2 ^ (-1000 : ℤ) ≤ B) {x : Expr Stored} {x' : Expr Pose} (h : SameExpr δ B x x')
    {c : Stored} (hc : Computes x c) {v w : Fin 3 → ℚ} (hw : Applied c v w) :
    eucNorm (realVec w - ((exactly x').1 *ᵥ realVec v + (exactly x').2)) ≤
      (eucNorm (realVec v) + count x' * B) * (growth δ (errors x') * (1 + 10 * 2 ^ (-53 : ℤ)) - 1) := by
  have hB0 : 0 < B := lt_of_lt_of_le (by positivity) hB
  obtain ⟨ra, ta, ea, fa⟩ := c88_expression hδ hB h hc
  have g1 := one_le_growth hδ (errors x')
  have gm := growth_mono hδ (count_le_errors x')
  have c1 : (1 : ℝ) ≤ count x' := by exact_mod_cast count_pos x'
  have ha := applied_error hw ra ea
  have hn : eucNorm (realVec c.trans) ≤ count x' * B * growth δ (errors x') := by
    have e : realVec c.trans = (realVec c.trans - (exactly x').2) + (exactly x').2 := by abel
    rw [e]
    refine (eucNorm_add_le _ _).trans ?_
    linarith
  have e : realVec w - ((exactly x').1 *ᵥ realVec v + (exactly x').2) =
      (realVec w - (realRot c.rot *ᵥ realVec v + realVec c.trans)) +
      ((realRot c.rot *ᵥ realVec v - (exactly x').1 *ᵥ realVec v) + (realVec c.trans - (exactly x').2)) := by abel
  rw [e]
  refine (eucNorm_add_le _ _).trans ((add_le_add ha ((eucNorm_add_le _ _).trans (add_le_add (ea _) fa))).trans ?_)
  exact arith_apply U_pos H_pos hB0 (H_small hB) c1 g1 gm (eucNorm_nonneg _) hn

/-- C88, in numbers: the fraction grows linearly.  With `k` errors of `δ` and `k (δ + 10 · 2⁻⁵³) ≤ 1/100` it is at most
`1.02 k (δ + 10 · 2⁻⁵³)`. -/
theorem c88_linear {δ : ℝ} (hδ : 0 ≤ δ) (k : ℕ) (hk : k * (δ + 10 * 2 ^ (-53 : ℤ)) ≤ 1 / 100) :
    growth δ k - 1 ≤ 1.02 * (k * (δ + 10 * 2 ^ (-53 : ℤ))) := by
  have hU : (0 : ℝ) < 2 ^ (-53 : ℤ) := U_pos
  set ε : ℝ := 10 * 2 ^ (-53 : ℤ) with hε
  have hε0 : 0 < ε := by positivity
  set y := k * (δ + ε) with hy
  have hy0 : 0 ≤ y := by positivity
  have h1 : growth δ k ≤ Real.exp y := by
    have a1 : (1 + δ) ^ k ≤ Real.exp (k * δ) := by
      rw [Real.exp_nat_mul]
      exact pow_le_pow_left₀ (by linarith) (by linarith [Real.add_one_le_exp δ]) k
    have a2 : (1 + ε) ^ (k - 1) ≤ Real.exp (k * ε) := by
      refine (pow_le_pow_right₀ (by linarith) (Nat.sub_le k 1)).trans ?_
      rw [Real.exp_nat_mul]
      exact pow_le_pow_left₀ (by linarith) (by linarith [Real.add_one_le_exp ε]) k
    rw [hy, mul_add, Real.exp_add]
    exact mul_le_mul a1 a2 (by positivity) (Real.exp_pos _).le
  have h2 : Real.exp y * (1 - y) ≤ 1 := by
    have := Real.add_one_le_exp (-y)
    calc Real.exp y * (1 - y) ≤ Real.exp y * Real.exp (-y) := mul_le_mul_of_nonneg_left (by linarith) (Real.exp_pos _).le
      _ = 1 := by rw [← Real.exp_add]; simp
  have h3 : Real.exp y ≤ 1.0102 := by
    by_contra hc
    push Not at hc
    nlinarith
  nlinarith

/-- C88, the relation is not empty: every expression has a computed value. -/
theorem c88_computed (x : Expr Stored) : ∃ c, Computes x c := by
  induction x with
  | given a => exact ⟨a, .given a⟩
  | mul x y ih1 ih2 =>
    obtain ⟨a, ha⟩ := ih1
    obtain ⟨b, hb⟩ := ih2
    choose r hr using fun i j => Evaluates.some (a.rot i) (fun k => b.rot k j) (s := Finset.univ) ⟨0, Finset.mem_univ _⟩
    choose t ht using fun i => Evaluates.some (Fin.snoc (α := fun _ => ℚ) (a.rot i) (a.trans i)) (Fin.snoc (α := fun _ => ℚ) b.trans 1)
      (s := Finset.univ) ⟨0, Finset.mem_univ _⟩
    exact ⟨⟨r, t⟩, .mul ha hb ⟨hr, ht⟩⟩
  | inv x ih =>
    obtain ⟨a, ha⟩ := ih
    choose t ht using fun i => Evaluates.some (a.rot.transpose i) (-a.trans) (s := Finset.univ) ⟨0, Finset.mem_univ _⟩
    exact ⟨⟨a.rot.transpose, t⟩, .inv ha ⟨rfl, ht⟩⟩

/-- C88, why an error is unavoidable: a matrix of doubles is a rotation exactly only if every entry is -1, 0 or 1. -/
theorem c88_exact_rotations (a : Matrix (Fin 3) (Fin 3) ℚ) (hd : ∀ i j, IsDouble (a i j)) (hr : IsRotation (realRot a)) (i j : Fin 3) :
    a i j = 0 ∨ a i j = 1 ∨ a i j = -1 := by
  have hint : ∀ i j, ∃ m : ℤ, a i j = m / 2 ^ 1074 := by
    intro i j
    obtain ⟨m, e, -, he, -, hq⟩ := hd i j
    obtain ⟨n, hn⟩ : ∃ n : ℕ, e = n - 1074 := ⟨(e + 1074).toNat, by omega⟩
    refine ⟨m * 2 ^ n, ?_⟩
    rw [hq, hn, zpow_sub₀ two_ne_zero]
    rw [Int.cast_mul, Int.cast_pow, Int.cast_ofNat, mul_div_assoc, zpow_natCast]
    rfl
  choose m hm using hint
  have hcol : ∀ j, a 0 j ^ 2 + a 1 j ^ 2 + a 2 j ^ 2 = 1 := by
    intro j
    have h := congrFun (congrFun hr.orth j) j
    simp only [Matrix.mul_apply, Matrix.transpose_apply, Fin.sum_univ_three, realRot, Matrix.map_apply, Matrix.one_apply_eq] at h
    have : ((a 0 j ^ 2 + a 1 j ^ 2 + a 2 j ^ 2 : ℚ) : ℝ) = 1 := by push_cast; linarith
    exact_mod_cast this
  have hsq : ∀ j, m 0 j ^ 2 + m 1 j ^ 2 + m 2 j ^ 2 = 4 ^ 1074 := by
    intro j
    have h := hcol j
    rw [hm, hm, hm, div_pow, div_pow, div_pow, ← add_div, ← add_div, div_eq_one_iff_eq (by positivity), ← pow_mul, mul_comm 1074 2,
      pow_mul] at h
    have h2 : (((m 0 j ^ 2 + m 1 j ^ 2 + m 2 j ^ 2 : ℤ)) : ℚ) = (((2 : ℤ) ^ 2) ^ 1074 : ℤ) := by
      rw [Int.cast_pow, Int.cast_pow, Int.cast_ofNat, Int.cast_add, Int.cast_add, Int.cast_pow, Int.cast_pow, Int.cast_pow]
      exact h
    rw [show (4 : ℤ) = 2 ^ 2 by norm_num]
    exact Int.cast_injective h2
  have key : m i j = 0 ∨ m i j = 2 ^ 1074 ∨ m i j = -2 ^ 1074 := by
    have h := hsq j
    have := three_squares 1074
    fin_cases i
    · exact this _ _ _ h
    · exact this (m 1 j) (m 0 j) (m 2 j) (by rw [← h]; ring)
    · exact this (m 2 j) (m 0 j) (m 1 j) (by rw [← h]; ring)
  have h2 : (2 : ℚ) ^ 1074 ≠ 0 := by positivity
  rw [hm]
  rcases key with e | e | e
  · left; rw [e]; simp
  · right; left; rw [e, Int.cast_pow, Int.cast_ofNat]; exact div_self h2
  · right; right; rw [e, Int.cast_neg, Int.cast_pow, Int.cast_ofNat, neg_div, div_self h2]

/-- Stored exactly: a quarter turn about the third axis and a shift of three along the first. -/
def quarterShift : Stored := ⟨!![0, -1, 0; 1, 0, 0; 0, 0, 1], ![3, 0, 0]⟩

example : StoresPose 0 3 quarterShift (!![0, -1, 0; 1, 0, 0; 0, 0, 1], ![3, 0, 0]) := by
  have e1 : realRot quarterShift.rot = !![0, -1, 0; 1, 0, 0; 0, 0, 1] := by
    ext i j; fin_cases i <;> fin_cases j <;> simp [realRot, quarterShift]
  have e2 : realVec quarterShift.trans = ![3, 0, 0] := by
    ext i; fin_cases i <;> simp [realVec, quarterShift]
  refine ⟨⟨?_, ?_⟩, ?_, ?_, ?_⟩
  · ext i j; fin_cases i <;> fin_cases j <;> simp [Matrix.mul_apply, Fin.sum_univ_three]
  · simp [Matrix.det_fin_three]
  · intro v; rw [e1, sub_self, eucNorm_zero]; simp
  · refine Real.sqrt_le_iff.mpr ⟨by norm_num, ?_⟩
    rw [sqNorm_eq]; simp
  · rw [e2, sub_self, eucNorm_zero]; simp

/-- Its entries are doubles, and it can be composed with its own inverse. -/
example : (∀ i j, IsDouble (quarterShift.rot i j)) ∧ IsDouble (1 / 2) ∧
    ∃ c, Computes (.mul (.given quarterShift) (.inv (.given quarterShift))) c := by
  have h0 : IsDouble 0 := ⟨0, 0, by norm_num, by norm_num, by norm_num, by norm_num⟩
  have h1 : IsDouble 1 := ⟨1, 0, by norm_num, by norm_num, by norm_num, by norm_num⟩
  have h2 : IsDouble (-1) := ⟨-1, 0, by norm_num, by norm_num, by norm_num, by norm_num⟩
  refine ⟨fun i j => ?_, ⟨1, -1, by norm_num, by norm_num, by norm_num, by norm_num⟩, c88_computed _⟩
  fin_cases i <;> fin_cases j <;> first | exact h0 | exact h1 | exact h2

/-- A million compositions of transforms stored to the last place stay within 1.4e-9. -/
example : growth (2 ^ (-52 : ℤ)) 1000000 - 1 ≤ 1.4e-9 := by
  refine (c88_linear (by positivity) 1000000 (by norm_num)).trans ?_
  norm_num

end Verif.Props
