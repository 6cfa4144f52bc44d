import Verif.Proofs.StatsDouble
/-! # Computed covariances and the constructor of `Gaussian` -/
namespace Verif.StatsDouble
open SampleIntervalDouble Binary64 TransformDouble ExpDouble Verif.Stats Verif.Spec Verif.Spec.Stats Matrix

theorem deviation_pos {n d : ℕ} {s : Matrix (Fin n) (Fin d) ℝ} {j : Fin d} (h : 2 ^ (-500 : ℤ) ≤ deviation s j) : 0 < deviation s j :=
  lt_of_lt_of_le (zpow_pos (by norm_num) _) h

/-- The underflow terms are negligible. -/
theorem tiny {x y : ℝ} (hx : 2 ^ (-500 : ℤ) ≤ x) (hy : 2 ^ (-500 : ℤ) ≤ y) : 5 * H ≤ 0.0001 * (U * (x * y)) ∧ 4 * H ≤ 1e-6 * (U * x) := by
  obtain ⟨t, ht⟩ : ∃ t, t = (2 : ℝ) ^ (-500 : ℤ) := ⟨_, rfl⟩
  have ht0 : 0 < t := by rw [ht]; exact zpow_pos (by norm_num) _
  have hU := U_pos
  rw [← ht] at hx hy
  have eH : H = U * (t * t) * 2 ^ (-22 : ℤ) := by
    rw [ht]
    unfold H U
    rw [← zpow_add₀ (by norm_num), ← zpow_add₀ (by norm_num), ← zpow_add₀ (by norm_num)]
    rfl
  have ht1 : t ≤ 1e-3 := by
    rw [ht]
    calc (2 : ℝ) ^ (-500 : ℤ) ≤ 2 ^ (-10 : ℤ) := zpow_le_zpow_right₀ (by norm_num) (by norm_num)
      _ ≤ 1e-3 := by norm_num
  have a := mul_le_mul_of_nonneg_left (mul_le_mul hx hy ht0.le (ht0.le.trans hx)) hU.le
  have b := mul_le_mul_of_nonneg_left (mul_le_mul ht1 hx ht0.le (by norm_num)) hU.le
  have e : (2 : ℝ) ^ (-22 : ℤ) ≤ 2.4e-7 := by norm_num
  have f := mul_le_mul_of_nonneg_left e (mul_nonneg hU.le (mul_nonneg ht0.le ht0.le))
  have g := mul_nonneg hU.le (ht0.le.trans hx)
  rw [← eH] at f
  have w := mul_nonneg hU.le (mul_nonneg ht0.le ht0.le)
  constructor <;> linarith

/-- The allowance for the entries of a computed covariance, in units of the deviations. -/
noncomputable def share (n : ℕ) : ℝ := 1.002 * (n + 5) * U

/-- Errors of the entries when the samples are spread out. -/
theorem covariance_share {n d : ℕ} (hn : n < 2 ^ 32) (s : Matrix (Fin n) (Fin d) ℚ) (hs : ∀ i j, IsDouble (s i j)) (c : Matrix (Fin d) (Fin d) ℚ)
    (h : CovarianceOf s c) (ha : ∀ j, (n + 1) * averageAbs (reals s) j ≤ 2 ^ 26 * deviation (reals s) j) (hb : ∀ j, 2 ^ (-500 : ℤ) ≤ deviation (reals s) j)
    (j k : Fin d) : |(c j k : ℝ) - unbiased (reals s) j k| ≤ share n * (deviation (reals s) j * deviation (reals s) k) := by
  have key := covariance_close hn s hs c h j k
  have hU := U_pos
  have hm : ∀ j, meanError (reals s) j ≤ 7.5e-9 * deviation (reals s) j ∧ 0 ≤ meanError (reals s) j := by
    intro j
    refine ⟨?_, meanError_nonneg _ _⟩
    have t := (tiny (hb j) (hb j)).2
    change 1.002 * ((n : ℝ) + 1) * U * averageAbs (reals s) j + 4 * H ≤ _
    have i := mul_le_mul_of_nonneg_left (ha j) (mul_nonneg (by norm_num : (0 : ℝ) ≤ 1.002) hU.le)
    have eU : 2 ^ 26 * U ≤ 7.4506e-9 := by unfold U; norm_num
    have u1 : U ≤ 1e-6 := by unfold U; norm_num
    have d0 := (deviation_pos (hb j)).le
    have i2 := mul_le_mul_of_nonneg_right eU d0
    have i3 := mul_le_mul_of_nonneg_right u1 d0
    have i4 : 4 * H ≤ 1e-12 * deviation (reals s) j := by linarith
    have : 1.002 * (7.4506e-9 : ℝ) + 1e-12 ≤ 7.5e-9 := by norm_num
    have := mul_le_mul_of_nonneg_right this d0
    linarith
  have t := (tiny (hb j) (hb k)).1
  obtain ⟨mj, mj0⟩ := hm j
  obtain ⟨mk, mk0⟩ := hm k
  have dj := (deviation_pos (hb j)).le
  have dk := (deviation_pos (hb k)).le
  refine key.trans ?_
  generalize deviation (reals s) j = a at *
  generalize deviation (reals s) k = b at *
  generalize meanError (reals s) j = e at *
  generalize meanError (reals s) k = f at *
  have ab := mul_nonneg dj dk
  have i1 : (a + 1.5 * e) * (b + 1.5 * f) ≤ (1.0000001 * a) * (1.0000001 * b) := mul_le_mul (by linarith) (by linarith) (by linarith) (by linarith)
  have n0 : (0 : ℝ) ≤ n := Nat.cast_nonneg n
  have i2 := mul_le_mul_of_nonneg_left i1 (by positivity : 0 ≤ 1.001 * ((n : ℝ) + 3) * U)
  have i3 := mul_le_mul mj mk mk0 (by linarith)
  have eU : (2 : ℝ) * (7.5e-9 * 7.5e-9) ≤ 1.02 * U := by unfold U; norm_num
  have i4 := mul_le_mul_of_nonneg_right eU ab
  unfold share
  have q := mul_nonneg hU.le ab
  have r := mul_nonneg n0 q
  have n1 : (1.001 : ℝ) * (1.0000001 * 1.0000001) ≤ 1.00101 := by norm_num
  have n2 := mul_le_mul_of_nonneg_right n1 (by linarith : 0 ≤ ((n : ℝ) + 3) * (U * (a * b)))
  linarith

/-- Perturbing a symmetric matrix changes its quadratic form by little. -/
theorem quadratic_near {d : ℕ} (m m' : Matrix (Fin d) (Fin d) ℝ) (a : Fin d → ℝ) {E : ℝ} (hE : 0 ≤ E)
    (h : ∀ j k, |m j k - m' j k| ≤ E * (a j * a k)) (x : Fin d → ℝ) (hx : lengthSq x = 1) : quadratic m' x - E * ∑ j, a j ^ 2 ≤ quadratic m x := by
  have e : quadratic m' x - quadratic m x = ∑ j, ∑ k, x j * (m' j k - m j k) * x k := by
    unfold quadratic
    simp only [← Finset.sum_sub_distrib]
    exact Finset.sum_congr rfl fun j _ => Finset.sum_congr rfl fun k _ => by ring
  have b : ∑ j, ∑ k, x j * (m' j k - m j k) * x k ≤ ∑ j, ∑ k, E * ((|x j| * a j) * (|x k| * a k)) := by
    refine Finset.sum_le_sum fun j _ => Finset.sum_le_sum fun k _ => ?_
    refine (le_abs_self _).trans ?_
    rw [abs_mul, abs_mul, abs_sub_comm]
    have := mul_le_mul_of_nonneg_right (mul_le_mul_of_nonneg_left (h j k) (abs_nonneg (x j))) (abs_nonneg (x k))
    linarith
  have c : ∑ j, ∑ k, E * ((|x j| * a j) * (|x k| * a k)) = E * (∑ j, |x j| * a j) ^ 2 := by
    rw [sq, Finset.sum_mul_sum, Finset.mul_sum]
    exact Finset.sum_congr rfl fun j _ => by rw [Finset.mul_sum]
  have f := Finset.sum_mul_sq_le_sq_mul_sq Finset.univ (fun j => |x j|) a
  simp only [sq_abs] at f
  have g : ∑ j, x j ^ 2 = 1 := hx
  rw [g, one_mul] at f
  have := mul_le_mul_of_nonneg_left f hE
  linarith

theorem unbiased_comm {n d : ℕ} (s : Matrix (Fin n) (Fin d) ℝ) (j k : Fin d) : unbiased s j k = unbiased s k j := by
  unfold unbiased
  congr 1
  exact Finset.sum_congr rfl fun i _ => mul_comm _ _

/-- The part of a computed covariance that the solver reads is as close. -/
theorem lower_near {d : ℕ} {m m' : Matrix (Fin d) (Fin d) ℝ} {a : Fin d → ℝ} {E : ℝ} (hsym : ∀ j k, m' j k = m' k j)
    (h : ∀ j k, |m j k - m' j k| ≤ E * (a j * a k)) (j k : Fin d) : |lower m j k - m' j k| ≤ E * (a j * a k) := by
  simp only [lower, Matrix.of_apply]
  split
  · exact h j k
  · rw [hsym j k, mul_comm (a j)]
    exact h k j

/-- A computed covariance is nearly symmetric. -/
theorem symmetric_near {d : ℕ} {m m' : Matrix (Fin d) (Fin d) ℝ} {a : Fin d → ℝ} {E : ℝ} (hE1 : E ≤ 1e-6) (hd : E ^ 2 * d ≤ 2.4e-25) (hsym : ∀ j k, m' j k = m' k j)
    (hdiag : ∀ j, m' j j = a j ^ 2) (h : ∀ j k, |m j k - m' j k| ≤ E * (a j * a k)) : approxSymmetric m := by
  obtain ⟨T, hT⟩ : ∃ T, T = ∑ j, a j ^ 2 := ⟨_, rfl⟩
  have hT0 : 0 ≤ T := by rw [hT]; exact Finset.sum_nonneg fun j _ => sq_nonneg _
  have up : sumSquares (m - mᵀ) ≤ 4 * E ^ 2 * T ^ 2 := by
    have : ∀ j k, (m - mᵀ) j k ^ 2 ≤ 4 * E ^ 2 * (a j ^ 2 * a k ^ 2) := by
      intro j k
      rw [Matrix.sub_apply, Matrix.transpose_apply, ← sq_abs]
      have e : m j k - m k j = (m j k - m' j k) - (m k j - m' k j) := by rw [hsym j k]; ring
      have b : |m j k - m k j| ≤ 2 * (E * (a j * a k)) := by
        rw [e]
        refine (abs_sub _ _).trans ?_
        have := h j k
        have h2 := h k j
        rw [mul_comm (a k)] at h2
        linarith
      have := pow_le_pow_left₀ (abs_nonneg _) b 2
      linarith
    unfold sumSquares
    refine (Finset.sum_le_sum fun j _ => Finset.sum_le_sum fun k _ => this j k).trans (le_of_eq ?_)
    rw [hT, sq (∑ j, a j ^ 2), Finset.sum_mul_sum, Finset.mul_sum]
    exact Finset.sum_congr rfl fun j _ => by rw [Finset.mul_sum]
  have low : 0.999 * T ^ 2 ≤ d * sumSquares m := by
    have diag : ∀ j, 0.9999 * a j ^ 2 ≤ m j j := by
      intro j
      have := (abs_le.mp (h j j)).1
      rw [hdiag j] at this
      have := mul_le_mul_of_nonneg_right hE1 (sq_nonneg (a j))
      have := sq_nonneg (a j)
      linarith
    have g1 : ∑ j, (0.9999 * a j ^ 2) ^ 2 ≤ sumSquares m := by
      unfold sumSquares
      refine Finset.sum_le_sum fun j _ => ?_
      refine (pow_le_pow_left₀ (by have := sq_nonneg (a j); linarith) (diag j) 2).trans ?_
      exact Finset.single_le_sum (f := fun k => m j k ^ 2) (fun k _ => sq_nonneg _) (Finset.mem_univ j)
    have g2 := Finset.sum_mul_sq_le_sq_mul_sq Finset.univ (fun _ : Fin d => (1 : ℝ)) (fun j => 0.9999 * a j ^ 2)
    simp only [one_mul, one_pow, Finset.sum_const, Finset.card_univ, Fintype.card_fin, nsmul_eq_mul, mul_one, ← Finset.mul_sum] at g2
    have g3 := mul_le_mul_of_nonneg_left g1 (Nat.cast_nonneg (α := ℝ) d)
    have e : (0.9999 * ∑ j, a j ^ 2) ^ 2 = 0.9999 ^ 2 * T ^ 2 := by rw [hT]; ring
    rw [e] at g2
    have := sq_nonneg T
    have q : (0.999 : ℝ) ≤ 0.9999 ^ 2 := by norm_num
    have := mul_le_mul_of_nonneg_right q (sq_nonneg T)
    linarith
  have tr : sumSquares mᵀ = sumSquares m := by
    unfold sumSquares
    rw [Finset.sum_comm]
    rfl
  unfold approxSymmetric
  rw [tr, min_self]
  by_cases d0 : d = 0
  · subst d0
    simp [sumSquares]
  have dp : (0 : ℝ) < d := by exact_mod_cast Nat.pos_of_ne_zero d0
  refine up.trans ?_
  have a1 := mul_le_mul_of_nonneg_right hd (sq_nonneg T)
  have : d * (4 * E ^ 2 * T ^ 2) ≤ d * ((1e-12) ^ 2 * sumSquares m) := by
    have a2 := mul_le_mul_of_nonneg_left low (by norm_num : (0 : ℝ) ≤ (1e-12) ^ 2)
    have q : (4 : ℝ) * 2.4e-25 ≤ (1e-12) ^ 2 * 0.999 := by norm_num
    have a3 := mul_le_mul_of_nonneg_right q (sq_nonneg T)
    linarith
  exact le_of_mul_le_mul_left this dp

/-- Acceptance of computed covariances. -/
theorem accepted {n d : ℕ} (hn : n < 2 ^ 32) (hd : d ≠ 0) (s : Matrix (Fin n) (Fin d) ℚ) (hs : ∀ i j, IsDouble (s i j)) (c : Matrix (Fin d) (Fin d) ℚ)
    (h : CovarianceOf s c) (ha : ∀ j, (n + 1) * averageAbs (reals s) j ≤ 2 ^ 26 * deviation (reals s) j) (hb : ∀ j, 2 ^ (-500 : ℤ) ≤ deviation (reals s) j)
    (hsize : (n + 5) ^ 2 * d ≤ 19000000)
    (hdef : ∀ x, lengthSq x = 1 → share n * totalVariance (reals s) ≤ quadratic (Matrix.of fun j k => unbiased (reals s) j k) x)
    (solver : Matrix (Fin d) (Fin d) ℝ → Solved d) (hw : Works solver) (mu : Fin d → ℝ) : ∃ g, Gaussian.make solver mu (reals c) = .ok g := by
  have : NeZero d := ⟨hd⟩
  have hU := U_pos
  have h2 : 2 ≤ n := by
    have := h.1
    rw [show sampleCount n = n from Nat.mod_eq_of_lt hn] at this
    exact this
  have key := covariance_share hn s hs c h ha hb
  have n0 : (0 : ℝ) ≤ n := Nat.cast_nonneg n
  have hE : 0 ≤ share n := by unfold share; positivity
  have sz : ((n : ℝ) + 5) ^ 2 * d ≤ 19000000 := by exact_mod_cast hsize
  have d1 : (1 : ℝ) ≤ d := by exact_mod_cast Nat.one_le_iff_ne_zero.mpr hd
  have uu : (1.002 * U) ^ 2 * 19000000 ≤ 2.4e-25 := by unfold U; norm_num
  have hE2 : share n ^ 2 * d ≤ 2.4e-25 := by
    have e : share n ^ 2 * d = (1.002 * U) ^ 2 * (((n : ℝ) + 5) ^ 2 * d) := by unfold share; ring
    rw [e]
    exact (mul_le_mul_of_nonneg_left sz (sq_nonneg _)).trans uu
  have hE1 : share n ≤ 1e-6 := by
    have : share n ^ 2 * 1 ≤ share n ^ 2 * d := mul_le_mul_of_nonneg_left d1 (sq_nonneg _)
    refine abs_le_of_sq_le_sq' (a := share n) (b := 1e-6) ?_ (by norm_num) |>.2
    refine le_trans ?_ (by norm_num : (2.4e-25 : ℝ) ≤ 1e-6 ^ 2)
    linarith
  have hdiag : ∀ j, unbiased (reals s) j j = deviation (reals s) j ^ 2 := fun j => (Real.sq_sqrt (variance_nonneg h2 (reals s) j)).symm
  have key' : ∀ j k, |reals c j k - (Matrix.of fun j k => unbiased (reals s) j k) j k| ≤ share n * (deviation (reals s) j * deviation (reals s) k) := key
  obtain ⟨hi, hv, hdec⟩ := hw (reals c)
  refine make_accepts hd solver mu (reals c) (symmetric_near hE1 hE2 (fun j k => unbiased_comm (reals s) j k) hdiag key') (by rw [hi]; decide)
    (tolerance_spread (reals c)) ?_
  refine (eigen_bound hv _ _).mpr fun x hx => ?_
  rw [hdec]
  have q := quadratic_near (lower (reals c)) (Matrix.of fun j k => unbiased (reals s) j k) (fun j => deviation (reals s) j) hE
    (lower_near (fun j k => unbiased_comm (reals s) j k) key') x hx
  have t : ∑ j, deviation (reals s) j ^ 2 = totalVariance (reals s) := Finset.sum_congr rfl fun j _ => (hdiag j).symm
  rw [t] at q
  have := hdef x hx
  have := slack_pos (maxCoeff (reals c) - minCoeff (reals c))
  linarith

/-! ## Small sums -/

theorem evaluates_one {ι : Type} [DecidableEq ι] {x y : ι → ℚ} {s : Finset ι} {r : ℚ} (h : Evaluates x y s r) (hc : s.card = 1) :
    ∃ i, s = {i} ∧ r = round64 (x i * y i) := by
  cases h with
  | product i => exact ⟨i, rfl, rfl⟩
  | add h1 h2 hd =>
    have c1 := h1.card_pos
    have c2 := h2.card_pos
    rw [Finset.card_union_of_disjoint hd] at hc
    omega
  | fused i h1 hi =>
    have c1 := h1.card_pos
    rw [Finset.card_insert_of_notMem hi] at hc
    omega

/-- The three ways to evaluate a sum of two products. -/
theorem evaluates_two {x y : Fin 2 → ℚ} {r : ℚ} (h : Evaluates x y Finset.univ r) :
    r = round64 (round64 (x 0 * y 0) + round64 (x 1 * y 1)) ∨ r = round64 (x 0 * y 0 + round64 (x 1 * y 1)) ∨ r = round64 (x 1 * y 1 + round64 (x 0 * y 0)) := by
  obtain ⟨S, hS⟩ : ∃ S : Finset (Fin 2), S = Finset.univ := ⟨_, rfl⟩
  rw [← hS] at h
  have hc : S.card = 2 := by rw [hS]; rfl
  cases h with
  | product i => simp at hc
  | add h1 h2 hd =>
    have c1 := h1.card_pos
    have c2 := h2.card_pos
    rw [Finset.card_union_of_disjoint hd] at hc
    obtain ⟨i, rfl, rfl⟩ := evaluates_one h1 (by omega)
    obtain ⟨j, rfl, rfl⟩ := evaluates_one h2 (by omega)
    rw [Finset.disjoint_singleton] at hd
    left
    fin_cases i <;> fin_cases j
    · exact absurd rfl hd
    · rfl
    · exact congrArg _ (add_comm _ _)
    · exact absurd rfl hd
  | fused i h1 hi =>
    rw [Finset.card_insert_of_notMem hi] at hc
    obtain ⟨j, rfl, rfl⟩ := evaluates_one h1 (by omega)
    rw [Finset.mem_singleton] at hi
    right
    fin_cases i <;> fin_cases j
    · exact absurd rfl hi
    · exact Or.inl rfl
    · exact Or.inr rfl
    · exact absurd rfl hi

/-- Sums of up to three equal doubles. -/
theorem evaluates_equal {ι : Type} [DecidableEq ι] {a b c : ℚ} (ha : round64 a = a) (hb : round64 (a + a) = b) (hc : round64 (a + b) = c) {s : Finset ι} {r : ℚ}
    (h : Evaluates (fun _ => a) (fun _ => 1) s r) : (s.card = 1 → r = a) ∧ (s.card = 2 → r = b) ∧ (s.card = 3 → r = c) := by
  have hc' : round64 (b + a) = c := by rw [add_comm, hc]
  induction h with
  | product i => simp [ha]
  | @add s t _ _ h1 h2 hd i1 i2 =>
    have c1 := h1.card_pos
    have c2 := h2.card_pos
    rw [Finset.card_union_of_disjoint hd]
    obtain ⟨p1, p2, p3⟩ := i1
    obtain ⟨q1, q2, q3⟩ := i2
    refine ⟨fun k => by omega, fun k => ?_, fun k => ?_⟩
    · rw [p1 (by omega), q1 (by omega), hb]
    · rcases (by omega : (s.card = 1 ∧ t.card = 2) ∨ (s.card = 2 ∧ t.card = 1)) with ⟨k1, k2⟩ | ⟨k1, k2⟩
      · rw [p1 k1, q2 k2, hc]
      · rw [p2 k1, q1 k2, hc']
  | fused i h1 hi i1 =>
    have c1 := h1.card_pos
    rw [Finset.card_insert_of_notMem hi]
    obtain ⟨p1, p2, p3⟩ := i1
    refine ⟨fun k => by omega, fun k => ?_, fun k => ?_⟩
    · rw [p1 (by omega), mul_one, hb]
    · rw [p2 (by omega), mul_one, hc]

end Verif.StatsDouble
