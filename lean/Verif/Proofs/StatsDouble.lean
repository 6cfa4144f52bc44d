import Verif.Model.StatsDouble
import Verif.Spec.StatsDouble
import Verif.Proofs.Stats
import Verif.Proofs.CurveDouble
import Verif.Proofs.ExpDouble
/-! # Rounding errors of the sample statistics -/
namespace Verif.StatsDouble
open SampleIntervalDouble Binary64 TransformDouble ExpDouble Verif.Stats Verif.Spec Verif.Spec.Stats Matrix

variable {ι : Type} [DecidableEq ι]

/-- Forward error of an inner product, whatever the order, in real numbers. -/
theorem inner_error {x y : ι → ℚ} {s : Finset ι} {r : ℚ} (h : Evaluates x y s r) :
    |(r : ℝ) - ∑ i ∈ s, (x i : ℝ) * y i| ≤ ((1 + U) ^ s.card - 1) * (∑ i ∈ s, |(x i : ℝ) * y i|) + (2 * s.card - 1) * (1 + U) ^ s.card * H := by
  have key := evaluates_error h
  have : ((|r - ∑ i ∈ s, x i * y i| : ℚ) : ℝ) ≤ ((((1 + u) ^ s.card - 1) * (∑ i ∈ s, |x i * y i|) + (2 * s.card - 1) * (1 + u) ^ s.card * η : ℚ) : ℝ) := by
    exact_mod_cast key
  have e1 : ((r - ∑ i ∈ s, x i * y i : ℚ) : ℝ) = (r : ℝ) - ∑ i ∈ s, (x i : ℝ) * y i := by
    rw [Rat.cast_sub, Rat.cast_sum]
    simp only [Rat.cast_mul]
  have e2 : ((∑ i ∈ s, |x i * y i| : ℚ) : ℝ) = ∑ i ∈ s, |(x i : ℝ) * y i| := by
    rw [Rat.cast_sum]
    simp only [Rat.cast_abs, Rat.cast_mul]
  rw [Rat.cast_abs, e1, Rat.cast_add, Rat.cast_mul, Rat.cast_mul, Rat.cast_mul, e2] at this
  simpa only [Rat.cast_sub, Rat.cast_pow, Rat.cast_add, Rat.cast_one, Rat.cast_mul, Rat.cast_natCast, Rat.cast_ofNat, u_cast, η_cast] using this

/-- Powers of one plus the rounding unit. -/
theorem pow_near {k : ℕ} (h : k ≤ 2 ^ 33) : (1 + U) ^ k - 1 ≤ 1.001 * k * U := by
  have hU := U_pos
  have hk : (k : ℝ) * U ≤ 1e-6 := by
    have : (k : ℝ) ≤ 2 ^ 33 := by exact_mod_cast h
    have := mul_le_mul_of_nonneg_right this hU.le
    unfold U at *
    norm_num at *
    linarith
  have h0 : 0 ≤ (k : ℝ) * U := by positivity
  have e : (1 + U) ^ k ≤ Real.exp (k * U) := by
    rw [Real.exp_nat_mul]
    exact pow_le_pow_left₀ (by linarith) (by linarith [Real.add_one_le_exp U]) k
  have e2 := Real.abs_exp_sub_one_sub_id_le (x := k * U) (by rw [abs_of_nonneg h0]; norm_num at hk ⊢; linarith)
  have e3 := (abs_le.mp e2).2
  have : (k * U) ^ 2 ≤ 0.001 * (k * U) := by rw [sq]; exact mul_le_mul_of_nonneg_right (by norm_num at hk ⊢; linarith) h0
  linarith

/-- A number that is a multiple of the smallest double. -/
def Multiple (q : ℚ) : Prop := ∃ m : ℤ, q = m * 2 ^ (-1074 : ℤ)

theorem multiple_pow {m e : ℤ} (h : -1074 ≤ e) : Multiple (m * 2 ^ e) := by
  obtain ⟨k, hk⟩ : ∃ k : ℕ, e = -1074 + k := ⟨(e + 1074).toNat, by omega⟩
  refine ⟨m * 2 ^ k, ?_⟩
  rw [hk, zpow_add₀ (by norm_num), zpow_natCast]
  simp only [Int.cast_mul, Int.cast_pow, Int.cast_ofNat]
  generalize (2 : ℚ) ^ (-1074 : ℤ) = v
  ring

theorem multiple_double {q : ℚ} (h : IsDouble q) : Multiple q := by
  obtain ⟨m, e, -, he, -, rfl⟩ := h
  exact multiple_pow he

theorem multiple_round (q : ℚ) : Multiple (round64 q) := multiple_pow (le_max_right _ _)

theorem multiple_sub {a b : ℚ} (ha : Multiple a) (hb : Multiple b) : Multiple (a - b) := by
  obtain ⟨m, rfl⟩ := ha
  obtain ⟨k, rfl⟩ := hb
  refine ⟨m - k, ?_⟩
  rw [Int.cast_sub, sub_mul]

/-- Differences do not underflow. -/
theorem round_multiple {q : ℚ} (h : Multiple q) : |((round64 q : ℚ) : ℝ) - q| ≤ U * |(q : ℝ)| := by
  have key : |round64 q - q| ≤ |q| * u := by
    by_cases hq : q = 0
    · rw [hq, round64_zero]; simp
    by_cases hn : -1074 ≤ ulpExp q
    · rw [round64_normal hq hn]
      have := fl_error q
      have e : |q| / 2 ^ 53 = |q| * 2 ^ (-53 : ℤ) := by rw [_root_.zpow_neg]; rfl
      rw [e] at this
      exact this
    · obtain ⟨m, rfl⟩ := h
      have hp := two_zpow_pos (-1074)
      rw [round64_subnormal (not_le.mp hn), mul_div_assoc, div_self hp.ne', mul_one, roundEven_int, sub_self, abs_zero]
      exact mul_nonneg (abs_nonneg _) u_pos.le
  have : ((|round64 q - q| : ℚ) : ℝ) ≤ ((|q| * u : ℚ) : ℝ) := by exact_mod_cast key
  rw [Rat.cast_abs, Rat.cast_sub, Rat.cast_mul, Rat.cast_abs, u_cast] at this
  linarith

theorem powers {n : ℕ} (h : n < 2 ^ 32) : (1 + U) ^ n - 1 ≤ 1.001 * n * U ∧ (1 + U) ^ n ≤ 1.001 ∧ 1 ≤ (1 + U) ^ n := by
  have hU := U_pos
  have a := pow_near (k := n) (by omega)
  refine ⟨a, ?_, one_le_pow₀ (by linarith)⟩
  have : (n : ℝ) ≤ 2 ^ 32 := by exact_mod_cast h.le
  have := mul_le_mul_of_nonneg_right this hU.le
  have e : (2 : ℝ) ^ 32 * U ≤ 0.0005 := by unfold U; norm_num
  linarith

/-- The error of a computed average. -/
theorem mean_error {n : ℕ} (hn : n < 2 ^ 32) (h0 : n ≠ 0) {x : Fin n → ℚ} {m : ℚ} (h : ColMean x m) :
    |(m : ℝ) - (∑ i, (x i : ℝ)) / n| ≤ 1.002 * (n + 1) * U * ((∑ i, |(x i : ℝ)|) / n) + 4 * H := by
  have hU := U_pos
  have hH := H_pos
  obtain ⟨s, hs, rfl⟩ := h
  have e := inner_error hs
  simp only [Rat.cast_one, mul_one, Finset.card_univ, Fintype.card_fin] at e
  obtain ⟨p1, p2, p3⟩ := powers hn
  have hn1 : (1 : ℝ) ≤ n := by exact_mod_cast Nat.one_le_iff_ne_zero.mpr h0
  have hn0 : (0 : ℝ) < n := by linarith
  have hr := rnd (s / n)
  rw [Rat.cast_div, Rat.cast_natCast] at hr
  obtain ⟨S, hS⟩ : ∃ S, S = ∑ i, (x i : ℝ) := ⟨_, rfl⟩
  obtain ⟨A, hA⟩ : ∃ A, A = ∑ i, |(x i : ℝ)| := ⟨_, rfl⟩
  have hSA : |S| ≤ A := by rw [hS, hA]; exact Finset.abs_sum_le_sum_abs _ _
  rw [← hS, ← hA] at e ⊢
  have hA0 : 0 ≤ A := (abs_nonneg _).trans hSA
  obtain ⟨a, ha⟩ : ∃ a, a = A / n := ⟨_, rfl⟩
  have ha0 : 0 ≤ a := by rw [ha]; positivity
  rw [← ha]
  obtain ⟨P, hP⟩ : ∃ P, P = (1 + U) ^ n := ⟨_, rfl⟩
  rw [← hP] at e p1 p2 p3
  have hAn : A = a * n := by rw [ha, div_mul_cancel₀ _ hn0.ne']
  have e1 : |(s : ℝ) / n - S / n| ≤ 1.001 * n * U * a + 2.002 * H := by
    rw [← sub_div, abs_div, abs_of_pos hn0, div_le_iff₀ hn0]
    refine e.trans ?_
    rw [hAn]
    have i1 := mul_le_mul_of_nonneg_right p1 (mul_nonneg ha0 hn0.le)
    have i2 : (2 * n - 1) * P * H ≤ 2 * n * 1.001 * H := mul_le_mul_of_nonneg_right (mul_le_mul (by linarith) p2 (by linarith) (by linarith)) hH.le
    linarith
  have e2 : |(s : ℝ) / n| ≤ a + (1.001 * n * U * a + 2.002 * H) := by
    have : |S / n| ≤ a := by rw [abs_div, abs_of_pos hn0, ha]; exact div_le_div_of_nonneg_right hSA hn0.le
    have t := abs_add_le ((s : ℝ) / n - S / n) (S / n)
    rw [sub_add_cancel] at t
    linarith
  have e3 := abs_add_le (((round64 (s / n) : ℚ) : ℝ) - s / n) ((s : ℝ) / n - S / n)
  rw [sub_add_sub_cancel] at e3
  have i3 := mul_le_mul_of_nonneg_left e2 hU.le
  have hU1 : U ≤ 0.0001 := by unfold U; norm_num
  have w := mul_nonneg (mul_nonneg hn0.le hU.le) ha0
  have w2 := mul_nonneg hU.le ha0
  have i4 : U * (1.001 * n * U * a) ≤ 0.0001 * (1.001 * n * U * a) := mul_le_mul_of_nonneg_right hU1 (by linarith)
  have i5 : U * (2.002 * H) ≤ 0.0001 * (2.002 * H) := mul_le_mul_of_nonneg_right hU1 (by linarith)
  linarith

/-- Sums of products of differences from a wrong mean. -/
theorem sum_shift {n : ℕ} (h0 : n ≠ 0) (x y : Fin n → ℝ) (m k : ℝ) :
    ∑ i, (x i - m) * (y i - k) = ∑ i, (x i - (∑ i, x i) / n) * (y i - (∑ i, y i) / n) + n * ((m - (∑ i, x i) / n) * (k - (∑ i, y i) / n)) := by
  have hn : (n : ℝ) ≠ 0 := by exact_mod_cast h0
  obtain ⟨X, hX⟩ : ∃ X, X = ∑ i, x i := ⟨_, rfl⟩
  obtain ⟨Y, hY⟩ : ∃ Y, Y = ∑ i, y i := ⟨_, rfl⟩
  have e : ∀ a b : ℝ, ∑ i, (x i - a) * (y i - b) = ∑ i, x i * y i - b * X - a * Y + n * (a * b) := by
    intro a b
    have : ∀ i, (x i - a) * (y i - b) = x i * y i - b * x i - a * y i + a * b := fun i => by ring
    simp only [this, Finset.sum_add_distrib, Finset.sum_sub_distrib, ← Finset.mul_sum, Finset.sum_const, Finset.card_univ, Fintype.card_fin, nsmul_eq_mul,
      hX, hY]
    ring
  rw [e, ← hX, ← hY, e]
  field_simp
  ring

/-- Cauchy's inequality for magnitudes of products. -/
theorem sum_abs_mul_le {n : ℕ} (x y : Fin n → ℝ) : ∑ i, |x i * y i| ≤ Real.sqrt (∑ i, x i ^ 2) * Real.sqrt (∑ i, y i ^ 2) := by
  have h := Finset.sum_mul_sq_le_sq_mul_sq Finset.univ (fun i => |x i|) (fun i => |y i|)
  simp only [sq_abs] at h
  rw [← Real.sqrt_mul (Finset.sum_nonneg fun i _ => sq_nonneg _)]
  simp only [abs_mul]
  exact Real.le_sqrt_of_sq_le h

/-- The error of a computed sum of products of computed differences, relative to the exact sum for the same mean. -/
theorem products_error {n : ℕ} (hn : n < 2 ^ 32) (h2 : 2 ≤ n) {x y : Fin n → ℚ} (hx : ∀ i, Multiple (x i)) (hy : ∀ i, Multiple (y i)) {m k p : ℚ}
    (hm : Multiple m) (hk : Multiple k)
    (hp : Evaluates (fun i => round64 (x i - m)) (fun i => round64 (y i - k)) Finset.univ p) :
    |((round64 (p / (n - 1 : ℕ)) : ℚ) : ℝ) - (∑ i, ((x i : ℝ) - m) * (y i - k)) / ((n : ℝ) - 1)| ≤
      1.001 * (n + 3) * U * ((∑ i, |((x i : ℝ) - m) * (y i - k)|) / ((n : ℝ) - 1)) + 5 * H := by
  have hU := U_pos
  have hH := H_pos
  have e := inner_error hp
  simp only [Finset.card_univ, Fintype.card_fin] at e
  have hn2 : (2 : ℝ) ≤ n := by exact_mod_cast h2
  have hn0 : (0 : ℝ) < (n : ℝ) - 1 := by linarith
  have hc : (((n - 1 : ℕ) : ℚ) : ℝ) = (n : ℝ) - 1 := by rw [Rat.cast_natCast, Nat.cast_sub (by omega), Nat.cast_one]
  obtain ⟨P, hP⟩ : ∃ P, P = (1 + U) ^ n := ⟨_, rfl⟩
  have p1 : P * (1 + U) ^ 3 - 1 ≤ 1.001 * (n + 3) * U := by
    have := pow_near (k := n + 3) (by omega)
    rw [pow_add, ← hP, Nat.cast_add] at this
    exact_mod_cast this
  obtain ⟨-, p2, p3⟩ := powers hn
  rw [← hP] at e p2 p3
  have hr := rnd (p / (n - 1 : ℕ))
  rw [Rat.cast_div, hc] at hr
  -- the differences
  have hz : ∀ i, |((round64 (x i - m) : ℚ) : ℝ) * ((round64 (y i - k) : ℚ) : ℝ) - ((x i : ℝ) - m) * (y i - k)| ≤ ((1 + U) ^ 2 - 1) * |((x i : ℝ) - m) * (y i - k)| := by
    intro i
    have a := round_multiple (multiple_sub (hx i) hm)
    have b := round_multiple (multiple_sub (hy i) hk)
    rw [Rat.cast_sub] at a b
    obtain ⟨α, hα⟩ : ∃ α, α = (x i : ℝ) - m := ⟨_, rfl⟩
    obtain ⟨β, hβ⟩ : ∃ β, β = (y i : ℝ) - k := ⟨_, rfl⟩
    rw [← hα] at a ⊢
    rw [← hβ] at b ⊢
    obtain ⟨α', hα'⟩ : ∃ α', α' = ((round64 (x i - m) : ℚ) : ℝ) := ⟨_, rfl⟩
    obtain ⟨β', hβ'⟩ : ∃ β', β' = ((round64 (y i - k) : ℚ) : ℝ) := ⟨_, rfl⟩
    rw [← hα'] at a ⊢
    rw [← hβ'] at b ⊢
    have e : α' * β' - α * β = (α' - α) * (β' - β) + (α' - α) * β + α * (β' - β) := by ring
    rw [e, abs_mul α β]
    refine (abs_add_three _ _ _).trans ?_
    rw [abs_mul, abs_mul, abs_mul]
    have i1 := mul_le_mul a b (abs_nonneg _) (mul_nonneg hU.le (abs_nonneg _))
    have i2 := mul_le_mul_of_nonneg_right a (abs_nonneg β)
    have i3 := mul_le_mul_of_nonneg_left b (abs_nonneg α)
    linarith
  have hsum : |∑ i, ((round64 (x i - m) : ℚ) : ℝ) * ((round64 (y i - k) : ℚ) : ℝ) - ∑ i, ((x i : ℝ) - m) * (y i - k)| ≤
      ((1 + U) ^ 2 - 1) * ∑ i, |((x i : ℝ) - m) * (y i - k)| := by
    rw [← Finset.sum_sub_distrib, Finset.mul_sum]
    exact (Finset.abs_sum_le_sum_abs _ _).trans (Finset.sum_le_sum fun i _ => hz i)
  have habs : ∑ i, |((round64 (x i - m) : ℚ) : ℝ) * ((round64 (y i - k) : ℚ) : ℝ)| ≤ (1 + U) ^ 2 * ∑ i, |((x i : ℝ) - m) * (y i - k)| := by
    rw [Finset.mul_sum]
    refine Finset.sum_le_sum fun i _ => ?_
    have := abs_sub_abs_le_abs_sub (((round64 (x i - m) : ℚ) : ℝ) * ((round64 (y i - k) : ℚ) : ℝ)) (((x i : ℝ) - m) * (y i - k))
    linarith [hz i]
  obtain ⟨Z, hZ⟩ : ∃ Z, Z = ∑ i, ((round64 (x i - m) : ℚ) : ℝ) * ((round64 (y i - k) : ℚ) : ℝ) := ⟨_, rfl⟩
  obtain ⟨ZA, hZA⟩ : ∃ ZA, ZA = ∑ i, |((round64 (x i - m) : ℚ) : ℝ) * ((round64 (y i - k) : ℚ) : ℝ)| := ⟨_, rfl⟩
  obtain ⟨S, hS⟩ : ∃ S, S = ∑ i, ((x i : ℝ) - m) * (y i - k) := ⟨_, rfl⟩
  obtain ⟨D, hD⟩ : ∃ D, D = ∑ i, |((x i : ℝ) - m) * (y i - k)| := ⟨_, rfl⟩
  have hSD : |S| ≤ D := by rw [hS, hD]; exact Finset.abs_sum_le_sum_abs _ _
  rw [← hZ, ← hZA] at e
  rw [← hZ, ← hS, ← hD] at hsum
  rw [← hZA, ← hD] at habs
  rw [← hS, ← hD]
  obtain ⟨N, hN⟩ : ∃ N, N = (n : ℝ) - 1 := ⟨_, rfl⟩
  rw [← hN] at hn0 hr ⊢
  have hnN : (n : ℝ) = N + 1 := by linarith
  rw [hnN] at e p1 hn2 ⊢
  obtain ⟨w, hw⟩ : ∃ w, w = D / N := ⟨_, rfl⟩
  have hDN : D = w * N := by rw [hw, div_mul_cancel₀ _ hn0.ne']
  have hw0 : 0 ≤ w := by rw [hw]; exact div_nonneg ((abs_nonneg _).trans hSD) hn0.le
  rw [← hw]
  obtain ⟨q, hq⟩ : ∃ q, q = (p : ℝ) / N := ⟨_, rfl⟩
  have hpq : (p : ℝ) = q * N := by rw [hq, div_mul_cancel₀ _ hn0.ne']
  obtain ⟨σ, hσ⟩ : ∃ σ, σ = S / N := ⟨_, rfl⟩
  have hSσ : S = σ * N := by rw [hσ, div_mul_cancel₀ _ hn0.ne']
  have hσw : |σ| ≤ w := by rw [hσ, hw, abs_div, abs_of_pos hn0]; exact div_le_div_of_nonneg_right hSD hn0.le
  rw [← hq] at hr
  rw [← hσ]
  have f1 : |q - σ| ≤ (P * (1 + U) ^ 2 - 1) * w + 3.003 * H := by
    have t := abs_add_le ((p : ℝ) - Z) (Z - S)
    rw [sub_add_sub_cancel] at t
    have i1 := mul_le_mul_of_nonneg_left habs (by linarith : 0 ≤ P - 1)
    have i2 : (2 * (N + 1) - 1) * P * H ≤ 3 * N * 1.001 * H :=
      mul_le_mul_of_nonneg_right (mul_le_mul (by linarith) p2 (by linarith) (by linarith)) hH.le
    have i3 : |q - σ| * N ≤ ((P * (1 + U) ^ 2 - 1) * w + 3.003 * H) * N := by
      have : |q - σ| * N = |(p : ℝ) - S| := by rw [hpq, hSσ, ← sub_mul, abs_mul, abs_of_pos hn0]
      rw [this]
      rw [hDN] at i1 hsum
      linarith
    exact le_of_mul_le_mul_right i3 hn0
  have f2 : |q| ≤ w + |q - σ| := by
    have := abs_add_le (q - σ) σ
    rw [sub_add_cancel] at this
    linarith
  have f3 := abs_add_le (((round64 (p / (n - 1 : ℕ)) : ℚ) : ℝ) - q) (q - σ)
  rw [sub_add_sub_cancel] at f3
  have i4 := mul_le_mul_of_nonneg_left f2 hU.le
  have i5 := mul_le_mul_of_nonneg_left f1 (by linarith : 0 ≤ 1 + U)
  have hU1 : U ≤ 0.0001 := by unfold U; norm_num
  have i6 : U * (3.003 * H) ≤ 0.0001 * (3.003 * H) := mul_le_mul_of_nonneg_right hU1 (by linarith)
  have i7 := mul_le_mul_of_nonneg_right p1 hw0
  linarith

theorem reals_apply {n d : ℕ} (s : Matrix (Fin n) (Fin d) ℚ) (i : Fin n) (j : Fin d) : reals s i j = s i j := rfl

theorem mean_close {n d : ℕ} (hn : n < 2 ^ 32) (h0 : n ≠ 0) (s : Matrix (Fin n) (Fin d) ℚ) (m : Fin d → ℚ) (h : MeanOf s m) (j : Fin d) :
    |(m j : ℝ) - average (reals s) j| ≤ meanError (reals s) j := mean_error hn h0 (h j)

theorem meanError_nonneg {n d : ℕ} (s : Matrix (Fin n) (Fin d) ℝ) (j : Fin d) : 0 ≤ meanError s j := by
  have hU := U_pos
  have hH := H_pos
  have : 0 ≤ averageAbs s j := div_nonneg (Finset.sum_nonneg fun i _ => abs_nonneg _) (Nat.cast_nonneg n)
  change 0 ≤ 1.002 * ((n : ℝ) + 1) * U * averageAbs s j + 4 * H
  positivity

theorem variance_nonneg {n d : ℕ} (h2 : 2 ≤ n) (s : Matrix (Fin n) (Fin d) ℝ) (j : Fin d) : 0 ≤ unbiased s j j := by
  have hn2 : (2 : ℝ) ≤ n := by exact_mod_cast h2
  exact div_nonneg (Finset.sum_nonneg fun i _ => mul_self_nonneg _) (by linarith)

theorem mean_multiple {n d : ℕ} {s : Matrix (Fin n) (Fin d) ℚ} {m : Fin d → ℚ} (h : MeanOf s m) (j : Fin d) : Multiple (m j) := by
  obtain ⟨t, -, e⟩ := h j
  rw [e]
  exact multiple_round _

/-- The root of the mean square distance from a wrong mean. -/
theorem root_le {n d : ℕ} (h2 : 2 ≤ n) (s : Matrix (Fin n) (Fin d) ℝ) (j : Fin d) (m : ℝ) (hm : |m - average s j| ≤ meanError s j) :
    Real.sqrt ((∑ i, (s i j - m) ^ 2) / ((n : ℝ) - 1)) ≤ deviation s j + 1.5 * meanError s j := by
  have hn2 : (2 : ℝ) ≤ n := by exact_mod_cast h2
  have hN : (0 : ℝ) < (n : ℝ) - 1 := by linarith
  have hμ := meanError_nonneg s j
  have hσ : 0 ≤ deviation s j := Real.sqrt_nonneg _
  have hv := Real.sq_sqrt (variance_nonneg h2 s j)
  change deviation s j ^ 2 = _ at hv
  refine Real.sqrt_le_iff.mpr ⟨by linarith, ?_⟩
  have e := sum_shift (by omega : n ≠ 0) (fun i => s i j) (fun i => s i j) m m
  have e1 : ∑ i, (s i j - m) ^ 2 = ∑ i, (s i j - m) * (s i j - m) := Finset.sum_congr rfl fun i _ => sq _
  rw [e1, e]
  change (∑ i, (s i j - average s j) * (s i j - average s j) + n * ((m - average s j) * (m - average s j))) / ((n : ℝ) - 1) ≤ _
  rw [add_div]
  change unbiased s j j + _ ≤ _
  rw [← hv]
  have k : n * ((m - average s j) * (m - average s j)) / ((n : ℝ) - 1) ≤ 2 * meanError s j ^ 2 := by
    rw [div_le_iff₀ hN, ← abs_mul_abs_self]
    have a := mul_le_mul hm hm (abs_nonneg _) hμ
    have b := mul_le_mul_of_nonneg_left a (by linarith : (0 : ℝ) ≤ n)
    have c : (n : ℝ) * (meanError s j * meanError s j) ≤ (2 * ((n : ℝ) - 1)) * (meanError s j * meanError s j) :=
      mul_le_mul_of_nonneg_right (by linarith) (mul_nonneg hμ hμ)
    linarith
  have := mul_nonneg hσ hμ
  have := sq_nonneg (meanError s j)
  linarith

theorem covariance_close {n d : ℕ} (hn : n < 2 ^ 32) (s : Matrix (Fin n) (Fin d) ℚ) (hs : ∀ i j, IsDouble (s i j)) (c : Matrix (Fin d) (Fin d) ℚ)
    (h : CovarianceOf s c) (j k : Fin d) :
    |(c j k : ℝ) - unbiased (reals s) j k| ≤
      1.001 * (n + 3) * U * ((deviation (reals s) j + 1.5 * meanError (reals s) j) * (deviation (reals s) k + 1.5 * meanError (reals s) k)) +
      2 * meanError (reals s) j * meanError (reals s) k + 5 * H := by
  obtain ⟨h2, m, hm, hc⟩ := h
  have en : sampleCount n = n := Nat.mod_eq_of_lt hn
  rw [en] at h2 hc
  obtain ⟨p, hp, e⟩ := hc j k
  have hU := U_pos
  have hn2 : (2 : ℝ) ≤ n := by exact_mod_cast h2
  have hN : (0 : ℝ) < (n : ℝ) - 1 := by linarith
  have key := products_error hn h2 (x := fun i => s i j) (y := fun i => s i k) (fun i => multiple_double (hs i j)) (fun i => multiple_double (hs i k))
    (mean_multiple hm j) (mean_multiple hm k) hp
  rw [← e] at key
  have mj := mean_close hn (by omega) s m hm j
  have mk := mean_close hn (by omega) s m hm k
  have rj := root_le h2 (reals s) j (m j) mj
  have rk := root_le h2 (reals s) k (m k) mk
  have hμj := meanError_nonneg (reals s) j
  have hμk := meanError_nonneg (reals s) k
  have cs : (∑ i, |((s i j : ℝ) - m j) * (s i k - m k)|) / ((n : ℝ) - 1) ≤
      (deviation (reals s) j + 1.5 * meanError (reals s) j) * (deviation (reals s) k + 1.5 * meanError (reals s) k) := by
    have a := sum_abs_mul_le (fun i => (s i j : ℝ) - m j) (fun i => (s i k : ℝ) - m k)
    have b := div_le_div_of_nonneg_right a hN.le
    refine b.trans ?_
    have e : Real.sqrt (∑ i, ((s i j : ℝ) - m j) ^ 2) * Real.sqrt (∑ i, ((s i k : ℝ) - m k) ^ 2) / ((n : ℝ) - 1) =
        Real.sqrt ((∑ i, ((s i j : ℝ) - m j) ^ 2) / ((n : ℝ) - 1)) * Real.sqrt ((∑ i, ((s i k : ℝ) - m k) ^ 2) / ((n : ℝ) - 1)) := by
      rw [Real.sqrt_div (Finset.sum_nonneg fun i _ => sq_nonneg _), Real.sqrt_div (Finset.sum_nonneg fun i _ => sq_nonneg _), div_mul_div_comm,
        Real.mul_self_sqrt hN.le]
    rw [e]
    exact mul_le_mul rj rk (Real.sqrt_nonneg _) ((Real.sqrt_nonneg _).trans rj)
  have sh := sum_shift (by omega : n ≠ 0) (fun i => (s i j : ℝ)) (fun i => (s i k : ℝ)) (m j) (m k)
  rw [sh, add_div] at key
  change |(c j k : ℝ) - (unbiased (reals s) j k + n * (((m j : ℝ) - average (reals s) j) * ((m k : ℝ) - average (reals s) k)) / ((n : ℝ) - 1))| ≤ _ at key
  have sec : |n * (((m j : ℝ) - average (reals s) j) * ((m k : ℝ) - average (reals s) k)) / ((n : ℝ) - 1)| ≤ 2 * meanError (reals s) j * meanError (reals s) k := by
    rw [abs_div, abs_of_pos hN, div_le_iff₀ hN, abs_mul, abs_mul, abs_of_pos (by linarith : (0 : ℝ) < n)]
    have a := mul_le_mul mj mk (abs_nonneg _) hμj
    have b := mul_le_mul_of_nonneg_left a (by linarith : (0 : ℝ) ≤ n)
    have c : (n : ℝ) * (meanError (reals s) j * meanError (reals s) k) ≤ (2 * ((n : ℝ) - 1)) * (meanError (reals s) j * meanError (reals s) k) :=
      mul_le_mul_of_nonneg_right (by linarith) (mul_nonneg hμj hμk)
    linarith
  obtain ⟨E, hE⟩ : ∃ E, E = n * (((m j : ℝ) - average (reals s) j) * ((m k : ℝ) - average (reals s) k)) / ((n : ℝ) - 1) := ⟨_, rfl⟩
  rw [← hE] at key sec
  have t := abs_add_le ((c j k : ℝ) - (unbiased (reals s) j k + E)) E
  have e2 : (c j k : ℝ) - (unbiased (reals s) j k + E) + E = c j k - unbiased (reals s) j k := by ring
  rw [e2] at t
  have i := mul_le_mul_of_nonneg_left cs (by positivity : 0 ≤ 1.001 * ((n : ℝ) + 3) * U)
  linarith

/-- Sums of squares are not negative. -/
theorem evaluates_self_nonneg {x : ι → ℚ} {s : Finset ι} {r : ℚ} (h : Evaluates x x s r) : 0 ≤ r := by
  induction h with
  | product i => exact round64_nonneg (mul_self_nonneg _)
  | add _ _ _ a b => exact round64_nonneg (add_nonneg a b)
  | fused i _ _ a => exact round64_nonneg (add_nonneg (mul_self_nonneg _) a)

theorem mean_exists {n d : ℕ} (h0 : n ≠ 0) (s : Matrix (Fin n) (Fin d) ℚ) : ∃ m, MeanOf s m := by
  have : Nonempty (Fin n) := ⟨⟨0, by omega⟩⟩
  choose t ht using fun j => Evaluates.some (fun i => s i j) (fun _ => 1) (Finset.univ_nonempty (α := Fin n))
  exact ⟨fun j => round64 (t j / n), fun j => ⟨t j, ht j, rfl⟩⟩

theorem covariance_exists {n d : ℕ} (hn : n < 2 ^ 32) (h2 : 2 ≤ n) (s : Matrix (Fin n) (Fin d) ℚ) : ∃ c, CovarianceOf s c := by
  have : Nonempty (Fin n) := ⟨⟨0, by omega⟩⟩
  have en : sampleCount n = n := Nat.mod_eq_of_lt hn
  obtain ⟨m, hm⟩ := mean_exists (by omega : n ≠ 0) s
  choose t ht using fun j k => Evaluates.some (fun i => StatsDouble.zeroMean s m i j) (fun i => StatsDouble.zeroMean s m i k) (Finset.univ_nonempty (α := Fin n))
  exact ⟨Matrix.of fun j k => round64 (t j k / (sampleCount n - 1 : ℕ)), by rw [en]; exact h2, m, hm, fun j k => ⟨t j k, ht j k, rfl⟩⟩

end Verif.StatsDouble
