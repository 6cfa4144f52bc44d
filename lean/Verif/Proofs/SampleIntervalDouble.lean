import Verif.Model.SampleIntervalDouble
import Verif.Proofs.Binary64
import Verif.Spec.Double
/-! # Rounding with the exponent range of binary64 -/
namespace Verif.SampleIntervalDouble
open Binary64 Spec SampleIntervalReal

theorem round64_zero : round64 0 = 0 := by
  unfold round64
  simp only [zero_div]
  rw [show roundEven 0 = 0 from roundEven_int 0]
  simp

theorem round64_neg (q : ℚ) : round64 (-q) = -round64 q := by
  unfold round64 ulpExp
  simp only [abs_neg, neg_div, roundEven_neg]
  push_cast
  ring

/-- In the normal range this is the rounding of `Model/Binary64`. -/
theorem round64_normal {q : ℚ} (hq : q ≠ 0) (h : -1074 ≤ ulpExp q) : round64 q = fl q := by
  unfold round64 fl
  rw [if_neg hq, max_eq_left h]

theorem round64_subnormal {q : ℚ} (h : ulpExp q < -1074) : round64 q = roundEven (q / 2 ^ (-1074 : ℤ)) * 2 ^ (-1074 : ℤ) := by
  unfold round64
  rw [max_eq_right h.le]

theorem round64_error (q : ℚ) : |round64 q - q| ≤ |q| * 2 ^ (-53 : ℤ) + 2 ^ (-1075 : ℤ) := by
  have hη := two_zpow_pos (-1075)
  by_cases hq : q = 0
  · rw [hq, round64_zero]; simp
  by_cases h : -1074 ≤ ulpExp q
  · rw [round64_normal hq h]
    have := fl_error q
    have e : |q| / 2 ^ 53 = |q| * 2 ^ (-53 : ℤ) := by rw [zpow_neg]; rfl
    rw [e] at this
    linarith
  · rw [round64_subnormal (not_le.mp h)]
    have hp := two_zpow_pos (-1074)
    have h1 := roundEven_le (q / 2 ^ (-1074 : ℤ))
    have h2 := le_roundEven (q / 2 ^ (-1074 : ℤ))
    generalize hr : (roundEven (q / 2 ^ (-1074 : ℤ)) : ℚ) = r at *
    have e : q = q / 2 ^ (-1074 : ℤ) * 2 ^ (-1074 : ℤ) := by field_simp
    have e2 : (2 : ℚ) ^ (-1075 : ℤ) = 2 ^ (-1074 : ℤ) / 2 := by rw [show (-1075 : ℤ) = -1074 - 1 by norm_num, zpow_sub_one₀ (by norm_num)]; ring
    have h3 : |r * 2 ^ (-1074 : ℤ) - q| ≤ 2 ^ (-1075 : ℤ) := by
      rw [abs_le, e2]
      generalize q / 2 ^ (-1074 : ℤ) = x at *
      rw [e]
      constructor <;> nlinarith
    have := abs_nonneg q
    have := two_zpow_pos (-53)
    nlinarith

theorem round64_double {q : ℚ} (h : IsDouble q) : round64 q = q := by
  by_cases hq : q = 0
  · rw [hq, round64_zero]
  obtain ⟨m, e, hm, he, -, rfl⟩ := h
  by_cases hn : -1074 ≤ ulpExp (m * 2 ^ e)
  · rw [round64_normal hq hn]
    exact fl_representable ⟨m, e, hm.le, rfl⟩
  · rw [round64_subnormal (not_le.mp hn)]
    obtain ⟨k, hk⟩ : ∃ k : ℕ, e = -1074 + k := ⟨(e + 1074).toNat, by omega⟩
    have hp := two_zpow_pos (-1074)
    have e1 : (m : ℚ) * 2 ^ e / 2 ^ (-1074 : ℤ) = ((m * 2 ^ k : ℤ) : ℚ) := by
      rw [hk, zpow_add₀ (by norm_num), zpow_natCast, div_eq_iff hp.ne']
      simp only [Int.cast_mul, Int.cast_pow, Int.cast_ofNat]
      generalize (2 : ℚ) ^ (-1074 : ℤ) = v
      ring
    rw [e1, roundEven_int, ← e1]
    exact div_mul_cancel₀ _ hp.ne'

theorem isDouble_nat {n : ℕ} (h : n < 2 ^ 53) : IsDouble n :=
  ⟨n, 0, by rw [Nat.abs_cast]; exact_mod_cast h, by norm_num, by norm_num, by simp⟩

theorem round64_one : round64 1 = 1 := by simpa using round64_double (isDouble_nat (n := 1) (by norm_num))

theorem ulpExp_one : ulpExp 1 = -52 := ulpExp_eq (e := -52) (by norm_num) (by norm_num)

theorem round64_nonneg {q : ℚ} (h : 0 ≤ q) : 0 ≤ round64 q := by
  unfold round64
  have hp := two_zpow_pos (max (ulpExp q) (-1074))
  refine mul_nonneg ?_ hp.le
  have := roundEven_mono (q := 0) (r := q / 2 ^ max (ulpExp q) (-1074)) (by positivity)
  rw [show roundEven 0 = 0 from roundEven_int 0] at this
  exact_mod_cast this

theorem round64_le_one {q : ℚ} (h0 : 0 ≤ q) (h : q ≤ 1) : round64 q ≤ 1 := by
  by_cases hq : q = 0
  · rw [hq, round64_zero]; norm_num
  by_cases hn : -1074 ≤ ulpExp q
  · rw [round64_normal hq hn]
    have := fl_mono h
    have h1 : fl 1 = 1 := by simpa using fl_representable (representable_int (n := 1) (by norm_num))
    rwa [h1] at this
  · have hb := (binade hq).2
    rw [abs_of_nonneg h0] at hb
    have h1 : (2 : ℚ) ^ ulpExp q ≤ 2 ^ (-1074 : ℤ) := zpow_le_zpow_right₀ (by norm_num) (by omega)
    have he := abs_le.mp (round64_error q)
    rw [abs_of_nonneg h0] at he
    have e1 : (2 : ℚ) ^ (-1074 : ℤ) ≤ 2 ^ (-60 : ℤ) := zpow_le_zpow_right₀ (by norm_num) (by norm_num)
    have e2 : (2 : ℚ) ^ (-1075 : ℤ) ≤ 2 ^ (-60 : ℤ) := zpow_le_zpow_right₀ (by norm_num) (by norm_num)
    have e3 : (2 : ℚ) ^ (-60 : ℤ) * 2 ^ 53 ≤ 1 / 100 := by norm_num
    have e4 : (2 : ℚ) ^ (-60 : ℤ) ≤ 1 / 100 := by norm_num
    have e5 : q * (2 : ℚ) ^ (-53 : ℤ) ≤ q * 1 := mul_le_mul_of_nonneg_left (by norm_num) h0
    have e6 : (2 : ℚ) ^ ulpExp q * 2 ^ 53 ≤ 2 ^ (-60 : ℤ) * 2 ^ 53 := mul_le_mul_of_nonneg_right (h1.trans e1) (by norm_num)
    have he' := he.2
    clear he
    generalize (2 : ℚ) ^ (-1075 : ℤ) = η at *
    generalize (2 : ℚ) ^ (-60 : ℤ) = v at *
    generalize (2 : ℚ) ^ (-53 : ℤ) = u at *
    linarith

theorem round64_pos_ne {q : ℚ} (h : IsDouble q) (hq : q ≠ 0) : round64 q ≠ 0 := by rw [round64_double h]; exact hq

/-- A difference of doubles does not vanish by rounding. -/
theorem round64_sub_ne {a b : ℚ} (ha : IsDouble a) (hb : IsDouble b) (h : a ≠ b) : round64 (b - a) ≠ 0 := by
  have hd : b - a ≠ 0 := sub_ne_zero.mpr h.symm
  by_cases hn : -1074 ≤ ulpExp (b - a)
  · rw [round64_normal hd hn]
    rcases lt_or_gt_of_ne hd with h0 | h0
    · have := fl_pos (q := -(b - a)) (by linarith)
      rw [fl_neg] at this
      intro e; rw [e] at this; simp at this
    · exact (fl_pos h0).ne'
  · obtain ⟨m, e, -, he, -, rfl⟩ := ha
    obtain ⟨m', e', -, he', -, rfl⟩ := hb
    rw [round64_subnormal (not_le.mp hn)]
    obtain ⟨k, hk⟩ : ∃ k : ℕ, e = -1074 + k := ⟨(e + 1074).toNat, by omega⟩
    obtain ⟨k', hk'⟩ : ∃ k : ℕ, e' = -1074 + k := ⟨(e' + 1074).toNat, by omega⟩
    have hp := two_zpow_pos (-1074)
    have e1 : ((m' : ℚ) * 2 ^ e' - m * 2 ^ e) / 2 ^ (-1074 : ℤ) = ((m' * 2 ^ k' - m * 2 ^ k : ℤ) : ℚ) := by
      rw [hk, hk', zpow_add₀ (by norm_num), zpow_add₀ (by norm_num), zpow_natCast, zpow_natCast, div_eq_iff hp.ne']
      simp only [Int.cast_mul, Int.cast_sub, Int.cast_pow, Int.cast_ofNat]
      generalize (2 : ℚ) ^ (-1074 : ℤ) = v
      ring
    rw [e1, roundEven_int, ← e1]
    rw [div_mul_cancel₀ _ hp.ne']
    exact hd

theorem isDouble_lt {q : ℚ} (h : IsDouble q) : |q| < 2 ^ 1024 := by
  obtain ⟨m, e, hm, -, he, rfl⟩ := h
  rw [abs_mul, abs_of_pos (two_zpow_pos e)]
  have h1 : |(m : ℚ)| < 2 ^ 53 := by exact_mod_cast hm
  have h2 : (2 : ℚ) ^ e ≤ 2 ^ (971 : ℤ) := zpow_le_zpow_right₀ (by norm_num) he
  have h3 : (2 : ℚ) ^ 1024 = 2 ^ 53 * 2 ^ (971 : ℤ) := pow_add 2 53 971
  have := two_zpow_pos e
  rw [h3]
  calc |(m : ℚ)| * 2 ^ e < 2 ^ 53 * 2 ^ e := by exact mul_lt_mul_of_pos_right h1 this
    _ ≤ _ := by gcongr

theorem finite_double {q : ℚ} (h : IsDouble q) : finite q = some q := by
  unfold finite
  rw [round64_double h, if_pos (isDouble_lt h)]

theorem finite_small {q : ℚ} (h : |q| ≤ 2 ^ 1023) : finite q = some (round64 q) := by
  unfold finite
  rw [if_pos]
  have h1 := round64_error q
  have h2 : |round64 q| ≤ |round64 q - q| + |q| := by
    calc |round64 q| = |(round64 q - q) + q| := by ring_nf
      _ ≤ _ := abs_add_le _ _
  have h3 : (2 : ℚ) ^ (-53 : ℤ) ≤ 1 / 4 := by norm_num
  have h4 : (2 : ℚ) ^ (-1075 : ℤ) ≤ 1 := by
    have : (2 : ℚ) ^ (-1075 : ℤ) ≤ 2 ^ (0 : ℤ) := zpow_le_zpow_right₀ (by norm_num) (by norm_num)
    simpa using this
  have h5 : (2 : ℚ) ^ 1024 = 2 ^ 1023 * 2 := pow_succ 2 1023
  have h6 : (2 : ℚ) ^ 7 ≤ 2 ^ 1023 := pow_le_pow_right₀ (by norm_num) (by norm_num)
  rw [h5]
  clear h5
  have := abs_nonneg q
  have h7 : |q| * (2 : ℚ) ^ (-53 : ℤ) ≤ |q| * (1 / 4) := mul_le_mul_of_nonneg_left h3 this
  norm_num at h6
  generalize (2 : ℚ) ^ 1023 = K at *
  generalize (2 : ℚ) ^ (-1075 : ℤ) = η at *
  generalize (2 : ℚ) ^ (-53 : ℤ) = u at *
  linarith

theorem finite_eq_some {q r : ℚ} (h : finite q = some r) : r = round64 q := by
  unfold finite at h
  split_ifs at h
  exact (Option.some.inj h).symm

/-- A difference of doubles is rounded with a relative error, also when it is subnormal (then it is exact). -/
theorem round64_sub_error {a b : ℚ} (ha : IsDouble a) (hb : IsDouble b) : |round64 (b - a) - (b - a)| ≤ |b - a| * 2 ^ (-53 : ℤ) := by
  by_cases hd : b - a = 0
  · rw [hd, round64_zero]; simp
  by_cases hn : -1074 ≤ ulpExp (b - a)
  · rw [round64_normal hd hn]
    have := fl_error (b - a)
    have e : |b - a| / 2 ^ 53 = |b - a| * 2 ^ (-53 : ℤ) := by rw [zpow_neg]; rfl
    rwa [e] at this
  · obtain ⟨m, e, -, he, -, rfl⟩ := ha
    obtain ⟨m', e', -, he', -, rfl⟩ := hb
    rw [round64_subnormal (not_le.mp hn)]
    obtain ⟨k, hk⟩ : ∃ k : ℕ, e = -1074 + k := ⟨(e + 1074).toNat, by omega⟩
    obtain ⟨k', hk'⟩ : ∃ k : ℕ, e' = -1074 + k := ⟨(e' + 1074).toNat, by omega⟩
    have hp := two_zpow_pos (-1074)
    have e1 : ((m' : ℚ) * 2 ^ e' - m * 2 ^ e) / 2 ^ (-1074 : ℤ) = ((m' * 2 ^ k' - m * 2 ^ k : ℤ) : ℚ) := by
      rw [hk, hk', zpow_add₀ (by norm_num), zpow_add₀ (by norm_num), zpow_natCast, zpow_natCast, div_eq_iff hp.ne']
      simp only [Int.cast_mul, Int.cast_sub, Int.cast_pow, Int.cast_ofNat]
      generalize (2 : ℚ) ^ (-1074 : ℤ) = v
      ring
    rw [e1, roundEven_int, ← e1, div_mul_cancel₀ _ hp.ne', sub_self, abs_zero]
    exact mul_nonneg (abs_nonneg _) (two_zpow_pos _).le

/-- The rounding errors of one sample added up. -/
theorem error_sum {u η M φ f g a b r s e : ℚ} (hu : 0 < u) (hu1 : u ≤ 1 / 100) (hη : 0 < η) (hηu : η ≤ u / 8) (hφ0 : 0 ≤ φ) (hφ1 : φ ≤ 1)
    (hf0 : 0 ≤ f) (hf1 : f ≤ 1) (hg0 : 0 ≤ g) (hg1 : g ≤ 1) (hs : |s| ≤ M) (he : |e| ≤ M)
    (h1 : |f - φ| ≤ |φ| * u + η) (h2 : |g - (1 - f)| ≤ |1 - f| * u + η) (h3 : |a - g * s| ≤ |g * s| * u + η)
    (h4 : |b - f * e| ≤ |f * e| * u + η) (h5 : |r - (a + b)| ≤ |a + b| * u + η) :
    |r - ((1 - φ) * s + φ * e)| ≤ M * (8 * u) + 8 * η ∧ |a + b| ≤ 3 / 2 * M + 2 * η := by
  have hM : 0 ≤ M := (abs_nonneg s).trans hs
  have e1 : |f - φ| ≤ u + η := by rw [abs_of_nonneg hφ0] at h1; nlinarith
  have e2 : |g - (1 - f)| ≤ u + η := by rw [abs_of_nonneg (by linarith : 0 ≤ 1 - f)] at h2; nlinarith
  have gs : |g * s| ≤ g * M := by rw [abs_mul, abs_of_nonneg hg0]; exact mul_le_mul_of_nonneg_left hs hg0
  have fe : |f * e| ≤ f * M := by rw [abs_mul, abs_of_nonneg hf0]; exact mul_le_mul_of_nonneg_left he hf0
  have gM : g * M ≤ M := by nlinarith
  have fM : f * M ≤ M := by nlinarith
  have e3 : |a - g * s| ≤ M * u + η := h3.trans (by have := mul_le_mul_of_nonneg_right (gs.trans gM) hu.le; linarith)
  have e4 : |b - f * e| ≤ M * u + η := h4.trans (by have := mul_le_mul_of_nonneg_right (fe.trans fM) hu.le; linarith)
  have hgf : g + f ≤ 1 + u + η := by have := (abs_le.mp e2).2; linarith
  have hab : |a + b| ≤ 3 / 2 * M + 2 * η := by
    have t1 : |a + b| ≤ |a - g * s| + |b - f * e| + (|g * s| + |f * e|) := by
      calc |a + b| = |(a - g * s) + (b - f * e) + (g * s + f * e)| := by ring_nf
        _ ≤ |(a - g * s) + (b - f * e)| + |g * s + f * e| := abs_add_le _ _
        _ ≤ _ := add_le_add (abs_add_le _ _) (abs_add_le _ _)
    have t2 : (g + f) * M ≤ (1 + u + η) * M := mul_le_mul_of_nonneg_right hgf hM
    have t3 : M * u ≤ M * (1 / 100) := mul_le_mul_of_nonneg_left hu1 hM
    have t4 : M * η ≤ M * (1 / 100) := mul_le_mul_of_nonneg_left (by linarith) hM
    linarith
  refine ⟨?_, hab⟩
  have e5 : |r - (a + b)| ≤ 2 * M * u + 2 * η := by
    have t1 := mul_le_mul_of_nonneg_right hab hu.le
    have t2 : η * u ≤ η * (1 / 100) := mul_le_mul_of_nonneg_left hu1 hη.le
    have t3 : 0 ≤ M * u := mul_nonneg hM hu.le
    linarith
  have e6 : |(g - (1 - φ)) * s| ≤ (2 * u + 2 * η) * M := by
    rw [abs_mul]
    refine mul_le_mul ?_ hs (abs_nonneg _) (by linarith)
    calc |g - (1 - φ)| = |(g - (1 - f)) - (f - φ)| := by ring_nf
      _ ≤ |g - (1 - f)| + |f - φ| := abs_sub _ _
      _ ≤ _ := by linarith
  have e7 : |(f - φ) * e| ≤ (u + η) * M := by
    rw [abs_mul]
    exact mul_le_mul e1 he (abs_nonneg _) (by linarith)
  have hηM : η * M ≤ u / 8 * M := mul_le_mul_of_nonneg_right hηu hM
  have huM : 0 ≤ u * M := mul_nonneg hu.le hM
  calc |r - ((1 - φ) * s + φ * e)|
      = |(r - (a + b)) + ((a - g * s) + (b - f * e)) + ((g - (1 - φ)) * s + (f - φ) * e)| := by ring_nf
    _ ≤ |r - (a + b)| + (|a - g * s| + |b - f * e|) + (|(g - (1 - φ)) * s| + |(f - φ) * e|) := by
        refine (abs_add_le _ _).trans (add_le_add ((abs_add_le _ _).trans (add_le_add le_rfl (abs_add_le _ _))) (abs_add_le _ _))
    _ ≤ _ := by linarith

theorem unit_le {B C x : ℚ} (hB : 1 ≤ B) (hC : C = B * 2) (h0 : 0 ≤ x) (h1 : x ≤ 1) : |x| ≤ C := by
  rw [abs_of_nonneg h0, hC]; linarith

theorem scaled_le {B C x y : ℚ} (hB : 1 ≤ B) (hC : C = B * 2) (h0 : 0 ≤ x) (h1 : x ≤ 1) (hy : |y| ≤ B) : |x * y| ≤ C := by
  rw [abs_mul, abs_of_nonneg h0, hC]
  have := abs_nonneg y
  nlinarith

theorem eta_lt : (2 : ℚ) ^ (-1075 : ℤ) ≤ 1 / 100 :=
  (zpow_le_zpow_right₀ (by norm_num) (by norm_num) : (2 : ℚ) ^ (-1075 : ℤ) ≤ 2 ^ (-7 : ℤ)).trans (by norm_num)

theorem eta_small : (2 : ℚ) ^ (-1075 : ℤ) ≤ 2 ^ (-53 : ℤ) / 8 := by
  have e : (2 : ℚ) ^ (-53 : ℤ) / 8 = 2 ^ (-56 : ℤ) := by norm_num
  rw [e]
  exact zpow_le_zpow_right₀ (by norm_num) (by norm_num)

/-- Every sample is finite and near its even position. -/
theorem sampleAt_close {s e : ℚ} (hs : |s| ≤ 2 ^ 1022) (he : |e| ≤ 2 ^ 1022) {n : Int} (hn : 2 ≤ n) (hn2 : n ≤ 2 ^ 31) {i : Nat} (hi : (i : Int) ≤ n - 1) :
    ∃ r, sampleAt s e n i = some r ∧ |r - evenly s e n i| ≤ max |s| |e| * 2 ^ (-50 : ℤ) + 2 ^ (-1072 : ℤ) := by
  obtain ⟨k, rfl⟩ : ∃ k : ℕ, n = k + 1 := ⟨(n - 1).toNat, by omega⟩
  have hk : (0 : ℚ) < k := by have : 0 < k := by omega
                              exact_mod_cast this
  have hik : (i : ℚ) ≤ k := by have : i ≤ k := by omega
                               exact_mod_cast this
  have r1 : round64 (i : ℚ) = i := round64_double (isDouble_nat (by omega))
  have r2 : round64 (((k : Int) + 1 - 1 : Int) : ℚ) = k := by
    rw [add_sub_cancel_right, Int.cast_natCast]; exact round64_double (isDouble_nat (by omega))
  have hφ0 : (0 : ℚ) ≤ i / k := div_nonneg (Nat.cast_nonneg _) hk.le
  have hφ1 : (i : ℚ) / k ≤ 1 := by rw [div_le_one hk]; exact hik
  have hf0 := round64_nonneg hφ0
  have hf1 := round64_le_one hφ0 hφ1
  have err1 := round64_error ((i : ℚ) / k)
  obtain ⟨f, hf⟩ : ∃ f, f = round64 ((i : ℚ) / k) := ⟨_, rfl⟩
  have hg0 := round64_nonneg (q := 1 - f) (by rw [hf]; linarith)
  have hg1 := round64_le_one (q := 1 - f) (by rw [hf]; linarith) (by rw [hf]; linarith)
  have err2 := round64_error (1 - f)
  obtain ⟨g, hg⟩ : ∃ g, g = round64 (1 - f) := ⟨_, rfl⟩
  have err3 := round64_error (g * s)
  have err4 := round64_error (f * e)
  obtain ⟨a, ha⟩ : ∃ a, a = round64 (g * s) := ⟨_, rfl⟩
  obtain ⟨b, hb⟩ : ∃ b, b = round64 (f * e) := ⟨_, rfl⟩
  have err5 := round64_error (a + b)
  rw [← hf] at hf0 hf1 err1
  rw [← hg] at hg0 hg1 err2
  rw [← ha] at err3
  rw [← hb] at err4
  have hbig : (1 : ℚ) ≤ 2 ^ 1022 := one_le_pow₀ (by norm_num)
  have h23 : (2 : ℚ) ^ 1023 = 2 ^ 1022 * 2 := pow_succ 2 1022
  obtain ⟨hmain, hab⟩ := error_sum (M := max |s| |e|) (two_zpow_pos (-53)) (by norm_num) (two_zpow_pos (-1075)) eta_small hφ0 hφ1 hf0 hf1 hg0 hg1
    (le_max_left _ _) (le_max_right _ _) err1 err2 err3 err4 err5
  have fin5 : |a + b| ≤ 2 ^ 1023 := by
    have hη := eta_lt
    have hM := max_le hs he
    rw [h23]
    clear err1 err2 err3 err4 err5 hmain h23 hs he
    generalize (2 : ℚ) ^ 1022 = B at *
    generalize (2 : ℚ) ^ (-1075 : ℤ) = η at *
    linarith
  refine ⟨round64 (a + b), ?_, ?_⟩
  · unfold sampleAt
    rw [if_neg (by omega), r1, r2, finite_small (unit_le hbig h23 hφ0 hφ1), ← hf]
    simp only [Option.bind_eq_bind, Option.bind_some]
    rw [finite_small (unit_le hbig h23 (by linarith) (by linarith)), ← hg, Option.bind_some, finite_small (scaled_le hbig h23 hg0 hg1 hs), ← ha, Option.bind_some,
      finite_small (scaled_le hbig h23 hf0 hf1 he), ← hb, Option.bind_some]
    exact finite_small fin5
  · have e1 : evenly s e ((k : Int) + 1) i = (1 - (i : ℚ) / k) * s + (i : ℚ) / k * e := by
      unfold evenly
      push_cast
      rw [add_sub_cancel_right]
      field_simp
      ring
    have e2 : (8 : ℚ) * 2 ^ (-53 : ℤ) = 2 ^ (-50 : ℤ) := by norm_num
    have e3 : (8 : ℚ) * 2 ^ (-1075 : ℤ) = 2 ^ (-1072 : ℤ) := by
      rw [show (-1072 : ℤ) = -1075 + 3 by norm_num, zpow_add₀ (by norm_num)]
      norm_num [mul_comm]
    rw [e1, ← e2, ← e3]
    exact hmain

/-- The first and the last sample are exact. -/
theorem sampleAt_first {s e : ℚ} (hs : IsDouble s) {n : Int} (hn : 2 ≤ n) : sampleAt s e n 0 = some s := by
  unfold sampleAt
  rw [if_neg (by omega), Nat.cast_zero, round64_zero, zero_div]
  have z : finite 0 = some 0 := finite_double (by simpa using isDouble_nat (n := 0) (by norm_num))
  have o : finite 1 = some 1 := finite_double (by simpa using isDouble_nat (n := 1) (by norm_num))
  simp only [Option.bind_eq_bind, Option.bind_some, z, o, sub_zero, one_mul, zero_mul, add_zero, finite_double hs]

theorem sampleAt_last {s e : ℚ} (he : IsDouble e) {k : Nat} (hk : 1 ≤ k) (hk2 : k < 2 ^ 53) : sampleAt s e (k + 1) k = some e := by
  unfold sampleAt
  have hk0 : (k : ℚ) ≠ 0 := by exact_mod_cast (by omega : k ≠ 0)
  rw [if_neg (by omega), add_sub_cancel_right, Int.cast_natCast, round64_double (isDouble_nat hk2), div_self hk0]
  have z : finite 0 = some 0 := finite_double (by simpa using isDouble_nat (n := 0) (by norm_num))
  have o : finite 1 = some 1 := finite_double (by simpa using isDouble_nat (n := 1) (by norm_num))
  simp only [Option.bind_eq_bind, Option.bind_some, z, o, sub_self, one_mul, zero_mul, zero_add, finite_double he]

theorem finite_lt {q r : ℚ} (h : finite q = some r) : |r| < 2 ^ 1024 := by
  unfold finite at h
  split_ifs at h with hh
  rw [← Option.some.inj h]
  exact hh

theorem numSamples_ok {s e dt : ℚ} {n : Int} (h : numSamples s e dt = .ok n) :
    0 < dt ∧ n = ⌈round64 (|round64 (e - s)| / dt)⌉ + 1 ∧ n < 2 ^ 31 := by
  unfold numSamples Outcome.reassert at h
  split_ifs at h with h1
  · simp only [bind, Outcome.bind] at h
    split at h
    · exact absurd h (by simp)
    · next d hd =>
      split at h
      · exact absurd h (by simp)
      · next q hq =>
        have ed := finite_eq_some hd
        have eq := finite_eq_some hq
        subst ed eq
        unfold i32 INTMAX at h
        split_ifs at h with h2
        · simp only at h
          split_ifs at h with h3
          · rw [← Outcome.ok.inj h]
            exact ⟨h1, rfl, by omega⟩
  · exact absurd h (by simp [bind, Outcome.bind])

/-- The number of steps against the exact quotient, with relative rounding errors `u` and the absolute error `η` of the division. -/
theorem count_bounds {u η L d dt q : ℚ} {c : Int} (hu : 0 < u) (hu1 : u ≤ 1 / 100) (hη : 0 < η) (hηu : η ≤ u / 8) (hdt : 0 < dt) (hL : 0 ≤ L)
    (hd : |d - L| ≤ L * u) (hq : |q - d / dt| ≤ |d / dt| * u + η) (hc : c = ⌈q⌉) (hc1 : 1 ≤ c) :
    L ≤ c * dt * (1 + 4 * u) ∧ (c - 1) * dt * (1 - 4 * u) ≤ L := by
  have hc1' : (1 : ℚ) ≤ c := by exact_mod_cast hc1
  have h1 : q ≤ c := hc ▸ Int.le_ceil q
  have h2 : (c : ℚ) - 1 < q := by have := Int.ceil_lt_add_one q; rw [← hc] at this; linarith
  have hd' := abs_le.mp hd
  have hd0 : 0 ≤ d := by nlinarith
  have hdd : 0 ≤ d / dt := div_nonneg hd0 hdt.le
  rw [abs_of_nonneg hdd] at hq
  have hq' := abs_le.mp hq
  have ed : d = d / dt * dt := (div_mul_cancel₀ d hdt.ne').symm
  obtain ⟨x, hx⟩ : ∃ x, x = d / dt := ⟨_, rfl⟩
  rw [← hx] at hq' ed hdd
  constructor
  · -- x (1 - u) ≤ c (1 + u)
    have a1 : x * (1 - u) ≤ c * (1 + u) := by nlinarith
    have a2 : d * (1 - u) ≤ c * dt * (1 + u) := by rw [ed]; nlinarith
    have a3 : L * (1 - u) ≤ d := by linarith [hd'.1]
    have a4 : L * (1 - u) * (1 - u) ≤ c * dt * (1 + u) := (mul_le_mul_of_nonneg_right a3 (by linarith)).trans a2
    have cd : 0 < c * dt := by positivity
    have a5 : (1 + u) ≤ (1 + 4 * u) * ((1 - u) * (1 - u)) := by nlinarith [mul_pos hu hu, mul_pos (mul_pos hu hu) hu]
    have a6 : L * ((1 - u) * (1 - u)) ≤ c * dt * (1 + 4 * u) * ((1 - u) * (1 - u)) := by
      calc L * ((1 - u) * (1 - u)) ≤ c * dt * (1 + u) := by linarith
        _ ≤ c * dt * ((1 + 4 * u) * ((1 - u) * (1 - u))) := mul_le_mul_of_nonneg_left a5 cd.le
        _ = _ := by ring
    exact le_of_mul_le_mul_right a6 (by nlinarith)
  · rcases eq_or_lt_of_le hc1 with h | h
    · rw [← h]; simpa using hL
    have hc2 : (1 : ℚ) ≤ c - 1 := by have : (2 : ℚ) ≤ c := by exact_mod_cast (by omega : 2 ≤ c)
                                     linarith
    have b1 : ((c : ℚ) - 1) * (1 - u) ≤ x * (1 + u) := by nlinarith
    have b2 : ((c : ℚ) - 1) * dt * (1 - u) ≤ d * (1 + u) := by rw [ed]; nlinarith
    have b3 : d ≤ L * (1 + u) := by linarith [hd'.2]
    have b4 : ((c : ℚ) - 1) * dt * (1 - u) ≤ L * ((1 + u) * (1 + u)) := by nlinarith
    have cd : 0 < ((c : ℚ) - 1) * dt := mul_pos (by linarith) hdt
    have b5 : (1 - 4 * u) * ((1 + u) * (1 + u)) ≤ 1 - u := by nlinarith [mul_pos hu hu, mul_pos (mul_pos hu hu) hu]
    have b6 : ((c : ℚ) - 1) * dt * (1 - 4 * u) * ((1 + u) * (1 + u)) ≤ L * ((1 + u) * (1 + u)) := by
      calc ((c : ℚ) - 1) * dt * (1 - 4 * u) * ((1 + u) * (1 + u)) = ((c : ℚ) - 1) * dt * ((1 - 4 * u) * ((1 + u) * (1 + u))) := by ring
        _ ≤ ((c : ℚ) - 1) * dt * (1 - u) := mul_le_mul_of_nonneg_left b5 cd.le
        _ ≤ _ := b4
    exact le_of_mul_le_mul_right b6 (by positivity)

theorem abs_round64_sub {s e : ℚ} (hs : IsDouble s) (he : IsDouble e) : abs (|round64 (e - s)| - |e - s|) ≤ |e - s| * 2 ^ (-53 : ℤ) :=
  (abs_abs_sub_abs_le _ _).trans (round64_sub_error hs he)

/-- The quotient of lines 26-31 lies strictly between 0 and the largest `int`. -/
theorem quotient_bounds {u η κ L d dt q : ℚ} (hu : 0 < u) (hu1 : u ≤ 1 / 100) (hη : 0 < η) (hη1 : η ≤ κ / 4) (hκ : κ ≤ 1) (hdt : 0 < dt)
    (hlo : κ * dt ≤ L) (hhi : L ≤ 2 ^ 30 * dt) (hd : |d - L| ≤ L * u) (hq : |q - d / dt| ≤ |d / dt| * u + η) :
    0 < q ∧ q ≤ 2147483646 ∧ |d / dt| ≤ 2 ^ 31 := by
  have hd' := abs_le.mp hd
  have hκ0 : 0 < κ := by linarith
  have hL : 0 < L := lt_of_lt_of_le (mul_pos hκ0 hdt) hlo
  have hLu : L * u ≤ L * (1 / 100) := mul_le_mul_of_nonneg_left hu1 hL.le
  have l1 : κ * (99 / 100) ≤ d / dt := by rw [le_div_iff₀ hdt]; linarith [hd'.1]
  have l2 : d / dt ≤ 2 ^ 30 * (101 / 100) := by rw [div_le_iff₀ hdt]; linarith [hd'.2]
  have l0 : 0 ≤ d / dt := le_trans (by positivity) l1
  rw [abs_of_nonneg l0] at hq ⊢
  have hq' := abs_le.mp hq
  have l3 := mul_le_mul_of_nonneg_left hu1 l0
  refine ⟨by linarith [hq'.1], by norm_num at l2; linarith [hq'.2], by norm_num at l2 ⊢; linarith⟩

theorem numSamples_completes {s e dt : ℚ} (hs : IsDouble s) (he : IsDouble e) (hs' : |s| ≤ 2 ^ 1022) (he' : |e| ≤ 2 ^ 1022) (hdt : 0 < dt)
    (hlo : 2 ^ (-1000 : ℤ) * dt ≤ |e - s|) (hhi : |e - s| ≤ 2 ^ 30 * dt) : ∃ n, numSamples s e dt = .ok n ∧ 2 ≤ n := by
  have h23 : (2 : ℚ) ^ 1023 = 2 ^ 1022 * 2 := pow_succ 2 1022
  have f1 : finite (e - s) = some (round64 (e - s)) := by
    refine finite_small ((abs_sub _ _).trans ?_)
    rw [h23]
    revert hs' he'
    generalize (2 : ℚ) ^ 1022 = B
    intro h1 h2
    linarith only [h1, h2]
  have hκ : (2 : ℚ) ^ (-1075 : ℤ) ≤ 2 ^ (-1000 : ℤ) / 4 := by
    have e1 : (2 : ℚ) ^ (-1000 : ℤ) / 4 = 2 ^ (-1002 : ℤ) := by
      rw [show (-1000 : ℤ) = -1002 + 2 by norm_num, zpow_add₀ (by norm_num)]
      generalize (2 : ℚ) ^ (-1002 : ℤ) = v
      norm_num
    rw [e1]
    exact zpow_le_zpow_right₀ (by norm_num) (by norm_num)
  obtain ⟨q0, q1, q2⟩ := quotient_bounds (two_zpow_pos (-53)) (by norm_num) (two_zpow_pos (-1075)) hκ
    (zpow_le_one_of_nonpos₀ (by norm_num) (by norm_num)) hdt hlo hhi (abs_round64_sub hs he) (round64_error (|round64 (e - s)| / dt))
  have f2 : finite (|round64 (e - s)| / dt) = some (round64 (|round64 (e - s)| / dt)) :=
    finite_small (q2.trans (pow_le_pow_right₀ (by norm_num) (by norm_num)))
  have c0 : 0 < ⌈round64 (|round64 (e - s)| / dt)⌉ := Int.ceil_pos.mpr q0
  have c1 : ⌈round64 (|round64 (e - s)| / dt)⌉ ≤ 2147483646 := Int.ceil_le.mpr (by exact_mod_cast q1)
  refine ⟨⌈round64 (|round64 (e - s)| / dt)⌉ + 1, ?_, by omega⟩
  unfold numSamples
  rw [Outcome.reassert_true hdt, Outcome.ok_bind, f1]
  simp only
  rw [f2]
  unfold i32 INTMAX
  simp only
  rw [if_pos (by omega), Outcome.ok_bind, if_pos (by omega)]

theorem ordered_of_close {B L : ℚ} {x y px py : ℚ} (hx : |x - px| ≤ B) (hy : |y - py| ≤ B) (hL : 2 * B < L) (h : L ≤ py - px) : x < y := by
  have h1 := abs_le.mp hx
  have h2 := abs_le.mp hy
  linarith

theorem between_of_pairwise {r : ℚ → ℚ → Prop} {xs : List ℚ} {a b : ℚ} (hp : xs.Pairwise r) (ha : xs.head? = some a) (hb : xs.getLast? = some b) :
    ∀ x ∈ xs, (a = x ∨ r a x) ∧ (x = b ∨ r x b) := by
  intro x hx
  constructor
  · obtain ⟨ys, rfl⟩ := List.head?_eq_some_iff.mp ha
    rcases List.mem_cons.mp hx with h | h
    · exact Or.inl h.symm
    · exact Or.inr ((List.pairwise_cons.mp hp).1 x h)
  · obtain ⟨ys, rfl⟩ := List.getLast?_eq_some_iff.mp hb
    rcases List.mem_append.mp hx with h | h
    · exact Or.inr ((List.pairwise_append.mp hp).2.2 x h b (by simp))
    · exact Or.inl (List.mem_singleton.mp h)

theorem even_step (s e : ℚ) {n : Int} (hn : 2 ≤ n) {i j : Nat} (h : i < j) (hse : s ≤ e) :
    (e - s) / (n - 1) ≤ evenly s e n j - evenly s e n i := by
  have hn1 : (0 : ℚ) < n - 1 := by have : (2 : ℚ) ≤ n := by exact_mod_cast hn
                                   linarith
  have hij : (i : ℚ) + 1 ≤ j := by exact_mod_cast h
  unfold evenly
  rw [show s + j * (e - s) / ((n : ℚ) - 1) - (s + i * (e - s) / (n - 1)) = ((j : ℚ) - i) * ((e - s) / (n - 1)) by ring]
  have : 0 ≤ (e - s) / ((n : ℚ) - 1) := div_nonneg (by linarith) hn1.le
  nlinarith

/-- Doubles in the examples below. -/
theorem isDouble_mk (m : Int) (e : Int) (h : |m| < 2 ^ 53) (h1 : -1074 ≤ e) (h2 : e ≤ 971) {q : ℚ} (hq : q = m * 2 ^ e) : IsDouble q :=
  ⟨m, e, h, h1, h2, hq⟩

end Verif.SampleIntervalDouble
