import Verif.Model.Binary64
import Mathlib.Tactic.Linarith
import Mathlib.Tactic.Ring
import Mathlib.Tactic.FieldSimp
import Mathlib.Tactic.Positivity
import Mathlib.Tactic.NormNum
import Mathlib.Tactic.GCongr
/-! # Properties of binary64 rounding -/
namespace Verif.Binary64

theorem roundEven_le (q : ℚ) : (roundEven q : ℚ) ≤ q + 1 / 2 := by
  have h1 := Int.floor_le q
  have h2 := Int.lt_floor_add_one q
  unfold roundEven
  simp only
  split_ifs <;> push_cast <;> linarith

theorem le_roundEven (q : ℚ) : q - 1 / 2 ≤ roundEven q := by
  have h1 := Int.floor_le q
  have h2 := Int.lt_floor_add_one q
  unfold roundEven
  simp only
  split_ifs <;> push_cast <;> linarith

theorem floor_le_roundEven (q : ℚ) : ⌊q⌋ ≤ roundEven q := by
  unfold roundEven
  simp only
  split_ifs <;> omega

theorem roundEven_le_floor (q : ℚ) : roundEven q ≤ ⌊q⌋ + 1 := by
  unfold roundEven
  simp only
  split_ifs <;> omega

theorem roundEven_int (n : ℤ) : roundEven n = n := by
  unfold roundEven
  simp

theorem roundEven_mono {q r : ℚ} (h : q ≤ r) : roundEven q ≤ roundEven r := by
  have hf : ⌊q⌋ ≤ ⌊r⌋ := Int.floor_mono h
  rcases hf.eq_or_lt with he | hl
  · unfold roundEven
    simp only [he]
    split_ifs <;> first | omega | (exfalso; linarith)
  · have := roundEven_le_floor q
    have := floor_le_roundEven r
    omega

theorem roundEven_neg (q : ℚ) : roundEven (-q) = -roundEven q := by
  by_cases hq : (⌊q⌋ : ℚ) = q
  · have : q = ((⌊q⌋ : ℤ) : ℚ) := hq.symm
    rw [this, ← Int.cast_neg, roundEven_int, roundEven_int]
  · have h1 := Int.floor_le q
    have h2 := Int.lt_floor_add_one q
    have hf : ⌊-q⌋ = -⌊q⌋ - 1 := by
      rw [Int.floor_eq_iff]
      push_cast
      have : (⌊q⌋ : ℚ) < q := lt_of_le_of_ne h1 hq
      constructor <;> linarith
    unfold roundEven
    simp only [hf]
    push_cast
    split_ifs <;> first | omega | (exfalso; linarith)

theorem two_zpow_pos (e : ℤ) : (0 : ℚ) < 2 ^ e := zpow_pos (by norm_num) e

/-- The binade of a non-zero `q`. -/
theorem binade {q : ℚ} (hq : q ≠ 0) : (2 : ℚ) ^ (ulpExp q) * 2 ^ 52 ≤ |q| ∧ |q| < 2 ^ (ulpExp q) * 2 ^ 53 := by
  have hpos : 0 < |q| := abs_pos.mpr hq
  have h1 := Int.zpow_log_le_self (b := 2) (by norm_num) hpos
  have h2 := Int.lt_zpow_succ_log_self (b := 2) (by norm_num) |q|
  have e1 : (2 : ℚ) ^ (ulpExp q) * 2 ^ 52 = 2 ^ (Int.log 2 |q|) := by
    unfold ulpExp
    rw [← zpow_natCast (2 : ℚ) 52, ← zpow_add₀ (by norm_num)]
    congr 1; push_cast; ring
  have e2 : (2 : ℚ) ^ (ulpExp q) * 2 ^ 53 = 2 ^ (Int.log 2 |q| + 1) := by
    unfold ulpExp
    rw [← zpow_natCast (2 : ℚ) 53, ← zpow_add₀ (by norm_num)]
    congr 1; push_cast; ring
  rw [e1, e2]
  exact ⟨by exact_mod_cast h1, by exact_mod_cast h2⟩

/-- The binade determines the exponent. -/
theorem ulpExp_eq {q : ℚ} {e : ℤ} (h1 : (2 : ℚ) ^ e * 2 ^ 52 ≤ |q|) (h2 : |q| < 2 ^ e * 2 ^ 53) : ulpExp q = e := by
  have hq : q ≠ 0 := by
    rintro rfl
    have := two_zpow_pos e
    simp at h1
    linarith [mul_pos this (by norm_num : (0 : ℚ) < 2 ^ 52)]
  obtain ⟨b1, b2⟩ := binade hq
  have key : ∀ a b : ℤ, (2 : ℚ) ^ a * 2 ^ 52 < 2 ^ b * 2 ^ 53 → a ≤ b := by
    intro a b h
    by_contra hc
    have h3 : (2 : ℚ) ^ (b + 1) ≤ 2 ^ a := zpow_le_zpow_right₀ (by norm_num) (by omega)
    rw [zpow_add_one₀ (by norm_num)] at h3
    have := two_zpow_pos b
    nlinarith
  exact le_antisymm (key _ _ (lt_of_le_of_lt b1 h2)) (key _ _ (lt_of_le_of_lt h1 b2))

@[simp] theorem fl_zero : fl 0 = 0 := by simp [fl]

theorem fl_neg (q : ℚ) : fl (-q) = -fl q := by
  unfold fl
  by_cases hq : q = 0
  · simp [hq]
  · have : ulpExp (-q) = ulpExp q := by unfold ulpExp; rw [abs_neg]
    rw [if_neg (by simpa using hq), if_neg hq, this, neg_div, roundEven_neg]
    push_cast; ring

/-- Absolute error: at most half a unit in the last place. -/
theorem fl_error_ulp {q : ℚ} (hq : q ≠ 0) : |fl q - q| ≤ 2 ^ ulpExp q / 2 := by
  have hp := two_zpow_pos (ulpExp q)
  unfold fl
  rw [if_neg hq]
  have h1 := roundEven_le (q / 2 ^ ulpExp q)
  have h2 := le_roundEven (q / 2 ^ ulpExp q)
  have e : q = q / 2 ^ ulpExp q * 2 ^ ulpExp q := by field_simp
  rw [abs_le]
  constructor <;> nlinarith

/-- Relative error: at most 2^-53. -/
theorem fl_error (q : ℚ) : |fl q - q| ≤ |q| / 2 ^ 53 := by
  by_cases hq : q = 0
  · simp [hq]
  · have h1 := fl_error_ulp hq
    have h2 := (binade hq).1
    rw [le_div_iff₀ (by norm_num)]
    nlinarith

/-- A number with at most 53 significant bits. -/
def Representable (q : ℚ) : Prop := ∃ (m : ℤ) (e : ℤ), |m| ≤ 2 ^ 53 ∧ q = m * 2 ^ e

theorem fl_of_multiple {q : ℚ} (hq : q ≠ 0) {m : ℤ} (h : q = m * 2 ^ ulpExp q) : fl q = q := by
  have hp := two_zpow_pos (ulpExp q)
  unfold fl
  rw [if_neg hq]
  have : q / 2 ^ ulpExp q = m := by rw [div_eq_iff hp.ne']; exact h
  rw [this, roundEven_int, ← h]

theorem fl_representable {q : ℚ} (h : Representable q) : fl q = q := by
  by_cases hq : q = 0
  · simp [hq]
  obtain ⟨m, e, hm, he⟩ := h
  obtain ⟨b1, b2⟩ := binade hq
  have hm' : |(m : ℚ)| ≤ 2 ^ 53 := by exact_mod_cast hm
  have hpe := two_zpow_pos e
  have habs : |q| = |(m : ℚ)| * 2 ^ e := by rw [he, abs_mul, abs_of_pos hpe]
  by_cases hle : ulpExp q ≤ e
  · obtain ⟨k, hk⟩ : ∃ k : ℕ, e = ulpExp q + k := ⟨(e - ulpExp q).toNat, by omega⟩
    refine fl_of_multiple hq (m := m * 2 ^ k) ?_
    rw [he]
    conv_lhs => rw [hk]
    rw [← he, zpow_add₀ (by norm_num), zpow_natCast]
    push_cast; ring
  · -- the exponent can only exceed by one, with mantissa exactly 2^53 (a power of two)
    have h3 : (2 : ℚ) ^ (e + 1) ≤ 2 ^ ulpExp q := zpow_le_zpow_right₀ (by norm_num) (by omega)
    rw [zpow_add_one₀ (by norm_num)] at h3
    have h4 : (2 : ℚ) ^ 53 * 2 ^ e ≤ |q| := by nlinarith
    have h5 : |q| = 2 ^ 53 * 2 ^ e := le_antisymm (by rw [habs]; exact mul_le_mul_of_nonneg_right hm' hpe.le) h4
    have h6 : ulpExp q = e + 1 := by
      apply ulpExp_eq
      · rw [h5, zpow_add_one₀ (by norm_num)]; nlinarith
      · rw [h5, zpow_add_one₀ (by norm_num)]; nlinarith
    rcases abs_choice q with ha | ha
    · refine fl_of_multiple hq (m := 2 ^ 52) ?_
      rw [h6, zpow_add_one₀ (by norm_num)]
      rw [← ha, h5]; push_cast; ring
    · refine fl_of_multiple hq (m := -2 ^ 52) ?_
      rw [h6, zpow_add_one₀ (by norm_num)]
      have : q = -|q| := by rw [ha]; ring
      rw [this, h5]; push_cast; ring

theorem representable_int {n : ℤ} (h : |n| ≤ 2 ^ 53) : Representable (n : ℚ) := ⟨n, 0, h, by simp⟩

/-- Rounding stays inside the closed binade (positive numbers). -/
theorem fl_binade {q : ℚ} (hq : 0 < q) : 2 ^ ulpExp q * 2 ^ 52 ≤ fl q ∧ fl q ≤ 2 ^ ulpExp q * 2 ^ 53 := by
  have hp := two_zpow_pos (ulpExp q)
  obtain ⟨b1, b2⟩ := binade hq.ne'
  rw [abs_of_pos hq] at b1 b2
  unfold fl
  rw [if_neg hq.ne']
  have h1 : (2 ^ 52 : ℤ) ≤ roundEven (q / 2 ^ ulpExp q) := by
    rw [← roundEven_int (2 ^ 52)]
    apply roundEven_mono
    rw [le_div_iff₀ hp]; push_cast; linarith
  have h2 : roundEven (q / 2 ^ ulpExp q) ≤ (2 ^ 53 : ℤ) := by
    rw [← roundEven_int (2 ^ 53)]
    apply roundEven_mono
    rw [div_le_iff₀ hp]; push_cast; linarith
  have h1' : (2 ^ 52 : ℚ) ≤ roundEven (q / 2 ^ ulpExp q) := by exact_mod_cast h1
  have h2' : (roundEven (q / 2 ^ ulpExp q) : ℚ) ≤ 2 ^ 53 := by exact_mod_cast h2
  constructor <;> nlinarith

theorem fl_mono_pos {q r : ℚ} (hq : 0 < q) (h : q ≤ r) : fl q ≤ fl r := by
  have hr : 0 < r := lt_of_lt_of_le hq h
  obtain ⟨a1, a2⟩ := binade hq.ne'
  obtain ⟨b1, b2⟩ := binade hr.ne'
  rw [abs_of_pos hq] at a1 a2
  rw [abs_of_pos hr] at b1 b2
  have hp := two_zpow_pos (ulpExp q)
  rcases lt_trichotomy (ulpExp q) (ulpExp r) with hl | he | hg
  · have h3 : (2 : ℚ) ^ (ulpExp q + 1) ≤ 2 ^ ulpExp r := zpow_le_zpow_right₀ (by norm_num) (by omega)
    rw [zpow_add_one₀ (by norm_num)] at h3
    have := (fl_binade hq).2
    have := (fl_binade hr).1
    nlinarith
  · unfold fl
    rw [if_neg hq.ne', if_neg hr.ne', ← he]
    apply mul_le_mul_of_nonneg_right _ hp.le
    have : roundEven (q / 2 ^ ulpExp q) ≤ roundEven (r / 2 ^ ulpExp q) :=
      roundEven_mono (div_le_div_of_nonneg_right h hp.le)
    exact_mod_cast this
  · exfalso
    have h3 : (2 : ℚ) ^ (ulpExp r + 1) ≤ 2 ^ ulpExp q := zpow_le_zpow_right₀ (by norm_num) (by omega)
    rw [zpow_add_one₀ (by norm_num)] at h3
    nlinarith

theorem fl_pos {q : ℚ} (hq : 0 < q) : 0 < fl q := by
  have := (fl_binade hq).1
  have := two_zpow_pos (ulpExp q)
  nlinarith

theorem fl_nonneg {q : ℚ} (hq : 0 ≤ q) : 0 ≤ fl q := by
  rcases hq.eq_or_lt with h | h
  · rw [← h]; simp
  · exact (fl_pos h).le

/-- Rounding is monotone. -/
theorem fl_mono {q r : ℚ} (h : q ≤ r) : fl q ≤ fl r := by
  rcases lt_or_ge 0 q with hq | hq
  · exact fl_mono_pos hq h
  · rcases lt_or_ge r 0 with hr | hr
    · have := fl_mono_pos (q := -r) (r := -q) (by linarith) (by linarith)
      rw [fl_neg, fl_neg] at this
      linarith
    · have h1 : fl q ≤ 0 := by
        have := fl_nonneg (q := -q) (by linarith)
        rw [fl_neg] at this; linarith
      have h2 := fl_nonneg hr
      linarith

end Verif.Binary64
