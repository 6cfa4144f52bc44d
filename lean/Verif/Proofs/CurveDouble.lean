import Verif.Model.CurveDouble
import Verif.Proofs.SampleIntervalDouble
import Verif.Proofs.TCurve
import Mathlib.Data.List.Chain
import Mathlib.Tactic.FieldSimp
/-! # Curve times and arc lengths in binary64 arithmetic -/
namespace Verif.SampleIntervalDouble
open Binary64 Spec

/-- The exponent of the unit used by `round64` does not decrease with the magnitude. -/
theorem ulpExp_mono {q r : ℚ} (hq : 0 < q) (h : q ≤ r) : ulpExp q ≤ ulpExp r := by
  unfold ulpExp
  rw [abs_of_pos hq, abs_of_pos (hq.trans_le h)]
  exact sub_le_sub_right (Int.log_mono_right hq h) _

theorem round64_mono_pos {q r : ℚ} (hq : 0 < q) (h : q ≤ r) : round64 q ≤ round64 r := by
  have hr := hq.trans_le h
  have hm := ulpExp_mono hq h
  unfold round64
  simp only
  rcases le_or_gt (ulpExp r) (-1074) with h1 | h1
  · rw [max_eq_right h1, max_eq_right (hm.trans h1)]
    have hp := two_zpow_pos (-1074)
    refine mul_le_mul_of_nonneg_right ?_ hp.le
    exact_mod_cast roundEven_mono (div_le_div_of_nonneg_right h hp.le)
  · rw [max_eq_left h1.le]
    set e := max (ulpExp q) (-1074) with he
    have hp := two_zpow_pos e
    have hpr := two_zpow_pos (ulpExp r)
    have hle : e ≤ ulpExp r := max_le hm h1.le
    rcases hle.eq_or_lt with h2 | h2
    · rw [h2]
      refine mul_le_mul_of_nonneg_right ?_ hpr.le
      exact_mod_cast roundEven_mono (div_le_div_of_nonneg_right h hpr.le)
    · have hb := (binade hq.ne').2
      have hc := (binade hr.ne').1
      rw [abs_of_pos hq] at hb
      rw [abs_of_pos hr] at hc
      have h3 : (2 : ℚ) ^ ulpExp q ≤ 2 ^ e := zpow_le_zpow_right₀ (by norm_num) (le_max_left _ _)
      have h4 : (2 : ℚ) ^ e * 2 ≤ 2 ^ ulpExp r := by
        rw [← zpow_add_one₀ (by norm_num)]
        exact zpow_le_zpow_right₀ (by norm_num) (by omega)
      have h5 : (roundEven (q / 2 ^ e) : ℚ) ≤ 2 ^ 53 := by
        have : q / 2 ^ e ≤ ((2 ^ 53 : ℤ) : ℚ) := by
          rw [div_le_iff₀ hp]
          push_cast
          nlinarith
        have := roundEven_mono this
        rw [roundEven_int] at this
        exact_mod_cast this
      have h6 : (2 : ℚ) ^ 52 ≤ roundEven (r / 2 ^ ulpExp r) := by
        have : ((2 ^ 52 : ℤ) : ℚ) ≤ r / 2 ^ ulpExp r := by
          rw [le_div_iff₀ hpr]
          push_cast
          linarith
        have := roundEven_mono this
        rw [roundEven_int] at this
        exact_mod_cast this
      calc (roundEven (q / 2 ^ e) : ℚ) * 2 ^ e ≤ 2 ^ 53 * 2 ^ e := mul_le_mul_of_nonneg_right h5 hp.le
        _ = 2 ^ 52 * (2 ^ e * 2) := by ring
        _ ≤ 2 ^ 52 * 2 ^ ulpExp r := by gcongr
        _ ≤ _ := mul_le_mul_of_nonneg_right h6 hpr.le

theorem round64_mono {q r : ℚ} (h : q ≤ r) : round64 q ≤ round64 r := by
  rcases lt_or_ge 0 q with hq | hq
  · exact round64_mono_pos hq h
  · rcases lt_or_ge r 0 with hr | hr
    · have := round64_mono_pos (q := -r) (r := -q) (by linarith) (by linarith)
      rw [round64_neg, round64_neg] at this
      linarith
    · have h1 := round64_nonneg hr
      have h2 := round64_nonneg (q := -q) (by linarith)
      rw [round64_neg] at h2
      linarith

theorem round64_le_double {q d : ℚ} (hd : IsDouble d) (h : q ≤ d) : round64 q ≤ d := by
  have := round64_mono h
  rwa [round64_double hd] at this

theorem double_le_round64 {q d : ℚ} (hd : IsDouble d) (h : d ≤ q) : d ≤ round64 q := by
  have := round64_mono h
  rwa [round64_double hd] at this

/-- Half a unit above one rounds to one (ties go to the even number). -/
theorem round64_le_one' {q : ℚ} (h : q ≤ 1 + 2 ^ (-53 : ℤ)) : round64 q ≤ 1 := by
  have h1 := round64_mono h
  have h2 : round64 (1 + 2 ^ (-53 : ℤ)) = 1 := by
    have : ulpExp (1 + 2 ^ (-53 : ℤ)) = -52 := ulpExp_eq (by norm_num [abs_of_pos]) (by norm_num [abs_of_pos])
    unfold round64
    rw [this]
    have e : (1 + (2 : ℚ) ^ (-53 : ℤ)) / 2 ^ max (-52 : ℤ) (-1074 : ℤ) = 4503599627370496 + 1 / 2 := by
      rw [show max (-52 : ℤ) (-1074 : ℤ) = -52 from rfl]; norm_num
    simp only [e]
    have : roundEven (4503599627370496 + 1 / 2) = 4503599627370496 := by
      unfold roundEven
      have hf : ⌊(4503599627370496 + 1 / 2 : ℚ)⌋ = 4503599627370496 := by rw [Int.floor_eq_iff]; norm_num
      simp only [hf]
      norm_num
    rw [this]
    norm_num
  rwa [h2] at h1

theorem isDouble_zero : IsDouble 0 := ⟨0, 0, by norm_num, by norm_num, by norm_num, by norm_num⟩
theorem isDouble_one : IsDouble 1 := ⟨1, 0, by norm_num, by norm_num, by norm_num, by norm_num⟩

/-- Every result of rounding that is not too large is a double. -/
theorem isDouble_round64 {q : ℚ} (h : |round64 q| < 2 ^ 1024) : IsDouble (round64 q) := by
  by_cases hq : q = 0
  · rw [hq, round64_zero]; exact isDouble_zero
  set e := max (ulpExp q) (-1074) with he
  have hp := two_zpow_pos e
  have hdef : round64 q = roundEven (q / 2 ^ e) * 2 ^ e := rfl
  have hb := (binade hq).2
  have h3 : (2 : ℚ) ^ ulpExp q ≤ 2 ^ e := zpow_le_zpow_right₀ (by norm_num) (le_max_left _ _)
  have hx : |q / 2 ^ e| ≤ 2 ^ 53 := by
    rw [abs_div, abs_of_pos hp, div_le_iff₀ hp]
    nlinarith
  have hm : |roundEven (q / 2 ^ e)| ≤ 2 ^ 53 := by
    rw [abs_le] at hx ⊢
    have h1 := roundEven_mono (q := ((-2 ^ 53 : ℤ) : ℚ)) (r := q / 2 ^ e) (by push_cast; exact hx.1)
    have h2 := roundEven_mono (q := q / 2 ^ e) (r := ((2 ^ 53 : ℤ) : ℚ)) (by push_cast; exact hx.2)
    rw [roundEven_int] at h1 h2
    exact ⟨h1, h2⟩
  have hge : (-1074 : ℤ) ≤ e := le_max_right _ _
  by_cases hsub : ulpExp q ≤ -1074
  · have he' : e = -1074 := max_eq_right hsub
    rcases hm.eq_or_lt with h1 | h1
    · have h2 : roundEven (q / 2 ^ e) = 2 ^ 53 ∨ roundEven (q / 2 ^ e) = -2 ^ 53 := (abs_eq (by norm_num)).mp h1
      rw [hdef, he'] at *
      rcases h2 with h2 | h2 <;> rw [h2]
      · exact ⟨2 ^ 52, -1073, by norm_num, by norm_num, by norm_num, by
          rw [show (-1073 : ℤ) = -1074 + 1 by norm_num, zpow_add_one₀ (by norm_num)]; simp only [Int.cast_pow, Int.cast_ofNat]; generalize (2 : ℚ) ^ (-1074 : ℤ) = v; ring⟩
      · exact ⟨-2 ^ 52, -1073, by norm_num, by norm_num, by norm_num, by
          rw [show (-1073 : ℤ) = -1074 + 1 by norm_num, zpow_add_one₀ (by norm_num)]; simp only [Int.cast_neg, Int.cast_pow, Int.cast_ofNat]; generalize (2 : ℚ) ^ (-1074 : ℤ) = v; ring⟩
    · exact ⟨_, e, h1, hge, by omega, hdef⟩
  · have he' : e = ulpExp q := max_eq_left (by omega)
    have hlo : (2 : ℤ) ^ 52 ≤ |roundEven (q / 2 ^ e)| := by
      have h1 := (binade hq).1
      rw [← he'] at h1
      rcases lt_or_gt_of_ne hq with h0 | h0
      · rw [abs_of_neg h0] at h1
        have := roundEven_mono (q := q / 2 ^ e) (r := ((-2 ^ 52 : ℤ) : ℚ)) (by rw [div_le_iff₀ hp]; push_cast; linarith)
        rw [roundEven_int] at this
        rw [le_abs]; right; linarith
      · rw [abs_of_pos h0] at h1
        have := roundEven_mono (r := q / 2 ^ e) (q := ((2 ^ 52 : ℤ) : ℚ)) (by rw [le_div_iff₀ hp]; push_cast; linarith)
        rw [roundEven_int] at this
        exact this.trans (le_abs_self _)
    have hlo' : (2 : ℚ) ^ 52 ≤ |(roundEven (q / 2 ^ e) : ℚ)| := by exact_mod_cast hlo
    have hmag : (2 : ℚ) ^ (e + 52) < 2 ^ (1024 : ℤ) := by
      have h1 : |round64 q| = |(roundEven (q / 2 ^ e) : ℚ)| * 2 ^ e := by rw [hdef, abs_mul, abs_of_pos hp]
      rw [h1] at h
      rw [zpow_add₀ (by norm_num), mul_comm]
      refine lt_of_le_of_lt ?_ h
      exact mul_le_mul_of_nonneg_right hlo' hp.le
    have hexp : e + 52 < 1024 := (zpow_lt_zpow_iff_right₀ (by norm_num)).mp hmag
    rcases hm.eq_or_lt with h1 | h1
    · have h2 : roundEven (q / 2 ^ e) = 2 ^ 53 ∨ roundEven (q / 2 ^ e) = -2 ^ 53 := (abs_eq (by norm_num)).mp h1
      have hmag2 : (2 : ℚ) ^ (e + 53) < 2 ^ (1024 : ℤ) := by
        have h3 : |round64 q| = 2 ^ 53 * 2 ^ e := by
          rw [hdef, abs_mul, abs_of_pos hp]
          congr 1
          exact_mod_cast h1
        rw [h3] at h
        rw [zpow_add₀ (by norm_num), mul_comm]
        exact h
      have hexp2 : e + 53 < 1024 := (zpow_lt_zpow_iff_right₀ (by norm_num)).mp hmag2
      rw [hdef]
      rcases h2 with h2 | h2 <;> rw [h2]
      · exact ⟨2 ^ 52, e + 1, by norm_num, by omega, by omega, by rw [zpow_add_one₀ (by norm_num)]; push_cast; ring⟩
      · exact ⟨-2 ^ 52, e + 1, by norm_num, by omega, by omega, by rw [zpow_add_one₀ (by norm_num)]; push_cast; ring⟩
    · exact ⟨_, e, h1, hge, by omega, hdef⟩

/-- In the normal range the rounding error is relative. -/
theorem round64_rel {q : ℚ} (h : 2 ^ (-1022 : ℤ) ≤ |q|) : |round64 q - q| ≤ |q| * 2 ^ (-53 : ℤ) := by
  have hp := two_zpow_pos (-1022)
  have hq : q ≠ 0 := by intro e; rw [e, abs_zero] at h; linarith
  have hn : -1074 ≤ ulpExp q := by
    have := (binade hq).2
    have h1 : (2 : ℚ) ^ (-1022 : ℤ) < 2 ^ (ulpExp q + 53) := by
      rw [zpow_add₀ (by norm_num)]
      exact h.trans_lt this
    have := (zpow_lt_zpow_iff_right₀ (by norm_num : (1 : ℚ) < 2)).mp h1
    omega
  rw [round64_normal hq hn]
  have := fl_error q
  have e : |q| / 2 ^ 53 = |q| * 2 ^ (-53 : ℤ) := by rw [zpow_neg]; rfl
  rwa [e] at this

/-- A sum of doubles is rounded with a relative error. -/
theorem round64_add_error {a b : ℚ} (ha : IsDouble a) (hb : IsDouble b) : |round64 (a + b) - (a + b)| ≤ |a + b| * 2 ^ (-53 : ℤ) := by
  have hn : IsDouble (-b) := by
    obtain ⟨m, e, h1, h2, h3, rfl⟩ := hb
    exact ⟨-m, e, by rwa [abs_neg], h2, h3, by push_cast; ring⟩
  have := round64_sub_error hn ha
  rwa [sub_neg_eq_add] at this

end Verif.SampleIntervalDouble

namespace Verif.Double
open SampleIntervalDouble Spec

/-- A double whose finite values are those of binary64. -/
def Valid : Double → Prop
  | nan => True
  | inf _ => True
  | num q => IsDouble q

theorem ofExact_num {q : ℚ} (h : |round64 q| < 2 ^ 1024) : ofExact q = num (round64 q) := if_pos h

theorem ofExact_valid (q : ℚ) : (ofExact q).Valid := by
  unfold ofExact
  split
  · exact isDouble_round64 ‹_›
  · trivial

theorem ofExact_between {q a b : ℚ} (ha : IsDouble a) (hb : IsDouble b) (h1 : a ≤ q) (h2 : q ≤ b) : ofExact q = num (round64 q) := by
  refine ofExact_num ?_
  have h3 := double_le_round64 ha h1
  have h4 := round64_le_double hb h2
  have h5 := isDouble_lt ha
  have h6 := isDouble_lt hb
  generalize (2 : ℚ) ^ 1024 = K at *
  rw [abs_lt] at *
  exact ⟨by linarith, by linarith⟩

theorem isDouble_neg {a : ℚ} (h : IsDouble a) : IsDouble (-a) := by
  obtain ⟨m, e, h1, h2, h3, rfl⟩ := h
  exact ⟨-m, e, by rwa [abs_neg], h2, h3, by push_cast; ring⟩

theorem lt_trans' {a b c : Double} (h1 : lt a b = true) (h2 : lt b c = true) : lt a c = true := by
  cases a <;> cases b <;> cases c <;> simp_all [lt]
  exact h1.trans h2

theorem lt_asymm' {a b : Double} (h1 : lt a b = true) : lt b a = false := by
  cases a <;> cases b <;> simp_all [lt]
  exact h1.le

theorem lt_ne_nan {a b : Double} (h : lt a b = true) : a ≠ nan ∧ b ≠ nan := by
  cases a <;> cases b <;> simp_all [lt]

theorem not_lt_iff {a b : Double} (ha : a ≠ nan) (hb : b ≠ nan) : lt a b = false ↔ le b a = true := by
  cases a with
  | nan => exact absurd rfl ha
  | inf n =>
    cases b with
    | nan => exact absurd rfl hb
    | inf m => cases n <;> cases m <;> decide
    | num q => cases n <;> simp [lt, le]
  | num q =>
    cases b with
    | nan => exact absurd rfl hb
    | inf m => cases m <;> simp [lt, le]
    | num r => simp [lt, le]

end Verif.Double

namespace Verif.Double
open SampleIntervalDouble Spec

/-- A relative error as a factor. -/
theorem factor {a w u : ℚ} (hu : 0 ≤ u) (h : |w - a| ≤ |a| * u) : ∃ δ, w = a * (1 + δ) ∧ |δ| ≤ u := by
  by_cases ha : a = 0
  · subst ha
    refine ⟨0, ?_, by simpa using hu⟩
    rw [sub_zero, abs_zero, zero_mul] at h
    rw [abs_nonpos_iff.mp h, zero_mul]
  · refine ⟨(w - a) / a, by field_simp; ring, ?_⟩
    rw [abs_div, div_le_iff₀ (abs_pos.mpr ha), mul_comm]
    exact h

theorem two_factors {x y a b : ℚ} (hx : |x| ≤ a) (hy : |y| ≤ b) : |(1 + x) * (1 + y) - 1| ≤ a + b + a * b := by
  have e : (1 + x) * (1 + y) - 1 = x + y + x * y := by ring
  rw [e]
  refine (abs_add_le _ _).trans (add_le_add ((abs_add_le _ _).trans (add_le_add hx hy)) ?_)
  rw [abs_mul]
  exact mul_le_mul hx hy (abs_nonneg _) ((abs_nonneg _).trans hx)

/-- The quotient of two rounded differences. -/
theorem quotient {a b w D u : ℚ} (hu0 : 0 < u) (hu : u ≤ 1 / 1000) (hb : 0 < b) (hw : |w - a| ≤ |a| * u)
    (hD : |D - b| ≤ |b| * u) : 0 < D ∧ ∃ δ, w / D = a / b * (1 + δ) ∧ |δ| ≤ 3.01 * u := by
  obtain ⟨δ1, rfl, h1⟩ := factor hu0.le hw
  rw [abs_of_pos hb] at hD
  have hD' := abs_le.mp hD
  have hDpos : 0 < D := by nlinarith
  refine ⟨hDpos, ?_⟩
  set κ := b / D with hκ
  have k1 : |κ - 1| ≤ 2 * u := by
    rw [hκ, div_sub_one hDpos.ne', abs_div, abs_of_pos hDpos, div_le_iff₀ hDpos, abs_sub_comm]
    refine hD.trans ?_
    nlinarith
  refine ⟨(1 + δ1) * κ - 1, ?_, ?_⟩
  · rw [hκ]; field_simp; ring
  · have := two_factors h1 k1
    have e : (1 + δ1) * (1 + (κ - 1)) = (1 + δ1) * κ := by ring
    rw [e] at this
    refine this.trans ?_
    nlinarith

/-- Half the unit in the last place of one. -/
def u : ℚ := 2 ^ (-53 : ℤ)
theorem u_pos : 0 < u := Binary64.two_zpow_pos _
theorem u_small : u ≤ 1 / 1000 := by unfold u; norm_num
theorem η_small : (2 : ℚ) ^ (-1075 : ℤ) ≤ u / 8 := eta_small

/-- A difference of doubles in order. -/
theorem sub_num {o x d : ℚ} (ho : IsDouble o) (hx : IsDouble x) (h1 : o ≤ x) (h2 : x ≤ d) (hd : ofExact (d - o) = num (round64 (d - o))) :
    ofExact (x - o) = num (round64 (x - o)) ∧ 0 ≤ round64 (x - o) ∧ round64 (x - o) ≤ round64 (d - o) ∧ |round64 (x - o) - (x - o)| ≤ |x - o| * u := by
  have h3 : round64 (x - o) ≤ round64 (d - o) := round64_mono (by linarith)
  have h0 := round64_nonneg (q := x - o) (by linarith)
  refine ⟨ofExact_num ?_, h0, h3, round64_sub_error ho hx⟩
  unfold ofExact at hd
  split at hd
  · rename_i hlt
    rw [abs_of_nonneg h0]
    rw [abs_of_nonneg (h0.trans h3)] at hlt
    exact lt_of_le_of_lt h3 hlt
  · cases hd

theorem normalised_error {a b w D v y u η : ℚ} (hu0 : 0 < u) (hu1 : u ≤ 1 / 1000) (hη : η ≤ u / 8) (ha : 0 ≤ a) (hb : 0 < b) (hab : a ≤ b)
    (hw : |w - a| ≤ |a| * u) (hD : |D - b| ≤ |b| * u) (hv : |v - 1 / D| ≤ |1 / D| * u) (hy : |y - v * w| ≤ |v * w| * u + η) (h0 : 0 ≤ v * w)
    (h1 : v * w ≤ 1 + u) : |y - a / b| ≤ 8 * u ∧ |v - 1 / b| ≤ 1 / b * (5 * u) := by
  obtain ⟨δ3, hv3, h3⟩ := factor hu0.le hv
  obtain ⟨hDpos, δ, hq, hδ⟩ := quotient hu0 hu1 hb hw hD
  have hφ0 : 0 ≤ a / b := div_nonneg ha hb.le
  have hφ1 : a / b ≤ 1 := (div_le_one hb).mpr hab
  constructor
  · have e2 : v * w = a / b * ((1 + δ) * (1 + δ3)) := by
      rw [← mul_assoc, ← hq, hv3]; ring
    have e3 := two_factors hδ h3
    generalize a / b = φ at *
    generalize (1 + δ) * (1 + δ3) = P at *
    have hy' : |y - v * w| ≤ 1.1 * u + u / 8 := by
      refine hy.trans (add_le_add ?_ hη)
      rw [abs_of_nonneg h0]
      nlinarith
    have hz : |v * w - φ| ≤ 4.1 * u := by
      have : v * w - φ = φ * (P - 1) := by rw [e2]; ring
      rw [this, abs_mul, abs_of_nonneg hφ0]
      have hP0 := abs_nonneg (P - 1)
      nlinarith
    have := abs_sub_le y (v * w) φ
    linarith
  · obtain ⟨-, δ', hq', hδ'⟩ := quotient (a := b) (w := b) hu0 hu1 hb (by rw [sub_self, abs_zero]; positivity) hD
    have e5 : 1 / D = 1 / b * (1 + δ') := by
      rw [div_self hb.ne', one_mul] at hq'
      rw [← hq']; field_simp
    have e6 : v - 1 / b = 1 / b * ((1 + δ') * (1 + δ3) - 1) := by
      rw [hv3, e5]; ring
    have hp : 0 < 1 / b := by positivity
    rw [e6, abs_mul, abs_of_pos hp]
    refine mul_le_mul_of_nonneg_left ((two_factors hδ' h3).trans ?_) hp.le
    nlinarith

theorem product_bounds {w D v u : ℚ} (hD : 0 < D) (hw0 : 0 ≤ w) (hwD : w ≤ D) (hv0 : 0 < v) (hv : |v - 1 / D| ≤ |1 / D| * u) :
    0 ≤ v * w ∧ v * w ≤ 1 + u ∧ 1 - u ≤ v * D := by
  rw [abs_of_pos (by positivity : 0 < 1 / D)] at hv
  have h := abs_le.mp hv
  have h1 : v * D ≤ 1 + u := by
    rw [← le_div_iff₀ hD, show (1 + u) / D = 1 / D + 1 / D * u by ring]
    linarith
  refine ⟨mul_nonneg hv0.le hw0, (mul_le_mul_of_nonneg_left hwD hv0.le).trans h1, ?_⟩
  rw [← div_le_iff₀ hD, show (1 - u) / D = 1 / D - 1 / D * u by ring]
  linarith

theorem inverse_bounds {lo hi D : ℚ} (hlo : 0 < lo) (hinv : hi = 1 / lo) (h1 : lo ≤ D) (h2 : D ≤ hi) : lo ≤ 1 / D ∧ 1 / D ≤ hi := by
  have hD := hlo.trans_le h1
  constructor
  · rw [le_div_iff₀ hD]
    rw [hinv, le_div_iff₀ hlo] at h2
    linarith
  · rw [hinv]
    exact one_div_le_one_div_of_le hlo h1

/-- The smallest time step considered. -/
def lo : ℚ := 2 ^ (-1021 : ℤ)
/-- The largest time step considered. -/
def hi : ℚ := 2 ^ (1021 : ℤ)
theorem lo_pos : 0 < lo := Binary64.two_zpow_pos _
theorem hi_eq : hi = 1 / lo := by unfold hi lo; rw [zpow_neg, one_div, inv_inv]
theorem lo_normal : (2 : ℚ) ^ (-1022 : ℤ) ≤ lo := zpow_le_zpow_right₀ (by norm_num) (by norm_num)
theorem isDouble_lo : IsDouble lo := ⟨1, -1021, by norm_num, by norm_num, by norm_num, by rw [Int.cast_one, one_mul]; rfl⟩
theorem isDouble_hi : IsDouble hi := ⟨2 ^ 50, 971, by norm_num, by norm_num, by norm_num, by
  unfold hi
  rw [show (1021 : ℤ) = (50 : ℕ) + 971 by norm_num, zpow_add₀ (by norm_num), zpow_natCast]
  simp only [Int.cast_pow, Int.cast_ofNat]⟩
theorem one_lt_limit : (1 : ℚ) < 2 ^ 1024 := one_lt_pow₀ (by norm_num) (by norm_num)
theorem isDouble_below_one : IsDouble (1 - u) := ⟨2 ^ 53 - 1, -53, by norm_num, by norm_num, by norm_num, by unfold u; norm_num⟩

/-- `inv_dt` and `time_nrm` of resim/curves/t_curve.cc:152-154. -/
theorem normalised {o x d : ℚ} (ho : IsDouble o) (hx : IsDouble x) (hd : IsDouble d) (h1 : o ≤ x) (h2 : x ≤ d) (hlo : lo ≤ d - o) (hhi : d - o ≤ hi) :
    ∃ v y : ℚ, div (num 1) (sub (num d) (num o)) = num v ∧ mul (num v) (sub (num x) (num o)) = num y ∧
      0 < v ∧ 0 ≤ y ∧ y ≤ 1 ∧ |y - (x - o) / (d - o)| ≤ 8 * u ∧ |v - 1 / (d - o)| ≤ 1 / (d - o) * (5 * u) ∧
      (x = o → y = 0) ∧ (x = d → 1 - u ≤ y) ∧ v = round64 (1 / round64 (d - o)) ∧ y = round64 (v * round64 (x - o)) := by
  have hb : 0 < d - o := lo_pos.trans_le hlo
  have eD := ofExact_between isDouble_lo isDouble_hi hlo hhi
  have D1 := double_le_round64 isDouble_lo hlo
  have D2 := round64_le_double isDouble_hi hhi
  have D3 : |round64 (d - o) - (d - o)| ≤ |d - o| * u := round64_sub_error ho hd
  obtain ⟨eW, w0, wD, werr⟩ := sub_num ho hx h1 h2 eD
  have hwd : x = d → round64 (x - o) = round64 (d - o) := fun h => by rw [h]
  have hwo : x = o → round64 (x - o) = 0 := fun h => by rw [h, sub_self, round64_zero]
  obtain ⟨D, hD⟩ : ∃ D, D = round64 (d - o) := ⟨_, rfl⟩
  obtain ⟨w, hw⟩ : ∃ w, w = round64 (x - o) := ⟨_, rfl⟩
  have eS1 : sub (num d) (num o) = num D := by rw [hD]; exact eD
  have eS2 : sub (num x) (num o) = num w := by rw [hw]; exact eW
  rw [eS1, eS2]
  rw [← hD] at D1 D2 D3 wD hwd
  rw [← hw] at w0 wD werr hwd hwo
  have hDpos : 0 < D := lo_pos.trans_le D1
  obtain ⟨i1, i2⟩ := inverse_bounds lo_pos hi_eq D1 D2
  have ip : 0 < 1 / D := lo_pos.trans_le i1
  have eV := ofExact_between isDouble_lo isDouble_hi i1 i2
  have v1 : |round64 (1 / D) - 1 / D| ≤ |1 / D| * u := by
    refine round64_rel ?_
    rw [abs_of_pos ip]
    exact lo_normal.trans i1
  have vpos : 0 < round64 (1 / D) := lo_pos.trans_le (double_le_round64 isDouble_lo i1)
  obtain ⟨v, hv⟩ : ∃ v, v = round64 (1 / D) := ⟨_, rfl⟩
  rw [← hv] at v1 vpos eV
  obtain ⟨vw0, vw1, vD⟩ := product_bounds hDpos w0 wD vpos v1
  have y0 := round64_nonneg vw0
  have y1 : round64 (v * w) ≤ 1 := round64_le_one' vw1
  have eY : ofExact (v * w) = num (round64 (v * w)) := by
    refine ofExact_num ?_
    rw [abs_of_nonneg y0]
    exact lt_of_le_of_lt y1 one_lt_limit
  obtain ⟨e1, e2⟩ := normalised_error u_pos u_small η_small (sub_nonneg.mpr h1) hb (sub_le_sub_right h2 o) werr D3 v1 (round64_error (v * w)) vw0 vw1
  refine ⟨v, round64 (v * w), ?_, eY, vpos, y0, y1, e1, e2, ?_, ?_, ?_, ?_⟩
  · change (if D = 0 then _ else ofExact (1 / D)) = num v
    rw [if_neg hDpos.ne', eV]
  · intro h
    rw [hwo h, mul_zero, round64_zero]
  · intro h
    rw [hwd h]
    exact double_le_round64 isDouble_below_one vD
  · rw [hv, hD]
  · rw [hw]

/-- `fraction` of resim/curves/d_curve.cc:135-136. -/
theorem fraction {o x d : ℚ} (ho : IsDouble o) (hx : IsDouble x) (hd : IsDouble d) (h1 : o ≤ x) (h2 : x ≤ d) (h : o < d)
    (hfin : ofExact (d - o) = num (round64 (d - o))) :
    ∃ y : ℚ, div (sub (num x) (num o)) (sub (num d) (num o)) = num y ∧ 0 ≤ y ∧ y ≤ 1 ∧ |y - (x - o) / (d - o)| ≤ 8 * u ∧
      (x = o → y = 0) ∧ (x = d → y = 1) ∧ y = round64 (round64 (x - o) / round64 (d - o)) := by
  have hb : 0 < d - o := sub_pos.mpr h
  have D3 : |round64 (d - o) - (d - o)| ≤ |d - o| * u := round64_sub_error ho hd
  obtain ⟨eW, w0, wD, werr⟩ := sub_num ho hx h1 h2 hfin
  have hu0 := u_pos
  have hu1 := u_small
  obtain ⟨hDpos, δ, hq, hδ⟩ := quotient hu0 hu1 hb werr D3
  set D := round64 (d - o) with hDdef
  set w := round64 (x - o) with hwdef
  have r0 : 0 ≤ w / D := div_nonneg w0 hDpos.le
  have r1 : w / D ≤ 1 := (div_le_one hDpos).mpr wD
  have y0 := round64_nonneg r0
  have y1 := round64_le_one r0 r1
  have eY : ofExact (w / D) = num (round64 (w / D)) := by
    refine ofExact_num ?_
    rw [abs_of_nonneg y0]
    exact lt_of_le_of_lt y1 one_lt_limit
  have yerr := round64_error (w / D)
  have hφ0 : 0 ≤ (x - o) / (d - o) := div_nonneg (sub_nonneg.mpr h1) hb.le
  have hφ1 : (x - o) / (d - o) ≤ 1 := (div_le_one hb).mpr (sub_le_sub_right h2 o)
  refine ⟨round64 (w / D), ?_, y0, y1, ?_, ?_, ?_, rfl⟩
  · change div (ofExact (x - o)) (ofExact (d - o)) = _
    rw [eW, hfin]
    change (if D = 0 then _ else ofExact (w / D)) = _
    rw [if_neg hDpos.ne', eY]
  · generalize hφ : (x - o) / (d - o) = φ at *
    have hy : |round64 (w / D) - w / D| ≤ u + u / 8 := by
      refine yerr.trans (add_le_add ?_ η_small)
      rw [abs_of_nonneg r0]
      change w / D * u ≤ _
      nlinarith
    have hz : |w / D - φ| ≤ 3.01 * u := by
      have : w / D - φ = φ * δ := by rw [hq]; ring
      rw [this, abs_mul, abs_of_nonneg hφ0]
      have := abs_nonneg δ
      nlinarith
    have := abs_sub_le (round64 (w / D)) (w / D) φ
    linarith
  · rintro rfl
    rw [hwdef, sub_self, round64_zero, zero_div, round64_zero]
  · rintro rfl
    rw [hwdef, ← hDdef, div_self hDpos.ne', round64_one]

end Verif.Double

namespace Verif.TTimes
open Double SampleIntervalDouble Spec

/-- The segments of a curve are its pairs of neighbouring controls. -/
def pairs (ps : List Double) : List (Double × Double) := List.zip ps ps.tail

theorem pairs_append (ps : List Double) (b p : Double) (h : ps.getLast? = some b) : pairs (ps ++ [p]) = pairs ps ++ [(b, p)] :=
  TCurve.zipWith_tail_append Prod.mk ps b p h

theorem appendList_iff (qs ps : List Double) (c : TTimes) (hc : List.IsChain (lt · · = true) qs) :
    appendList ⟨qs, pairs qs⟩ ps = (c, .ok ()) ↔ List.IsChain (lt · · = true) (qs ++ ps) ∧ c = ⟨qs ++ ps, pairs (qs ++ ps)⟩ := by
  induction ps generalizing qs with
  | nil =>
    rw [appendList, List.append_nil]
    constructor
    · intro h
      exact ⟨hc, ((Prod.mk.inj h).1).symm⟩
    · rintro ⟨-, rfl⟩
      rfl
  | cons p ps ih =>
    rw [appendList]
    unfold append
    simp only
    cases hl : qs.getLast? with
    | none =>
      have : qs = [] := List.getLast?_eq_none_iff.mp hl
      subst this
      have := ih [p] (by simp)
      simpa [pairs] using this
    | some b =>
      simp only
      have hcons : List.IsChain (lt · · = true) (qs ++ p :: ps) → lt b p = true := by
        intro h
        have := (List.isChain_append.mp h).2.2
        exact this b (by simp [hl]) p (by simp)
      by_cases hb : lt b p = true
      · rw [if_neg (by simp [hb])]
        simp only
        have h2 : List.IsChain (lt · · = true) (qs ++ [p]) := by
          rw [List.isChain_append]
          refine ⟨hc, by simp, ?_⟩
          intro x hx y hy
          rw [hl] at hx
          simp at hx hy
          subst hx hy
          exact hb
        have := ih (qs ++ [p]) h2
        rw [pairs_append qs b p hl, List.append_assoc] at this
        exact this
      · have hb' : lt b p = false := by simpa using hb
        rw [if_pos hb']
        simp only [Prod.mk.injEq, reduceCtorEq, and_false, false_iff, not_and]
        intro h
        exact absurd (hcons h) hb

theorem appendList_cases (ps : List Double) : ∀ c : TTimes, (∃ c', appendList c ps = (c', .ok ())) ∨
    ∃ c', appendList c ps = (c', .throw "Control points must have strictly increasing time") := by
  induction ps with
  | nil => exact fun c => .inl ⟨c, rfl⟩
  | cons p ps ih =>
    intro c
    rw [appendList]
    unfold append
    cases c.controls.getLast? with
    | none => exact ih _
    | some b =>
      simp only
      by_cases hb : lt b p = false
      · rw [if_pos hb]; exact .inr ⟨c, rfl⟩
      · rw [if_neg hb]; exact ih _

theorem make_iff (ps : List Double) (c : TTimes) : make ps = .ok c ↔ List.IsChain (lt · · = true) ps ∧ c = ⟨ps, pairs ps⟩ := by
  have h := appendList_iff [] ps c (by simp)
  have e : (⟨[], pairs []⟩ : TTimes) = ⟨[], []⟩ := rfl
  rw [e, List.nil_append] at h
  rw [← h]
  unfold make
  rcases appendList_cases ps ⟨[], []⟩ with ⟨c', hc⟩ | ⟨c', hc⟩ <;> rw [hc] <;> simp

theorem make_throw (ps : List Double) (h : ¬ List.IsChain (lt · · = true) ps) : make ps = .throw "Control points must have strictly increasing time" := by
  rcases appendList_cases ps ⟨[], []⟩ with ⟨c', hc⟩ | ⟨c', hc⟩
  · have : make ps = .ok c' := by unfold make; rw [hc]
    exact absurd ((make_iff ps c').mp this).1 h
  · unfold make; rw [hc]

theorem pairs_length (ps : List Double) : (pairs ps).length = ps.length - 1 := by simp [pairs]

theorem pairs_get (ps : List Double) (i : Nat) (h : i + 1 < ps.length) : (pairs ps)[i]'(by rw [pairs_length]; omega) = (ps[i], ps[i + 1]) := by
  simp [pairs]

theorem increasing {ps : List Double} (hc : List.IsChain (lt · · = true) ps) {i j : Nat} (hij : i < j) (hj : j < ps.length) :
    lt ps[i] ps[j] = true := by
  have : IsTrans Double (lt · · = true) := ⟨fun _ _ _ => lt_trans'⟩
  exact List.pairwise_iff_getElem.mp (List.isChain_iff_pairwise.mp hc) i j (by omega) hj hij

/-- The search of a query with the time `t`. -/
theorem search {ps : List Double} (hc : List.IsChain (lt · · = true) ps) (t : Double) :
    let i := lowerBound (fun s => lt s.2 t) (pairs ps) 0 (pairs ps).length
    (∀ j, j < i → j + 1 < ps.length → ∀ h : j + 1 < ps.length, lt ps[j + 1] t = true) ∧
    (∀ h : i + 1 < ps.length, lt ps[i + 1] t = false) ∧ i ≤ ps.length - 1 := by
  have hl := pairs_length ps
  obtain ⟨-, h2, h3, h4⟩ := lowerBound_spec (fun s : Double × Double => lt s.2 t) (pairs ps) (by
    intro i j hi hj hij h
    rw [pairs_get ps j (by omega)] at h
    rw [pairs_get ps i (by omega)]
    rcases hij.eq_or_lt with rfl | hlt
    · exact h
    · exact lt_trans' (increasing hc (by omega) (by omega)) h) (pairs ps).length 0 (by omega)
  refine ⟨fun j hj _ h => ?_, fun h => ?_, by omega⟩
  · have := h3 j (by omega) (by omega) hj
    rwa [pairs_get ps j h] at this
  · have := h4 _ (by omega) (le_refl _) (by omega)
    rwa [pairs_get ps _ h] at this

/-- The query of a curve, with its search result named. -/
theorem query_eq {ps : List Double} {c : TTimes} (h : TTimes.make ps = .ok c) (h2 : 2 ≤ ps.length) (t : Double) :
    TTimes.query c t =
      if lt t (ps[0]'(by omega)) = false ∧ lt (ps[ps.length - 1]'(by omega)) t = false then
        match (TTimes.pairs ps)[lowerBound (fun s => lt s.2 t) (TTimes.pairs ps) 0 (TTimes.pairs ps).length]? with
        | none => .ub "segment iterator past the end"
        | some s => .ok (lowerBound (fun s => lt s.2 t) (TTimes.pairs ps) 0 (TTimes.pairs ps).length, div (num 1) (sub s.2 s.1),
            mul (div (num 1) (sub s.2 s.1)) (sub t s.1))
      else .throw "Query time must be within the range of times in the control points." := by
  obtain ⟨-, rfl⟩ := (make_iff ps c).mp h
  have hne : TTimes.pairs ps ≠ [] := by
    intro e
    have := TTimes.pairs_length ps
    rw [e] at this
    simp at this
    omega
  have hh : ps.head? = some (ps[0]'(by omega)) := by rw [List.head?_eq_getElem?, List.getElem?_eq_getElem]
  have hl : ps.getLast? = some (ps[ps.length - 1]'(by omega)) := by rw [List.getLast?_eq_getElem?, List.getElem?_eq_getElem]
  unfold TTimes.query
  rw [Outcome.reassert_true hne, Outcome.ok_bind]
  simp only [hh, hl]
  by_cases hr : lt t (ps[0]'(by omega)) = false ∧ lt (ps[ps.length - 1]'(by omega)) t = false
  · rw [if_pos hr, Outcome.reassert_true (by simp [hr.1, hr.2]), Outcome.ok_bind]
    rfl
  · rw [if_neg hr, Outcome.reassert_false (by simpa using hr), Outcome.throw_bind]

/-- In range the search ends at a segment. -/
theorem search_in_range {ps : List Double} {c : TTimes} (h : TTimes.make ps = .ok c) (h2 : 2 ≤ ps.length) (t : Double)
    (ht : lt (ps[ps.length - 1]'(by omega)) t = false) :
    lowerBound (fun s => lt s.2 t) (TTimes.pairs ps) 0 (TTimes.pairs ps).length + 1 < ps.length := by
  obtain ⟨hc, -⟩ := (make_iff ps c).mp h
  obtain ⟨s1, -, s3⟩ := TTimes.search hc t
  by_contra hlt
  rw [TTimes.pairs_length] at hlt s1
  have := s1 (ps.length - 2) (by omega) (by omega) (by omega)
  simp only [show ps.length - 2 + 1 = ps.length - 1 by omega] at this
  rw [this] at ht
  cases ht

/-- A query at a finite time, with the segment found and the exact values computed. -/
theorem query_fraction (ts : List ℚ) (c : TTimes) (h : TTimes.make (ts.map num) = .ok c) (h2 : 2 ≤ ts.length) (hts : ∀ t ∈ ts, IsDouble t)
    (hstep : ∀ (i : Nat) (hk : i + 1 < ts.length), lo ≤ ts[i + 1] - ts[i] ∧ ts[i + 1] - ts[i] ≤ hi)
    (x : ℚ) (hx : IsDouble x) (h0 : ts[0] ≤ x) (h1 : x ≤ ts[ts.length - 1]) :
    ∃ (i : Nat) (v y : ℚ) (hi : i + 1 < ts.length), TTimes.query c (num x) = .ok (i, num v, num y) ∧
      ts[i] ≤ x ∧ x ≤ ts[i + 1] ∧ (0 < i → ts[i] < x) ∧ 0 ≤ y ∧ y ≤ 1 ∧ |y - (x - ts[i]) / (ts[i + 1] - ts[i])| ≤ 8 * u ∧
      |v - 1 / (ts[i + 1] - ts[i])| ≤ 1 / (ts[i + 1] - ts[i]) * (5 * u) ∧ (x = ts[i] → y = 0) ∧ (x = ts[i + 1] → 1 - u ≤ y) ∧ 0 < v ∧
      v = round64 (1 / round64 (ts[i + 1] - ts[i])) ∧ y = round64 (v * round64 (x - ts[i])) := by
  have hlen : (ts.map num).length = ts.length := List.length_map _
  obtain ⟨hc, -⟩ := (TTimes.make_iff _ c).mp h
  have hge : lt (num x) ((ts.map num)[0]'(by omega)) = false := by simpa [lt] using h0
  have hle : lt ((ts.map num)[(ts.map num).length - 1]'(by omega)) (num x) = false := by simpa [lt] using h1
  have hi := search_in_range h (by omega) (num x) hle
  obtain ⟨s1, s2, -⟩ := TTimes.search hc (num x)
  have hq := TTimes.query_eq h (by omega) (num x)
  rw [if_pos ⟨hge, hle⟩, List.getElem?_eq_getElem (by have := TTimes.pairs_length (ts.map num); omega)] at hq
  simp only [TTimes.pairs_get _ _ hi] at hq
  generalize lowerBound (fun s => lt s.2 (num x)) (TTimes.pairs (ts.map num)) 0 (TTimes.pairs (ts.map num)).length = i at *
  have hi' : i + 1 < ts.length := by omega
  have hup : x ≤ ts[i + 1] := by
    have := s2 hi
    simpa [lt] using this
  have hlo' : 0 < i → ts[i] < x := by
    intro hpos
    have := s1 (i - 1) (by omega) (by omega) (by omega)
    simp only [show i - 1 + 1 = i by omega] at this
    simpa [lt] using this
  have hlo : ts[i] ≤ x := by
    rcases Nat.eq_zero_or_pos i with hz | hz
    · simp only [hz]; exact h0
    · exact (hlo' hz).le
  obtain ⟨v, y, e1, e2, v0, y0, y1, ye, ve, z0, z1, f1, f2⟩ := normalised (hts _ (List.getElem_mem (show i < ts.length by omega))) hx
    (hts _ (List.getElem_mem hi')) hlo hup (hstep i hi').1 (hstep i hi').2
  simp only [List.getElem_map] at hq
  rw [e1, e2] at hq
  exact ⟨i, v, y, hi', hq, hlo, hup, hlo', y0, y1, ye, ve, z0, z1, v0, f1, f2⟩

/-- Later queries find later segments, and in one segment the normalised time does not fall. -/
theorem query_order (ts : List ℚ) (c : TTimes) (h : TTimes.make (ts.map num) = .ok c) (h2 : 2 ≤ ts.length) (hts : ∀ t ∈ ts, IsDouble t)
    (hstep : ∀ (i : Nat) (hk : i + 1 < ts.length), lo ≤ ts[i + 1] - ts[i] ∧ ts[i + 1] - ts[i] ≤ hi)
    (x x' : ℚ) (hx : IsDouble x) (hx' : IsDouble x') (h0 : ts[0] ≤ x) (hxx : x ≤ x') (h1 : x' ≤ ts[ts.length - 1])
    {i i' : Nat} {v v' y y' : ℚ} (hq : TTimes.query c (num x) = .ok (i, num v, num y)) (hq' : TTimes.query c (num x') = .ok (i', num v', num y')) :
    i ≤ i' ∧ (i = i' → y ≤ y') := by
  obtain ⟨j, w, z, hj, e, a1, a2, a3, -, -, -, -, -, -, w0, f1, f2⟩ := query_fraction ts c h h2 hts hstep x hx h0 (hxx.trans h1)
  obtain ⟨j', w', z', hj', e', b1, b2, b3, -, -, -, -, -, -, -, g1, g2⟩ := query_fraction ts c h h2 hts hstep x' hx' (h0.trans hxx) h1
  rw [e] at hq
  rw [e'] at hq'
  cases hq
  cases hq'
  have hp : ts.Pairwise (· < ·) := by
    rw [← List.isChain_iff_pairwise, List.isChain_iff_getElem]
    exact fun k hk => by linarith [(hstep k hk).1, lo_pos]
  constructor
  · by_contra hlt
    have l1 : ts[i' + 1] ≤ ts[i] := by
      rcases Nat.lt_or_ge (i' + 1) i with hh | hh
      · exact (List.pairwise_iff_getElem.mp hp (i' + 1) i hj' (by omega) hh).le
      · simp only [show i = i' + 1 by omega, le_refl]
    exact absurd (a3 (by omega)) (by linarith)
  · rintro rfl
    rw [f2, g2, g1, ← f1]
    refine round64_mono (mul_le_mul_of_nonneg_left (round64_mono ?_) w0.le)
    linarith

end Verif.TTimes

namespace Verif.Double
open Verif.Spec Verif.SampleIntervalDouble Verif.Binary64

/-- A nonzero duration in seconds is a multiple of 2^-83. -/
theorem asSeconds_multiple {d : ℤ} (hd : InI64 d) : IsDouble (asSeconds d) ∧ |asSeconds d| ≤ 2 ^ 35 ∧ ∃ m : ℤ, asSeconds d = m * 2 ^ (-83 : ℤ) := by
  have key : ∀ n : ℤ, 1 ≤ n → n ≤ 2 ^ 63 → IsDouble (asSeconds n) ∧ |asSeconds n| ≤ 2 ^ 35 ∧ ∃ m : ℤ, asSeconds n = m * 2 ^ (-83 : ℤ) := by
    intro n n1 n2
    have f1 : 1 ≤ fl (n : ℚ) := by
      have := fl_mono (q := ((1 : ℤ) : ℚ)) (r := n) (by exact_mod_cast n1)
      rw [fl_representable (representable_int (by norm_num))] at this
      exact_mod_cast this
    have f2 : fl (n : ℚ) ≤ 2 ^ 63 := by
      have := fl_mono (q := (n : ℚ)) (r := 2 ^ 63) (by exact_mod_cast n2)
      rwa [fl_representable (q := 2 ^ 63) ⟨1, 63, by norm_num, by norm_num⟩] at this
    unfold asSeconds
    generalize fl (n : ℚ) = f at *
    have q1 : 1 / 1000000000 ≤ f / 1000000000 := by linarith
    have q2 : f / 1000000000 ≤ 2 ^ 34 := by
      rw [div_le_iff₀ (by norm_num)]
      linarith
    generalize f / 1000000000 = q at *
    have q0 : 0 < q := by linarith
    have g0 := fl_nonneg q0.le
    have g1 : fl q ≤ 2 ^ 34 := by
      have := fl_mono q2
      rwa [fl_representable (q := 2 ^ 34) ⟨1, 34, by norm_num, by norm_num⟩] at this
    have he : -83 ≤ ulpExp q := by
      by_contra hlt
      have b := (binade q0.ne').2
      have : (2 : ℚ) ^ ulpExp q ≤ 2 ^ (-84 : ℤ) := zpow_le_zpow_right₀ (by norm_num) (by omega)
      rw [abs_of_pos q0] at b
      generalize (2 : ℚ) ^ ulpExp q = t at *
      norm_num at this
      linarith
    have g2 : |fl q| ≤ 2 ^ 35 := by
      rw [abs_of_nonneg g0]
      linarith
    refine ⟨?_, g2, ?_⟩
    · have hn := round64_normal q0.ne' (by omega)
      rw [← hn] at g2 ⊢
      refine isDouble_round64 (g2.trans_lt ?_)
      exact pow_lt_pow_right₀ (by norm_num) (by norm_num)
    · obtain ⟨k, hk⟩ := Int.eq_ofNat_of_zero_le (show 0 ≤ ulpExp q + 83 by omega)
      refine ⟨roundEven (q / 2 ^ ulpExp q) * 2 ^ k, ?_⟩
      rw [fl, if_neg q0.ne']
      have : ulpExp q = k + -83 := by omega
      generalize roundEven (q / 2 ^ ulpExp q) = m
      rw [this, zpow_add₀ (by norm_num), zpow_natCast, Int.cast_mul, Int.cast_pow, Int.cast_ofNat, mul_assoc]
  obtain ⟨l1, l2⟩ := hd
  unfold I64MIN at l1
  unfold I64MAX at l2
  rcases lt_trichotomy d 0 with hz | rfl | hz
  · obtain ⟨a, b, m, c⟩ := key (-d) (by omega) (by omega)
    have hneg : asSeconds (-d) = -asSeconds d := by
      unfold asSeconds
      rw [Int.cast_neg, fl_neg, neg_div, fl_neg]
    rw [hneg] at a b c
    rw [abs_neg] at b
    refine ⟨by simpa using isDouble_neg a, b, -m, ?_⟩
    rw [Int.cast_neg, neg_mul, ← c, neg_neg]
  · have : asSeconds 0 = 0 := by simp [asSeconds]
    rw [this]
    exact ⟨isDouble_zero, by simp, 0, by simp⟩
  · exact key d (by omega) (by omega)

/-- Different times in seconds are neither too close nor too far. -/
theorem asSeconds_step {d e : ℤ} (hd : InI64 d) (he : InI64 e) (h : asSeconds d < asSeconds e) :
    lo ≤ asSeconds e - asSeconds d ∧ asSeconds e - asSeconds d ≤ hi := by
  obtain ⟨-, b1, m1, e1⟩ := asSeconds_multiple hd
  obtain ⟨-, b2, m2, e2⟩ := asSeconds_multiple he
  constructor
  · rw [e1, e2] at h ⊢
    have hp : (0 : ℚ) < 2 ^ (-83 : ℤ) := two_zpow_pos _
    have hm : m1 < m2 := by exact_mod_cast lt_of_mul_lt_mul_right h hp.le
    have hm' : (1 : ℚ) ≤ m2 - m1 := by
      have : m1 + 1 ≤ m2 := hm
      have : (m1 : ℚ) + 1 ≤ m2 := by exact_mod_cast this
      linarith
    have hlo : lo ≤ 2 ^ (-83 : ℤ) := zpow_le_zpow_right₀ (by norm_num) (by norm_num)
    rw [← sub_mul]
    calc lo ≤ 1 * 2 ^ (-83 : ℤ) := by rwa [one_mul]
      _ ≤ _ := mul_le_mul_of_nonneg_right hm' hp.le
  · have hhi : (2 : ℚ) ^ (36 : ℤ) ≤ hi := zpow_le_zpow_right₀ (by norm_num) (by norm_num)
    refine le_trans ?_ hhi
    have := abs_le.mp b1
    have := abs_le.mp b2
    norm_num at *
    linarith

end Verif.Double

namespace Verif.DLengths
open Verif.Double Verif.Spec Verif.SampleIntervalDouble

/-- The arc lengths of the controls. -/
def arcs (lens : List Double) : List Double := (List.range (lens.length + 1)).map fun k => (lens.take k).foldl add (num 0)

theorem make_eq (lens : List Double) : make lens = ⟨arcs lens, TTimes.pairs (arcs lens)⟩ := by
  induction lens using List.reverseRecOn with
  | nil => rfl
  | append_singleton lens l ih =>
    have hb : (arcs lens).getLast? = some (lens.foldl add (num 0)) := by
      simp [arcs, List.range_succ]
    have ha : arcs (lens ++ [l]) = arcs lens ++ [add (lens.foldl add (num 0)) l] := by
      unfold arcs
      rw [List.length_append, List.length_singleton, List.range_succ (n := lens.length + 1), List.map_append]
      congr 1
      · refine List.map_congr_left fun k hk => ?_
        rw [List.mem_range] at hk
        rw [List.take_append_of_le_length (by omega)]
      · rw [List.map_singleton, List.take_of_length_le (by simp), List.foldl_append]
        rfl
    have hm : make (lens ++ [l]) = append (make lens) l := by simp [make, List.foldl_append]
    rw [hm, ih, ha, TTimes.pairs_append _ _ _ hb]
    simp [append, hb]

theorem arcs_length (lens : List Double) : (arcs lens).length = lens.length + 1 := by simp [arcs]

theorem arcs_zero (lens : List Double) : (arcs lens)[0]'(by simp [arcs]) = num 0 := by simp [arcs]

theorem arcs_succ (lens : List Double) (i : Nat) (h : i < lens.length) :
    (arcs lens)[i + 1]'(by simp [arcs]; omega) = add ((arcs lens)[i]'(by simp [arcs]; omega)) lens[i] := by
  unfold arcs
  rw [List.getElem_map, List.getElem_map, List.getElem_range, List.getElem_range, List.take_add_one, List.getElem?_eq_getElem h, List.foldl_append]
  rfl

theorem arcs_last (lens : List Double) : (make lens).curveLength = (arcs lens)[lens.length]'(by simp [arcs]) := by
  rw [make_eq]
  simp [curveLength, arcs, List.range_succ]

/-- Finite arc lengths: they start at 0, never fall, and are doubles. -/
theorem finite_arcs (ls as : List ℚ) (hls : ∀ l ∈ ls, IsDouble l ∧ 0 ≤ l) (h : arcs (ls.map num) = as.map num) :
    ∃ (hl : as.length = ls.length + 1), as[0] = 0 ∧ (∀ (i : Nat) (hi : i < ls.length), as[i + 1] = round64 (as[i] + ls[i])) ∧
      (∀ (i : Nat) (hi : i < as.length), IsDouble as[i]) ∧ (∀ (i : Nat) (hi : i + 1 < as.length), as[i] ≤ as[i + 1]) := by
  have hl : as.length = ls.length + 1 := by
    have := congrArg List.length h
    rw [arcs_length, List.length_map, List.length_map] at this
    exact this.symm
  have hget : ∀ (i : Nat) (hi : i < as.length), (arcs (ls.map num))[i]'(by rw [arcs_length, List.length_map]; omega) = num as[i] := by
    intro i hi
    simp only [h, List.getElem_map]
  have h0 : as[0] = 0 := by
    have := hget 0 (by omega)
    rw [arcs_zero] at this
    simpa using this.symm
  have hs : ∀ (i : Nat) (hi : i < ls.length), as[i + 1] = round64 (as[i] + ls[i]) ∧ |round64 (as[i] + ls[i])| < 2 ^ 1024 := by
    intro i hi
    have e := hget (i + 1) (by omega)
    rw [arcs_succ _ i (by simpa using hi), hget i (by omega), List.getElem_map] at e
    simp only [add, ofExact] at e
    split at e
    · next hb => exact ⟨by injection e with e; exact e.symm, hb⟩
    · cases e
  have hd : ∀ (i : Nat) (hi : i < as.length), IsDouble as[i] := by
    intro i hi
    cases i with
    | zero => rw [h0]; exact isDouble_zero
    | succ j =>
      rw [(hs j (by omega)).1]
      exact isDouble_round64 (hs j (by omega)).2
  refine ⟨hl, h0, fun i hi => (hs i hi).1, hd, fun i hi => ?_⟩
  rw [(hs i (by omega)).1]
  exact double_le_round64 (hd i (by omega)) (by linarith [(hls _ (List.getElem_mem (show i < ls.length by omega))).2])

/-- Rounding errors of the running sum. -/
theorem sum_error (ls as : List ℚ) (hls : ∀ l ∈ ls, IsDouble l ∧ 0 ≤ l) (h : arcs (ls.map num) = as.map num) (k : Nat) (hk : k < as.length) :
    |as[k] - (ls.take k).sum| ≤ ((1 + u) ^ k - 1) * (ls.take k).sum := by
  obtain ⟨hl, h0, hs, hd, -⟩ := finite_arcs ls as hls h
  induction k with
  | zero => simp [h0]
  | succ k ih =>
    have ih := ih (by omega)
    have hk' : k < ls.length := by omega
    have e := round64_add_error (hd k (by omega)) (hls _ (List.getElem_mem hk')).1
    have hl0 := (hls _ (List.getElem_mem hk')).2
    have hS : 0 ≤ (ls.take k).sum := List.sum_nonneg fun l hl => (hls l (List.mem_of_mem_take hl)).2
    rw [hs k hk', List.take_add_one, List.getElem?_eq_getElem hk', List.sum_append]
    simp only [Option.toList_some, List.sum_singleton]
    change |round64 (as[k] + ls[k]) - (as[k] + ls[k])| ≤ |as[k] + ls[k]| * u at e
    generalize round64 (as[k] + ls[k]) = r at *
    generalize (ls.take k).sum = S at *
    generalize as[k] = a at *
    generalize ls[k] = l at *
    have p1 : 1 ≤ (1 + u) ^ k := one_le_pow₀ (by linarith [u_pos])
    rw [pow_succ]
    generalize (1 + u) ^ k = E at *
    have hu := u_pos
    generalize u = u at *
    have t : |a + l| ≤ E * S + l := by
      have := abs_le.mp ih
      have hES : S ≤ E * S := by nlinarith
      rw [abs_le]
      constructor
      · nlinarith
      · nlinarith
    have e' : |r - (a + l)| ≤ (E * S + l) * u := e.trans (mul_le_mul_of_nonneg_right t hu.le)
    have i1 := abs_le.mp ih
    have i2 := abs_le.mp e'
    rw [abs_le]
    constructor <;> nlinarith [mul_nonneg (sub_nonneg.mpr p1) hl0, mul_nonneg (mul_nonneg (sub_nonneg.mpr p1) hl0) hu.le]

/-- The query, for any lengths at all. -/
theorem query_eq (lens : List Double) (arc : Double) : query (make lens) arc =
    if le (num 0) arc = true ∧ le arc ((arcs lens)[lens.length]'(by simp [arcs])) = true ∧ lens ≠ [] then
      match (TTimes.pairs (arcs lens))[(TTimes.pairs (arcs lens)).findIdx (fun s => le arc s.2)]? with
      | none => .throw "Did not find valid segment."
      | some s => .ok ((TTimes.pairs (arcs lens)).findIdx (fun s => le arc s.2), div (sub arc s.1) (sub s.2 s.1))
    else if le (num 0) arc = false then .throw "Arc length values must be positive."
    else if le arc ((arcs lens)[lens.length]'(by simp [arcs])) = false then
      .throw "Attempt to query a point at an arc length longer that the curve."
    else .throw "Did not find valid segment." := by
  unfold query
  rw [arcs_last]
  by_cases h1 : le (num 0) arc = true
  · rw [Outcome.reassert_true h1, Outcome.ok_bind]
    by_cases h2 : le arc ((arcs lens)[lens.length]'(by simp [arcs])) = true
    · rw [Outcome.reassert_true h2, Outcome.ok_bind, make_eq]
      by_cases h3 : lens = []
      · subst h3
        have h2' : le arc (num 0) = true := h2
        simp [h1, h2', TTimes.pairs, arcs]
      · rw [if_pos ⟨h1, h2, h3⟩]
        rfl
    · rw [Outcome.reassert_false h2, Outcome.throw_bind, if_neg (fun h => h2 h.2.1)]
      simp only [Bool.not_eq_true] at h2
      simp [h1, h2]
  · rw [Outcome.reassert_false h1, Outcome.throw_bind, if_neg (fun h => h1 h.1)]
    simp only [Bool.not_eq_true] at h1
    simp [h1]

/-- In range the search ends at a segment. -/
theorem find_in_range (lens : List Double) (arc : Double) (h : le arc ((arcs lens)[lens.length]'(by simp [arcs])) = true) (hne : lens ≠ []) :
    ∃ (i : Nat) (_ : i < lens.length), (TTimes.pairs (arcs lens)).findIdx (fun s => le arc s.2) = i ∧
      le arc ((arcs lens)[i + 1]'(by rw [arcs_length]; omega)) = true ∧
      ∀ (j : Nat) (_ : j < i), le arc ((arcs lens)[j + 1]'(by rw [arcs_length]; omega)) = false := by
  have hpl : (TTimes.pairs (arcs lens)).length = lens.length := by rw [TTimes.pairs_length, arcs_length]; rfl
  have hpos : 0 < lens.length := List.length_pos_iff.mpr hne
  have hi : (TTimes.pairs (arcs lens)).findIdx (fun s => le arc s.2) < (TTimes.pairs (arcs lens)).length := by
    refine List.findIdx_lt_length_of_exists ⟨_, List.getElem_mem (show lens.length - 1 < _ by omega), ?_⟩
    rw [TTimes.pairs_get _ _ (by rw [arcs_length]; omega)]
    simpa only [show lens.length - 1 + 1 = lens.length by omega] using h
  refine ⟨_, by omega, rfl, ?_, fun j hj => ?_⟩
  · have := List.findIdx_getElem (w := hi)
    rwa [TTimes.pairs_get _ _ (by rw [arcs_length]; omega)] at this
  · have := List.not_of_lt_findIdx hj
    rw [TTimes.pairs_get _ _ (by rw [arcs_length]; omega)] at this
    simpa using this

/-- A query at a finite distance, with the segment found and the exact value computed. -/
theorem query_fraction (ls as : List ℚ) (hls : ∀ l ∈ ls, IsDouble l ∧ 0 ≤ l) (h : arcs (ls.map num) = as.map num) (hne : ls ≠ [])
    (x : ℚ) (h0 : 0 ≤ x) (hl : as.length = ls.length + 1) (h1 : x ≤ as[ls.length]) :
    ∃ (i : Nat) (hi : i < ls.length), query (make (ls.map num)) (num x) = .ok (i, div (sub (num x) (num as[i])) (sub (num as[i + 1]) (num as[i]))) ∧
      as[i] ≤ x ∧ x ≤ as[i + 1] ∧ (0 < i → as[i] < x) := by
  obtain ⟨hl', z, -, -, -⟩ := finite_arcs ls as hls h
  have hget : ∀ (i : Nat) (hi : i < as.length), (arcs (ls.map num))[i]'(by rw [arcs_length, List.length_map]; omega) = num as[i] := by
    intro i hi
    simp only [h, List.getElem_map]
  have hlen : (ls.map num).length = ls.length := List.length_map _
  have hle : le (num x) ((arcs (ls.map num))[(ls.map num).length]'(by simp [arcs])) = true := by
    simp only [hlen]
    rw [hget _ (by omega)]
    simpa [le] using h1
  have hge : le (num 0) (num x) = true := by simpa [le] using h0
  obtain ⟨i, hi, f0, f1, f2⟩ := find_in_range (ls.map num) (num x) hle (by simpa using hne)
  have hq := query_eq (ls.map num) (num x)
  rw [if_pos ⟨hge, hle, by simpa using hne⟩, f0,
    List.getElem?_eq_getElem (by have := TTimes.pairs_length (arcs (ls.map num)); rw [arcs_length] at this; omega)] at hq
  simp only [TTimes.pairs_get _ _ (show i + 1 < (arcs (ls.map num)).length by rw [arcs_length]; omega)] at hq
  have hi' : i < ls.length := by omega
  rw [hget (i + 1) (by omega)] at f1 hq
  rw [hget i (by omega)] at hq
  have hlo' : 0 < i → as[i] < x := by
    intro hpos
    have := f2 (i - 1) (by omega)
    simp only [show i - 1 + 1 = i by omega] at this
    rw [hget i (by omega)] at this
    simpa [le] using this
  refine ⟨i, hi', hq, ?_, by simpa [le] using f1, hlo'⟩
  rcases Nat.eq_zero_or_pos i with hz | hz
  · simp only [hz, z]; exact h0
  · exact (hlo' hz).le

/-- The arc lengths are in order. -/
theorem arcs_mono (ls as : List ℚ) (hls : ∀ l ∈ ls, IsDouble l ∧ 0 ≤ l) (h : arcs (ls.map num) = as.map num) {i j : Nat} (hij : i ≤ j)
    (hj : j < as.length) : as[i] ≤ as[j] := by
  obtain ⟨hl', z, -, -, hm⟩ := finite_arcs ls as hls h
  induction j with
  | zero =>
    have : i = 0 := by omega
    subst this
    exact le_refl _
  | succ j ih =>
    rcases Nat.lt_or_ge i (j + 1) with hlt | hge
    · exact (ih (by omega) (by omega)).trans (hm j hj)
    · have : i = j + 1 := by omega
      subst this
      exact le_refl _

/-- The fraction of a segment with a length. -/
theorem query_num (ls as : List ℚ) (hls : ∀ l ∈ ls, IsDouble l ∧ 0 ≤ l) (h : arcs (ls.map num) = as.map num) (x : ℚ) (hx : IsDouble x)
    (i : Nat) (hi : i + 1 < as.length) (h1 : as[i] ≤ x) (h2 : x ≤ as[i + 1]) (hlt : as[i] < as[i + 1]) :
    ∃ y : ℚ, div (sub (num x) (num as[i])) (sub (num as[i + 1]) (num as[i])) = num y ∧ 0 ≤ y ∧ y ≤ 1 ∧
      |y - (x - as[i]) / (as[i + 1] - as[i])| ≤ 8 * u ∧ (x = as[i] → y = 0) ∧ (x = as[i + 1] → y = 1) ∧
      y = round64 (round64 (x - as[i]) / round64 (as[i + 1] - as[i])) := by
  obtain ⟨hl', z, -, hd, hm⟩ := finite_arcs ls as hls h
  have n0 : 0 ≤ as[i] := by
    have := arcs_mono ls as hls h (i := 0) (j := i) (by omega) (by omega)
    rwa [z] at this
  exact fraction (hd i (by omega)) hx (hd (i + 1) hi) h1 h2 hlt
    (ofExact_between isDouble_zero (hd (i + 1) hi) (by linarith) (by linarith))

/-- The fraction of a segment with no length. -/
theorem query_zero_length (a : ℚ) : div (sub (num a) (num a)) (sub (num a) (num a)) = nan := by
  have : sub (num a) (num a) = num 0 := by
    simp only [sub, sub_self]
    rw [ofExact_between isDouble_zero isDouble_zero (le_refl _) (le_refl _), round64_zero]
  rw [this]
  simp [div]

end Verif.DLengths
