import Verif.Proofs.Binary64
/-! # C10, C11: conversion between durations and seconds under binary64 rounding -/
namespace Verif.Props
open Verif.Binary64

/-- Evaluation of `fl` at a concrete value from its binade and the bracketing multiples. -/
theorem fl_eval {q : ℚ} (e m : ℤ) (h1 : (2 : ℚ) ^ e * 2 ^ 52 ≤ q) (h2 : q < 2 ^ e * 2 ^ 53)
    (h3 : roundEven (q / 2 ^ e) = m) : fl q = m * 2 ^ e := by
  have hq : 0 < q := lt_of_lt_of_le (mul_pos (two_zpow_pos e) (by norm_num)) h1
  have he : ulpExp q = e := ulpExp_eq (by rwa [abs_of_pos hq]) (by rwa [abs_of_pos hq])
  unfold fl
  rw [if_neg hq.ne', he, h3]

theorem roundEven_eval {q : ℚ} (f : ℤ) (h1 : (f : ℚ) ≤ q) (h2 : q < f + 1 / 2) : roundEven q = f := by
  have hf : ⌊q⌋ = f := by rw [Int.floor_eq_iff]; constructor <;> linarith
  unfold roundEven
  simp only [hf]
  rw [if_pos (by linarith)]

/-! ## C11 -/

/-- C11.  `as_seconds` is monotone on all durations. -/
theorem c11_as_seconds_mono (d₁ d₂ : ℤ) (h : d₁ ≤ d₂) : asSeconds d₁ ≤ asSeconds d₂ := by
  unfold asSeconds
  apply fl_mono
  apply div_le_div_of_nonneg_right _ (by norm_num)
  apply fl_mono
  exact_mod_cast h

example : (-3 : ℤ) ≤ 5 := by decide

theorem asSeconds_small {d : ℤ} (h : |d| ≤ 2 ^ 53) : asSeconds d = fl ((d : ℚ) / 1000000000) := by
  unfold asSeconds
  rw [fl_representable (representable_int h)]

/-- C11.  `as_seconds` is strictly monotone on durations of at most 2^52 ns. -/
theorem c11_as_seconds_strict (d₁ d₂ : ℤ) (h₁ : |d₁| ≤ 2 ^ 52) (h₂ : |d₂| ≤ 2 ^ 52) (h : d₁ < d₂) :
    asSeconds d₁ < asSeconds d₂ := by
  rw [asSeconds_small (h₁.trans (by norm_num)), asSeconds_small (h₂.trans (by norm_num))]
  have e1 := abs_le.mp (fl_error ((d₁ : ℚ) / 1000000000))
  have e2 := abs_le.mp (fl_error ((d₂ : ℚ) / 1000000000))
  have a1 : |(d₁ : ℚ) / 1000000000| = |(d₁ : ℚ)| / 1000000000 := by rw [abs_div]; norm_num
  have a2 : |(d₂ : ℚ) / 1000000000| = |(d₂ : ℚ)| / 1000000000 := by rw [abs_div]; norm_num
  rw [a1] at e1
  rw [a2] at e2
  have hd : (d₁ : ℚ) + 1 ≤ d₂ := by exact_mod_cast h
  have k1 : |(d₁ : ℚ)| ≤ 2 ^ 52 := by exact_mod_cast h₁
  have k2 : |(d₂ : ℚ)| ≤ 2 ^ 52 := by exact_mod_cast h₂
  by_cases hboth : |(d₁ : ℚ)| + |(d₂ : ℚ)| < 2 ^ 53
  · norm_num at *
    linarith
  · -- both at the limit: then they are -2^52 and 2^52, far apart
    have k3 : |(d₁ : ℚ)| = 2 ^ 52 := by
      apply le_antisymm k1; push Not at hboth; norm_num at *; linarith
    have k4 : |(d₂ : ℚ)| = 2 ^ 52 := by
      apply le_antisymm k2; push Not at hboth; norm_num at *; linarith
    have k5 : (2 : ℚ) ≤ d₂ - d₁ := by
      rcases abs_choice (d₁ : ℚ) with c | c <;> rcases abs_choice (d₂ : ℚ) with c' | c' <;>
        rw [k3] at c <;> rw [k4] at c' <;> norm_num at * <;> linarith
    rw [k3] at e1
    rw [k4] at e2
    norm_num at *
    linarith

example : |(4503599627370495 : ℤ)| ≤ 2 ^ 52 ∧ |(4503599627370496 : ℤ)| ≤ 2 ^ 52 := by decide

/-- C11.  Beyond the limit distinct durations can collapse: 2^53 ns and 2^53 + 1 ns (104 days) give the same number of seconds. -/
theorem c11_collapse : ∃ d₁ d₂ : ℤ, d₁ < d₂ ∧ InI64 d₁ ∧ InI64 d₂ ∧ asSeconds d₁ = asSeconds d₂ := by
  refine ⟨2 ^ 53, 2 ^ 53 + 1, by norm_num, by decide, by decide, ?_⟩
  unfold asSeconds
  have e : fl (((2 ^ 53 + 1 : ℤ)) : ℚ) = ((2 ^ 53 : ℤ) : ℚ) := by
    have r : roundEven ((((2 ^ 53 + 1 : ℤ)) : ℚ) / 2 ^ (1 : ℤ)) = 2 ^ 52 := by
      have hf : ⌊(((2 ^ 53 + 1 : ℤ)) : ℚ) / 2 ^ (1 : ℤ)⌋ = 2 ^ 52 := by
        rw [Int.floor_eq_iff]; constructor <;> norm_num
      unfold roundEven
      simp only [hf]
      norm_num
    rw [fl_eval 1 (2 ^ 52) (by norm_num) (by norm_num) r]
    norm_num
  rw [e, fl_representable (representable_int (by norm_num))]

example : InI64 (2 ^ 53 + 1) := by decide

/-! ## C10 -/

theorem c10_fifteen : asDuration (asSeconds 15) = .ok 14 := by
  rw [asSeconds_small (by norm_num)]
  have h1 : fl (((15 : ℤ) : ℚ) / 1000000000) = (4533471823554859 : ℤ) * 2 ^ (-78 : ℤ) := by
    apply fl_eval
    · norm_num
    · norm_num
    · apply roundEven_eval <;> norm_num
  have h2 : fl (((4533471823554859 : ℤ) : ℚ) * 2 ^ (-78 : ℤ) * 1000000000) = (8444249301319679 : ℤ) * 2 ^ (-49 : ℤ) := by
    apply fl_eval
    · norm_num
    · norm_num
    · apply roundEven_eval <;> norm_num
  rw [h1]
  unfold asDuration
  rw [h2]
  have h3 : trunc (((8444249301319679 : ℤ) : ℚ) * 2 ^ (-49 : ℤ)) = 14 := by
    unfold trunc
    rw [if_pos (by positivity), Int.floor_eq_iff]
    constructor <;> norm_num
  rw [h3]
  decide

/-- C10 is false: 15 ns comes back as 14 ns, although it is far below any precision limit. -/
theorem c10_round_trip_fails : ∃ d : ℤ, |d| ≤ 2 ^ 52 ∧ asDuration (asSeconds d) ≠ .ok d := by
  refine ⟨15, by norm_num, ?_⟩
  rw [c10_fifteen]
  decide

example : |(15 : ℤ)| ≤ 2 ^ 52 := by norm_num

theorem trunc_neg (q : ℚ) : trunc (-q) = -trunc q := by
  unfold trunc
  rcases lt_trichotomy q 0 with h | h | h
  · rw [if_pos (by linarith), if_neg (by linarith), Int.floor_neg]
  · simp [h]
  · rw [if_neg (by linarith), if_pos h.le, Int.ceil_neg]

theorem asSeconds_neg (d : ℤ) : asSeconds (-d) = -asSeconds d := by
  unfold asSeconds
  push_cast
  rw [fl_neg, neg_div, fl_neg]

theorem half_representable {d : ℤ} (h0 : 0 ≤ d) (h : |d| ≤ 2 ^ 52) : Representable ((d : ℚ) - 1 / 2) := by
  refine ⟨2 * d - 1, -1, ?_, ?_⟩
  · have := abs_le.mp h
    rw [abs_le]; omega
  · norm_num; ring

theorem c10_aux (d : ℤ) (h0 : 0 ≤ d) (h : d ≤ 2 ^ 52) :
    trunc (fl (asSeconds d * 1000000000)) = d ∨ trunc (fl (asSeconds d * 1000000000)) = d - 1 := by
  have habs : |d| ≤ 2 ^ 52 := by rw [abs_of_nonneg h0]; exact h
  rcases h0.eq_or_lt with hz | hpos
  · left; rw [← hz]; simp [asSeconds, trunc]
  rw [asSeconds_small (habs.trans (by norm_num))]
  have e1 := abs_le.mp (fl_error ((d : ℚ) / 1000000000))
  have a1 : |(d : ℚ) / 1000000000| = (d : ℚ) / 1000000000 := abs_of_nonneg (by positivity)
  rw [a1] at e1
  have hd : (d : ℚ) ≤ 2 ^ 52 := by exact_mod_cast h
  have hd0 : (0 : ℚ) < d := by exact_mod_cast hpos
  set x := fl ((d : ℚ) / 1000000000) with hx
  have l1 : (d : ℚ) - 1 / 2 ≤ x * 1000000000 := by norm_num at *; linarith
  have l2 : x * 1000000000 ≤ (d : ℚ) + 1 / 2 := by norm_num at *; linarith
  have m1 : (d : ℚ) - 1 / 2 ≤ fl (x * 1000000000) := by
    have := fl_mono l1
    rwa [fl_representable (half_representable h0 habs)] at this
  have m2 : fl (x * 1000000000) < d + 1 := by
    have := fl_mono l2
    rcases h.eq_or_lt with hmax | hlt
    · have r : fl ((d : ℚ) + 1 / 2) = d := by
        have r : roundEven (((d : ℚ) + 1 / 2) / 2 ^ (0 : ℤ)) = 2 ^ 52 := by
          have hf : ⌊((d : ℚ) + 1 / 2) / 2 ^ (0 : ℤ)⌋ = 2 ^ 52 := by
            rw [Int.floor_eq_iff, hmax]; constructor <;> norm_num
          unfold roundEven
          simp only [hf]
          rw [hmax]
          norm_num
        rw [fl_eval 0 (2 ^ 52) (by rw [hmax]; norm_num) (by rw [hmax]; norm_num) r, hmax]
        norm_num
      rw [r] at this
      linarith
    · have hr : Representable ((d : ℚ) + 1 / 2) := by
        have := half_representable (d := d + 1) (by omega) (by rw [abs_of_nonneg (by omega)]; omega)
        have e : (((d + 1 : ℤ)) : ℚ) - 1 / 2 = d + 1 / 2 := by push_cast; ring
        rwa [e] at this
      rw [fl_representable hr] at this
      linarith
  have hge : (1 : ℚ) ≤ d := by exact_mod_cast hpos
  unfold trunc
  rw [if_pos (by linarith)]
  rcases le_or_gt (d : ℚ) (fl (x * 1000000000)) with hc | hc
  · left
    rw [Int.floor_eq_iff]; exact ⟨hc, m2⟩
  · right
    rw [Int.floor_eq_iff]; push_cast; constructor <;> linarith

/-- C10 (partial: the round trip is exact only up to 1 ns).  For every duration of at most 2^52 ns the round trip is defined and
returns the duration itself or the duration moved 1 ns towards zero. -/
theorem c10_within_one_ns_partial (d : ℤ) (h : |d| ≤ 2 ^ 52) :
    ∃ r, asDuration (asSeconds d) = .ok r ∧ |r - d| ≤ 1 ∧ |r| ≤ |d| := by
  have key : ∃ r, trunc (fl (asSeconds d * 1000000000)) = r ∧ |r - d| ≤ 1 ∧ |r| ≤ |d| := by
    rcases le_total 0 d with h0 | h0
    · rw [abs_of_nonneg h0] at h
      rcases h0.eq_or_lt with hz | hpos
      · refine ⟨0, ?_, ?_⟩
        · rw [← hz]; simp [asSeconds, trunc]
        · rw [← hz]; simp
      · rcases c10_aux d h0 h with e | e
        · exact ⟨d, e, by simp, le_refl _⟩
        · refine ⟨d - 1, e, by simp, ?_⟩
          rw [abs_of_nonneg (by omega), abs_of_nonneg h0]; omega
    · rw [abs_of_nonpos h0] at h
      have e0 : asSeconds d = -asSeconds (-d) := by rw [← asSeconds_neg, neg_neg]
      rw [e0, neg_mul, fl_neg, trunc_neg]
      rcases h0.eq_or_lt with hz | hneg
      · refine ⟨0, ?_, ?_⟩
        · rw [hz]; simp [asSeconds, trunc]
        · rw [hz]; simp
      · rcases c10_aux (-d) (by omega) h with e | e
        · exact ⟨d, by rw [e]; ring, by simp, le_refl _⟩
        · refine ⟨d + 1, by rw [e]; ring, by simp, ?_⟩
          rw [abs_of_nonpos (by omega), abs_of_nonpos h0]; omega
  obtain ⟨r, e, h1, h2⟩ := key
  refine ⟨r, ?_, h1, h2⟩
  unfold asDuration
  rw [e]
  apply i64_ok
  have := abs_le.mp (h2.trans h)
  simp only [InI64, I64MAX, I64MIN]
  omega

example : |(-4503599627370496 : ℤ)| ≤ 2 ^ 52 := by norm_num

/-- C10.  The round trip is exact for whole seconds (up to 2^53 ns), and for any duration that is an exact binary fraction of a second. -/
theorem c10_whole_seconds_exact (s : ℤ) (h : |s * 1000000000| ≤ 2 ^ 53) :
    asDuration (asSeconds (s * 1000000000)) = .ok (s * 1000000000) := by
  have hs : |s| ≤ 2 ^ 53 := by
    have := abs_le.mp h
    rw [abs_le]; omega
  have e1 : asSeconds (s * 1000000000) = s := by
    rw [asSeconds_small h]
    have : ((s * 1000000000 : ℤ) : ℚ) / 1000000000 = s := by push_cast; field_simp
    rw [this, fl_representable (representable_int hs)]
  unfold asDuration
  rw [e1]
  have e2 : (s : ℚ) * 1000000000 = ((s * 1000000000 : ℤ) : ℚ) := by push_cast; ring
  rw [e2, fl_representable (representable_int h)]
  have e3 : trunc ((s * 1000000000 : ℤ) : ℚ) = s * 1000000000 := by
    unfold trunc; split_ifs <;> simp only [Int.floor_intCast, Int.ceil_intCast]
  rw [e3]
  apply i64_ok
  have := abs_le.mp h
  simp only [InI64, I64MAX, I64MIN]
  omega

example : |(86400 : ℤ) * 1000000000| ≤ 2 ^ 53 := by norm_num

end Verif.Props
