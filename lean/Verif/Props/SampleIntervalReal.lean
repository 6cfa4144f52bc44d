import Verif.Model.SampleIntervalReal
import Mathlib.Tactic.Linarith
import Mathlib.Tactic.Ring
import Mathlib.Tactic.FieldSimp
import Mathlib.Tactic.Positivity
import Mathlib.Algebra.Order.Floor.Ring
/-! # C07: sampling an interval of doubles (in exact arithmetic) -/
namespace Verif.Props
open Verif.SampleIntervalReal

/-- C07.  Distinct bounds, positive step, and a minimal count `n` that fits in `int`: the call completes; there are `n ≥ 2` calls, the first at
`start`, the last at `stop`, equally spaced with step at most `dt`, and no smaller count of equal steps would do. -/
theorem c07_covers (start stop dt : ℝ) (hne : start ≠ stop) (hdt : 0 < dt)
    (hfit : |stop - start| ≤ ((2147483646 : Int) : ℝ) * dt) :
    ∃ (n : Int) (xs : List ℝ), numSamples start stop dt = .ok n ∧ sampleInterval start stop dt = .ok xs ∧
      2 ≤ n ∧ (xs.length : Int) = n ∧
      xs.head? = some start ∧ xs.getLast? = some stop ∧
      (∀ (i : Nat) (h : i + 1 < xs.length), xs[i + 1] - xs[i] = (stop - start) / (n - 1)) ∧
      |(stop - start) / (n - 1)| ≤ dt ∧
      (∀ m : Int, 2 ≤ m → |stop - start| / (m - 1) ≤ dt → n ≤ m) := by
  have hpos : 0 < |stop - start| := abs_pos.mpr (sub_ne_zero.mpr (Ne.symm hne))
  set c := ⌈|stop - start| / dt⌉ with hc
  have hc1 : 0 < c := Int.ceil_pos.mpr (div_pos hpos hdt)
  have hc2 : c ≤ 2147483646 := by
    rw [hc, Int.ceil_le, div_le_iff₀ hdt]; exact hfit
  have en : numSamples start stop dt = .ok (c + 1) := by
    unfold numSamples i32 INTMAX
    rw [Outcome.reassert_true hdt]
    simp only [Outcome.ok_bind]
    rw [← hc, if_pos (by omega), Outcome.ok_bind, if_pos (by omega)]
  have cpos : (0 : ℝ) < c := by exact_mod_cast hc1
  have clen : ((c + 1).toNat : Int) = c + 1 := Int.toNat_of_nonneg (by omega)
  refine ⟨c + 1, (List.range (c + 1).toNat).map (sampleAt start stop (c + 1)), en, ?_, by omega, ?_, ?_, ?_, ?_, ?_, ?_⟩
  · unfold sampleInterval
    rw [if_neg hne, en]; rfl
  · simp only [List.length_map, List.length_range]; omega
  · obtain ⟨k, hk⟩ : ∃ k, (c + 1).toNat = k + 1 := ⟨(c + 1).toNat - 1, by omega⟩
    rw [hk, List.range_succ_eq_map]
    simp [sampleAt]
  · obtain ⟨k, hk⟩ : ∃ k, (c + 1).toNat = k + 1 := ⟨(c + 1).toNat - 1, by omega⟩
    rw [hk, List.range_succ, List.map_append, List.map_singleton, List.getLast?_concat]
    have : (k : Int) = c := by omega
    have hk' : (k : ℝ) = c := by exact_mod_cast this
    simp only [sampleAt]
    rw [hk']
    have : ((c + 1 - 1 : Int) : ℝ) = c := by push_cast; ring
    rw [this, div_self cpos.ne']
    simp
  · intro i hi
    simp only [List.getElem_map, List.getElem_range, sampleAt]
    push_cast
    field_simp
    ring
  · push_cast
    rw [abs_div, add_sub_cancel_right, abs_of_pos cpos, div_le_iff₀ cpos, ← div_le_iff₀' hdt]
    exact Int.le_ceil _
  · intro m hm hstep
    have hm1 : (0 : ℝ) < m - 1 := by
      have : (2 : ℝ) ≤ m := by exact_mod_cast hm
      linarith
    rw [div_le_iff₀ hm1, ← div_le_iff₀' hdt] at hstep
    have : c ≤ m - 1 := by
      rw [hc, Int.ceil_le]; push_cast; exact hstep
    omega

example : (0 : ℝ) ≠ 3 ∧ (0 : ℝ) < 2 ∧ |(3 : ℝ) - 0| ≤ ((2147483646 : Int) : ℝ) * 2 := by
  refine ⟨by norm_num, by norm_num, ?_⟩
  rw [abs_of_pos (by norm_num)]; norm_num

/-- C07.  A count that does not fit in `int` is undefined behaviour (cast or increment), although the return type is 64 bits wide. -/
theorem c07_ub_iff (start stop dt : ℝ) (hdt : 0 < dt) :
    (numSamples start stop dt).IsUB ↔ ((2147483646 : Int) : ℝ) * dt < |stop - start| := by
  have h0 : 0 ≤ ⌈|stop - start| / dt⌉ := Int.ceil_nonneg (by positivity)
  have key : 2147483646 < ⌈|stop - start| / dt⌉ ↔ ((2147483646 : Int) : ℝ) * dt < |stop - start| := by
    rw [Int.lt_ceil, lt_div_iff₀ hdt]
  rw [← key]
  unfold numSamples i32 INTMAX
  rw [Outcome.reassert_true hdt]
  simp only [Outcome.ok_bind]
  split_ifs with h1
  · rw [Outcome.ok_bind]
    split_ifs with h2 <;> simp <;> omega
  · simp; omega

example : (numSamples 0 3 1e-9).IsUB := by
  rw [c07_ub_iff _ _ _ (by norm_num), abs_of_pos (by norm_num)]; norm_num

/-- C07.  Throws exactly for a non-positive step; equal bounds give one call whatever the step. -/
theorem c07_throw_iff (start stop dt : ℝ) :
    ((numSamples start stop dt).IsThrow ↔ dt ≤ 0) ∧ sampleInterval start start dt = .ok [start] := by
  constructor
  · unfold numSamples i32
    by_cases h : dt > 0
    · rw [Outcome.reassert_true h]
      simp only [Outcome.ok_bind]
      split_ifs
      · rw [Outcome.ok_bind]; split_ifs <;> simp <;> linarith
      · simp; linarith
    · rw [Outcome.reassert_false h]
      simp; linarith
  · simp [sampleInterval]

example : (numSamples 0 3 (-1)).IsThrow := by
  rw [(c07_throw_iff 0 3 (-1)).1]; norm_num

end Verif.Props
