import Verif.Model.SafeInt
import Verif.Spec.SafeInt
import Mathlib.Algebra.Order.Ring.Int
import Mathlib.Algebra.Order.Group.Abs
import Mathlib.Tactic.SplitIfs
/-! # C01, C02: safe integer arithmetic -/
namespace Verif.Props
open Verif.SafeInt Verif.Spec

/-- C01, C02.  For every pair of 64-bit integers `safe_sum` returns the exact sum if representable and otherwise throws the
message for the right side; in particular it is never undefined behaviour. -/
theorem c01_safe_sum_exact (a b : Int) (ha : InI64 a) (hb : InI64 b) :
    safeSum a b = exactOrThrow (a + b) := by
  obtain ⟨ha1, ha2⟩ := ha
  obtain ⟨hb1, hb2⟩ := hb
  unfold safeSum exactOrThrow i64 Outcome.reassert InI64
  simp only [I64MAX, I64MIN, overflowMsg, underflowMsg] at *
  by_cases h : a > 0
  · have e1 : (-9223372036854775808 : Int) ≤ 9223372036854775807 - a ∧ 9223372036854775807 - a ≤ 9223372036854775807 := by
      omega
    by_cases h2 : 9223372036854775807 - a ≥ b
    · have e2 : (-9223372036854775808 : Int) ≤ a + b ∧ a + b ≤ 9223372036854775807 := by omega
      have e3 : ¬ (2 ^ 63 : Int) ≤ a + b := by omega
      have e4 : ¬ a + b < -2 ^ 63 := by omega
      simp only [h, e1, h2, e2, e3, e4, if_true, if_false, Outcome.ok_bind, and_self]
    · have e3 : (2 ^ 63 : Int) ≤ a + b := by omega
      simp only [h, e1, h2, e3, if_true, if_false, Outcome.ok_bind, and_self, Outcome.throw_bind]
  · have e1 : (-9223372036854775808 : Int) ≤ -9223372036854775808 - a ∧ -9223372036854775808 - a ≤ 9223372036854775807 := by
      omega
    by_cases h2 : -9223372036854775808 - a ≤ b
    · have e2 : (-9223372036854775808 : Int) ≤ a + b ∧ a + b ≤ 9223372036854775807 := by omega
      have e3 : ¬ (2 ^ 63 : Int) ≤ a + b := by omega
      have e4 : ¬ a + b < -2 ^ 63 := by omega
      simp only [h, e1, h2, e2, e3, e4, if_true, if_false, Outcome.ok_bind, and_self]
    · have e3 : ¬ (2 ^ 63 : Int) ≤ a + b := by omega
      have e4 : a + b < -2 ^ 63 := by omega
      simp only [h, e1, h2, e3, e4, if_true, if_false, Outcome.ok_bind, and_self, Outcome.throw_bind]

/-- The hypotheses are met at a boundary where the sum just fits and where it just does not. -/
example : InI64 9223372036854775806 ∧ InI64 1 ∧ safeSum 9223372036854775806 1 = .ok 9223372036854775807 ∧
    safeSum 9223372036854775806 2 = .throw "Integer Overflow!" := by decide

/-- C01, C02.  `safe_difference` likewise, including the subtrahend that has no negation. -/
theorem c01_safe_difference_exact (a b : Int) (ha : InI64 a) (hb : InI64 b) :
    safeDifference a b = exactOrThrow (a - b) := by
  obtain ⟨ha1, ha2⟩ := ha
  obtain ⟨hb1, hb2⟩ := hb
  unfold safeDifference
  by_cases h : b ≠ I64MIN
  · have hnb : InI64 (-b) := by
      simp only [InI64, I64MAX, I64MIN] at *
      omega
    simp only [h, ne_eq, not_false_eq_true, if_true, i64_ok hnb, Outcome.ok_bind]
    rw [c01_safe_sum_exact a (-b) ⟨ha1, ha2⟩ hnb, Int.sub_eq_add_neg]
  · have hb' : b = I64MIN := by simpa using h
    subst hb'
    unfold Outcome.reassert exactOrThrow i64 InI64
    simp only [I64MAX, I64MIN, overflowMsg] at *
    by_cases h2 : a < 0
    · have e2 : (-9223372036854775808 : Int) ≤ a - -9223372036854775808 ∧ a - -9223372036854775808 ≤ 9223372036854775807 := by
        omega
      have e3 : ¬ (2 ^ 63 : Int) ≤ a - -9223372036854775808 := by omega
      have e4 : ¬ a - -9223372036854775808 < -2 ^ 63 := by omega
      simp only [h2, e2, e3, e4, ne_eq, not_true_eq_false, if_true, if_false, Outcome.ok_bind, and_self]
    · have e3 : (2 ^ 63 : Int) ≤ a - -9223372036854775808 := by omega
      simp only [h2, e3, ne_eq, not_true_eq_false, if_true, if_false, Outcome.throw_bind]

example : InI64 I64MIN ∧ safeDifference (-1) I64MIN = .ok I64MAX ∧ safeDifference 0 I64MIN = .throw "Integer Overflow!" ∧
    safeDifference I64MIN 1 = .throw "Integer Underflow!" := by decide

/-- C01, C02.  `safe_abs` likewise. -/
theorem c01_safe_abs_exact (a : Int) (ha : InI64 a) : safeAbs a = exactOrThrow |a| := by
  obtain ⟨ha1, ha2⟩ := ha
  unfold safeAbs Outcome.reassert exactOrThrow i64 InI64
  simp only [I64MAX, I64MIN, overflowMsg] at *
  by_cases h : a = -9223372036854775808
  · subst h; decide
  · by_cases h2 : a > 0
    · have e0 : |a| = a := abs_of_pos h2
      have e3 : ¬ (2 ^ 63 : Int) ≤ a := by omega
      have e4 : ¬ a < -2 ^ 63 := by omega
      simp only [e0, h, h2, e3, e4, ne_eq, not_false_eq_true, if_true, if_false, Outcome.ok_bind, Outcome.pure_eq]
    · have e0 : |a| = -a := abs_of_nonpos (by omega)
      have e2 : (-9223372036854775808 : Int) ≤ -a ∧ -a ≤ 9223372036854775807 := by omega
      have e3 : ¬ (2 ^ 63 : Int) ≤ -a := by omega
      have e4 : ¬ -a < -2 ^ 63 := by omega
      simp only [e0, h, h2, e2, e3, e4, ne_eq, not_false_eq_true, if_true, if_false, Outcome.ok_bind, and_self]

example : InI64 I64MIN ∧ safeAbs I64MIN = .throw "Integer Overflow!" ∧ safeAbs (I64MIN + 1) = .ok I64MAX := by decide

/-- C02.  The message of a failing `safe_sum` tells the direction: overflow iff the exact sum is above the maximum, underflow iff it
is below the minimum. -/
theorem c02_safe_sum_message (a b : Int) (ha : InI64 a) (hb : InI64 b) :
    (safeSum a b = .throw "Integer Overflow!" ↔ a + b > 2 ^ 63 - 1) ∧
    (safeSum a b = .throw "Integer Underflow!" ↔ a + b < -2 ^ 63) ∧
    (∀ m, safeSum a b = .throw m → m = "Integer Overflow!" ∨ m = "Integer Underflow!") := by
  rw [c01_safe_sum_exact a b ha hb]
  unfold exactOrThrow
  split_ifs <;> simp <;> omega

example : safeSum I64MAX I64MAX = .throw "Integer Overflow!" ∧ safeSum I64MIN (-1) = .throw "Integer Underflow!" := by decide

/-- C02.  Likewise for `safe_difference`. -/
theorem c02_safe_difference_message (a b : Int) (ha : InI64 a) (hb : InI64 b) :
    (safeDifference a b = .throw "Integer Overflow!" ↔ a - b > 2 ^ 63 - 1) ∧
    (safeDifference a b = .throw "Integer Underflow!" ↔ a - b < -2 ^ 63) ∧
    (∀ m, safeDifference a b = .throw m → m = "Integer Overflow!" ∨ m = "Integer Underflow!") := by
  rw [c01_safe_difference_exact a b ha hb]
  unfold exactOrThrow
  split_ifs <;> simp <;> omega

example : safeDifference I64MAX (-1) = .throw "Integer Overflow!" ∧ safeDifference (-2) I64MAX = .throw "Integer Underflow!" := by
  decide

/-- C01.  The three functions never have undefined behaviour on 64-bit inputs. -/
theorem c01_no_ub (a b : Int) (ha : InI64 a) (hb : InI64 b) :
    ¬ (safeSum a b).IsUB ∧ ¬ (safeDifference a b).IsUB ∧ ¬ (safeAbs a).IsUB := by
  rw [c01_safe_sum_exact a b ha hb, c01_safe_difference_exact a b ha hb, c01_safe_abs_exact a ha]
  unfold exactOrThrow
  refine ⟨?_, ?_, ?_⟩ <;> split_ifs <;> simp

example : InI64 I64MIN ∧ InI64 I64MAX := by decide

end Verif.Props
