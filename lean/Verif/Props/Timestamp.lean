import Verif.Model.Timestamp
import Verif.Proofs.Tdiv
import Mathlib.Algebra.Order.Ring.Int
import Mathlib.Tactic.Linarith
/-! # C08, C09: seconds and nanoseconds -/
namespace Verif.Props
open Verif.Timestamp

/-- A canonical split: the nanos are less than a second and never of the other sign than the seconds. -/
structure Canonical (s : SecsAndNanos) : Prop where
  small : |s.nanos| < 10 ^ 9
  sign : 0 ≤ s.secs * s.nanos

theorem toSecsAndNanos_eq (d : Int) (h : InI64 d) :
    toSecsAndNanos d = .ok ⟨d.tdiv 1000000000, d.tmod 1000000000⟩ := by
  obtain ⟨e, f1, f2, f3, f4⟩ := tdiv_facts d 1000000000 (by decide)
  have hq : InI64 (d.tdiv 1000000000) := by
    simp only [InI64, I64MAX, I64MIN] at *
    omega
  unfold toSecsAndNanos i64div i64mod NANO
  rw [if_neg (by decide), i64_ok hq, Outcome.ok_bind, if_neg (by decide), if_pos hq, Outcome.ok_bind]
  unfold toI32
  have : (d.tmod 1000000000 + 2147483648) % 4294967296 - 2147483648 = d.tmod 1000000000 := by omega
  rw [this]; rfl

/-- C08.  For every 64-bit duration the split is defined, canonical, its nanos fit in an int32, and joining it gives back the duration
without overflow. -/
theorem c08_round_trip (d : Int) (h : InI64 d) :
    ∃ s, toSecsAndNanos d = .ok s ∧ fromSecsAndNanos s = .ok d ∧ Canonical s ∧ InI32 s.nanos ∧ InI64 s.secs := by
  obtain ⟨e, f1, f2, f3, f4⟩ := tdiv_facts d 1000000000 (by decide)
  refine ⟨_, toSecsAndNanos_eq d h, ?_, ⟨?_, ?_⟩, ?_, ?_⟩
  · unfold fromSecsAndNanos NANO
    simp only [InI64, I64MAX, I64MIN] at h
    simp only
    rw [i64_ok' (by omega) (by omega), Outcome.ok_bind, e, i64_ok' h.1 h.2]
  · simp only
    rw [abs_lt]; omega
  · simp only
    rcases le_total 0 d with hd | hd
    · exact mul_nonneg (by omega) (by omega)
    · exact mul_nonneg_of_nonpos_of_nonpos (by omega) (by omega)
  · simp only [InI32]; omega
  · simp only [InI64, I64MAX, I64MIN] at *; omega

example : InI64 I64MIN ∧ toSecsAndNanos I64MIN = .ok ⟨-9223372036, -854775808⟩ ∧
    fromSecsAndNanos ⟨-9223372036, -854775808⟩ = .ok I64MIN := by decide

/-- C08.  Conversely every canonical pair whose duration fits in 64 bits is recovered from that duration (joining may pass through
no overflow), so the split is the unique canonical pair. -/
theorem c08_canonical_recovered (s : SecsAndNanos) (hc : Canonical s) (hfit : InI64 (s.secs * 10 ^ 9 + s.nanos)) :
    ∃ d, fromSecsAndNanos s = .ok d ∧ toSecsAndNanos d = .ok s := by
  obtain ⟨hs, hsign⟩ := hc
  obtain ⟨secs, nanos⟩ := s
  simp only at *
  have hab := abs_lt.mp hs
  refine ⟨secs * 1000000000 + nanos, ?_, ?_⟩
  · unfold fromSecsAndNanos NANO
    have h1 : InI64 (secs * 1000000000) := by
      simp only [InI64, I64MAX, I64MIN] at *
      rcases lt_trichotomy secs 0 with h0 | h0 | h0
      · have : nanos ≤ 0 := by by_contra hc; nlinarith
        omega
      · subst h0; omega
      · have : 0 ≤ nanos := by by_contra hc; nlinarith
        omega
    simp only
    rw [i64_ok h1, Outcome.ok_bind, i64_ok (by simpa using hfit)]
  · have hfit' : InI64 (secs * 1000000000 + nanos) := by simpa using hfit
    rw [toSecsAndNanos_eq _ hfit']
    obtain ⟨e, f1, f2, f3, f4⟩ := tdiv_facts (secs * 1000000000 + nanos) 1000000000 (by decide)
    have key : (secs * 1000000000 + nanos).tdiv 1000000000 = secs ∧ (secs * 1000000000 + nanos).tmod 1000000000 = nanos := by
      rcases lt_trichotomy secs 0 with h0 | h0 | h0
      · have : nanos ≤ 0 := by by_contra hc; nlinarith
        omega
      · subst h0; omega
      · have : 0 ≤ nanos := by by_contra hc; nlinarith
        omega
    rw [key.1, key.2]

example : Canonical ⟨-5, -3⟩ ∧ InI64 ((-5) * 10 ^ 9 + -3) := ⟨⟨by decide, by decide⟩, by decide⟩

/-- C08.  Joining overflows (undefined behaviour, unchecked by the code) exactly if the product or the sum leaves the range. -/
theorem c08_from_ub_iff (s : SecsAndNanos) :
    (fromSecsAndNanos s).IsUB ↔ ¬ InI64 (s.secs * 10 ^ 9) ∨ ¬ InI64 (s.secs * 10 ^ 9 + s.nanos) := by
  unfold fromSecsAndNanos NANO i64
  have e : (10 : Int) ^ 9 = 1000000000 := by decide
  rw [e]
  by_cases h1 : InI64 (s.secs * 1000000000)
  · by_cases h2 : InI64 (s.secs * 1000000000 + s.nanos) <;> simp [h1, h2]
  · simp [h1]

example : (fromSecsAndNanos ⟨9223372037, 0⟩).IsUB := by rw [c08_from_ub_iff]; decide

/-- C09 (partial: durations since the epoch that are not negative).  The nanos are in the range protobuf's Timestamp requires. -/
theorem c09_nanos_range_partial (d : Int) (h : InI64 d) (h0 : 0 ≤ d) :
    ∃ s, toSecsAndNanos d = .ok s ∧ 0 ≤ s.nanos ∧ s.nanos ≤ 999999999 := by
  obtain ⟨e, f1, f2, f3, f4⟩ := tdiv_facts d 1000000000 (by decide)
  refine ⟨_, toSecsAndNanos_eq d h, ?_, ?_⟩ <;> simp only <;> omega

example : toSecsAndNanos 1500000000 = .ok ⟨1, 500000000⟩ := by decide

/-- C09 is false for times before the epoch: exactly those negative durations that are not whole seconds get negative nanos. -/
theorem c09_negative_nanos_iff (d : Int) (h : InI64 d) :
    (∃ s, toSecsAndNanos d = .ok s ∧ s.nanos < 0) ↔ d < 0 ∧ ¬ (10 ^ 9 ∣ d) := by
  rw [toSecsAndNanos_eq d h]
  obtain ⟨e0, f1, f2, f3, f4⟩ := tdiv_facts d 1000000000 (by decide)
  constructor
  · rintro ⟨s, e, hn⟩
    injection e with e
    subst e
    simp only at hn
    omega
  · rintro ⟨h1, h2⟩
    refine ⟨_, rfl, ?_⟩
    simp only
    omega

example : toSecsAndNanos (-1) = .ok ⟨0, -1⟩ := by decide

end Verif.Props
