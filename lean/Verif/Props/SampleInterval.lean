import Verif.Proofs.SampleInterval
import Verif.Spec.SampleInterval
import Mathlib.Tactic.FieldSimp
import Mathlib.Algebra.Order.Field.Rat
/-! # C03-C06: sampling an interval of timestamps -/
namespace Verif.Props
open Verif.SafeInt Verif.Spec Verif.SampleInterval

/-! ## C03 -/

theorem c03_aux (L dt : Int) (hL : 0 < L) (hdt : 0 < dt) : LeastCount L dt ((L - 1).tdiv dt + 2) := by
  have e : (L - 1).tdiv dt = (L - 1) / dt := Int.tdiv_eq_ediv_of_nonneg (by omega)
  have h0 : 0 ≤ (L - 1) / dt := Int.ediv_nonneg (by omega) hdt.le
  have h1 : (L - 1) / dt * dt ≤ L - 1 := Int.ediv_mul_le _ hdt.ne'
  have h2 : L - 1 < ((L - 1) / dt + 1) * dt := Int.lt_ediv_add_one_mul_self _ hdt
  rw [e]
  refine ⟨by omega, ?_, ?_⟩
  · unfold StepsFit; nlinarith
  · intro m hm hf
    unfold StepsFit at hf
    by_contra hc
    have : m - 1 ≤ (L - 1) / dt := by omega
    have : (m - 1) * dt ≤ (L - 1) / dt * dt := mul_le_mul_of_nonneg_right this hdt.le
    omega

/-- C03.  For distinct bounds whose distance fits in int64 and a positive step, `num_samples` returns the least sample count, except
for the single documented overflow: the count itself does not fit (then it throws). -/
theorem c03_num_samples_least (start stop dt : Int) (hs : InI64 start) (he : InI64 stop) (hd : InI64 dt)
    (hne : start ≠ stop) (hdt : 0 < dt) (hfit : |stop - start| ≤ I64MAX) :
    (∃ n, numSamples start stop dt = .ok n ∧ LeastCount |stop - start| dt n ∧ InI64 n) ∨
    (∃ n, numSamples start stop dt = .throw "Integer Overflow!" ∧ LeastCount |stop - start| dt n ∧ I64MAX < n) := by
  have hL : 0 < |stop - start| := abs_pos.mpr (by omega)
  have l := c03_aux _ _ hL hdt
  have h1 : InI64 (stop - start) := by
    have := abs_le.mp hfit
    simp only [InI64, I64MAX, I64MIN] at *; omega
  have h2 : InI64 |stop - start| := by simp only [InI64, I64MAX, I64MIN] at *; omega
  have e := numSamples_spec start stop dt hs he hd
  rw [if_neg (by omega), exactOrThrow_ok h1, Outcome.ok_bind, exactOrThrow_ok h2, Outcome.ok_bind] at e
  by_cases h : InI64 ((|stop - start| - 1).tdiv dt + 2)
  · left
    exact ⟨_, by rw [e, exactOrThrow_ok h], l, h⟩
  · right
    have : I64MAX < (|stop - start| - 1).tdiv dt + 2 := by
      have := l.two
      simp only [InI64, I64MAX, I64MIN] at *; omega
    refine ⟨_, ?_, l, this⟩
    rw [e]; unfold exactOrThrow
    simp only [I64MAX] at this
    rw [if_pos (by omega)]

example : InI64 0 ∧ InI64 8 ∧ InI64 3 ∧ (0 : Int) ≠ 8 ∧ |(8 : Int) - 0| ≤ I64MAX ∧ numSamples 0 8 3 = .ok 4 ∧
    numSamples 8 0 4 = .ok 3 := by decide

/-- C03.  `num_samples` throws for a non-positive step, and for a span that does not fit in int64 (or is exactly 2^63). -/
theorem c03_num_samples_throws (start stop dt : Int) (hs : InI64 start) (he : InI64 stop) (hd : InI64 dt)
    (h : dt ≤ 0 ∨ I64MAX < |stop - start|) : (numSamples start stop dt).IsThrow := by
  rw [numSamples_spec start stop dt hs he hd]
  split_ifs with h0
  · simp
  · have h : I64MAX < |stop - start| := by tauto
    by_cases h1 : InI64 (stop - start)
    · rw [exactOrThrow_ok h1, Outcome.ok_bind]
      have h2 : ¬ InI64 |stop - start| := by simp only [InI64]; omega
      obtain ⟨m, e⟩ := exactOrThrow_throw h2
      rw [e]; simp
    · obtain ⟨m, e⟩ := exactOrThrow_throw h1
      rw [e]; simp

example : (numSamples 0 5 0).IsThrow ∧ (numSamples I64MIN 0 5).IsThrow ∧ I64MAX < |(0 : Int) - I64MIN| :=
  ⟨⟨_, rfl⟩, ⟨_, rfl⟩, by decide⟩

/-- C03.  `num_samples` never has undefined behaviour. -/
theorem c03_num_samples_no_ub (start stop dt : Int) (hs : InI64 start) (he : InI64 stop) (hd : InI64 dt) :
    ¬ (numSamples start stop dt).IsUB := by
  rw [numSamples_spec start stop dt hs he hd]
  split_ifs with h0
  · simp
  · unfold exactOrThrow
    split_ifs <;> simp
    split_ifs <;> simp
    split_ifs <;> simp

example : InI64 I64MIN ∧ InI64 I64MAX ∧ (numSamples I64MIN I64MAX 1).IsThrow := ⟨by decide, by decide, ⟨_, rfl⟩⟩

/-- C03, degenerate case the header does not describe: for equal bounds one sample suffices, but the code returns 2 unless the step is
1 ns (`sample_interval` then makes a single call, so the two functions disagree). -/
theorem c03_equal_bounds (t dt : Int) (ht : InI64 t) (hd : InI64 dt) (hdt : 0 < dt) :
    numSamples t t dt = .ok (if dt = 1 then 1 else 2) := by
  rw [numSamples_spec t t dt ht ht hd, if_neg (by omega)]
  simp only [sub_self]
  have e1 : exactOrThrow 0 = .ok 0 := rfl
  rw [e1, Outcome.ok_bind, abs_zero, e1, Outcome.ok_bind]
  split_ifs with h
  · subst h; rfl
  · have : (0 - 1 : Int).tdiv dt = 0 := by
      have h3 := Int.neg_tdiv 1 dt
      have h4 : (1 : Int).tdiv dt = 0 := Int.tdiv_eq_zero_of_lt (by omega) (by omega)
      rw [h4] at h3
      simpa using h3
    rw [this]; rfl

example : numSamples 7 7 5 = .ok 2 ∧ (sampleInterval 7 7 5).calls = [7] := by decide

/-! ## Facts shared by C04-C06 -/

/-- The loop parameters of a call with distinct bounds for which `num_samples` returns. -/
theorem params_of_ok {start stop dt n : Int} (hs : InI64 start) (he : InI64 stop) (hd : InI64 dt)
    (hne : start ≠ stop) (hn : numSamples start stop dt = .ok n) :
    Params start (stop - start) (n - 1) ∧ 0 < dt ∧ LeastCount |stop - start| dt n ∧
      prepare start stop dt = .ok (n, n - 1, stop - start) := by
  have hdt : 0 < dt := by
    by_contra hc
    obtain ⟨m, e⟩ := c03_num_samples_throws start stop dt hs he hd (Or.inl (by omega))
    rw [e] at hn; cases hn
  have hfit : |stop - start| ≤ I64MAX := by
    by_contra hc
    obtain ⟨m, e⟩ := c03_num_samples_throws start stop dt hs he hd (Or.inr (by omega))
    rw [e] at hn; cases hn
  have hL : 0 < |stop - start| := abs_pos.mpr (by omega)
  have habs := abs_le.mp hfit
  have h1 : InI64 (stop - start) := by simp only [InI64, I64MAX, I64MIN] at *; omega
  have h2 : InI64 |stop - start| := by simp only [InI64, I64MAX, I64MIN] at *; omega
  have e := numSamples_spec start stop dt hs he hd
  rw [if_neg (by omega), exactOrThrow_ok h1, Outcome.ok_bind, exactOrThrow_ok h2, Outcome.ok_bind, hn] at e
  have hn' : n = (|stop - start| - 1).tdiv dt + 2 ∧ InI64 n := by
    by_cases h : InI64 ((|stop - start| - 1).tdiv dt + 2)
    · rw [exactOrThrow_ok h] at e
      injection e with e
      rw [e]; exact ⟨rfl, h⟩
    · obtain ⟨m, e'⟩ := exactOrThrow_throw h
      rw [e'] at e; cases e
  obtain ⟨en, n64⟩ := hn'
  have l := c03_aux _ _ hL hdt
  rw [← en] at l
  have e : (|stop - start| - 1).tdiv dt = (|stop - start| - 1) / dt := Int.tdiv_eq_ediv_of_nonneg (by omega)
  have q0 : (|stop - start| - 1) / dt ≤ |stop - start| - 1 := Int.ediv_le_self _ (by omega)
  refine ⟨⟨hs, by simpa using he, habs.2, habs.1, by have := l.two; omega, by omega, ?_⟩, hdt, l, ?_⟩
  · by_cases h1 : dt = 1
    · left
      subst h1
      rw [Int.tdiv_one] at en
      omega
    · right
      have : (|stop - start| - 1) / dt ≤ (|stop - start| - 1) / 2 := by
        have h3 : 0 ≤ (|stop - start| - 1) / dt := Int.ediv_nonneg (by omega) hdt.le
        have h4 : (|stop - start| - 1) / dt * dt ≤ |stop - start| - 1 := Int.ediv_mul_le _ hdt.ne'
        rw [Int.le_ediv_iff_mul_le (by omega)]
        have h5 : (|stop - start| - 1) / dt * 2 ≤ (|stop - start| - 1) / dt * dt := mul_le_mul_of_nonneg_left (by omega) h3
        omega
      simp only [I64MAX] at hfit
      omega
  · unfold prepare
    have := l.two
    rw [hn, Outcome.ok_bind, i64_ok (by simp only [InI64, I64MAX, I64MIN] at *; omega), Outcome.ok_bind,
      c01_safe_difference_exact _ _ he hs, exactOrThrow_ok h1]
    rfl

/-- The sequence of calls a run should make: sample `i` is `start + offset i`. -/
theorem run_cases {start stop dt n : Int} (hs : InI64 start) (he : InI64 stop) (hd : InI64 dt)
    (hne : start ≠ stop) (hn : numSamples start stop dt = .ok n) :
    (∃ (k : Nat) (msg : String), 0 < k ∧ (k : Int) ≤ n ∧
        sampleInterval start stop dt =
          ⟨(List.range k).map (fun l => start + offset (stop - start) (n - 1) l), .throw msg⟩ ∧
        ∃ r : Int, |r| < n - 1 ∧ ¬ InI64 (r + (stop - start))) ∨
    (sampleInterval start stop dt =
          ⟨(List.range n.toNat).map (fun l => start + offset (stop - start) (n - 1) l), .ok ()⟩ ∧
        InI64 ((stop - start) + (stop - start).tdiv (n - 1))) ∨
    (sampleInterval start stop dt =
          ⟨(List.range n.toNat).map (fun l => start + offset (stop - start) (n - 1) l), .ub "signed overflow"⟩ ∧
        ¬ InI64 ((stop - start) + (stop - start).tdiv (n - 1))) := by
  obtain ⟨P, hdt, l, hp⟩ := params_of_ok hs he hd hne hn
  have h2 := l.two
  have ls := loop_spec P n.toNat 0 0 0 (Inv.zero P.npos) (by push_cast; omega) (by omega)
  have e : sampleInterval start stop dt = sampleLoop start (stop - start) (n - 1) n.toNat 0 0 := by
    unfold sampleInterval
    rw [if_neg hne, hp]
  rw [e, List.range_eq_range']
  rcases ls with ⟨j, msg, hj, e2, r⟩ | ls | ls
  · left
    refine ⟨j + 1, msg, by omega, by omega, ?_, r⟩
    rw [e2, List.range_eq_range']
  · right; left; exact ls
  · right; right; exact ls

theorem offset_zero (T n : Int) (hn : 0 < n) : offset T n 0 = 0 := by
  unfold offset
  split_ifs
  · simp only [Nat.cast_zero, zero_mul, mul_zero, zero_add]
    exact Int.ediv_eq_zero_of_lt hn.le (by omega)
  · simp

theorem offset_last (T n : Int) (hn : 0 < n) (i : Nat) (hi : (i : Int) = n) : offset T n i = T := by
  unfold offset
  rw [hi]
  split_ifs
  · rw [Int.ediv_eq_iff_of_pos (by omega)]
    constructor <;> nlinarith
  · rw [Int.mul_ediv_cancel_left _ hn.ne']; simp

theorem offset_step_fwd (T n : Int) (hn : 0 < n) (hT : 0 ≤ T) (i : Nat) :
    offset T n i ≤ offset T n (i + 1) := by
  unfold offset
  rw [if_pos hT, if_pos hT]
  apply Int.ediv_le_ediv (by omega)
  push_cast
  nlinarith

theorem offset_step_bwd (T n : Int) (hn : 0 < n) (hT : T ≤ 0) (i : Nat) :
    offset T n (i + 1) ≤ offset T n i := by
  rcases hT.eq_or_lt with h0 | h0
  · subst h0; simp [offset]
  · unfold offset
    rw [if_neg (by omega), if_neg (by omega)]
    have : (i : Int) * -T / n ≤ ((i + 1 : Nat) : Int) * -T / n := by
      apply Int.ediv_le_ediv hn
      push_cast
      nlinarith
    omega

theorem offset_gap (T n dt : Int) (hn : 0 < n) (hfit : |T| ≤ n * dt) (i : Nat) :
    |offset T n (i + 1) - offset T n i| ≤ dt := by
  have hab := abs_le.mp hfit
  rcases le_total 0 T with hT | hT
  · have h1 := offset_step_fwd T n hn hT i
    rw [abs_of_nonneg (by omega)]
    have h2 : offset T n (i + 1) ≤ offset T n i + dt := by
      unfold offset
      rw [if_pos hT, if_pos hT, ← Int.add_mul_ediv_right _ _ (by omega : 2 * n ≠ 0)]
      apply Int.ediv_le_ediv (by omega)
      push_cast
      nlinarith
    omega
  · have h1 := offset_step_bwd T n hn hT i
    rw [abs_of_nonpos (by omega)]
    rcases hT.eq_or_lt with h0 | h0
    · subst h0
      have : 0 ≤ dt := by
        by_contra hc
        have : n * dt < 0 := mul_neg_of_pos_of_neg hn (by omega)
        simp at hfit; omega
      simp [offset, this]
    · have h2 : ((i + 1 : Nat) : Int) * -T / n ≤ (i : Int) * -T / n + dt := by
        rw [← Int.add_mul_ediv_right _ _ hn.ne']
        apply Int.ediv_le_ediv hn
        push_cast
        nlinarith
      unfold offset
      rw [if_neg (by omega), if_neg (by omega)]
      omega

theorem offset_between (T n : Int) (hn : 0 < n) (i : Nat) (hi : (i : Int) ≤ n) :
    (0 ≤ T → 0 ≤ offset T n i ∧ offset T n i ≤ T) ∧ (T ≤ 0 → T ≤ offset T n i ∧ offset T n i ≤ 0) := by
  constructor
  · intro hT
    unfold offset
    rw [if_pos hT]
    constructor
    · exact Int.ediv_nonneg (by positivity) (by omega)
    · rw [← Int.lt_add_one_iff, Int.ediv_lt_iff_lt_mul (by omega)]
      have : (i : Int) * T ≤ n * T := mul_le_mul_of_nonneg_right hi hT
      nlinarith
  · intro hT
    rcases hT.eq_or_lt with h0 | h0
    · subst h0
      have : n / (2 * n) = 0 := Int.ediv_eq_zero_of_lt hn.le (by omega)
      simp [offset, this]
    · unfold offset
      rw [if_neg (by omega)]
      have h1 : 0 ≤ (i : Int) * -T / n := Int.ediv_nonneg (mul_nonneg (by positivity) (by omega)) hn.le
      have h2 : (i : Int) * -T / n ≤ -T := by
        rw [← Int.lt_add_one_iff, Int.ediv_lt_iff_lt_mul hn]
        have : (i : Int) * -T ≤ n * -T := mul_le_mul_of_nonneg_right hi (by omega)
        nlinarith
      omega

/-! ## C04 -/

/-- C04.  A completed `sample_interval` on distinct bounds makes exactly `num_samples` calls, which walk from `start` to `stop` without
turning back and in steps of at most `dt`, in either order of the bounds. -/
theorem c04_sample_interval_walks (start stop dt : Int) (hs : InI64 start) (he : InI64 stop) (hd : InI64 dt)
    (hne : start ≠ stop) (hok : (sampleInterval start stop dt).result = .ok ()) :
    Walks start stop dt (sampleInterval start stop dt).calls ∧
    numSamples start stop dt = .ok ((sampleInterval start stop dt).calls.length : Int) := by
  have hn : ∃ n, numSamples start stop dt = .ok n := by
    unfold sampleInterval at hok
    rw [if_neg hne] at hok
    unfold prepare at hok
    cases h : numSamples start stop dt with
    | ok n => exact ⟨n, rfl⟩
    | throw m => rw [h] at hok; simp at hok
    | ub m => rw [h] at hok; simp at hok
  obtain ⟨n, hn⟩ := hn
  obtain ⟨P, hdt, l, hp⟩ := params_of_ok hs he hd hne hn
  rcases run_cases hs he hd hne hn with ⟨k, msg, _, _, e, _⟩ | ⟨e, _⟩ | ⟨e, _⟩
  · rw [e] at hok; cases hok
  · rw [e]
    have h2 := l.two
    have hn0 := P.npos
    have len : ((List.range n.toNat).map (fun l => start + offset (stop - start) (n - 1) l)).length = n.toNat := by simp
    refine ⟨⟨?_, ?_, ?_, ?_, ?_, ?_⟩, ?_⟩
    · obtain ⟨k, hk⟩ : ∃ k, n.toNat = k + 1 := ⟨n.toNat - 1, by omega⟩
      simp only [hk, List.range_succ_eq_map]
      simp [offset_zero _ _ hn0]
    · obtain ⟨k, hk⟩ : ∃ k, n.toNat = k + 1 := ⟨n.toNat - 1, by omega⟩
      simp only [hk, List.range_succ]
      rw [List.map_append, List.map_singleton, List.getLast?_concat, offset_last _ _ hn0 k (by omega)]
      simp
    · intro x hx
      simp only [List.mem_map, List.mem_range] at hx
      obtain ⟨i, hi, rfl⟩ := hx
      have := offset_between (stop - start) (n - 1) hn0 i (by omega)
      unfold Between
      omega
    · intro i hi hle
      simp only [List.getElem_map, List.getElem_range]
      have := offset_step_fwd (stop - start) (n - 1) hn0 (by omega) i
      omega
    · intro i hi hle
      simp only [List.getElem_map, List.getElem_range]
      have := offset_step_bwd (stop - start) (n - 1) hn0 (by omega) i
      omega
    · intro i hi
      simp only [List.getElem_map, List.getElem_range]
      have := offset_gap (stop - start) (n - 1) dt hn0 l.fits i
      have e : start + offset (stop - start) (n - 1) (i + 1) - (start + offset (stop - start) (n - 1) i) =
        offset (stop - start) (n - 1) (i + 1) - offset (stop - start) (n - 1) i := by ring
      rw [e]; exact this
    · rw [hn, len]; congr 1; omega
  · rw [e] at hok; cases hok

/-- Hypotheses met by a forward and a backward interval; the calls are those of the header's example. -/
example : InI64 0 ∧ InI64 8 ∧ InI64 3 ∧ (sampleInterval 0 8 3).result = .ok () ∧ (sampleInterval 0 8 3).calls = [0, 3, 5, 8] ∧
    (sampleInterval 8 0 3).result = .ok () ∧ (sampleInterval 8 0 3).calls = [8, 6, 3, 0] := by decide

/-- C04, equal bounds: exactly one call, at that time, whatever the step. -/
theorem c04_equal_bounds (t dt : Int) : sampleInterval t t dt = ⟨[t], .ok ()⟩ := by
  simp [sampleInterval]

example : sampleInterval 5 5 (-1) = ⟨[5], .ok ()⟩ := by decide

/-! ## C05 -/

/-- A rounded value within half a unit of `q` is a nearest integer. -/
theorem nearest_of_half (x : Int) (q : Rat) (h : |(x : Rat) - q| ≤ 1 / 2) : IsNearest x q := by
  intro z
  by_cases hz : z = x
  · subst hz; exact le_refl _
  · have h1 : (1 : Rat) ≤ |(z : Rat) - x| := by
      have : (1 : Int) ≤ |z - x| := Int.one_le_abs (by omega)
      exact_mod_cast this
    have h2 : |(z : Rat) - x| ≤ |(z : Rat) - q| + |(x : Rat) - q| := by
      have := abs_sub_abs_le_abs_sub ((z : Rat) - q) (x - q)
      have h3 := abs_sub ((z : Rat) - q) (x - q)
      have e : (z : Rat) - q - (x - q) = z - x := by ring
      rw [e] at h3
      exact h3
    linarith

/-- C05 (partial: forward intervals only; for backward intervals the claim is false, see `c05_backward_not_nearest`).
Every sample of a forward interval, delivered before any failure, is a closest integer timestamp to its ideal position. -/
theorem c05_forward_nearest_partial (start stop dt n : Int) (hs : InI64 start) (he : InI64 stop) (hd : InI64 dt)
    (hlt : start < stop) (hn : numSamples start stop dt = .ok n)
    (i : Nat) (hi : i < (sampleInterval start stop dt).calls.length) :
    IsNearest (sampleInterval start stop dt).calls[i] (idealPosition start stop n i) := by
  obtain ⟨P, hdt, l, hp⟩ := params_of_ok hs he hd (by omega) hn
  have hn0 := P.npos
  have key : ∀ j : Nat, IsNearest (start + offset (stop - start) (n - 1) j) (idealPosition start stop n j) := by
    intro j
    apply nearest_of_half
    unfold offset idealPosition
    rw [if_pos (by omega)]
    set T := stop - start with hT
    set m := n - 1 with hm
    set z := (2 * (j * T) + m) / (2 * m) with hz
    have h1 : z * (2 * m) ≤ 2 * (j * T) + m := Int.ediv_mul_le _ (by omega)
    have h2 : 2 * (j * T) + m < (z + 1) * (2 * m) := Int.lt_ediv_add_one_mul_self _ (by omega)
    have h1' : (z : Rat) * (2 * m) ≤ 2 * (j * T) + m := by exact_mod_cast h1
    have h2' : (2 : Rat) * (j * T) + m < (z + 1) * (2 * m) := by exact_mod_cast h2
    have hm' : (0 : Rat) < m := by exact_mod_cast hn0
    have e1 : (stop : Rat) - start = T := by rw [hT]; push_cast; ring
    have e2 : (n : Rat) - 1 = m := by rw [hm]; push_cast; ring
    rw [e1, e2]
    have e3 : ((start + z : Int) : Rat) - (start + (j : Rat) * T / m) = (z * m - j * T) / m := by
      push_cast; field_simp; ring
    rw [e3, abs_div, abs_of_pos hm', div_le_iff₀ hm', abs_le]
    constructor <;> nlinarith
  rcases run_cases hs he hd (by omega) hn with ⟨k, msg, _, _, e, _⟩ | ⟨e, _⟩ | ⟨e, _⟩ <;>
  · simp only [e, List.getElem_map, List.getElem_range]
    exact key i

example : numSamples 0 8 3 = .ok 4 ∧ (sampleInterval 0 8 3).calls[1]? = some 3 ∧ idealPosition 0 8 4 1 = 8 / 3 := by
  refine ⟨by decide, by decide, ?_⟩
  norm_num [idealPosition]

/-- C05 is false for backward intervals: `sample_interval(8ns, 0ns, 3ns)` makes its second call at 6 ns although 5 ns is closer to
the ideal position 16/3 ns. -/
theorem c05_backward_not_nearest :
    ∃ (start stop dt n : Int) (i : Nat) (h : i < (sampleInterval start stop dt).calls.length),
      InI64 start ∧ InI64 stop ∧ InI64 dt ∧ numSamples start stop dt = .ok n ∧
      (sampleInterval start stop dt).result = .ok () ∧
      ¬ IsNearest (sampleInterval start stop dt).calls[i] (idealPosition start stop n i) := by
  have e : sampleInterval 8 0 3 = ⟨[8, 6, 3, 0], .ok ()⟩ := by decide
  refine ⟨8, 0, 3, 4, 1, by rw [e]; decide, by decide, by decide, by decide, by decide, by decide, ?_⟩
  intro h
  have h5 := h 5
  simp only [e] at h5
  norm_num [idealPosition, abs_le] at h5

example : InI64 8 := by decide

/-- C05, what does hold for backward intervals: every sample is less than 1 ns from its ideal position, on the side of `start`. -/
theorem c05_backward_within_one_partial (start stop dt n : Int) (hs : InI64 start) (he : InI64 stop) (hd : InI64 dt)
    (hlt : stop < start) (hn : numSamples start stop dt = .ok n)
    (i : Nat) (hi : i < (sampleInterval start stop dt).calls.length) :
    0 ≤ ((sampleInterval start stop dt).calls[i] : Rat) - idealPosition start stop n i ∧
    ((sampleInterval start stop dt).calls[i] : Rat) - idealPosition start stop n i < 1 := by
  obtain ⟨P, hdt, l, hp⟩ := params_of_ok hs he hd (by omega) hn
  have hn0 := P.npos
  have key : ∀ j : Nat, 0 ≤ ((start + offset (stop - start) (n - 1) j : Int) : Rat) - idealPosition start stop n j ∧
      ((start + offset (stop - start) (n - 1) j : Int) : Rat) - idealPosition start stop n j < 1 := by
    intro j
    unfold offset idealPosition
    rw [if_neg (by omega)]
    set T := stop - start with hT
    set m := n - 1 with hm
    set z := (j * -T) / m with hz
    have h1 : z * m ≤ j * -T := Int.ediv_mul_le _ (by omega)
    have h2 : j * -T < (z + 1) * m := Int.lt_ediv_add_one_mul_self _ (by omega)
    have h1' : (z : Rat) * m ≤ j * -T := by exact_mod_cast h1
    have h2' : (j : Rat) * -T < (z + 1) * m := by exact_mod_cast h2
    have hm' : (0 : Rat) < m := by exact_mod_cast hn0
    have e1 : (stop : Rat) - start = T := by rw [hT]; push_cast; ring
    have e2 : (n : Rat) - 1 = m := by rw [hm]; push_cast; ring
    rw [e1, e2]
    have e3 : ((start + -z : Int) : Rat) - (start + (j : Rat) * T / m) = (-z * m - j * T) / m := by
      push_cast; field_simp; ring
    rw [e3]
    constructor
    · apply div_nonneg _ hm'.le; linarith
    · rw [div_lt_one hm']; linarith
  rcases run_cases hs he hd (by omega) hn with ⟨k, msg, _, _, e, _⟩ | ⟨e, _⟩ | ⟨e, _⟩ <;>
  · simp only [e, List.getElem_map, List.getElem_range]
    exact key i

example : (0 : Int) < 8 ∧ numSamples 8 0 3 = .ok 4 ∧ (sampleInterval 8 0 3).calls[1]? = some 6 := by decide

/-! ## C06 -/

/-- C06 is false as stated: the last loop iteration adds once more to `whole` although the value is never used, which overflows for
long intervals.  `sample_interval(0, 2^63-1, 2^63-1)` has undefined behaviour. -/
theorem c06_not_ub_free : ∃ start stop dt : Int, InI64 start ∧ InI64 stop ∧ InI64 dt ∧ 0 < dt ∧
    (numSamples start stop dt).IsOk ∧ (sampleInterval start stop dt).result.IsUB :=
  ⟨0, I64MAX, I64MAX, by decide, by decide, by decide, by decide, ⟨2, by decide⟩, ⟨"signed overflow", by decide⟩⟩

example : (numSamples 0 I64MAX I64MAX) = .ok 2 := by decide

/-- C06.  `sample_interval` can throw part-way although `num_samples` succeeded: after delivering two of its three samples. -/
theorem c06_throws_midway : ∃ start stop dt : Int, InI64 start ∧ InI64 stop ∧ InI64 dt ∧ 0 < dt ∧
    numSamples start stop dt = .ok 3 ∧
    sampleInterval start stop dt = ⟨[0, 4611686018427387904], .throw "Integer Overflow!"⟩ :=
  ⟨0, I64MAX, 4611686018427387904, by decide, by decide, by decide, by decide, by decide, by decide⟩

example : numSamples 0 I64MAX 4611686018427387904 = .ok 3 := by decide

/-- C06 (partial: long intervals excluded, where the claim is false).  For intervals shorter than 2^62 ns (146 years) the call always
completes: no exception and no undefined behaviour. -/
theorem c06_completes_partial (start stop dt : Int) (hs : InI64 start) (he : InI64 stop) (hd : InI64 dt) (hdt : 0 < dt)
    (hshort : |stop - start| < 2 ^ 62) : (sampleInterval start stop dt).result = .ok () := by
  by_cases hne : start = stop
  · simp [sampleInterval, hne]
  have hn : ∃ n, numSamples start stop dt = .ok n := by
    rcases c03_num_samples_least start stop dt hs he hd hne hdt (by simp only [I64MAX]; omega) with
      ⟨n, e, _⟩ | ⟨n, _, l, hbig⟩
    · exact ⟨n, e⟩
    · exfalso
      have := l.least (|stop - start| + 1) (by have : 0 < |stop - start| := abs_pos.mpr (by omega)
                                               omega) (by unfold StepsFit; nlinarith [abs_nonneg (stop - start)])
      simp only [I64MAX] at hbig; omega
  obtain ⟨n, hn⟩ := hn
  obtain ⟨P, _, l, hp⟩ := params_of_ok hs he hd hne hn
  have h2 := l.two
  have hnle := P.nle
  have hab := abs_lt.mp hshort
  rcases run_cases hs he hd hne hn with ⟨k, msg, _, _, _, r, hr, hbad⟩ | ⟨e, _⟩ | ⟨_, hbad⟩
  · exfalso
    apply hbad
    have := abs_lt.mp hr
    simp only [InI64, I64MAX, I64MIN]; omega
  · rw [e]
  · exfalso
    apply hbad
    have h3 := abs_le.mp (abs_tdiv_le (stop - start) (n - 1))
    simp only [InI64, I64MAX, I64MIN]
    omega

example : |(1700000000000000000 : Int) - 1600000000000000000| < 2 ^ 62 ∧ InI64 1700000000000000000 := by decide

/-- C06.  Exact account of every call with distinct bounds for which `num_samples` returns `n`: the calls made are always the first
samples of one fixed sequence in order; the call throws only if some partial sum of the loop does not fit; otherwise all `n` samples are
delivered, and the call ends with undefined behaviour exactly if one further step beyond `stop` would leave the int64 range. -/
theorem c06_account (start stop dt n : Int) (hs : InI64 start) (he : InI64 stop) (hd : InI64 dt)
    (hne : start ≠ stop) (hn : numSamples start stop dt = .ok n) :
    ∃ ideal : Nat → Int, ideal 0 = start ∧ ideal (n - 1).toNat = stop ∧
      (∀ i : Nat, (i : Int) < n → Between start stop (ideal i)) ∧
      ((∃ (k : Nat) (msg : String), 0 < k ∧ (k : Int) ≤ n ∧
          sampleInterval start stop dt = ⟨(List.range k).map ideal, .throw msg⟩ ∧
          ∃ r : Int, |r| < n - 1 ∧ ¬ InI64 (r + (stop - start))) ∨
       (sampleInterval start stop dt).calls = (List.range n.toNat).map ideal ∧
         ((sampleInterval start stop dt).result = .ok () ∧ InI64 ((stop - start) + (stop - start).tdiv (n - 1)) ∨
          (sampleInterval start stop dt).result.IsUB ∧ ¬ InI64 ((stop - start) + (stop - start).tdiv (n - 1)))) := by
  obtain ⟨P, hdt, l, hp⟩ := params_of_ok hs he hd hne hn
  have hn0 := P.npos
  have h2 := l.two
  refine ⟨fun i => start + offset (stop - start) (n - 1) i, ?_, ?_, ?_, ?_⟩
  · simp [offset_zero _ _ hn0]
  · simp only
    rw [offset_last _ _ hn0 _ (by omega)]; omega
  · intro i hi
    have := offset_between (stop - start) (n - 1) hn0 i (by omega)
    unfold Between
    simp only
    omega
  · rcases run_cases hs he hd hne hn with h | ⟨e, h⟩ | ⟨e, h⟩
    · left; exact h
    · right; rw [e]; exact ⟨rfl, Or.inl ⟨rfl, h⟩⟩
    · right; rw [e]; exact ⟨rfl, Or.inr ⟨⟨_, rfl⟩, h⟩⟩

example : numSamples 10 (-10) 7 = .ok 4 ∧ (10 : Int) ≠ -10 := by decide

end Verif.Props
