import Verif.Model.SampleInterval
import Verif.Props.SafeInt
import Mathlib.Tactic.Linarith
import Mathlib.Tactic.Ring
import Mathlib.Tactic.Positivity
/-! # Helper lemmas about the sampling loop -/
namespace Verif.SampleInterval
open Verif.SafeInt Verif.Spec Verif.Props

/-- Closed form of the offset of sample `i` from the start. -/
def offset (T n : Int) (i : Nat) : Int :=
  if 0 ≤ T then (2 * (i * T) + n) / (2 * n) else -((i * -T) / n)

/-- Loop invariant: `whole + numerator / n = i T / n` as a mixed number with the sign of `T`. -/
structure Inv (T n : Int) (i : Nat) (whole num : Int) : Prop where
  eq : whole * n + num = i * T
  lt : num < n
  gt : -n < num
  pos : 0 ≤ T → 0 ≤ num
  neg : T ≤ 0 → num ≤ 0

theorem Inv.zero {T n : Int} (hn : 0 < n) : Inv T n 0 0 0 := by
  constructor <;> simp [hn]

/-- Bounds on `whole` from the invariant. -/
theorem Inv.whole_pos {T n : Int} {i : Nat} {w m : Int} (h : Inv T n i w m) (hn : 0 < n) (hi : (i : Int) ≤ n) (hT : 0 ≤ T) :
    0 ≤ w ∧ w ≤ T := by
  have h1 := h.eq
  have h2 := h.pos hT
  have h3 := h.lt
  have h4 : (0 : Int) ≤ i * T := by positivity
  have h5 : (i : Int) * T ≤ n * T := by exact mul_le_mul_of_nonneg_right hi hT
  constructor
  · by_contra hc
    have : w ≤ -1 := by omega
    have : w * n ≤ -1 * n := by exact mul_le_mul_of_nonneg_right this hn.le
    linarith
  · by_contra hc
    have : T + 1 ≤ w := by omega
    have : (T + 1) * n ≤ w * n := by exact mul_le_mul_of_nonneg_right this hn.le
    nlinarith

theorem Inv.whole_neg {T n : Int} {i : Nat} {w m : Int} (h : Inv T n i w m) (hn : 0 < n) (hi : (i : Int) ≤ n) (hT : T ≤ 0) :
    T ≤ w ∧ w ≤ 0 := by
  have h1 := h.eq
  have h2 := h.neg hT
  have h3 := h.gt
  have h4 : (i : Int) * T ≤ 0 := mul_nonpos_of_nonneg_of_nonpos (by positivity) hT
  have h5 : n * T ≤ (i : Int) * T := by exact mul_le_mul_of_nonpos_right hi hT
  constructor
  · by_contra hc
    have : w ≤ T - 1 := by omega
    have : w * n ≤ (T - 1) * n := by exact mul_le_mul_of_nonneg_right this hn.le
    nlinarith
  · by_contra hc
    have : 1 ≤ w := by omega
    have : 1 * n ≤ w * n := by exact mul_le_mul_of_nonneg_right this hn.le
    linarith

/-- The rounded offset computed by the loop is the closed form. -/
theorem Inv.rounded_eq {T n : Int} {i : Nat} {w m : Int} (h : Inv T n i w m) (hn : 0 < n) :
    w + (if 2 * m ≥ n then 1 else 0) = offset T n i := by
  have h1 := h.eq
  have hlt := h.lt
  have hgt := h.gt
  unfold offset
  split_ifs with h2 hT hT
  · symm
    have := h.pos hT
    rw [Int.ediv_eq_iff_of_pos (by omega)]
    constructor <;> nlinarith
  · have := h.neg (by omega)
    omega
  · symm
    have := h.pos hT
    rw [Int.ediv_eq_iff_of_pos (by omega)]
    constructor <;> nlinarith
  · have hm := h.neg (by omega)
    have : (i * -T) / n = -w := by
      rw [Int.ediv_eq_iff_of_pos hn]
      constructor <;> nlinarith
    omega

theorem Inv.rounded_pos {T n : Int} {i : Nat} {w m : Int} (h : Inv T n i w m) (hn : 0 < n) (hi : (i : Int) ≤ n) (hT : 0 ≤ T) :
    0 ≤ w + (if 2 * m ≥ n then 1 else 0) ∧ w + (if 2 * m ≥ n then 1 else 0) ≤ T := by
  obtain ⟨a, b⟩ := h.whole_pos hn hi hT
  have h1 := h.eq
  have h5 : (i : Int) * T ≤ n * T := by exact mul_le_mul_of_nonneg_right hi hT
  split_ifs with h2
  · refine ⟨by omega, ?_⟩
    by_contra hc
    have : w = T := by omega
    subst this
    nlinarith
  · omega

theorem Inv.rounded_neg {T n : Int} {i : Nat} {w m : Int} (h : Inv T n i w m) (hn : 0 < n) (hi : (i : Int) ≤ n) (hT : T ≤ 0) :
    T ≤ w + (if 2 * m ≥ n then 1 else 0) ∧ w + (if 2 * m ≥ n then 1 else 0) ≤ 0 := by
  obtain ⟨a, b⟩ := h.whole_neg hn hi hT
  have := h.neg hT
  split_ifs with h2 <;> omega

/-- What `num_samples` guarantees about the loop parameters. -/
structure Params (start T n : Int) : Prop where
  start64 : InI64 start
  stop64 : InI64 (start + T)
  tmax : T ≤ I64MAX
  tmin : -I64MAX ≤ T
  npos : 0 < n
  nle : n ≤ |T|
  small : n = |T| ∨ n ≤ 2 ^ 62

theorem Inv.num_zero {T n : Int} {i : Nat} {w m : Int} (h : Inv T n i w m) (hn : 0 < n) (hT : n = |T|) : m = 0 := by
  have h1 := h.eq
  have hd : n ∣ m := by
    have e : m = i * T - w * n := by linarith
    rw [e]
    refine dvd_sub (dvd_mul_of_dvd_right ?_ _) (dvd_mul_left _ _)
    rw [hT]; exact (abs_dvd T T).mpr dvd_rfl
  obtain ⟨c, rfl⟩ := hd
  have h2 := h.lt
  have h3 := h.gt
  have : c < 1 := by nlinarith
  have : -1 < c := by nlinarith
  have : c = 0 := by omega
  simp [this]

theorem sampleAt_ok {start T n : Int} (P : Params start T n) {i : Nat} {w m : Int} (h : Inv T n i w m) (hi : (i : Int) ≤ n) :
    sampleAt start n w m = .ok (start + offset T n i) := by
  have hn := P.npos
  have two : InI64 (2 * m) := by
    rcases P.small with hs | hs
    · rw [h.num_zero hn hs]; decide
    · have := h.lt
      have := h.gt
      simp only [InI64, I64MAX, I64MIN]
      omega
  obtain ⟨s1, s2⟩ := P.start64
  obtain ⟨e1, e2⟩ := P.stop64
  have t1 := P.tmax
  have t2 := P.tmin
  unfold sampleAt
  rw [i64_ok two, Outcome.ok_bind, h.rounded_eq hn]
  rcases le_total 0 T with hT | hT
  · obtain ⟨r1, r2⟩ := h.rounded_pos hn hi hT
    rw [h.rounded_eq hn] at r1 r2
    simp only [I64MAX, I64MIN] at *
    rw [i64_ok' (by omega) (by omega), Outcome.ok_bind, i64_ok' (by omega) (by omega)]
  · obtain ⟨r1, r2⟩ := h.rounded_neg hn hi hT
    rw [h.rounded_eq hn] at r1 r2
    simp only [I64MAX, I64MIN] at *
    rw [i64_ok' (by omega) (by omega), Outcome.ok_bind, i64_ok' (by omega) (by omega)]

theorem Inv.next {T n : Int} (hn : 0 < n) {i : Nat} {w m : Int} (h : Inv T n i w m) :
    Inv T n (i + 1) (w + (m + T).tdiv n) ((m + T).tmod n) := by
  have e := Int.tdiv_mul_add_tmod (m + T) n
  constructor
  · have := h.eq
    push_cast
    linarith
  · have := Int.tmod_lt_of_pos (m + T) hn; exact this
  · rcases le_total 0 (m + T) with hs | hs
    · have := Int.tmod_nonneg n hs; omega
    · have h2 := Int.neg_tmod (a := -(m + T)) (b := n)
      rw [neg_neg] at h2
      have := Int.tmod_lt_of_pos (-(m + T)) hn
      omega
  · intro hT
    exact Int.tmod_nonneg n (by have := h.pos hT; omega)
  · intro hT
    have h2 := Int.neg_tmod (a := -(m + T)) (b := n)
    rw [neg_neg] at h2
    have := Int.tmod_nonneg n (a := -(m + T)) (by have := h.neg hT; omega)
    omega

theorem abs_tdiv_le (a b : Int) : |a.tdiv b| ≤ |a| := by
  rw [← Int.natCast_natAbs, ← Int.natCast_natAbs, Int.natAbs_tdiv]
  exact_mod_cast Nat.div_le_self _ _

/-- One update step: it succeeds, throws because the numerator sum does not fit, or overflows `whole`. -/
theorem advance_cases {start T n : Int} (P : Params start T n) {i : Nat} {w m : Int} (h : Inv T n i w m) :
    (∃ msg, advance T n w m = .throw msg ∧ ¬ InI64 (m + T)) ∨
    (advance T n w m = .ok (w + (m + T).tdiv n, (m + T).tmod n) ∧ InI64 (m + T) ∧ InI64 (w + (m + T).tdiv n)) ∨
    (advance T n w m = .ub "signed overflow" ∧ InI64 (m + T) ∧ ¬ InI64 (w + (m + T).tdiv n)) := by
  have hn := P.npos
  have t1 := P.tmax
  have t2 := P.tmin
  have hm1 := h.lt
  have hm2 := h.gt
  have hnT := P.nle
  have hTabs : |T| ≤ I64MAX := abs_le.mpr ⟨t2, t1⟩
  have hm : InI64 m := by simp only [InI64, I64MAX, I64MIN] at *; omega
  have hT : InI64 T := by simp only [InI64, I64MAX, I64MIN] at *; omega
  unfold advance
  rw [c01_safe_sum_exact m T hm hT]
  by_cases hs : InI64 (m + T)
  · right
    have e : exactOrThrow (m + T) = .ok (m + T) := by
      unfold exactOrThrow
      simp only [InI64, I64MAX, I64MIN] at hs
      rw [if_neg (by omega), if_neg (by omega)]
    have q : InI64 ((m + T).tdiv n) := by
      have h1 := abs_tdiv_le (m + T) n
      have h3 := abs_le.mp h1
      have h4 : |m + T| ≤ I64MAX + 1 := by
        simp only [InI64, I64MAX, I64MIN] at hs ⊢
        exact abs_le.mpr ⟨by omega, by omega⟩
      simp only [InI64, I64MAX, I64MIN] at hs h4 ⊢
      refine ⟨by omega, ?_⟩
      by_contra hc
      rcases le_total 0 (m + T) with h0 | h0
      · rw [abs_of_nonneg h0] at h1
        have := abs_le.mp h1
        omega
      · have h2 := Int.neg_tdiv (-(m + T)) n
        rw [neg_neg] at h2
        have : 0 ≤ (-(m + T)).tdiv n := Int.tdiv_nonneg (by omega) hn.le
        omega
    rw [e]
    by_cases wq : InI64 (w + (m + T).tdiv n)
    · left
      refine ⟨?_, hs, wq⟩
      simp only [Outcome.ok_bind, i64div, i64mod, i64, hn.ne', q, wq, if_true, if_false, Outcome.pure_eq]
    · right
      refine ⟨?_, hs, wq⟩
      simp only [Outcome.ok_bind, i64div, i64, hn.ne', q, wq, if_true, if_false, Outcome.ub_bind]
  · left
    have e : ∃ msg, exactOrThrow (m + T) = .throw msg := by
      unfold exactOrThrow
      split_ifs with h1 h2
      · exact ⟨_, rfl⟩
      · exact ⟨_, rfl⟩
      · exfalso; apply hs; simp only [InI64, I64MAX, I64MIN]; omega
    obtain ⟨msg, e⟩ := e
    exact ⟨msg, by rw [e]; rfl, hs⟩

/-- Before the last iteration `whole` cannot overflow. -/
theorem whole_ok {start T n : Int} (P : Params start T n) {i : Nat} {w m : Int} (h : Inv T n i w m) (hi : (i : Int) + 1 ≤ n) :
    InI64 (w + (m + T).tdiv n) := by
  have hn := P.npos
  have t1 := P.tmax
  have t2 := P.tmin
  have nx := h.next hn
  rcases le_total 0 T with h0 | h0
  · have := nx.whole_pos hn (by push_cast; omega) h0
    simp only [InI64, I64MAX, I64MIN] at *; omega
  · have := nx.whole_neg hn (by push_cast; omega) h0
    simp only [InI64, I64MAX, I64MIN] at *; omega

/-- In the last iteration the mixed number is exactly `T`. -/
theorem Inv.last {T n : Int} (hn : 0 < n) {i : Nat} {w m : Int} (h : Inv T n i w m) (hi : (i : Int) = n) : w = T ∧ m = 0 := by
  have h1 := h.eq
  have h2 := h.lt
  have h3 := h.gt
  rw [hi] at h1
  have e : m = n * (T - w) := by linarith
  have h4 : T - w < 1 := by nlinarith
  have h5 : -1 < T - w := by nlinarith
  have : T - w = 0 := by omega
  rw [this] at e
  exact ⟨by omega, by simpa using e⟩

/-- Complete description of the loop from an arbitrary iteration on. -/
theorem loop_spec {start T n : Int} (P : Params start T n) :
    ∀ (k i : Nat) (w m : Int), Inv T n i w m → (i : Int) + k = n + 1 → 0 < k →
      (∃ (j : Nat) (msg : String), j < k ∧
          sampleLoop start T n k w m = ⟨(List.range' i (j + 1)).map (fun l => start + offset T n l), .throw msg⟩ ∧
          ∃ r : Int, |r| < n ∧ ¬ InI64 (r + T)) ∨
      (sampleLoop start T n k w m = ⟨(List.range' i k).map (fun l => start + offset T n l), .ok ()⟩ ∧
          InI64 (T + T.tdiv n)) ∨
      (sampleLoop start T n k w m = ⟨(List.range' i k).map (fun l => start + offset T n l), .ub "signed overflow"⟩ ∧
          ¬ InI64 (T + T.tdiv n)) := by
  have hn := P.npos
  intro k
  induction k with
  | zero => intro i w m _ _ h; omega
  | succ k ih =>
    intro i w m inv hik _
    have hi : (i : Int) ≤ n := by push_cast at hik; omega
    rw [sampleLoop, sampleAt_ok P inv hi]
    rcases advance_cases P inv with ⟨msg, e, hs⟩ | ⟨e, hs, hw⟩ | ⟨e, hs, hw⟩
    · left
      refine ⟨0, msg, by omega, ?_, m, abs_lt.mpr ⟨inv.gt, inv.lt⟩, hs⟩
      simp [e]
    · rw [e]
      by_cases hk : k = 0
      · subst hk
        right; left
        obtain ⟨rfl, rfl⟩ := inv.last hn (by push_cast at hik; omega)
        simp only [zero_add] at hw
        exact ⟨by simp [sampleLoop], hw⟩
      · have nx := ih (i + 1) _ _ (inv.next hn) (by push_cast at hik ⊢; omega) (by omega)
        rcases nx with ⟨j, msg, hj, e2, r⟩ | ⟨e2, r⟩ | ⟨e2, r⟩
        · left
          refine ⟨j + 1, msg, by omega, ?_, r⟩
          simp only [e2]
          rw [List.range'_succ (n := j + 1)]; rfl
        · right; left
          refine ⟨?_, r⟩
          simp only [e2]
          rw [List.range'_succ (n := k)]; rfl
        · right; right
          refine ⟨?_, r⟩
          simp only [e2]
          rw [List.range'_succ (n := k)]; rfl
    · rw [e]
      by_cases hk : k = 0
      · subst hk
        right; right
        obtain ⟨rfl, rfl⟩ := inv.last hn (by push_cast at hik; omega)
        simp only [zero_add] at hw
        exact ⟨by simp, hw⟩
      · exfalso
        exact hw (whole_ok P inv (by push_cast at hik; omega))

/-- `exactOrThrow` in terms of the range. -/
theorem exactOrThrow_ok {v : Int} (h : InI64 v) : exactOrThrow v = .ok v := by
  unfold exactOrThrow
  simp only [InI64, I64MAX, I64MIN] at h
  rw [if_neg (by omega), if_neg (by omega)]

theorem exactOrThrow_throw {v : Int} (h : ¬ InI64 v) : ∃ msg, exactOrThrow v = .throw msg := by
  unfold exactOrThrow
  split_ifs with h1 h2
  · exact ⟨_, rfl⟩
  · exact ⟨_, rfl⟩
  · exfalso; apply h; simp only [InI64, I64MAX, I64MIN]; omega

/-- Complete description of `num_samples`. -/
theorem numSamples_spec (start stop dt : Int) (hs : InI64 start) (he : InI64 stop) (_hd : InI64 dt) :
    numSamples start stop dt =
      if dt ≤ 0 then .throw "max_abs_dt must be positive!"
      else exactOrThrow (stop - start) >>= fun d => exactOrThrow |d| >>= fun t =>
        exactOrThrow ((t - 1).tdiv dt + 2) := by
  unfold numSamples
  by_cases h : dt ≤ 0
  · rw [if_pos h, Outcome.reassert_false (by omega)]; rfl
  · rw [if_neg h, Outcome.reassert_true (by omega), Outcome.ok_bind, c01_safe_difference_exact _ _ he hs]
    by_cases h2 : InI64 (stop - start)
    · rw [exactOrThrow_ok h2, Outcome.ok_bind, Outcome.ok_bind, c01_safe_abs_exact _ h2]
      by_cases h3 : InI64 |stop - start|
      · rw [exactOrThrow_ok h3, Outcome.ok_bind, Outcome.ok_bind]
        have h0 := abs_nonneg (stop - start)
        have h4 : InI64 (|stop - start| - 1) := by
          simp only [InI64, I64MAX, I64MIN] at *; omega
        have h5 : InI64 ((|stop - start| - 1).tdiv dt) := by
          have h1 := abs_tdiv_le (|stop - start| - 1) dt
          have h6 : |(|stop - start| - 1)| ≤ I64MAX := by
            refine abs_le.mpr ⟨?_, ?_⟩ <;> simp only [InI64, I64MAX, I64MIN] at * <;> omega
          have := abs_le.mp (h1.trans h6)
          simp only [InI64, I64MAX, I64MIN] at *; omega
        rw [i64_ok h4, Outcome.ok_bind, i64div, if_neg (by omega), i64_ok h5, Outcome.ok_bind,
          c01_safe_sum_exact _ _ h5 (by decide)]
      · obtain ⟨m, e⟩ := exactOrThrow_throw h3
        rw [e]; rfl
    · obtain ⟨m, e⟩ := exactOrThrow_throw h2
      rw [e]; rfl

end Verif.SampleInterval
