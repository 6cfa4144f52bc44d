import Verif.Spec.Auth
import Mathlib.Tactic.Basic
import Mathlib.Tactic.Ring
import Mathlib.Tactic.Linarith
/-! # The device code client: lemmas -/
namespace Verif.Auth
open Verif.Spec.Auth

/-- Every way the loop can end, with its events. -/
inductive LoopEnd (env : FetchEnv) (limit interval : Int) (i : Nat) : Outcome String → List Event → Prop
  | timedOut (k : Nat) (h : ∀ j, i ≤ j → j < i + k → env.clock j < limit ∧ NotYet env j) (hk : ¬env.clock (i + k) < limit) :
      LoopEnd env limit interval i (.throw "Timed out!") (refused env interval i k)
  | unparsable (k : Nat) (h : ∀ j, i ≤ j → j < i + k → env.clock j < limit ∧ NotYet env j) (hk : env.clock (i + k) < limit) (hp : env.poll (i + k) = none) :
      LoopEnd env limit interval i (.throw "Failed to parse response!") (refused env interval i k ++ [.askToken (i + k) (env.clock (i + k))])
  | noToken (k : Nat) (h : ∀ j, i ≤ j → j < i + k → env.clock j < limit ∧ NotYet env j) (hk : env.clock (i + k) < limit)
      (hp : env.poll (i + k) = some ⟨none, ""⟩) :
      LoopEnd env limit interval i (.throw "No token received!") (refused env interval i k ++ [.askToken (i + k) (env.clock (i + k))])
  | granted (k : Nat) (token : String) (h : ∀ j, i ≤ j → j < i + k → env.clock j < limit ∧ NotYet env j) (hk : env.clock (i + k) < limit)
      (hp : Grants env (i + k) token) :
      LoopEnd env limit interval i (.ok token) (refused env interval i k ++ [.askToken (i + k) (env.clock (i + k))])

theorem loop_sound (env : FetchEnv) (limit interval : Int) : ∀ (fuel i : Nat) (r : Outcome String) (evs : List Event),
    pollLoop env limit interval fuel i = some (r, evs) → LoopEnd env limit interval i r evs := by
  intro fuel
  induction fuel with
  | zero => intro i r evs h; simp [pollLoop] at h
  | succ fuel ih =>
    intro i r evs h
    rw [pollLoop] at h
    have none0 : ∀ j, i ≤ j → j < i + 0 → env.clock j < limit ∧ NotYet env j := fun j h1 h2 => absurd h2 (by omega)
    by_cases hc : env.clock i < limit
    · rw [if_pos hc] at h
      cases hp : env.poll i with
      | none =>
        rw [hp] at h
        simp only [Option.some.injEq, Prod.mk.injEq] at h
        rw [← h.1, ← h.2]
        exact LoopEnd.unparsable 0 none0 hc hp
      | some m =>
        rw [hp] at h
        simp only at h
        cases he : m.error with
        | none =>
          rw [he] at h
          simp only at h
          by_cases ht : m.accessToken = ""
          · rw [if_pos ht] at h
            simp only [Option.some.injEq, Prod.mk.injEq] at h
            rw [← h.1, ← h.2]
            refine LoopEnd.noToken 0 none0 hc ?_
            rw [Nat.add_zero, hp]
            congr 1
            cases m
            simp_all
          · rw [if_neg ht] at h
            simp only [Option.some.injEq, Prod.mk.injEq] at h
            rw [← h.1, ← h.2]
            refine LoopEnd.granted 0 _ none0 hc ⟨ht, ?_⟩
            rw [Nat.add_zero, hp]
            congr 1
            cases m
            simp_all
        | some e =>
          rw [he] at h
          simp only at h
          cases hl : pollLoop env limit interval fuel (i + 1) with
          | none => rw [hl] at h; simp at h
          | some q =>
            obtain ⟨r', evs'⟩ := q
            rw [hl] at h
            simp only [Option.some.injEq, Prod.mk.injEq] at h
            have hi := ih (i + 1) r' evs' hl
            rw [← h.1, ← h.2]
            have ext : ∀ k, (∀ j, i + 1 ≤ j → j < i + 1 + k → env.clock j < limit ∧ NotYet env j) →
                ∀ j, i ≤ j → j < i + (k + 1) → env.clock j < limit ∧ NotYet env j := by
              intro k hk j h1 h2
              by_cases hj : j = i
              · subst hj
                exact ⟨hc, m, e, hp, he⟩
              · exact hk j (by omega) (by omega)
            have idx : ∀ k, i + 1 + k = i + (k + 1) := fun k => by omega
            cases hi with
            | timedOut k h1 h2 =>
              rw [idx k] at h2
              exact LoopEnd.timedOut (k + 1) (ext k h1) h2
            | unparsable k h1 h2 h3 =>
              rw [idx k] at h2 h3 ⊢
              exact LoopEnd.unparsable (k + 1) (ext k h1) h2 h3
            | noToken k h1 h2 h3 =>
              rw [idx k] at h2 h3 ⊢
              exact LoopEnd.noToken (k + 1) (ext k h1) h2 h3
            | granted k _ h1 h2 h3 =>
              rw [idx k] at h2 h3 ⊢
              exact LoopEnd.granted (k + 1) _ (ext k h1) h2 h3
    · rw [if_neg hc] at h
      simp only [Option.some.injEq, Prod.mk.injEq] at h
      rw [← h.1, ← h.2]
      exact LoopEnd.timedOut 0 none0 hc

/-- The loop ends by the pass at which the clock is past the limit. -/
theorem loop_ends (env : FetchEnv) (limit interval : Int) (n : Nat) : ∀ (k i : Nat), i + k = n → limit ≤ env.clock n →
    ∃ q, pollLoop env limit interval (k + 1) i = some q := by
  intro k
  induction k with
  | zero =>
    intro i hi hc
    rw [pollLoop, if_neg (by rw [Nat.add_zero] at hi; rw [hi]; omega)]
    exact ⟨_, rfl⟩
  | succ k ih =>
    intro i hi hc
    rw [pollLoop]
    by_cases h : env.clock i < limit
    · rw [if_pos h]
      cases env.poll i with
      | none => exact ⟨_, rfl⟩
      | some m =>
        simp only
        cases m.error with
        | none =>
          simp only
          by_cases ht : m.accessToken = ""
          · rw [if_pos ht]; exact ⟨_, rfl⟩
          · rw [if_neg ht]; exact ⟨_, rfl⟩
        | some e =>
          obtain ⟨q, hq⟩ := ih (i + 1) (by omega) hc
          simp only [hq]
          exact ⟨_, rfl⟩
    · rw [if_neg h]
      exact ⟨_, rfl⟩

/-- A granted token is found. -/
theorem loop_grants (env : FetchEnv) (limit interval : Int) (token : String) : ∀ (k i : Nat),
    (∀ j, i ≤ j → j < i + k → env.clock j < limit ∧ NotYet env j) → env.clock (i + k) < limit → Grants env (i + k) token →
    ∃ evs, pollLoop env limit interval (k + 1) i = some (.ok token, evs) := by
  intro k
  induction k with
  | zero =>
    intro i _ h2 h3
    rw [Nat.add_zero] at h2 h3
    rw [pollLoop, if_pos h2, h3.2]
    simp only
    rw [if_neg h3.1]
    exact ⟨_, rfl⟩
  | succ k ih =>
    intro i h1 h2 h3
    obtain ⟨hc, m, e, hp, he⟩ := h1 i (Nat.le_refl _) (by omega)
    have idx : i + (k + 1) = i + 1 + k := by omega
    rw [idx] at h2 h3
    obtain ⟨evs, hq⟩ := ih (i + 1) (fun j h4 h5 => h1 j (by omega) (by omega)) h2 h3
    rw [pollLoop, if_pos hc, hp]
    simp only [he, hq]
    exact ⟨_, rfl⟩

theorem mem_refused {env : FetchEnv} {interval : Int} : ∀ {k i : Nat} {e : Event}, e ∈ refused env interval i k →
    (∃ j, i ≤ j ∧ j < i + k ∧ e = .askToken j (env.clock j)) ∨ e = .sleep interval := by
  intro k
  induction k with
  | zero => intro i e h; simp [refused] at h
  | succ k ih =>
    intro i e h
    simp only [refused, List.mem_cons] at h
    rcases h with h | h | h
    · exact Or.inl ⟨i, by omega, by omega, h⟩
    · exact Or.inr h
    · rcases ih h with ⟨j, h1, h2, h3⟩ | h
      · exact Or.inl ⟨j, by omega, by omega, h3⟩
      · exact Or.inr h

/-- Clock readings that advance by at least the sleep after every refused poll. -/
theorem clock_advances {env : FetchEnv} {interval : Int} (h : ∀ i, env.clock i + interval * 1000000000 ≤ env.clock (i + 1)) (n : Nat) :
    env.clock 0 + n * (interval * 1000000000) ≤ env.clock n := by
  induction n with
  | zero => simp
  | succ n ih =>
    have := h n
    push_cast
    linarith

end Verif.Auth
