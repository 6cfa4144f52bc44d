import Verif.Spec.MockDevice
import Verif.Props.Auth
/-! # C103: logging in against the mock device-code server -/
namespace Verif.Props
open Verif.Auth Verif.Spec.Auth Verif.MockDevice Verif.Spec.MockDevice

theorem acts_token (s : Server) (as : List Act) : (acts s as).token = s.token ∧ (acts s as).interval = s.interval := by
  induction as generalizing s with
  | nil => exact ⟨rfl, rfl⟩
  | cons a as ih =>
    have := ih (act s a)
    cases a <;> exact this

theorem acts_complete (s : Server) (as : List Act) :
    (acts s as).complete = true ↔ (∃ a b, as = a ++ .authorize :: b ∧ .otherCode ∉ b) ∨ (s.complete = true ∧ .otherCode ∉ as) := by
  induction as generalizing s with
  | nil => simp [acts]
  | cons x as ih =>
    have e : acts s (x :: as) = acts (act s x) as := rfl
    rw [e, ih]
    have hsplit : (∃ a b, x :: as = a ++ .authorize :: b ∧ .otherCode ∉ b) ↔ (x = .authorize ∧ .otherCode ∉ as) ∨ ∃ a b, as = a ++ .authorize :: b ∧ .otherCode ∉ b := by
      constructor
      · rintro ⟨a, b, h1, h2⟩
        cases a with
        | nil =>
          rw [List.nil_append, List.cons.injEq] at h1
          exact Or.inl ⟨h1.1, by rw [h1.2]; exact h2⟩
        | cons y a =>
          rw [List.cons_append, List.cons.injEq] at h1
          exact Or.inr ⟨a, b, h1.2, h2⟩
      · rintro (⟨rfl, h⟩ | ⟨a, b, rfl, h⟩)
        · exact ⟨[], as, rfl, h⟩
        · exact ⟨x :: a, b, rfl, h⟩
    rw [hsplit]
    cases x with
    | authorize =>
      simp only [act, true_and, List.mem_cons, reduceCtorEq, false_or]
      generalize (∃ a b, as = a ++ Act.authorize :: b ∧ Act.otherCode ∉ b) = P
      generalize (Act.otherCode ∉ as) = Q
      tauto
    | setTimeout n => simp [act]
    | otherCode => simp [act, onCode]

theorem acts_append (s : Server) (a b : List Act) : acts s (a ++ b) = acts (acts s a) b := List.foldl_append ..

theorem atPoll_since (s : Server) (between : Nat → List Act) (i : Nat) : atPoll s between i = acts s (since between i) := by
  induction i with
  | zero => simp [atPoll, since]
  | succ i ih =>
    rw [atPoll, ih, ← acts_append]
    congr 1
    unfold since
    rw [List.range_succ (n := i + 1), List.flatMap_append]
    simp

/-- A poll is answered with the token exactly if the login is complete; otherwise it is answered 403 with the error "authorization_pending".  What happened before the
request for the code does not matter. -/
theorem c103_poll (s : Server) (between : Nat → List Act) (i : Nat) :
    (Complete between i → onPoll (atPoll (onCode s).1 between i) = (200, ⟨none, s.token⟩)) ∧
    (¬ Complete between i → onPoll (atPoll (onCode s).1 between i) = (403, ⟨some "authorization_pending", ""⟩)) := by
  have h := acts_complete (onCode s).1 (since between i)
  have ht := (acts_token (onCode s).1 (since between i)).1
  have hc : ((onCode s).1.complete = true ∧ Act.otherCode ∉ since between i) ↔ False := by simp [onCode]
  rw [hc, or_false] at h
  rw [atPoll_since]
  constructor
  · intro hcomp
    have := h.mpr hcomp
    unfold onPoll
    rw [this, ht]
    rfl
  · intro hcomp
    have : (acts (onCode s).1 (since between i)).complete = false := by
      rw [← Bool.not_eq_true, h]
      exact hcomp
    unfold onPoll
    rw [this]
    rfl

/-- The lifetime that the client is told is the last one set, 600 seconds if none was. -/
theorem c103_lifetime (interval : Int) (token : String) (before : List Act) (n : Int) :
    ((onCode (acts ⟨interval, token, false, 600⟩ before)).2.2.expiresIn = n ↔ Lifetime 600 before n) ∧
    (onCode (acts ⟨interval, token, false, 600⟩ before)).2.2.interval = interval ∧ (onCode (acts ⟨interval, token, false, 600⟩ before)).2.1 = 200 := by
  refine ⟨?_, (acts_token _ before).2, rfl⟩
  change (acts ⟨interval, token, false, 600⟩ before).timeout = n ↔ _
  have gen : ∀ (s : Server), (acts s before).timeout = n ↔ Lifetime s.timeout before n := by
    induction before with
    | nil =>
      intro s
      constructor
      · exact fun h => Or.inl ⟨h.symm, by simp⟩
      · rintro (⟨h, -⟩ | ⟨a, b, h, -⟩)
        · exact h.symm
        · exact absurd h (by simp)
    | cons x as ih =>
      intro s
      have e : acts s (x :: as) = acts (act s x) as := rfl
      rw [e, ih]
      unfold Lifetime
      have hsplit : (∃ a b, x :: as = a ++ .setTimeout n :: b ∧ ∀ m, .setTimeout m ∉ b) ↔
          (x = .setTimeout n ∧ ∀ m, .setTimeout m ∉ as) ∨ ∃ a b, as = a ++ .setTimeout n :: b ∧ ∀ m, .setTimeout m ∉ b := by
        constructor
        · rintro ⟨a, b, h1, h2⟩
          cases a with
          | nil =>
            rw [List.nil_append, List.cons.injEq] at h1
            exact Or.inl ⟨h1.1, by rw [h1.2]; exact h2⟩
          | cons y a =>
            rw [List.cons_append, List.cons.injEq] at h1
            exact Or.inr ⟨a, b, h1.2, h2⟩
        · rintro (⟨rfl, h⟩ | ⟨a, b, rfl, h⟩)
          · exact ⟨[], as, rfl, h⟩
          · exact ⟨x :: a, b, rfl, h⟩
      rw [hsplit]
      cases x with
      | authorize => simp [act]
      | otherCode => simp [act, onCode]
      | setTimeout k =>
        have hno : ¬ ∀ m, Act.setTimeout m ∉ Act.setTimeout k :: as := fun h => h k List.mem_cons_self
        simp only [act, Act.setTimeout.injEq, hno, and_false, false_or]
        constructor
        · rintro (⟨h1, h2⟩ | h)
          · exact Or.inl ⟨h1.symm, h2⟩
          · exact Or.inr h
        · rintro (⟨h1, h2⟩ | h)
          · exact Or.inl ⟨h1.symm, h2⟩
          · exact Or.inr h
  exact gen _

theorem world_poll (s : Server) (before : List Act) (between : Nat → List Act) (start : Int) (clock : Nat → Int) (i : Nat) :
    (Complete between i → (world s before between start clock).poll i = some ⟨none, s.token⟩) ∧
    (¬ Complete between i → (world s before between start clock).poll i = some ⟨some "authorization_pending", ""⟩) := by
  obtain ⟨h1, h2⟩ := c103_poll (acts s before) between i
  rw [(acts_token s before).1] at h1
  exact ⟨fun h => congrArg (fun p : Int × PollMsg => some p.2) (h1 h), fun h => congrArg (fun p : Int × PollMsg => some p.2) (h2 h)⟩

/-- Fetching a token from this server, whose codes live for `n` seconds, ends with a token exactly if it is the server's, not empty, and the login is complete at some poll up
to which the clock stays below the deadline. -/
theorem c103_token_iff (interval : Int) (serverToken : String) (before : List Act) (between : Nat → List Act) (start : Int) (clock : Nat → Int) (n : Int)
    (hn : Lifetime 600 before n) (token : String) :
    (∃ evs, EndsWith (world ⟨interval, serverToken, false, 600⟩ before between start clock) (.ok token) evs) ↔
      token = serverToken ∧ token ≠ "" ∧ ∃ k, Complete between k ∧ InTime clock (start + n * 1000000000) k := by
  have hm := ((c103_lifetime interval serverToken before n).1).mpr hn
  rw [c67_token_iff]
  have hw := world_poll ⟨interval, serverToken, false, 600⟩ before between start clock
  have hdl : ∀ m, (world ⟨interval, serverToken, false, 600⟩ before between start clock).device = some m →
      deadline (world ⟨interval, serverToken, false, 600⟩ before between start clock) m = start + n * 1000000000 := by
    intro m hdev
    cases hdev
    rw [deadline, ← hm]
    rfl
  have hny : ∀ i, NotYet (world ⟨interval, serverToken, false, 600⟩ before between start clock) i ↔ ¬ Complete between i := by
    intro i
    constructor
    · rintro ⟨m, e, h1, h2⟩ hc
      rw [(hw i).1 hc] at h1
      cases h1
      cases h2
    · intro hc
      exact ⟨_, _, (hw i).2 hc, rfl⟩
  constructor
  · rintro ⟨m, k, h1, -, ⟨h3, -⟩, h4, h5⟩
    by_cases hc : Complete between k
    · rw [(hw k).1 hc] at h5
      cases h5
      refine ⟨rfl, h4, k, hc, ?_⟩
      rw [hdl m h1] at h3
      exact h3
    · rw [(hw k).2 hc] at h5
      cases h5
  · rintro ⟨rfl, h2, k, h3, h4⟩
    classical
    have hex : ∃ k, Complete between k := ⟨k, h3⟩
    refine ⟨_, Nat.find hex, rfl, rfl, ⟨fun i hi => ?_, fun i hi => ?_⟩, h2, (hw _).1 (Nat.find_spec hex)⟩
    · rw [hdl _ rfl]
      exact h4 i (hi.trans (Nat.find_min' hex h3))
    · exact (hny i).mpr (Nat.find_min hex hi)

/-- It throws "Timed out!" exactly if some check finds the deadline reached while no earlier poll found the login complete, and "No token received!" exactly if the server's
token is empty and the login is complete in time; it throws nothing else. -/
theorem c103_throws_iff (interval : Int) (serverToken : String) (before : List Act) (between : Nat → List Act) (start : Int) (clock : Nat → Int) (n : Int)
    (hn : Lifetime 600 before n) (msg : String) :
    (∃ evs, EndsWith (world ⟨interval, serverToken, false, 600⟩ before between start clock) (.throw msg) evs) ↔
      (msg = "Timed out!" ∧ ∃ k, start + n * 1000000000 ≤ clock k ∧ ∀ i < k, clock i < start + n * 1000000000 ∧ ¬ Complete between i) ∨
      (msg = "No token received!" ∧ serverToken = "" ∧ ∃ k, Complete between k ∧ InTime clock (start + n * 1000000000) k) := by
  have hm := ((c103_lifetime interval serverToken before n).1).mpr hn
  have hw := world_poll ⟨interval, serverToken, false, 600⟩ before between start clock
  generalize hE : world ⟨interval, serverToken, false, 600⟩ before between start clock = env at hw ⊢
  have hclock : env.clock = clock := by rw [← hE]; rfl
  have hfetch : ∀ fuel, fetchToken env fuel = (pollLoop env (start + n * 1000000000) interval fuel 0).map fun p => (p.1, .askCode :: p.2) := by
    intro fuel
    have h1 : env.device = some ⟨n, interval⟩ := by
      rw [← hE, ← hm]
      exact congrArg (fun i => some (⟨_, i⟩ : DeviceCodeMsg)) (acts_token _ before).2
    have h2 : env.status = 200 := by rw [← hE]; rfl
    have h3 : env.start = start := by rw [← hE]; rfl
    unfold fetchToken
    rw [h1]
    simp only [h2, h3, if_true]
    cases pollLoop env (start + n * 1000000000) interval fuel 0 with
    | none => rfl
    | some p => rfl
  -- the loop from pass `i`
  have hloop : ∀ i, (∃ fuel evs, pollLoop env (start + n * 1000000000) interval fuel i = some (.throw msg, evs)) ↔
      (msg = "Timed out!" ∧ ∃ k ≥ i, start + n * 1000000000 ≤ clock k ∧ ∀ j, i ≤ j → j < k → clock j < start + n * 1000000000 ∧ ¬ Complete between j) ∨
      (msg = "No token received!" ∧ serverToken = "" ∧ ∃ k ≥ i, Complete between k ∧ ∀ j, i ≤ j → j ≤ k → clock j < start + n * 1000000000) := by
    have step : ∀ fuel i, pollLoop env (start + n * 1000000000) interval (fuel + 1) i =
        if clock i < start + n * 1000000000 then
          (open Classical in if Complete between i then
            if serverToken = "" then some (.throw "No token received!", [.askToken i (clock i)]) else some (.ok serverToken, [.askToken i (clock i)])
          else (pollLoop env (start + n * 1000000000) interval fuel (i + 1)).map fun p => (p.1, .askToken i (clock i) :: .sleep interval :: p.2))
        else some (.throw "Timed out!", []) := by
      intro fuel i
      rw [pollLoop, hclock]
      split
      · by_cases hc : Complete between i
        · rw [(hw i).1 hc, if_pos hc]
        · rw [(hw i).2 hc, if_neg hc]
          cases pollLoop env (start + n * 1000000000) interval fuel (i + 1) <;> rfl
      · rfl
    intro i
    constructor
    · rintro ⟨fuel, evs, h⟩
      induction fuel generalizing i evs with
      | zero => simp [pollLoop] at h
      | succ fuel ih =>
        rw [step] at h
        split at h
        · next hlt =>
          split at h
          · next hc =>
            split at h
            · next hs =>
              cases h
              exact Or.inr ⟨rfl, hs, i, le_refl i, hc, fun j h1 h2 => by rwa [show j = i by omega]⟩
            · cases h
          · next hc =>
            rw [Option.map_eq_some_iff] at h
            obtain ⟨⟨r, evs'⟩, h1, h2⟩ := h
            cases h2
            rcases ih (i + 1) evs' h1 with ⟨h3, k, hk, h4, h5⟩ | ⟨h3, hs, k, hk, h4, h5⟩
            · refine Or.inl ⟨h3, k, by omega, h4, fun j h6 h7 => ?_⟩
              rcases Nat.eq_or_lt_of_le h6 with rfl | h6
              · exact ⟨hlt, hc⟩
              · exact h5 j h6 h7
            · refine Or.inr ⟨h3, hs, k, by omega, h4, fun j h6 h7 => ?_⟩
              rcases Nat.eq_or_lt_of_le h6 with rfl | h6
              · exact hlt
              · exact h5 j h6 h7
        · next hlt =>
          cases h
          exact Or.inl ⟨rfl, i, le_refl i, not_lt.mp hlt, fun j h1 h2 => by omega⟩
    · have down : ∀ d i, (msg = "Timed out!" ∧ ∃ k, k = i + d ∧ start + n * 1000000000 ≤ clock k ∧ ∀ j, i ≤ j → j < k → clock j < start + n * 1000000000 ∧ ¬ Complete between j) ∨
          (msg = "No token received!" ∧ serverToken = "" ∧ ∃ k, k = i + d ∧ Complete between k ∧ ∀ j, i ≤ j → j ≤ k → clock j < start + n * 1000000000) →
          ∃ fuel evs, pollLoop env (start + n * 1000000000) interval fuel i = some (.throw msg, evs) := by
        intro d
        induction d with
        | zero =>
          rintro i (⟨rfl, k, hk, h1, -⟩ | ⟨rfl, hs, k, hk, h1, h2⟩) <;> (rw [Nat.add_zero] at hk; subst hk)
          · exact ⟨1, [], by rw [step, if_neg (not_lt.mpr h1)]⟩
          · exact ⟨1, _, by rw [step, if_pos (h2 _ (le_refl _) (le_refl _)), if_pos h1, if_pos hs]⟩
        | succ d ih =>
          intro i h
          by_cases hc : Complete between i
          · rcases h with ⟨rfl, k, rfl, h1, h2⟩ | ⟨rfl, hs, k, rfl, h1, h2⟩
            · exact absurd hc (h2 i (le_refl i) (by omega)).2
            · exact ⟨1, _, by rw [step, if_pos (h2 i (le_refl i) (by omega)), if_pos hc, if_pos hs]⟩
          · have hlt : clock i < start + n * 1000000000 := by
              rcases h with ⟨rfl, k, rfl, h1, h2⟩ | ⟨rfl, hs, k, rfl, h1, h2⟩
              · exact (h2 i (le_refl i) (by omega)).1
              · exact h2 i (le_refl i) (by omega)
            obtain ⟨fuel, evs, h3⟩ := ih (i + 1) (by
              rcases h with ⟨h0, k, rfl, h1, h2⟩ | ⟨h0, hs, k, rfl, h1, h2⟩
              · exact Or.inl ⟨h0, _, by omega, h1, fun j h4 h5 => h2 j (by omega) h5⟩
              · exact Or.inr ⟨h0, hs, _, by omega, h1, fun j h4 h5 => h2 j (by omega) h5⟩)
            exact ⟨fuel + 1, _, by rw [step, if_pos hlt, if_neg hc, h3]; rfl⟩
      rintro (⟨h0, k, hk, h1, h2⟩ | ⟨h0, hs, k, hk, h1, h2⟩)
      · exact down (k - i) i (Or.inl ⟨h0, k, by omega, h1, h2⟩)
      · exact down (k - i) i (Or.inr ⟨h0, hs, k, by omega, h1, h2⟩)
  have h0 := hloop 0
  simp only [ge_iff_le, Nat.zero_le, true_and, forall_const] at h0
  unfold InTime
  rw [← h0]
  constructor
  · rintro ⟨evs, fuel, h⟩
    rw [hfetch, Option.map_eq_some_iff] at h
    obtain ⟨⟨r, evs'⟩, h1, h2⟩ := h
    cases h2
    exact ⟨fuel, evs', h1⟩
  · rintro ⟨fuel, evs, h⟩
    exact ⟨_, fuel, by rw [hfetch, h]; rfl⟩

/-- A login is good for one fetch: what was authorised before the request for the code does not count, so with nobody authorising during a fetch there is no token. -/
theorem c103_fresh (interval : Int) (serverToken : String) (before : List Act) (between : Nat → List Act) (start : Int) (clock : Nat → Int) (n : Int)
    (hn : Lifetime 600 before n) (hno : ∀ i, .authorize ∉ between i) (token : String) :
    ¬ ∃ evs, EndsWith (world ⟨interval, serverToken, false, 600⟩ before between start clock) (.ok token) evs := by
  rw [c103_token_iff interval serverToken before between start clock n hn]
  rintro ⟨-, -, k, ⟨a, b, h, -⟩, -⟩
  have : Act.authorize ∈ since between k := by rw [h]; simp
  unfold since at this
  obtain ⟨i, -, hi⟩ := List.mem_flatMap.mp this
  exact hno i hi

/-- A login with codes that live for two seconds, authorised between the first and the second poll; another client asked for a code before. -/
def exBetween : Nat → List Act
  | 1 => [.otherCode, .authorize]
  | _ => []

theorem exBetween_complete : Complete exBetween 1 ∧ ¬ Complete exBetween 0 ∧ Lifetime 600 [.authorize, .setTimeout 7, .setTimeout 2] 2 ∧
    InTime (fun i => 1000000000 * i) (0 + 2 * 1000000000) 1 := by
  refine ⟨⟨[.otherCode], [], rfl, by simp⟩, ?_, Or.inr ⟨[.authorize, .setTimeout 7], [], rfl, by simp⟩, ?_⟩
  · rintro ⟨a, b, h, -⟩
    have : since exBetween 0 = [] := rfl
    rw [this] at h
    exact absurd h (by simp)
  · intro i hi
    have : (i : Int) ≤ 1 := by exact_mod_cast hi
    show 1000000000 * (i : Int) < _
    omega

/-- The client gets the token; with an empty token or with a login that comes too late, it throws. -/
example : (∃ evs, EndsWith (world ⟨1, "t", false, 600⟩ [.authorize, .setTimeout 7, .setTimeout 2] exBetween 0 (fun i => 1000000000 * i)) (.ok "t") evs) ∧
    (∃ evs, EndsWith (world ⟨1, "", false, 600⟩ [.authorize, .setTimeout 7, .setTimeout 2] exBetween 0 (fun i => 1000000000 * i)) (.throw "No token received!") evs) ∧
    (∃ evs, EndsWith (world ⟨1, "t", false, 600⟩ [.authorize, .setTimeout 7, .setTimeout 2] exBetween 0 (fun i => 3000000000 * i)) (.throw "Timed out!") evs) := by
  obtain ⟨h1, h2, h3, h4⟩ := exBetween_complete
  refine ⟨?_, ?_, ?_⟩
  · exact (c103_token_iff 1 "t" _ exBetween 0 _ 2 h3 "t").mpr ⟨rfl, by decide, 1, h1, h4⟩
  · exact (c103_throws_iff 1 "" _ exBetween 0 _ 2 h3 _).mpr (Or.inr ⟨rfl, rfl, 1, h1, h4⟩)
  · refine (c103_throws_iff 1 "t" _ exBetween 0 _ 2 h3 _).mpr (Or.inl ⟨rfl, 1, by norm_num, fun i hi => ?_⟩)
    have : i = 0 := by omega
    subst this
    exact ⟨by norm_num, h2⟩

end Verif.Props
