import Verif.Proofs.Auth
/-! # C65-C67: tokens -/
namespace Verif.Props
open Verif.Auth Verif.Spec.Auth

/-! ## C67 -/

/-- `fetch_token` ends with a token exactly if the first request succeeds and, with every check before the deadline, the polls are answered "not yet" until
one grants the token. -/
theorem c67_token_iff (env : FetchEnv) (token : String) :
    (∃ evs, EndsWith env (.ok token) evs) ↔
    ∃ m k, env.device = some m ∧ env.status = 200 ∧ Reaches env (deadline env m) k ∧ Grants env k token := by
  constructor
  · rintro ⟨evs, fuel, h⟩
    unfold fetchToken at h
    cases hd : env.device with
    | none => rw [hd] at h; simp at h
    | some m =>
      rw [hd] at h
      simp only at h
      by_cases hs : env.status = 200
      · rw [if_pos hs] at h
        cases hl : pollLoop env (env.start + m.expiresIn * 1000000000) m.interval fuel 0 with
        | none => rw [hl] at h; simp at h
        | some q =>
          obtain ⟨r, evs'⟩ := q
          rw [hl] at h
          simp only [Option.some.injEq, Prod.mk.injEq] at h
          have := loop_sound _ _ _ _ _ _ _ hl
          rw [h.1] at this
          cases this with
          | granted k _ h1 h2 h3 =>
            rw [Nat.zero_add] at h2 h3
            refine ⟨m, k, rfl, hs, ⟨fun i hi => ?_, fun i hi => (h1 i (by omega) (by omega)).2⟩, h3⟩
            by_cases hk : i = k
            · rw [hk]; exact h2
            · exact (h1 i (by omega) (by omega)).1
      · rw [if_neg hs] at h
        simp at h
  · rintro ⟨m, k, hd, hs, ⟨h1, h2⟩, h3⟩
    obtain ⟨evs, hq⟩ := loop_grants env (deadline env m) m.interval token k 0 (fun j _ hj => ⟨h1 j (by omega), h2 j (by omega)⟩)
      (by rw [Nat.zero_add]; exact h1 k (by omega)) (by rw [Nat.zero_add]; exact h3)
    refine ⟨.askCode :: evs, k + 1, ?_⟩
    unfold fetchToken
    rw [hd]
    simp only
    rw [if_pos hs, show env.start + m.expiresIn * 1000000000 = deadline env m from rfl, hq]

/-- Otherwise it throws; it is never undefined, and a token from an answer with an error is never used: the token is the one of the last answer, which had
no error. -/
theorem c67_ends (env : FetchEnv) (r : Outcome String) (evs : List Event) (h : EndsWith env r evs) :
    (∃ msg, r = .throw msg ∧ msg ∈ ["Failed to parse response!", "Non OK Status detected!", "Timed out!", "No token received!"]) ∨
    ∃ m k token, r = .ok token ∧ env.device = some m ∧ Grants env k token ∧
      evs = .askCode :: refused env m.interval 0 k ++ [.askToken k (env.clock k)] := by
  obtain ⟨fuel, h⟩ := h
  unfold fetchToken at h
  cases hd : env.device with
  | none => rw [hd] at h; simp at h; exact Or.inl ⟨_, h.1.symm, by simp⟩
  | some m =>
    rw [hd] at h
    simp only at h
    by_cases hs : env.status = 200
    · rw [if_pos hs] at h
      cases hl : pollLoop env (env.start + m.expiresIn * 1000000000) m.interval fuel 0 with
      | none => rw [hl] at h; simp at h
      | some q =>
        obtain ⟨r', evs'⟩ := q
        rw [hl] at h
        simp only [Option.some.injEq, Prod.mk.injEq] at h
        have := loop_sound _ _ _ _ _ _ _ hl
        rw [← h.1, ← h.2]
        cases this with
        | timedOut k _ _ => exact Or.inl ⟨_, rfl, by simp⟩
        | unparsable k _ _ _ => exact Or.inl ⟨_, rfl, by simp⟩
        | noToken k _ _ _ => exact Or.inl ⟨_, rfl, by simp⟩
        | granted k token h1 h2 h3 =>
          rw [Nat.zero_add] at h3 ⊢
          exact Or.inr ⟨m, k, token, rfl, rfl, h3, rfl⟩
    · rw [if_neg hs] at h
      simp at h
      exact Or.inl ⟨_, h.1.symm, by simp⟩

/-- Every poll is made before the deadline, and between two polls the interval is slept: the events are the first request, then refused polls each followed
by the sleep, then at most one more poll. -/
theorem c67_polls (env : FetchEnv) (m : DeviceCodeMsg) (hd : env.device = some m) (r : Outcome String) (evs : List Event) (h : EndsWith env r evs) :
    (∃ k last, evs = .askCode :: refused env m.interval 0 k ++ last ∧ (last = [] ∨ last = [.askToken k (env.clock k)])) ∧
    ∀ i time, .askToken i time ∈ evs → time = env.clock i ∧ time < deadline env m := by
  obtain ⟨fuel, h⟩ := h
  unfold fetchToken at h
  rw [hd] at h
  simp only at h
  by_cases hs : env.status = 200
  · rw [if_pos hs] at h
    cases hl : pollLoop env (env.start + m.expiresIn * 1000000000) m.interval fuel 0 with
    | none => rw [hl] at h; simp at h
    | some q =>
      obtain ⟨r', evs'⟩ := q
      rw [hl] at h
      simp only [Option.some.injEq, Prod.mk.injEq] at h
      have := loop_sound _ _ _ _ _ _ _ hl
      rw [← h.2]
      have done : ∀ k last, evs' = refused env m.interval 0 k ++ last → (last = [] ∨ last = [.askToken k (env.clock k)]) →
          (∀ j, 0 ≤ j → j < 0 + k → env.clock j < deadline env m ∧ NotYet env j) → (last ≠ [] → env.clock k < deadline env m) →
          (∃ k last, .askCode :: evs' = .askCode :: refused env m.interval 0 k ++ last ∧ (last = [] ∨ last = [.askToken k (env.clock k)])) ∧
          ∀ i time, .askToken i time ∈ (.askCode :: evs') → time = env.clock i ∧ time < deadline env m := by
        intro k last he hla hj hk
        refine ⟨⟨k, last, by rw [he]; simp, hla⟩, ?_⟩
        intro i time hm
        rw [he] at hm
        simp only [List.mem_cons, List.mem_append, reduceCtorEq, false_or] at hm
        rcases hm with hm | hm
        · rcases mem_refused hm with ⟨j, h1, h2, h3⟩ | h3
          · simp only [Event.askToken.injEq] at h3
            rw [h3.1, h3.2]
            exact ⟨rfl, (hj j h1 h2).1⟩
          · cases h3
        · rcases hla with hla | hla
          · rw [hla] at hm; simp at hm
          · rw [hla] at hm
            simp only [List.mem_singleton, Event.askToken.injEq] at hm
            rw [hm.1, hm.2]
            exact ⟨rfl, hk (by rw [hla]; simp)⟩
      cases this with
      | timedOut k h1 h2 => exact done k [] (by simp) (Or.inl rfl) h1 (fun h => absurd rfl h)
      | unparsable k h1 h2 h3 => rw [Nat.zero_add] at *; exact done k _ rfl (Or.inr rfl) (fun j hj1 hj2 => h1 j hj1 (by omega)) (fun _ => h2)
      | noToken k h1 h2 h3 => rw [Nat.zero_add] at *; exact done k _ rfl (Or.inr rfl) (fun j hj1 hj2 => h1 j hj1 (by omega)) (fun _ => h2)
      | granted k token h1 h2 h3 => rw [Nat.zero_add] at *; exact done k _ rfl (Or.inr rfl) (fun j hj1 hj2 => h1 j hj1 (by omega)) (fun _ => h2)
  · rw [if_neg hs] at h
    simp only [Option.some.injEq, Prod.mk.injEq] at h
    rw [← h.2]
    exact ⟨⟨0, [], by simp [refused], Or.inl rfl⟩, by simp⟩

/-- It ends as soon as the clock has passed the deadline at some check. -/
theorem c67_terminates (env : FetchEnv) (n : Nat) (h : ∀ m, env.device = some m → deadline env m ≤ env.clock n) :
    ∃ r evs, fetchToken env (n + 1) = some (r, evs) := by
  unfold fetchToken
  cases hd : env.device with
  | none => exact ⟨_, _, rfl⟩
  | some m =>
    simp only
    by_cases hs : env.status = 200
    · rw [if_pos hs]
      obtain ⟨⟨r, evs⟩, hq⟩ := loop_ends env (deadline env m) m.interval n n 0 (by omega) (h m hd)
      rw [show env.start + m.expiresIn * 1000000000 = deadline env m from rfl, hq]
      exact ⟨_, _, rfl⟩
    · rw [if_neg hs]
      exact ⟨_, _, rfl⟩

/-- With a positive interval, and a clock that does not run backwards at the start and advances by at least the interval between checks, it makes at most
`expires_in / interval + 1` polls and then ends. -/
theorem c67_bounded (env : FetchEnv) (m : DeviceCodeMsg) (hd : env.device = some m) (hi : 0 < m.interval) (h0 : env.start ≤ env.clock 0)
    (ha : ∀ i, env.clock i + m.interval * 1000000000 ≤ env.clock (i + 1)) :
    ∃ r evs, fetchToken env ((m.expiresIn / m.interval).toNat + 2) = some (r, evs) ∧
      ∀ (i : Nat) (time : Int), .askToken i time ∈ evs → (i : Int) ≤ max 0 (m.expiresIn / m.interval) := by
  have hreach : ∀ n : Nat, m.expiresIn < n * m.interval → deadline env m ≤ env.clock n := by
    intro n hn
    have := clock_advances ha n
    unfold deadline
    nlinarith
  have hdiv : m.expiresIn < (((m.expiresIn / m.interval).toNat + 1 : Nat) : Int) * m.interval := by
    have h1 := Int.lt_ediv_add_one_mul_self m.expiresIn hi
    have h2 : m.expiresIn / m.interval ≤ ((m.expiresIn / m.interval).toNat : Int) := Int.self_le_toNat _
    push_cast
    nlinarith
  obtain ⟨r, evs, h⟩ := c67_terminates env ((m.expiresIn / m.interval).toNat + 1) (fun m' hm' => by
    rw [hd] at hm'
    cases hm'
    exact hreach _ hdiv)
  refine ⟨r, evs, h, fun i time hm => ?_⟩
  obtain ⟨h1, h2⟩ := (c67_polls env m hd r evs ⟨_, h⟩).2 i time hm
  by_contra hlt
  have hi2 : m.expiresIn / m.interval < i := by
    have := le_max_right 0 (m.expiresIn / m.interval)
    omega
  have hge : m.expiresIn < i * m.interval := by
    have h1 := Int.lt_ediv_add_one_mul_self m.expiresIn hi
    have h2 : m.expiresIn / m.interval + 1 ≤ i := hi2
    nlinarith
  have := hreach i hge
  rw [h1] at h2
  omega

/-- A server that says "not yet" twice and then grants a token; the clock advances by a little more than the interval of 5 s. -/
def authEnv : FetchEnv :=
  { status := 200, device := some ⟨900, 5⟩, start := 100, clock := fun i => 200 + i * 5100000000,
    poll := fun i => if i < 2 then some ⟨some "authorization_pending", "ignored"⟩ else some ⟨none, "jwt"⟩ }

/-- It meets the hypotheses of the theorems above and ends with the token after three polls. -/
example : EndsWith authEnv (.ok "jwt") [.askCode, .askToken 0 200, .sleep 5, .askToken 1 5100000200, .sleep 5, .askToken 2 10200000200] ∧
    0 < (5 : Int) ∧ authEnv.start ≤ authEnv.clock 0 ∧ ∀ i, authEnv.clock i + 5 * 1000000000 ≤ authEnv.clock (i + 1) := by
  refine ⟨⟨3, by decide +kernel⟩, by decide, by decide, fun i => ?_⟩
  simp only [authEnv]
  push_cast
  omega

/-! ## C65 -/

/-- `get_jwt` does something other than answer from memory or from the file exactly if memory has no token and there is no file. -/
theorem c65_contacts_iff (c : Client) (fetch : Outcome String × List Event) (save : Save) (hf : fetch.2 ≠ []) :
    (getJwt c fetch save).2.2 ≠ [] ↔ c.token = "" ∧ c.file = none := by
  unfold getJwt
  by_cases ht : c.token = ""
  · rw [if_pos ht]
    unfold loadToken
    cases hfile : c.file with
    | some text => simp
    | none =>
      obtain ⟨r, evs⟩ := fetch
      cases r with
      | ok t => cases save <;> simpa [saveToken, ht] using hf
      | throw m => simpa [ht] using hf
      | ub m => simpa [ht] using hf
  · simp [ht]

/-- Without contacting the server it returns the token in memory, or else the content of the file. -/
theorem c65_answers (c : Client) (fetch : Outcome String × List Event) (save : Save) :
    (c.token ≠ "" → getJwt c fetch save = (.ok c.token, c, [])) ∧
    (c.token = "" → ∀ text, c.file = some text → getJwt c fetch save = (.ok text, { c with token := text }, [])) := by
  constructor
  · intro h; simp [getJwt, h]
  · intro h text hf; simp [getJwt, h, loadToken, hf]

/-- When it contacts the server it returns exactly the token fetched, keeps it in memory, and stores it if saving works; if fetching throws so does
`get_jwt` and nothing changes. -/
theorem c65_fetches (c : Client) (evs : List Event) (save : Save) (ht : c.token = "") (hf : c.file = none) :
    (∀ t, save ≠ .throws → (getJwt c (.ok t, evs) save).1 = .ok t) ∧
    (∀ t, (getJwt c (.ok t, evs) save).2.1.token = t) ∧
    (∀ t, getJwt c (.ok t, evs) .complete = (.ok t, ⟨t, some t⟩, evs)) ∧
    (∀ m, getJwt c (.throw m, evs) save = (.throw m, c, evs)) := by
  refine ⟨fun t hs => ?_, fun t => ?_, fun t => ?_, fun m => ?_⟩
  · cases save <;> simp_all [getJwt, loadToken, saveToken]
  · cases save <;> simp [getJwt, ht, loadToken, hf, saveToken]
  · simp [getJwt, ht, loadToken, hf, saveToken]
  · simp [getJwt, ht, loadToken, hf]

/-- After a refresh that could remove the file, the next `get_jwt` asks the server and returns what it grants. -/
theorem c65_refresh (c : Client) (evs : List Event) (t : String) (save : Save) (hs : save ≠ .throws) :
    (refresh c true).1 = .ok () ∧ (getJwt (refresh c true).2 (.ok t, evs) save).1 = .ok t ∧ (getJwt (refresh c true).2 (.ok t, evs) save).2.2 = evs := by
  refine ⟨by simp [refresh], (c65_fetches _ evs save (by simp [refresh]) (by simp [refresh])).1 t hs, ?_⟩
  cases save <;> simp_all [getJwt, loadToken, saveToken, refresh]

/-- Operations in which saving works completely. -/
def SavesWork : Op → Prop
  | .getJwt _ save => save = .complete
  | _ => True

/-- Operations other than a refresh. -/
def NotRefresh : Op → Prop
  | .refresh _ => False
  | _ => True

/-- Every fetch is one that the loop can produce. -/
def RealFetch : Op → Prop
  | .getJwt fetch _ => ∃ env, EndsWith env fetch.1 fetch.2
  | _ => True

/-- A fetched token is not empty. -/
theorem c66_fetched_nonempty (env : FetchEnv) (t : String) (evs : List Event) (h : EndsWith env (.ok t) evs) : t ≠ "" := by
  rcases c67_ends env _ evs h with ⟨msg, h1, -⟩ | ⟨m, k, token, h1, -, h2, -⟩
  · cases h1
  · cases h1
    exact h2.1

/-- From a client that has a token, with the file holding the same token, every `get_jwt` in a history without refresh returns that token and never
contacts the server, restarts included. -/
theorem c65_cached (t : String) (ht : t ≠ "") (ops : List Op) (hr : ∀ op ∈ ops, NotRefresh op) (c : Client) (hc : c.token = "" ∨ c.token = t)
    (hf : c.file = some t) : ∀ x ∈ (run c ops).1, (x.1 = none ∨ x.1 = some t) ∧ x.2 = [] := by
  induction ops generalizing c with
  | nil => simp [run]
  | cons op ops ih =>
    have hrest := fun c' h1 h2 => ih (fun o ho => hr o (List.mem_cons_of_mem _ ho)) c' h1 h2
    rw [run]
    cases op with
    | refresh removed => exact (hr (.refresh removed) (by simp)).elim
    | restart =>
      intro x hx
      simp only [step, List.mem_cons] at hx
      rcases hx with rfl | hx
      · exact ⟨Or.inl rfl, rfl⟩
      · exact hrest (restart c) (Or.inl rfl) hf x hx
    | getJwt fetch save =>
      have e : getJwt c fetch save = (.ok t, ⟨t, some t⟩, []) := by
        rcases hc with hc | hc
        · rw [(c65_answers c fetch save).2 hc t hf]
          cases c; simp_all
        · rw [(c65_answers c fetch save).1 (by rw [hc]; exact ht)]
          cases c; simp_all
      intro x hx
      simp only [step, e, List.mem_cons] at hx
      rcases hx with rfl | hx
      · exact ⟨Or.inr rfl, rfl⟩
      · exact hrest ⟨t, some t⟩ (Or.inr rfl) rfl x hx

/-- Over a whole history without refresh, from a new client without or with a non-empty token file, with saves that work: once a call has returned a token,
no later call contacts the server, and what later calls return is the same token. -/
theorem c65_history (ops : List Op) (hr : ∀ op ∈ ops, NotRefresh op) (hs : ∀ op ∈ ops, SavesWork op) (hreal : ∀ op ∈ ops, RealFetch op)
    (file : Option String) (hf : file ≠ some "") :
    (run ⟨"", file⟩ ops).1.Pairwise fun x y => ∀ t, x.1 = some t → (y.1 = none ∨ y.1 = some t) ∧ y.2 = [] := by
  have cached : ∀ t, t ≠ "" → ∀ ops : List Op, (∀ op ∈ ops, NotRefresh op) → ∀ c : Client, (c.token = "" ∨ c.token = t) → c.file = some t →
      (run c ops).1.Pairwise fun x y => ∀ t, x.1 = some t → (y.1 = none ∨ y.1 = some t) ∧ y.2 = [] := by
    intro t ht ops hr c hc hf
    have h := c65_cached t ht ops hr c hc hf
    rw [List.pairwise_iff_forall_sublist]
    intro x y hsub t' hx
    have hx' := (h x (hsub.subset (by simp))).1
    have hy' := h y (hsub.subset (by simp))
    rcases hx' with hx' | hx'
    · rw [hx'] at hx; cases hx
    · rw [hx'] at hx
      cases hx
      exact hy'
  cases file with
  | some t => exact cached t (fun h => hf (by rw [h])) ops hr ⟨"", some t⟩ (Or.inl rfl) rfl
  | none =>
    induction ops with
    | nil => simp [run]
    | cons op ops ih =>
      have hr' := fun o ho => hr o (List.mem_cons_of_mem op ho)
      have ih := ih hr' (fun o ho => hs o (List.mem_cons_of_mem _ ho)) (fun o ho => hreal o (List.mem_cons_of_mem _ ho))
      rw [run]
      cases op with
      | refresh removed => exact (hr (.refresh removed) (by simp)).elim
      | restart =>
        refine List.Pairwise.cons (fun y _ t ht => ?_) ih
        cases ht
      | getJwt fetch save =>
        have hsave : save = .complete := hs (.getJwt fetch save) (by simp)
        subst hsave
        obtain ⟨env, henv⟩ : ∃ env, EndsWith env fetch.1 fetch.2 := hreal (.getJwt fetch .complete) (by simp)
        obtain ⟨r, evs⟩ := fetch
        cases r with
        | ok t =>
          have hne := c66_fetched_nonempty env t evs henv
          have e := (c65_fetches ⟨"", none⟩ evs .complete rfl rfl).2.2.1 t
          simp only [step, e]
          refine List.Pairwise.cons (fun y hy t' ht' => ?_) (cached t hne ops hr' ⟨t, some t⟩ (Or.inr rfl) rfl)
          cases ht'
          exact c65_cached t hne ops hr' ⟨t, some t⟩ (Or.inr rfl) rfl y hy
        | throw m =>
          have e := (c65_fetches ⟨"", none⟩ evs .complete rfl rfl).2.2.2 m
          simp only [step, e]
          refine List.Pairwise.cons (fun y _ t ht => ?_) ih
          cases ht
        | ub m =>
          rcases c67_ends env _ evs henv with ⟨msg, h1, -⟩ | ⟨_, _, _, h1, -⟩ <;> cases h1

/-- A fetch that is granted a token at the first poll. -/
def grantedFetch (t : String) : Outcome String × List Event := (.ok t, [.askCode, .askToken 0 200])

/-- A fetch whose deadline has passed at the first check. -/
def lateFetch : Outcome String × List Event := (.throw "Timed out!", [.askCode])

/-- They are fetches that the loop produces. -/
theorem exFetches_real (t : String) (ht : t ≠ "") : (∃ env, EndsWith env (grantedFetch t).1 (grantedFetch t).2) ∧
    ∃ env, EndsWith env lateFetch.1 lateFetch.2 := by
  refine ⟨⟨{ authEnv with poll := fun _ => some ⟨none, t⟩ }, 1, ?_⟩, { authEnv with clock := fun _ => 900000000100 }, 1, ?_⟩
  · simp [fetchToken, authEnv, pollLoop, ht, grantedFetch]
  · simp [fetchToken, authEnv, pollLoop, lateFetch]

/-- A history of the kind meant: a failed fetch, a successful one, a restart, and another call for which the server would have granted something else. -/
def authOps : List Op := [.getJwt lateFetch .complete, .getJwt (grantedFetch "jwt") .complete, .restart, .getJwt (grantedFetch "other") .complete]

/-- It meets the hypotheses of the theorems above. -/
theorem authOps_meets : (∀ op ∈ authOps, NotRefresh op) ∧ (∀ op ∈ authOps, SavesWork op) ∧ (∀ op ∈ authOps, RealFetch op) ∧
    (run ⟨"", none⟩ authOps).1.map (·.1) = [none, some "jwt", none, some "jwt"] := by
  refine ⟨by simp [authOps, NotRefresh], by simp [authOps, SavesWork], ?_, by decide +kernel⟩
  have h1 := exFetches_real "jwt" (by decide)
  have h2 := exFetches_real "other" (by decide)
  simp only [authOps, List.mem_cons, List.not_mem_nil, or_false]
  rintro op (rfl | rfl | rfl | rfl)
  · exact h1.2
  · exact h1.1
  · trivial
  · exact h2.1

/-! ## C66 -/

/-- The property is false: with an existing empty token file `get_jwt` returns the empty string, without asking the server. -/
theorem c66_empty_file (fetch : Outcome String × List Event) (save : Save) : getJwt ⟨"", some ""⟩ fetch save = (.ok "", ⟨"", some ""⟩, []) := rfl

/-- Such a file can come from the client itself: if nothing of the token could be written, the next process gets an empty token. -/
theorem c66_cut_file : (run ⟨"", none⟩ [.getJwt (.ok "jwt", []) (.cut 0), .restart, .getJwt (.ok "jwt", []) .complete]).1.map (·.1) =
    [some "jwt", none, some ""] := by decide +kernel

/-- Operations whose save does not leave an empty file. -/
def SaveNotEmpty : Op → Prop
  | .getJwt _ (.cut n) => 0 < n
  | _ => True

/-- What holds: if there is no token file at first, or one that is not empty, and no save leaves an empty file, then no `get_jwt` in any history of calls,
refreshes and restarts returns the empty string.  Missing: files that are empty. -/
theorem c66_nonempty_partial (ops : List Op) (hreal : ∀ op ∈ ops, RealFetch op) (hs : ∀ op ∈ ops, SaveNotEmpty op) (c : Client) (hf : c.file ≠ some "") :
    ∀ x ∈ (run c ops).1, x.1 ≠ some "" := by
  induction ops generalizing c with
  | nil => simp [run]
  | cons op ops ih =>
    have ih := fun c' h => ih (fun o ho => hreal o (List.mem_cons_of_mem _ ho)) (fun o ho => hs o (List.mem_cons_of_mem _ ho)) c' h
    rw [run]
    -- one step
    have one : (step c op).1 ≠ some "" ∧ (step c op).2.1.file ≠ some "" := by
      cases op with
      | restart => exact ⟨by simp [step], hf⟩
      | refresh removed => cases removed <;> simp [step, refresh, hf]
      | getJwt fetch save =>
        by_cases ht : c.token = ""
        · cases hfile : c.file with
          | some text =>
            have hne : text ≠ "" := fun h => hf (by rw [hfile, h])
            simp only [step, (c65_answers c fetch save).2 ht text hfile]
            exact ⟨by simpa using hne, by rw [hfile]; simpa using hne⟩
          | none =>
            obtain ⟨env, henv⟩ : ∃ env, EndsWith env fetch.1 fetch.2 := hreal (.getJwt fetch save) (by simp)
            obtain ⟨r, evs⟩ := fetch
            cases r with
            | ok t =>
              have hne := c66_fetched_nonempty env t evs henv
              cases save with
              | throws => simp [step, getJwt, ht, loadToken, hfile, saveToken]
              | notOpened => simp [step, getJwt, ht, loadToken, hfile, saveToken, hne]
              | complete => simp [step, getJwt, ht, loadToken, hfile, saveToken, hne]
              | cut n =>
                have hn : 0 < n := hs (.getJwt (.ok t, evs) (.cut n)) (by simp)
                have : String.ofList (t.toList.take n) ≠ "" := by
                  intro h
                  have h := congrArg String.toList h
                  rw [String.toList_ofList] at h
                  have hnil : t.toList.take n = [] := h
                  rw [List.take_eq_nil_iff] at hnil
                  rcases hnil with hnil | hnil
                  · omega
                  · exact hne (String.toList_inj.mp (by rw [hnil]; rfl))
                simp [step, getJwt, ht, loadToken, hfile, saveToken, hne, this]
            | throw m => simp [step, getJwt, ht, loadToken, hfile]
            | ub m => simp [step, getJwt, ht, loadToken, hfile]
        · simp only [step, (c65_answers c fetch save).1 ht]
          exact ⟨by simpa using ht, hf⟩
    intro x hx
    simp only [List.mem_cons] at hx
    rcases hx with rfl | hx
    · exact one.1
    · exact ih _ one.2 x hx

/-- A history with a refresh and a cut save. -/
def authOps2 : List Op := [.getJwt (grantedFetch "jwt") (.cut 2), .restart, .getJwt (grantedFetch "other") .complete, .refresh true]

/-- It meets the hypotheses; the token of the second process is cut, but not empty. -/
example : (∀ op ∈ authOps2, SaveNotEmpty op) ∧ (∀ op ∈ authOps2, RealFetch op) ∧
    (run ⟨"", none⟩ authOps2).1.map (·.1) = [some "jwt", none, some "jw", none] := by
  refine ⟨by simp [authOps2, SaveNotEmpty], ?_, by decide +kernel⟩
  have h1 := exFetches_real "jwt" (by decide)
  have h2 := exFetches_real "other" (by decide)
  simp only [authOps2, List.mem_cons, List.not_mem_nil, or_false]
  rintro op (rfl | rfl | rfl | rfl)
  · exact h1.1
  · trivial
  · exact h2.1
  · trivial

/-! ## Instances of the theorems above -/

/-- The run of `authEnv` that ends with a token. -/
theorem authEnv_ends : EndsWith authEnv (.ok "jwt") [.askCode, .askToken 0 200, .sleep 5, .askToken 1 5100000200, .sleep 5, .askToken 2 10200000200] :=
  ⟨3, rfl⟩

/-- C67 for it: the token was granted by a poll, every poll was before the deadline, and a loop with a round past the deadline has ended. -/
example : (∃ m k, authEnv.device = some m ∧ Grants authEnv k "jwt") ∧ (200 : Int) < deadline authEnv ⟨900, 5⟩ ∧
    ∃ r evs, fetchToken authEnv (177 + 1) = some (r, evs) := by
  refine ⟨?_, ?_, c67_terminates authEnv 177 ?_⟩
  · rcases c67_ends authEnv _ _ authEnv_ends with ⟨m, h, -⟩ | ⟨m, k, t, h, hd, hg, -⟩
    · cases h
    · cases h
      exact ⟨m, k, hd, hg⟩
  · exact ((c67_polls authEnv ⟨900, 5⟩ rfl _ _ authEnv_ends).2 0 200 (by simp)).2
  · intro m hm
    cases hm
    decide

/-- C65 for one client: without token and file it asks the server, keeps the answer in both, answers from the token, after a restart from the file, and after
a refresh asks again. -/
example : (getJwt ⟨"", none⟩ (grantedFetch "jwt") .complete).2.2 ≠ [] ∧
    getJwt ⟨"", none⟩ (grantedFetch "jwt") .complete = (.ok "jwt", ⟨"jwt", some "jwt"⟩, [.askCode, .askToken 0 200]) ∧
    getJwt ⟨"jwt", some "jwt"⟩ (grantedFetch "other") .complete = (.ok "jwt", ⟨"jwt", some "jwt"⟩, []) ∧
    (getJwt (refresh ⟨"jwt", some "jwt"⟩ true).2 (.ok "other", [.askCode]) .complete).1 = .ok "other" :=
  ⟨(c65_contacts_iff ⟨"", none⟩ (grantedFetch "jwt") .complete (by simp [grantedFetch])).mpr ⟨rfl, rfl⟩,
    (c65_fetches ⟨"", none⟩ [.askCode, .askToken 0 200] .complete rfl rfl).2.2.1 "jwt",
    (c65_answers ⟨"jwt", some "jwt"⟩ (grantedFetch "other") .complete).1 (by decide),
    (c65_refresh ⟨"jwt", some "jwt"⟩ [.askCode] "other" .complete (by simp)).2.1⟩

/-- C65 over a history, and C66 for the token that was fetched. -/
example : ((run ⟨"", none⟩ authOps).1.Pairwise fun x y => ∀ t, x.1 = some t → (y.1 = none ∨ y.1 = some t) ∧ y.2 = []) ∧
    (∀ x ∈ (run ⟨"", some "jwt"⟩ authOps).1, (x.1 = none ∨ x.1 = some "jwt") ∧ x.2 = []) ∧ "jwt" ≠ "" :=
  ⟨c65_history authOps authOps_meets.1 authOps_meets.2.1 authOps_meets.2.2.1 none (by simp),
    c65_cached "jwt" (by decide) authOps authOps_meets.1 ⟨"", some "jwt"⟩ (.inl rfl) rfl, c66_fetched_nonempty authEnv "jwt" _ authEnv_ends⟩

end Verif.Props
