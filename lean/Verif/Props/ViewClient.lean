import Verif.Proofs.ViewClient
/-! # C62-C64: the view client

A history is any list of sends, each with any behaviour of the server and of the authentication client. -/
namespace Verif.Props
open Verif.ViewClient Verif.Spec.ViewClient
variable {U β : Type}

/-! ## C62 -/

/-- No update is posted before a session was created, and each goes to a session created before it. -/
theorem c62_session_first (pack : U → Outcome β) (base : String) (h : List (U × Exchange × Exchange)) (pre post : List (Event β)) (url : String) (body : β)
    (t : String) (r : Response) (he : (run pack (Client.new base) h).flatMap (·.2) = pre ++ .post (.update url body) t r :: post) :
    ∃ text e id, e ∈ pre ∧ Created base text e ∧ url = updatesAt base (sessionIn text) id := by
  -- in general: from any client whose session, if it has one, was created in the events known so far
  have gen : ∀ (h : List (U × Exchange × Exchange)) (c : Client) (known pre post : List (Event β)), c.base = base →
      (c.sessionId = "" ∨ ∃ text e, e ∈ known ∧ Created base text e ∧ c.sessionId = sessionIn text) →
      (run pack c h).flatMap (·.2) = pre ++ .post (.update url body) t r :: post →
      ∃ text e id, e ∈ known ++ pre ∧ Created base text e ∧ url = updatesAt base (sessionIn text) id := by
    intro h
    induction h with
    | nil => intro c known pre post _ _ he; simp [run] at he
    | cons op h ih =>
      obtain ⟨u, x, y⟩ := op
      intro c known pre post hb hk he
      obtain ⟨s, up, hev, sp⟩ := send_spec pack c u x y
      rw [run] at he
      simp only [List.flatMap_cons, hev] at he
      generalize (send pack c u x y).1 = r' at sp he
      generalize (send pack c u x y).2.1 = c' at sp he
      have noUpdate : ∀ url body t r, Event.post (.update url body) t r ∉ s := by
        intro url body t r hm
        have := attempt_req sp.sessionAttempt hm
        simp at this
      -- the session of the new client is known after `s`
      have hk' : up = [] ∧ c' = c ∨ ∃ text e, e ∈ known ++ s ∧ Created base text e ∧ c'.sessionId = sessionIn text := by
        by_cases hs : c.sessionId = ""
        · rcases sp.session hs with ⟨h1, h2, -⟩ | ⟨pr, t0, text, h1, -, h2⟩
          · exact Or.inl ⟨h2, h1⟩
          · refine Or.inr ⟨text, _, ?_, ⟨t0, rfl⟩, h2⟩
            rw [h1, ← hb]; simp
        · rcases hk with hk | ⟨text, e, h1, h2, h3⟩
          · exact absurd hk hs
          · exact Or.inr ⟨text, e, List.mem_append_left _ h1, h2, (sp.silent hs).2.trans h3⟩
      rcases List.append_eq_append_iff.mp he with ⟨a, h1, h2⟩ | ⟨a, h1, h2⟩
      · -- the update is in a later send
        have hk2 : c'.sessionId = "" ∨ ∃ text e, e ∈ known ++ (s ++ up) ∧ Created base text e ∧ c'.sessionId = sessionIn text := by
          rcases hk' with ⟨-, rfl⟩ | ⟨text, e, h3, h4, h5⟩
          · rcases hk with hk | ⟨text, e, h3, h4, h5⟩
            · exact Or.inl hk
            · exact Or.inr ⟨text, e, List.mem_append_left _ h3, h4, h5⟩
          · refine Or.inr ⟨text, e, ?_, h4, h5⟩
            rw [← List.append_assoc]
            exact List.mem_append_left _ h3
        obtain ⟨text, e, id, h3, h4, h5⟩ := ih c' (known ++ (s ++ up)) a post (sp.base.trans hb) hk2 h2
        refine ⟨text, e, id, ?_, h4, h5⟩
        rw [h1]
        simpa using h3
      · cases a with
        | nil =>
          simp only [List.append_nil, List.nil_append] at h1 h2
          have hk2 : c'.sessionId = "" ∨ ∃ text e, e ∈ known ++ (s ++ up) ∧ Created base text e ∧ c'.sessionId = sessionIn text := by
            rcases hk' with ⟨-, rfl⟩ | ⟨text, e, h3, h4, h5⟩
            · rcases hk with hk | ⟨text, e, h3, h4, h5⟩
              · exact Or.inl hk
              · exact Or.inr ⟨text, e, List.mem_append_left _ h3, h4, h5⟩
            · refine Or.inr ⟨text, e, ?_, h4, h5⟩
              rw [← List.append_assoc]
              exact List.mem_append_left _ h3
          obtain ⟨text, e, id, h3, h4, h5⟩ := ih c' (known ++ (s ++ up)) [] post (sp.base.trans hb) hk2 (by simpa using h2.symm)
          refine ⟨text, e, id, ?_, h4, h5⟩
          rw [← h1]
          simpa using h3
        | cons z a =>
          -- the update is in this send
          simp only [List.cons_append, List.cons.injEq] at h2
          rw [← h2.1] at h1
          -- it is in `up`, since `s` has none
          have hin : ∃ p q, up = p ++ .post (.update url body) t r :: q ∧ pre = s ++ p := by
            rcases List.append_eq_append_iff.mp h1 with ⟨w, h3, h4⟩ | ⟨w, h3, h4⟩
            · exact ⟨w, a, h4, h3⟩
            · cases w with
              | nil =>
                simp only [List.append_nil, List.nil_append] at h3 h4
                exact ⟨[], a, by simpa using h4.symm, by simpa using h3.symm⟩
              | cons v w =>
                simp only [List.cons_append, List.cons.injEq] at h4
                exact absurd (by rw [h3, ← h4.1]; simp) (noUpdate url body t r)
          obtain ⟨p, q, h3, h4⟩ := hin
          have hup : Event.post (.update url body) t r ∈ up := by rw [h3]; simp
          rcases hk' with ⟨h5, -⟩ | ⟨text, e, h5, h6, h7⟩
          · rw [h5] at hup; simp at hup
          · rcases sp.update with ⟨h8, -⟩ | ⟨body', -, -, h8, -⟩
            · rw [h8] at hup; simp at hup
            · have := attempt_req h8 hup
              simp only [Request.update.injEq] at this
              refine ⟨text, e, c.updateId, ?_, h6, ?_⟩
              · rw [h4, ← List.append_assoc]
                exact List.mem_append_left _ h5
              · rw [this.1, hb, h7]
  obtain ⟨text, e, id, h1, h2, h3⟩ := gen h (Client.new base) [] pre post rfl (Or.inl rfl) he
  exact ⟨text, e, id, by simpa using h1, h2, h3⟩

/-- If no answer that creates a session consists of quotes and newlines only, at most one session is created over the life of a client.  Without that
condition it is false (`c62_two_sessions`). -/
theorem c62_one_session_partial (pack : U → Outcome β) (base : String) (h : List (U × Exchange × Exchange))
    (hm : ∀ text e, e ∈ (run pack (Client.new base) h).flatMap (·.2) → Created base text e → sessionIn text ≠ "") :
    (((run pack (Client.new base) h).flatMap (·.2)).filter isCreation).length ≤ 1 := by
  have gen : ∀ (h : List (U × Exchange × Exchange)) (c : Client), c.base = base →
      (∀ text e, e ∈ (run pack c h).flatMap (·.2) → Created base text e → sessionIn text ≠ "") →
      (((run pack c h).flatMap (·.2)).filter isCreation).length ≤ if c.sessionId = "" then 1 else 0 := by
    intro h
    induction h with
    | nil => intro c _ _; simp [run]
    | cons op h ih =>
      obtain ⟨u, x, y⟩ := op
      intro c hb hm
      obtain ⟨s, up, hev, sp⟩ := send_spec pack c u x y
      rw [run] at hm ⊢
      simp only [List.flatMap_cons, hev] at hm ⊢
      generalize (send pack c u x y).1 = r' at sp hm
      generalize (send pack c u x y).2.1 = c' at sp hm
      have hrest := ih c' (sp.base.trans hb) fun text e he => hm text e (List.mem_append_right _ he)
      have hup : up.filter isCreation = [] := by
        rw [List.filter_eq_nil_iff]
        intro e he
        rcases sp.update with ⟨h8, -⟩ | ⟨body', -, -, h8, -⟩
        · rw [h8] at he; simp at he
        · cases e with
          | refresh => simp [isCreation]
          | post q t r =>
            rw [attempt_req h8 he]
            simp [isCreation]
      rw [List.filter_append, List.filter_append, hup]
      simp only [List.append_nil, List.length_append]
      by_cases hs : c.sessionId = ""
      · rw [if_pos hs]
        rcases sp.session hs with ⟨h1, -, h3⟩ | ⟨pr, t0, text, h1, h2, h3⟩
        · have : s.filter isCreation = [] := by
            rw [List.filter_eq_nil_iff]
            intro e he
            simp [h3 e he]
          rw [h1, if_pos hs] at hrest
          rw [this]
          simpa [h1] using hrest
        · have hne : sessionIn text ≠ "" := hm text _ (by rw [h1, hb]; simp) ⟨t0, rfl⟩
          rw [h3, if_neg hne] at hrest
          have : pr.filter isCreation = [] := by
            rw [List.filter_eq_nil_iff]
            intro e he
            simp [h2 e he]
          have hlen : (s.filter isCreation).length = 1 := by
            rw [h1, List.filter_append, this]
            simp [isCreation, List.filter]
          omega
      · rw [if_neg hs]
        obtain ⟨h1, h2⟩ := sp.silent hs
        rw [h2, if_neg hs] at hrest
        rw [h1]
        simpa using hrest
  exact gen h (Client.new base) rfl hm

/-- An exchange answered at once. -/
def answered (status : Int) (text : String) : Exchange := ⟨.ok "token", ⟨status, text⟩, .ok (), .ok "token2", ⟨status, text⟩⟩

/-- An exchange answered 401 first. -/
def secondTry (status : Int) (text : String) : Exchange := ⟨.ok "old", ⟨401, ""⟩, .ok (), .ok "new", ⟨status, text⟩⟩

/-- The property is false without the condition: a server that answers with an empty quoted string is asked for a session by every send, and the updates go
to an address without session. -/
theorem c62_two_sessions : ∃ h : List (Nat × Exchange × Exchange),
    (((run (fun u => Outcome.ok u) (Client.new "b") h).flatMap (·.2)).filter isCreation).length = 2 := by
  refine ⟨[(1, answered 201 "\"\"\n", answered 201 ""), (2, answered 201 "\"\"\n", answered 201 "")], ?_⟩
  decide +kernel

/-- A history that meets the condition: the first session request fails, the second send creates a session after a 401, the third uses it. -/
def exHistory : List (Nat × Exchange × Exchange) :=
  [(1, answered 500 "", answered 201 ""), (2, secondTry 201 "\"s1\"\n", answered 201 ""), (3, answered 201 "unused", secondTry 503 "")]

theorem exHistory_meets : (∀ text e, e ∈ (run (fun u => Outcome.ok u) (Client.new "b") exHistory).flatMap (·.2) → Created "b" text e → sessionIn text ≠ "") ∧
    (run (fun u => Outcome.ok u) (Client.new "b") exHistory).flatMap (·.2) = [
      .post (.session "b/view/sessions") "token" ⟨500, ""⟩,
      .post (.session "b/view/sessions") "old" ⟨401, ""⟩, .refresh, .post (.session "b/view/sessions") "new" ⟨201, "\"s1\"\n"⟩,
      .post (.update "b/view/sessions/s1/updates/0" 2) "token" ⟨201, ""⟩,
      .post (.update "b/view/sessions/s1/updates/1" 3) "old" ⟨401, ""⟩, .refresh, .post (.update "b/view/sessions/s1/updates/1" 3) "new" ⟨503, ""⟩] := by
  have e : (run (fun u => Outcome.ok u) (Client.new "b") exHistory).flatMap (·.2) = [
      .post (.session "b/view/sessions") "token" ⟨500, ""⟩,
      .post (.session "b/view/sessions") "old" ⟨401, ""⟩, .refresh, .post (.session "b/view/sessions") "new" ⟨201, "\"s1\"\n"⟩,
      .post (.update "b/view/sessions/s1/updates/0" 2) "token" ⟨201, ""⟩,
      .post (.update "b/view/sessions/s1/updates/1" 3) "old" ⟨401, ""⟩, .refresh, .post (.update "b/view/sessions/s1/updates/1" 3) "new" ⟨503, ""⟩] := by
    decide +kernel
  refine ⟨?_, e⟩
  rw [e]
  rintro text ev hm ⟨t, rfl⟩
  simp at hm
  obtain ⟨-, -, rfl⟩ := hm
  decide +kernel

/-! ## C63 -/

/-- Over fewer than 2^64 sends, an update of a later send has a greater id than an update of an earlier one, and a different address. -/
theorem c63_increasing (pack : U → Outcome β) (base : String) (h : List (U × Exchange × Exchange)) (hl : h.length < 2 ^ 64) :
    (run pack (Client.new base) h).Pairwise fun a b => ∀ url1 body1 t1 r1 url2 body2 t2 r2,
      Event.post (.update url1 body1) t1 r1 ∈ a.2 → Event.post (.update url2 body2) t2 r2 ∈ b.2 →
      url1 ≠ url2 ∧ ∃ s1 i s2 j, url1 = updatesAt base s1 i ∧ url2 = updatesAt base s2 j ∧ i < j := by
  -- ids of a history are at least the client's
  have low : ∀ (h : List (U × Exchange × Exchange)) (c : Client), c.base = base → c.updateId + h.length < 2 ^ 64 →
      ∀ a ∈ run pack c h, ∀ url body t r, Event.post (.update url body) t r ∈ a.2 → ∃ s i, url = updatesAt base s i ∧ c.updateId ≤ i := by
    intro h
    induction h with
    | nil => intro c _ _ a ha; simp [run] at ha
    | cons op h ih =>
      obtain ⟨u, x, y⟩ := op
      intro c hb hlen a ha url body t r hm
      obtain ⟨s, up, hev, sp⟩ := send_spec pack c u x y
      rw [run] at ha
      simp only [List.length_cons] at hlen
      rcases List.mem_cons.mp ha with rfl | ha
      · simp only [hev] at hm
        rcases List.mem_append.mp hm with hm | hm
        · have := attempt_req sp.sessionAttempt hm
          simp at this
        · rcases sp.update with ⟨h8, -⟩ | ⟨body', -, -, h8, -⟩
          · rw [h8] at hm; simp at hm
          · have := attempt_req h8 hm
            simp only [Request.update.injEq] at this
            exact ⟨_, c.updateId, by rw [this.1, hb], Nat.le_refl _⟩
      · have hid : c.updateId ≤ (send pack c u x y).2.1.updateId ∧ (send pack c u x y).2.1.updateId ≤ c.updateId + 1 := by
          have hmod : (c.updateId + 1) % 2 ^ 64 = c.updateId + 1 := Nat.mod_eq_of_lt (by omega)
          rcases sp.update with ⟨-, h8 | h8⟩ | ⟨_, -, -, -, h8⟩ <;> omega
        obtain ⟨s', i, h1, h2⟩ := ih _ (sp.base.trans hb) (by omega) a ha url body t r hm
        exact ⟨s', i, h1, by omega⟩
  have gen : ∀ (h : List (U × Exchange × Exchange)) (c : Client), c.base = base → c.updateId + h.length < 2 ^ 64 →
      (run pack c h).Pairwise fun a b => ∀ url1 body1 t1 r1 url2 body2 t2 r2,
      Event.post (.update url1 body1) t1 r1 ∈ a.2 → Event.post (.update url2 body2) t2 r2 ∈ b.2 →
      url1 ≠ url2 ∧ ∃ s1 i s2 j, url1 = updatesAt base s1 i ∧ url2 = updatesAt base s2 j ∧ i < j := by
    intro h
    induction h with
    | nil => intro c _ _; exact List.Pairwise.nil
    | cons op h ih =>
      obtain ⟨u, x, y⟩ := op
      intro c hb hlen
      obtain ⟨s, up, hev, sp⟩ := send_spec pack c u x y
      rw [run]
      simp only [List.length_cons] at hlen
      have hmod : (c.updateId + 1) % 2 ^ 64 = c.updateId + 1 := Nat.mod_eq_of_lt (by omega)
      have hid : (send pack c u x y).2.1.updateId ≤ c.updateId + 1 := by
        rcases sp.update with ⟨-, h8 | h8⟩ | ⟨_, -, -, -, h8⟩ <;> omega
      refine List.Pairwise.cons ?_ (ih _ (sp.base.trans hb) (by omega))
      intro b hbm url1 body1 t1 r1 url2 body2 t2 r2 h1 h2
      obtain ⟨s2, j, h3, h4⟩ := low h _ (sp.base.trans hb) (by omega) b hbm url2 body2 t2 r2 h2
      simp only [hev] at h1
      have hfirst : url1 = updatesAt base (send pack c u x y).2.1.sessionId c.updateId ∧ (send pack c u x y).2.1.updateId = c.updateId + 1 := by
        rcases List.mem_append.mp h1 with h1 | h1
        · have := attempt_req sp.sessionAttempt h1
          simp at this
        · rcases sp.update with ⟨h8, -⟩ | ⟨body', -, -, h8, h9⟩
          · rw [h8] at h1; simp at h1
          · have := attempt_req h8 h1
            simp only [Request.update.injEq] at this
            exact ⟨by rw [this.1, hb], by omega⟩
      have hlt : c.updateId < j := by omega
      refine ⟨fun heq => ?_, _, c.updateId, s2, j, hfirst.1, h3, hlt⟩
      rw [hfirst.1, h3] at heq
      have := updatesAt_id heq
      omega
  exact gen h (Client.new base) rfl (by simpa [Client.new] using hl)

/-- Within one send all update posts are the same request: one address, with the client's current id, and the packed update as body. -/
theorem c63_same_request (pack : U → Outcome β) (c : Client) (u : U) (x y : Exchange) (url : String) (body : β) (t : String) (r : Response)
    (hm : Event.post (.update url body) t r ∈ (send pack c u x y).2.2) :
    pack u = .ok body ∧ url = updatesAt c.base (send pack c u x y).2.1.sessionId c.updateId := by
  obtain ⟨s, up, hev, sp⟩ := send_spec pack c u x y
  rw [hev] at hm
  rcases List.mem_append.mp hm with hm | hm
  · have := attempt_req sp.sessionAttempt hm
    simp at this
  · rcases sp.update with ⟨h8, -⟩ | ⟨body', h7, -, h8, -⟩
    · rw [h8] at hm; simp at hm
    · have := attempt_req h8 hm
      simp only [Request.update.injEq] at this
      exact ⟨by rw [h7, this.2], this.1⟩

/-- The example history has two sends with updates. -/
example : exHistory.length < 2 ^ 64 := by decide

/-! ## C64 -/

/-- A send is at most one attempt at opening a session followed by at most one attempt at posting an update, each repeated at most once, after a 401 and a
refresh; so it makes at most four posts. -/
theorem c64_attempts (pack : U → Outcome β) (c : Client) (u : U) (x y : Exchange) :
    ∃ s up, (send pack c u x y).2.2 = s ++ up ∧ Attempt (.session (sessionsAt c.base)) s ∧ (up = [] ∨ ∃ url body, Attempt (.update url body) up) ∧
      ((send pack c u x y).2.2.filter isPost).length ≤ 4 ∧ (c.sessionId ≠ "" → s = []) := by
  obtain ⟨s, up, hev, sp⟩ := send_spec pack c u x y
  have hup : up = [] ∨ ∃ url body, Attempt (.update url body) up := by
    rcases sp.update with ⟨h8, -⟩ | ⟨body', -, -, h8, -⟩
    · exact Or.inl h8
    · exact Or.inr ⟨_, body', h8⟩
  refine ⟨s, up, hev, sp.sessionAttempt, hup, ?_, fun h => (sp.silent h).1⟩
  have h1 := attempt_posts sp.sessionAttempt
  have h2 : (up.filter isPost).length ≤ 2 := by
    rcases hup with rfl | ⟨url, body, h⟩
    · simp
    · exact attempt_posts h
  rw [hev, List.filter_append, List.length_append]
  omega

/-- And the repetition does happen: a 401 for either request is followed by a refresh and the same request with the new token. -/
theorem c64_retries (pack : U → Outcome β) (c : Client) (u : U) (x y : Exchange) (hb : c.base ≠ "") :
    (c.sessionId = "" → ∀ t1 t2, x.jwt1 = .ok t1 → x.response1.status = 401 → x.refresh = .ok () → x.jwt2 = .ok t2 →
      ∃ rest, (send pack c u x y).2.2 = .post (.session (sessionsAt c.base)) t1 x.response1 :: .refresh ::
        .post (.session (sessionsAt c.base)) t2 x.response2 :: rest) ∧
    (c.sessionId ≠ "" → ∀ body t1 t2, pack u = .ok body → y.jwt1 = .ok t1 → y.response1.status = 401 → y.refresh = .ok () → y.jwt2 = .ok t2 →
      (send pack c u x y).2.2 = [.post (.update (updatesAt c.base c.sessionId c.updateId) body) t1 y.response1, .refresh,
        .post (.update (updatesAt c.base c.sessionId c.updateId) body) t2 y.response2]) := by
  constructor
  · intro hs t1 t2 h1 h2 h3 h4
    by_cases h201 : x.response2.status = 201
    · simp [sessionUrl, sessionsAt, send, hb, openSession, hs, exchange, h1, h2, h3, h4, h201]
    · simp [sessionUrl, sessionsAt, send, hb, openSession, hs, exchange, h1, h2, h3, h4, h201, Status.makeAtLine]
  · intro hs body t1 t2 h0 h1 h2 h3 h4
    by_cases h201 : y.response2.status = 201
    · simp [updateUrl, updatesAt, send, hb, openSession, hs, postUpdate, exchange, h0, h1, h2, h3, h4, h201]
    · simp [updateUrl, updatesAt, send, hb, openSession, hs, postUpdate, exchange, h0, h1, h2, h3, h4, h201]

/-- It returns OK exactly if the last thing that happened was the post of the update, answered 201. -/
theorem c64_okay_iff (pack : U → Outcome β) (c : Client) (u : U) (x y : Exchange) :
    (send pack c u x y).1 = .ok .okay ↔ ∃ pre url body t text, (send pack c u x y).2.2 = pre ++ [.post (.update url body) t ⟨201, text⟩] := by
  obtain ⟨s, up, hev, sp⟩ := send_spec pack c u x y
  rw [sp.okay, hev]
  constructor
  · rintro ⟨pre, body, t, text, h⟩
    exact ⟨s ++ pre, updatesAt c.base (send pack c u x y).2.1.sessionId c.updateId, body, t, text, by rw [h]; simp⟩
  · rintro ⟨pre, url, body, t, text, h⟩
    rcases List.eq_nil_or_concat up with rfl | ⟨q, e, rfl⟩
    · rw [List.append_nil] at h
      have := attempt_req sp.sessionAttempt (q := .update url body) (t := t) (r := ⟨201, text⟩) (by rw [h]; simp)
      simp at this
    · rw [List.concat_eq_append] at h sp ⊢
      rw [← List.append_assoc] at h
      have := List.append_inj' h rfl
      simp only [List.cons.injEq, and_true] at this
      rcases sp.update with ⟨h8, -⟩ | ⟨body', -, -, h8, -⟩
      · simp at h8
      · have hr := attempt_req h8 (q := .update url body) (t := t) (r := ⟨201, text⟩) (by rw [this.2]; simp)
        simp only [Request.update.injEq] at hr
        exact ⟨q, body, t, text, by rw [this.2, ← hr.1]⟩

/-- Without a base address nothing is posted. -/
theorem c64_no_base (pack : U → Outcome β) (c : Client) (u : U) (x y : Exchange) (h : c.base = "") :
    send pack c u x y = (.throw "Endpoint URL must not be empty!", c, []) := by
  simp [send, h]

/-- A send with four posts that returns OK, and one whose second post fails. -/
example : ((send (fun u => Outcome.ok u) (Client.new "b") 7 (secondTry 201 "s") (secondTry 201 "")).2.2.filter isPost).length = 4 ∧
    (send (fun u => Outcome.ok u) (Client.new "b") 7 (secondTry 201 "s") (secondTry 201 "")).1 = .ok .okay ∧
    (send (fun u => Outcome.ok u) (Client.new "b") 7 (secondTry 201 "s") (secondTry 401 "")).1 ≠ .ok .okay := by
  refine ⟨?_, ?_, ?_⟩ <;> decide +kernel

/-! ## Instances of the theorems above -/

/-- C62 for `exHistory`: the first update went to a session created before, and one session was created. -/
example : ∃ text id, sessionIn text ≠ "" ∧ "b/view/sessions/s1/updates/0" = updatesAt "b" (sessionIn text) id ∧
    (((run (fun u => Outcome.ok u) (Client.new "b") exHistory).flatMap (·.2)).filter isCreation).length ≤ 1 := by
  obtain ⟨text, e, id, he, hc, hu⟩ := c62_session_first (fun u => Outcome.ok u) "b" exHistory
    [.post (.session "b/view/sessions") "token" ⟨500, ""⟩, .post (.session "b/view/sessions") "old" ⟨401, ""⟩, .refresh,
      .post (.session "b/view/sessions") "new" ⟨201, "\"s1\"\n"⟩] _ "b/view/sessions/s1/updates/0" 2 "token" ⟨201, ""⟩ exHistory_meets.2
  refine ⟨text, id, exHistory_meets.1 text e ?_ hc, hu, c62_one_session_partial _ "b" exHistory exHistory_meets.1⟩
  rw [exHistory_meets.2]
  exact List.mem_append_left _ he

/-- C63 for it: the updates of the second and the third send have different addresses. -/
example : (run (fun u => Outcome.ok u) (Client.new "b") exHistory).Pairwise fun a b => ∀ url1 body1 t1 r1 url2 body2 t2 r2,
    Event.post (.update url1 body1) t1 r1 ∈ a.2 → Event.post (.update url2 body2) t2 r2 ∈ b.2 → url1 ≠ url2 :=
  (c63_increasing (fun u => Outcome.ok u) "b" exHistory (by decide)).imp fun h _ _ _ _ _ _ _ _ h1 h2 => (h _ _ _ _ _ _ _ _ h1 h2).1

/-- C64 for a client with a session whose first update is refused with 401: exactly two posts to one address with a refresh between, and the result is
okay exactly because the second was answered 201. -/
example : (send (fun u => Outcome.ok u) ⟨"b", "s", 4⟩ 7 (secondTry 201 "s") (secondTry 201 "")).2.2 =
      [.post (.update (updatesAt "b" "s" 4) 7) "old" ⟨401, ""⟩, .refresh, .post (.update (updatesAt "b" "s" 4) 7) "new" ⟨201, ""⟩] ∧
    (send (fun u => Outcome.ok u) ⟨"b", "s", 4⟩ 7 (secondTry 201 "s") (secondTry 201 "")).1 = .ok .okay ∧
    ((send (fun u => Outcome.ok u) ⟨"b", "s", 4⟩ 7 (secondTry 201 "s") (secondTry 201 "")).2.2.filter isPost).length ≤ 4 := by
  have h := (c64_retries (fun u => Outcome.ok u) ⟨"b", "s", 4⟩ 7 (secondTry 201 "s") (secondTry 201 "") (by decide)).2 (by decide) 7 "old" "new" rfl rfl rfl rfl
    rfl
  refine ⟨h, (c64_okay_iff _ _ _ _ _).mpr ⟨[_, _], _, _, _, _, h⟩, ?_⟩
  obtain ⟨-, -, -, -, -, h4, -⟩ := c64_attempts (fun u => Outcome.ok u) ⟨"b", "s", 4⟩ 7 (secondTry 201 "s") (secondTry 201 "")
  exact h4

end Verif.Props
