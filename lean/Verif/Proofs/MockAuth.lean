import Verif.Model.MockAuth
import Verif.Spec.MockAuth
import Verif.Proofs.ViewClient
/-! # Lemmas on the view client with the authentication client of the tests -/
namespace Verif.MockAuth
open Verif.ViewClient Verif.Spec.ViewClient Verif.Spec.MockAuth
variable {σ U β : Type}

/-- Every POST bears the current token, which a refresh replaces. -/
def TokensFrom (refreshed : String) : String → List (Event β) → Prop
  | _, [] => True
  | cur, .post _ t _ :: l => t = cur ∧ TokensFrom refreshed cur l
  | _, .refresh :: l => TokensFrom refreshed refreshed l

/-- The token after the events. -/
def tokenAfter (refreshed : String) : String → List (Event β) → String
  | cur, [] => cur
  | cur, .post _ _ _ :: l => tokenAfter refreshed cur l
  | _, .refresh :: l => tokenAfter refreshed refreshed l

theorem tokensFrom_append (refreshed : String) (l m : List (Event β)) (cur : String) :
    TokensFrom refreshed cur (l ++ m) ↔ TokensFrom refreshed cur l ∧ TokensFrom refreshed (tokenAfter refreshed cur l) m := by
  induction l generalizing cur with
  | nil => simp [TokensFrom, tokenAfter]
  | cons e l ih => cases e <;> simp [TokensFrom, tokenAfter, ih, and_assoc]

theorem tokenAfter_append (refreshed : String) (l m : List (Event β)) (cur : String) :
    tokenAfter refreshed cur (l ++ m) = tokenAfter refreshed (tokenAfter refreshed cur l) m := by
  induction l generalizing cur with
  | nil => rfl
  | cons e l ih => cases e <;> simp [tokenAfter, ih]

theorem tokenAfter_eq (refreshed : String) (l : List (Event β)) (cur : String) :
    (.refresh ∈ l → tokenAfter refreshed cur l = refreshed) ∧ (.refresh ∉ l → tokenAfter refreshed cur l = cur) := by
  induction l generalizing cur with
  | nil => simp [tokenAfter]
  | cons e l ih =>
    cases e with
    | post q t r => simpa [tokenAfter] using ih cur
    | refresh =>
      refine ⟨fun _ => ?_, fun h => absurd (by simp) h⟩
      rw [tokenAfter]
      by_cases h : Event.refresh ∈ l
      · exact (ih refreshed).1 h
      · exact (ih refreshed).2 h

/-- One exchange, as it happens. -/
theorem exchange_around (server : Server σ β) (a : Auth) (s : σ) (req : Request β) :
    ((server s req a.token).1.status = 401 →
      exchange req (around server a s req).1 = (.ok (server (server s req a.token).2 req a.refreshed).1,
        [.post req a.token (server s req a.token).1, .refresh, .post req a.refreshed (server (server s req a.token).2 req a.refreshed).1]) ∧
      (around server a s req).2.1 = ⟨a.refreshed, a.refreshed⟩) ∧
    ((server s req a.token).1.status ≠ 401 →
      exchange req (around server a s req).1 = (.ok (server s req a.token).1, [.post req a.token (server s req a.token).1]) ∧
      (around server a s req).2.1 = a) := by
  constructor
  · intro h
    have h' : (server s req a.getJwt).1.status = 401 := h
    have e : around server a s req = (⟨.ok a.getJwt, (server s req a.getJwt).1, .ok (), .ok a.refresh.getJwt,
        (server (server s req a.getJwt).2 req a.refresh.getJwt).1⟩, a.refresh, (server (server s req a.getJwt).2 req a.refresh.getJwt).2) := by
      rw [around]; exact if_pos h'
    rw [e]
    exact ⟨by simp only [exchange, if_pos h']; rfl, rfl⟩
  · intro h
    have h' : ¬ (server s req a.getJwt).1.status = 401 := h
    have e : around server a s req = (⟨.ok a.getJwt, (server s req a.getJwt).1, .ok (), .ok "", (server s req a.getJwt).1⟩, a, (server s req a.getJwt).2) := by
      rw [around]; exact if_neg h'
    rw [e]
    exact ⟨by simp only [exchange, if_neg h']; rfl, rfl⟩

/-- What holds of one exchange with any server. -/
theorem exchange_any (server : Server σ β) (a : Auth) (s : σ) (req : Request β) :
    ∃ r evs, exchange req (around server a s req).1 = (.ok r, evs) ∧ TokensFrom a.refreshed a.token evs ∧
      (around server a s req).2.1 = ⟨tokenAfter a.refreshed a.token evs, a.refreshed⟩ := by
  by_cases h : (server s req a.token).1.status = 401
  · obtain ⟨h1, h2⟩ := (exchange_around server a s req).1 h
    exact ⟨_, _, h1, by simp [TokensFrom], by rw [h2]; rfl⟩
  · obtain ⟨h1, h2⟩ := (exchange_around server a s req).2 h
    exact ⟨_, _, h1, by simp [TokensFrom], by rw [h2]; rfl⟩

/-- What holds of one send with any server. -/
theorem send_any (server : Server σ β) (pack : U → Outcome β) (w : World σ) (u : U) :
    TokensFrom w.auth.refreshed w.auth.token (sendIn server pack w u).1.2 ∧
    (sendIn server pack w u).2.auth = ⟨tokenAfter w.auth.refreshed w.auth.token (sendIn server pack w u).1.2, w.auth.refreshed⟩ ∧
    (sendIn server pack w u).2.client.base = w.client.base ∧
    (w.client.base ≠ "" → (∃ body, pack u = .ok body) → (sendIn server pack w u).1.1.IsOk) := by
  obtain ⟨⟨base, sid, uid⟩, ⟨tok, ref⟩, s⟩ := w
  by_cases hb : base = ""
  · subst hb
    simp [sendIn, send, TokensFrom, tokenAfter]
  by_cases hs : sid = ""
  · subst hs
    obtain ⟨r, evs, h1, h2, h3⟩ := exchange_any server ⟨tok, ref⟩ s (.session (sessionUrl base))
    generalize hx : around server ⟨tok, ref⟩ s (.session (sessionUrl base)) = x at h1 h3
    obtain ⟨x, a1, s1⟩ := x
    simp only at h1 h2 h3
    subst h3
    by_cases hr : r.status = 201
    · have ho : (openSession ⟨base, "", uid⟩ x : Outcome Status × Client × List (Event β)) =
          (.ok .okay, ⟨base, erase '\n' (erase '"' r.text), uid⟩, evs) := by
        simp [openSession, h1, hr]
      cases hp : pack u with
      | ok body =>
        obtain ⟨r', evs', k1, k2, k3⟩ := exchange_any server ⟨tokenAfter ref tok evs, ref⟩ s1
          (.update (updateUrl base (erase '\n' (erase '"' r.text)) uid) body)
        generalize hy : around server ⟨tokenAfter ref tok evs, ref⟩ s1 (.update (updateUrl base (erase '\n' (erase '"' r.text)) uid) body) = y at k1 k3
        obtain ⟨y, a2, s2⟩ := y
        simp only at k1 k2 k3
        subst k3
        have e : sendIn server pack ⟨⟨base, "", uid⟩, ⟨tok, ref⟩, s⟩ u =
            (((postUpdate pack ⟨base, erase '\n' (erase '"' r.text), uid⟩ u y).1, evs ++ evs'),
              ⟨⟨base, erase '\n' (erase '"' r.text), (uid + 1) % 2 ^ 64⟩, ⟨tokenAfter ref (tokenAfter ref tok evs) evs', ref⟩, s2⟩) := by
          simp only [sendIn, hb, hx, ho, hp, hy, send, postUpdate, k1, ne_eq, not_false_eq_true, and_self, if_true, if_false]
          split <;> rfl
        rw [e]
        refine ⟨(tokensFrom_append _ _ _ _).mpr ⟨h2, k2⟩, by rw [tokenAfter_append], rfl, fun _ _ => ?_⟩
        simp only [postUpdate, hp, k1]
        split <;> exact ⟨_, rfl⟩
      | throw m =>
        simp [sendIn, hb, hx, ho, hp, send, postUpdate, h2]
      | ub m =>
        simp [sendIn, hb, hx, ho, hp, send, postUpdate, h2]
    · have ho : (openSession ⟨base, "", uid⟩ x : Outcome Status × Client × List (Event β)) =
          (.ok (Status.makeAtLine "resim/visualization/client/view_client.cc" 60 "Could not create session."), ⟨base, "", uid⟩, evs) := by
        simp [openSession, h1, hr]
      simp [sendIn, hb, hx, ho, send, h2, Status.makeAtLine]
  · have ho : (openSession ⟨base, sid, uid⟩ idle : Outcome Status × Client × List (Event β)) = (.ok .okay, ⟨base, sid, uid⟩, []) := by
      simp [openSession, hs]
    cases hp : pack u with
    | ok body =>
      obtain ⟨r', evs', k1, k2, k3⟩ := exchange_any server ⟨tok, ref⟩ s (.update (updateUrl base sid uid) body)
      generalize hy : around server ⟨tok, ref⟩ s (.update (updateUrl base sid uid) body) = y at k1 k3
      obtain ⟨y, a2, s2⟩ := y
      simp only at k1 k2 k3
      subst k3
      have e : sendIn server pack ⟨⟨base, sid, uid⟩, ⟨tok, ref⟩, s⟩ u =
          (((postUpdate pack ⟨base, sid, uid⟩ u y).1, evs'), ⟨⟨base, sid, (uid + 1) % 2 ^ 64⟩, ⟨tokenAfter ref tok evs', ref⟩, s2⟩) := by
        simp only [sendIn, hb, hs, ho, hp, hy, send, postUpdate, k1, ne_eq, not_false_eq_true, and_self, and_false, if_true, if_false, List.nil_append]
        split <;> rfl
      rw [e]
      refine ⟨k2, rfl, rfl, fun _ _ => ?_⟩
      simp only [postUpdate, hp, k1]
      split <;> exact ⟨_, rfl⟩
    | throw m =>
      simp [sendIn, hb, hs, ho, hp, send, postUpdate, TokensFrom, tokenAfter]
    | ub m =>
      simp [sendIn, hb, hs, ho, hp, send, postUpdate, TokensFrom, tokenAfter]

theorem run_tokens (server : Server σ β) (pack : U → Outcome β) (us : List U) :
    ∀ w : World σ, TokensFrom w.auth.refreshed w.auth.token ((runIn server pack w us).flatMap (·.2)) := by
  induction us with
  | nil => intro w; simp [runIn, TokensFrom]
  | cons u us ih =>
    intro w
    obtain ⟨h1, h2, -, -⟩ := send_any server pack w u
    simp only [runIn, List.flatMap_cons]
    rw [tokensFrom_append]
    refine ⟨h1, ?_⟩
    have := ih (sendIn server pack w u).2
    rw [h2] at this
    exact this

theorem run_ok (server : Server σ β) (pack : U → Outcome β) (hp : ∀ u, ∃ body, pack u = .ok body) (us : List U) :
    ∀ w : World σ, w.client.base ≠ "" → ∀ r ∈ runIn server pack w us, r.1.IsOk := by
  induction us with
  | nil => intro w _; simp [runIn]
  | cons u us ih =>
    intro w hb r hr
    obtain ⟨-, -, h3, h4⟩ := send_any server pack w u
    rw [runIn, List.mem_cons] at hr
    rcases hr with rfl | hr
    · exact h4 hb (hp u)
    · exact ih _ (by rw [h3]; exact hb) r hr

/-- One exchange with a guarded server, with a token that a refresh makes right. -/
theorem exchange_good {server : Server σ β} {good : String} (hg : Guards good server) (tok : String) (s : σ) (req : Request β) :
    ∃ r evs, exchange req (around server ⟨tok, good⟩ s req).1 = (.ok r, evs ++ [.post req good r]) ∧ r.status = 201 ∧
      (∀ url, req = .session url → sessionIn r.text ≠ "") ∧ (around server ⟨tok, good⟩ s req).2.1 = ⟨good, good⟩ ∧
      ((tok = good ∧ evs = []) ∨ (tok ≠ good ∧ ∃ r', r'.status = 401 ∧ evs = [.post req tok r', .refresh])) := by
  by_cases ht : tok = good
  · subst ht
    obtain ⟨g1, g2⟩ := (hg s req tok).1 rfl
    obtain ⟨h1, h2⟩ := (exchange_around server ⟨tok, tok⟩ s req).2 (by rw [show (server s req tok).1.status = 201 from g1]; decide)
    exact ⟨_, [], h1, g1, g2, h2, Or.inl ⟨rfl, rfl⟩⟩
  · have g := (hg s req tok).2 ht
    obtain ⟨h1, h2⟩ := (exchange_around server ⟨tok, good⟩ s req).1 g
    obtain ⟨g1, g2⟩ := (hg (server s req tok).2 req good).1 rfl
    exact ⟨_, [.post req tok (server s req tok).1, .refresh], h1, g1, g2, h2, Or.inr ⟨ht, _, g, rfl⟩⟩

/-- What a history on which all goes well looks like, from a client with the given token and perhaps a session. -/
structure Fine (good tok : String) (us : List U) (bodies : List β) (l : List (Outcome Status × List (Event β))) : Prop where
  okay : ∀ r ∈ l, r.1 = .ok .okay
  delivered : (l.flatMap (·.2)).filterMap accepted = bodies
  refused : ((l.flatMap (·.2)).filter refused).length = if tok = good ∨ us = [] then 0 else 1
  refreshes : ((l.flatMap (·.2)).filter isRefresh).length = if tok = good ∨ us = [] then 0 else 1

theorem send_good {server : Server σ β} {good : String} (hg : Guards good server) (pack : U → Outcome β) (u : U) (body : β) (hp : pack u = .ok body)
    (base sid : String) (uid : Nat) (hb : base ≠ "") (tok : String) (s : σ) :
    ∃ evs sid' uid' s', sendIn server pack ⟨⟨base, sid, uid⟩, ⟨tok, good⟩, s⟩ u = ((.ok .okay, evs), ⟨⟨base, sid', uid'⟩, ⟨good, good⟩, s'⟩) ∧
      evs.filterMap accepted = [body] ∧ (evs.filter refused).length = (if tok = good then 0 else 1) ∧
      (evs.filter isRefresh).length = (if tok = good then 0 else 1) := by
  have count : ∀ (req : Request β) (tok : String) (evs : List (Event β)) (r : Response), r.status = 201 →
      ((tok = good ∧ evs = []) ∨ (tok ≠ good ∧ ∃ r' : Response, r'.status = 401 ∧ evs = [.post req tok r', .refresh])) →
      evs.filterMap accepted = [] ∧ ((evs ++ [Event.post req good r]).filter refused).length = (if tok = good then 0 else 1) ∧
      ((evs ++ [Event.post req good r]).filter isRefresh).length = (if tok = good then 0 else 1) := by
    intro req tok evs r hr h
    rcases h with ⟨rfl, rfl⟩ | ⟨ht, r', h', rfl⟩
    · simp [refused, isRefresh, hr, List.filter]
    · refine ⟨?_, ?_, ?_⟩
      · cases req <;> simp [accepted, h']
      · simp [refused, h', hr, ht, List.filter]
      · simp [isRefresh, ht, List.filter]
  by_cases hs : sid = ""
  · subst hs
    obtain ⟨r, evs, h1, h2, h3, h4, h5⟩ := exchange_good hg tok s (.session (sessionUrl base))
    generalize hx : around server ⟨tok, good⟩ s (.session (sessionUrl base)) = x at h1 h4
    obtain ⟨x, a1, s1⟩ := x
    simp only at h1 h4
    subst h4
    have ho : (openSession ⟨base, "", uid⟩ x : Outcome Status × Client × List (Event β)) =
        (.ok .okay, ⟨base, erase '\n' (erase '"' r.text), uid⟩, evs ++ [.post (.session (sessionUrl base)) good r]) := by
      simp [openSession, h1, h2]
    obtain ⟨r', evs', k1, k2, -, k4, k5⟩ := exchange_good hg good s1 (.update (updateUrl base (erase '\n' (erase '"' r.text)) uid) body)
    have ke : evs' = [] := by
      rcases k5 with ⟨-, h⟩ | ⟨h, -⟩
      · exact h
      · exact absurd rfl h
    subst ke
    generalize hy : around server ⟨good, good⟩ s1 (.update (updateUrl base (erase '\n' (erase '"' r.text)) uid) body) = y at k1 k4
    obtain ⟨y, a2, s2⟩ := y
    simp only at k1 k4
    subst k4
    obtain ⟨c1, c2, c3⟩ := count _ tok evs r h2 h5
    refine ⟨(evs ++ [.post (.session (sessionUrl base)) good r]) ++ [.post (.update (updateUrl base (erase '\n' (erase '"' r.text)) uid) body) good r'],
      erase '\n' (erase '"' r.text), (uid + 1) % 2 ^ 64, s2, ?_, ?_, ?_, ?_⟩
    · simp only [sendIn, hb, hx, ho, hp, hy, send, postUpdate, k1, k2, ne_eq, not_false_eq_true, not_true_eq_false, and_self, if_true, if_false, List.nil_append]
    · have a2 : accepted (Event.post (Request.update (updateUrl base (erase '\n' (erase '"' r.text)) uid) body) good r') = some body := by
        simp [accepted, k2]
      have a1 : accepted (Event.post (Request.session (sessionUrl base)) good r : Event β) = none := rfl
      rw [List.filterMap_append, List.filterMap_append, c1]
      simp only [List.filterMap_cons, List.filterMap_nil, a1, a2, List.nil_append]
    · rw [List.filter_append, List.length_append, c2]; simp [refused, k2, List.filter]
    · rw [List.filter_append, List.length_append, c3]; simp [isRefresh, List.filter]
  · have ho : (openSession ⟨base, sid, uid⟩ idle : Outcome Status × Client × List (Event β)) = (.ok .okay, ⟨base, sid, uid⟩, []) := by
      simp [openSession, hs]
    obtain ⟨r', evs', k1, k2, -, k4, k5⟩ := exchange_good hg tok s (.update (updateUrl base sid uid) body)
    generalize hy : around server ⟨tok, good⟩ s (.update (updateUrl base sid uid) body) = y at k1 k4
    obtain ⟨y, a2, s2⟩ := y
    simp only at k1 k4
    subst k4
    obtain ⟨c1, c2, c3⟩ := count _ tok evs' r' k2 k5
    refine ⟨evs' ++ [.post (.update (updateUrl base sid uid) body) good r'], sid, (uid + 1) % 2 ^ 64, s2, ?_, ?_, c2, c3⟩
    · simp only [sendIn, hb, hs, ho, hp, hy, send, postUpdate, k1, k2, ne_eq, not_false_eq_true, not_true_eq_false, and_self, and_false, if_true, if_false, List.nil_append]
    · simp [List.filterMap_append, c1, accepted, k2]

theorem run_good {server : Server σ β} {good : String} (hg : Guards good server) (pack : U → β) (us : List U) :
    ∀ (base sid : String) (uid : Nat) (_ : base ≠ "") (tok : String) (s : σ),
      Fine good tok us (us.map pack) (runIn server (fun u => .ok (pack u)) ⟨⟨base, sid, uid⟩, ⟨tok, good⟩, s⟩ us) := by
  induction us with
  | nil => intro base sid uid _ tok s; exact ⟨by simp [runIn], by simp [runIn], by simp [runIn], by simp [runIn]⟩
  | cons u us ih =>
    intro base sid uid hb tok s
    obtain ⟨evs, sid', uid', s', h1, h2, h3, h4⟩ := send_good hg (fun u => .ok (pack u)) u (pack u) rfl base sid uid hb tok s
    obtain ⟨i1, i2, i3, i4⟩ := ih base sid' uid' hb good s'
    simp only [true_or, if_true] at i3 i4
    refine ⟨?_, ?_, ?_, ?_⟩
    · intro r hr
      rw [runIn, h1, List.mem_cons] at hr
      rcases hr with rfl | hr
      · rfl
      · exact i1 r hr
    · rw [runIn, h1, List.flatMap_cons, List.filterMap_append, h2, i2]; rfl
    · rw [runIn, h1, List.flatMap_cons, List.filter_append, List.length_append, h3, i3]; simp
    · rw [runIn, h1, List.flatMap_cons, List.filter_append, List.length_append, h4, i4]; simp

/-- A send by a client that no one lets in. -/
theorem send_bad {server : Server σ β} {good : String} (hg : Guards good server) (pack : U → Outcome β) (u : U) (base : String) (uid : Nat) (hb : base ≠ "")
    (tok ref : String) (ht : tok ≠ good) (hr : ref ≠ good) (s : σ) :
    ∃ r1 r2 s', r1.status = 401 ∧ r2.status = 401 ∧ sendIn server pack ⟨⟨base, "", uid⟩, ⟨tok, ref⟩, s⟩ u =
      ((.ok (.err "Could not create session." "resim/visualization/client/view_client.cc" 60),
        [.post (.session (sessionUrl base)) tok r1, .refresh, .post (.session (sessionUrl base)) ref r2]), ⟨⟨base, "", uid⟩, ⟨ref, ref⟩, s'⟩) := by
  have g := (hg s (.session (sessionUrl base)) tok).2 ht
  obtain ⟨h1, h2⟩ := (exchange_around server ⟨tok, ref⟩ s (.session (sessionUrl base))).1 g
  have g2 := (hg (server s (.session (sessionUrl base)) tok).2 (.session (sessionUrl base)) ref).2 hr
  generalize hx : around server ⟨tok, ref⟩ s (.session (sessionUrl base)) = x at h1 h2
  obtain ⟨x, a1, s1⟩ := x
  simp only at h1 h2
  subst h2
  refine ⟨(server s (.session (sessionUrl base)) tok).1, (server (server s (.session (sessionUrl base)) tok).2 (.session (sessionUrl base)) ref).1, s1, g, g2, ?_⟩
  have ho : (openSession ⟨base, "", uid⟩ x : Outcome Status × Client × List (Event β)) =
      (.ok (Status.makeAtLine "resim/visualization/client/view_client.cc" 60 "Could not create session."), ⟨base, "", uid⟩,
        [.post (.session (sessionUrl base)) tok (server s (.session (sessionUrl base)) tok).1, .refresh,
          .post (.session (sessionUrl base)) ref (server (server s (.session (sessionUrl base)) tok).2 (.session (sessionUrl base)) ref).1]) := by
    simp [openSession, h1, g2]
  simp [sendIn, hb, hx, ho, send, Status.makeAtLine]

end Verif.MockAuth
