import Verif.Spec.ViewClient
import Std.Data.String.ToNat
import Mathlib.Tactic.Basic
/-! # The view client: lemmas -/
namespace Verif.ViewClient
open Verif.Spec.ViewClient
variable {U β : Type}

/-- Everything about one exchange. -/
theorem exchange_shape (req : Request β) (x : Exchange) :
    Attempt req (exchange req x).2 ∧ (∀ r, (exchange req x).1 = .ok r → ∃ pre t, (exchange req x).2 = pre ++ [.post req t r]) ∧
    ((∀ r, (exchange req x).1 ≠ .ok r) → ∀ pre r' t, (exchange req x).2 = pre ++ [.post req t r'] → r'.status = 401) := by
  unfold exchange
  split
  · exact ⟨.none, by simp, by simp⟩
  · exact ⟨.none, by simp, by simp⟩
  · next t1 h1 =>
    split
    · next h401 =>
      split
      · refine ⟨.one _ _, by simp, fun _ pre r' t he => ?_⟩
        cases pre with
        | nil => simp at he; rw [← he.2]; exact h401
        | cons a pre => simp at he
      · refine ⟨.one _ _, by simp, fun _ pre r' t he => ?_⟩
        cases pre with
        | nil => simp at he; rw [← he.2]; exact h401
        | cons a pre => simp at he
      · split
        · refine ⟨.gaveUp _ _ h401, by simp, fun _ pre r' t he => ?_⟩
          have := List.append_inj' (show [Event.post req t1 x.response1] ++ [Event.refresh] = pre ++ [Event.post req t r'] from he) rfl
          simp at this
        · refine ⟨.gaveUp _ _ h401, by simp, fun _ pre r' t he => ?_⟩
          have := List.append_inj' (show [Event.post req t1 x.response1] ++ [Event.refresh] = pre ++ [Event.post req t r'] from he) rfl
          simp at this
        · next t2 _ =>
          refine ⟨.two _ _ _ _ h401, ?_, fun h => absurd rfl (h x.response2)⟩
          intro r hr
          simp only [Outcome.ok.injEq] at hr
          subst hr
          exact ⟨[.post req t1 x.response1, .refresh], t2, rfl⟩
    · refine ⟨.one _ _, ?_, fun h => absurd rfl (h x.response1)⟩
      intro r hr
      simp only [Outcome.ok.injEq] at hr
      subst hr
      exact ⟨[], t1, rfl⟩

theorem attempt_posts {req : Request β} {l : List (Event β)} (h : Attempt req l) : (l.filter isPost).length ≤ 2 := by
  cases h <;> simp [List.filter, isPost]

theorem attempt_req {req : Request β} {l : List (Event β)} (h : Attempt req l) {q : Request β} {t : String} {r : Response} (hm : .post q t r ∈ l) :
    q = req := by
  cases h <;> simp at hm
  · exact hm.1
  · exact hm.1
  · rcases hm with h | h
    · exact h.1
    · exact h.1

theorem erase_twice (s : String) : erase '\n' (erase '"' s) = sessionIn s := by
  unfold erase sessionIn
  rw [String.toList_ofList, List.filter_filter]
  congr 2
  funext x
  simp [Bool.and_comm]

/-- What one send does. -/
structure SendSpec (pack : U → Outcome β) (c : Client) (u : U) (r : Outcome Status) (c' : Client) (s up : List (Event β)) : Prop where
  base : c'.base = c.base
  sessionAttempt : Attempt (.session (sessionsAt c.base)) s
  silent : c.sessionId ≠ "" → s = [] ∧ c'.sessionId = c.sessionId
  session : c.sessionId = "" → (c' = c ∧ up = [] ∧ ∀ e ∈ s, isCreation e = false) ∨
    ∃ pre t text, s = pre ++ [.post (.session (sessionsAt c.base)) t ⟨201, text⟩] ∧ (∀ e ∈ pre, isCreation e = false) ∧ c'.sessionId = sessionIn text
  update : (up = [] ∧ (c'.updateId = c.updateId ∨ c'.updateId = (c.updateId + 1) % 2 ^ 64)) ∨ ∃ body, pack u = .ok body ∧ c.base ≠ "" ∧ Attempt (.update (updatesAt c.base c'.sessionId c.updateId) body) up ∧
    c'.updateId = (c.updateId + 1) % 2 ^ 64
  okay : r = .ok .okay ↔ ∃ pre body t text, up = pre ++ [.post (.update (updatesAt c.base c'.sessionId c.updateId) body) t ⟨201, text⟩]

theorem created_pre {req : Request β} {l : List (Event β)} (h : Attempt req l) {pre : List (Event β)} {t : String} {r : Response}
    (hl : l = pre ++ [.post req t r]) : ∀ e ∈ pre, isCreation e = false := by
  cases h with
  | none => simp at hl
  | one t' r' =>
    cases pre with
    | nil => simp
    | cons a pre => simp at hl
  | gaveUp t' r' h401 =>
    have := List.append_inj' (show [Event.post req t' r'] ++ [Event.refresh] = pre ++ [Event.post req t r] from hl) rfl
    simp at this
  | two t1 t2 r1 r2 h401 =>
    have := List.append_inj' (show [Event.post req t1 r1, Event.refresh] ++ [Event.post req t2 r2] = pre ++ [Event.post req t r] from hl) rfl
    rw [← this.1]
    intro e he
    simp at he
    rcases he with rfl | rfl
    · cases req <;> simp [isCreation, h401]
    · rfl

theorem not_created {req : Request β} {l : List (Event β)} (h : Attempt req l) (hn : ∀ pre t r, l = pre ++ [.post req t r] → r.status ≠ 201) :
    ∀ e ∈ l, isCreation e = false := by
  have side : ∀ t (r : Response), r.status ≠ 201 → isCreation (Event.post req t r) = false := by
    intro t r hr
    cases req <;> simp [isCreation, hr]
  cases h with
  | none => simp
  | one t' r' =>
    intro e he
    simp at he
    subst he
    exact side t' r' (hn [] t' r' rfl)
  | gaveUp t' r' h401 =>
    intro e he
    simp at he
    rcases he with rfl | rfl
    · exact side t' r' (by rw [h401]; decide)
    · rfl
  | two t1 t2 r1 r2 h401 =>
    intro e he
    simp at he
    rcases he with rfl | rfl | rfl
    · exact side t1 r1 (by rw [h401]; decide)
    · rfl
    · exact side t2 r2 (hn [.post req t1 r1, .refresh] t2 r2 rfl)

theorem post_spec (pack : U → Outcome β) (c : Client) (u : U) (y : Exchange) :
    (postUpdate pack c u y).2.1.base = c.base ∧ (postUpdate pack c u y).2.1.sessionId = c.sessionId ∧
    (((postUpdate pack c u y).2.2 = [] ∧ ((postUpdate pack c u y).2.1.updateId = c.updateId ∨
      (postUpdate pack c u y).2.1.updateId = (c.updateId + 1) % 2 ^ 64)) ∨
      ∃ body, pack u = .ok body ∧ Attempt (.update (updateUrl c.base c.sessionId c.updateId) body) (postUpdate pack c u y).2.2 ∧
      (postUpdate pack c u y).2.1.updateId = (c.updateId + 1) % 2 ^ 64) ∧
    ((postUpdate pack c u y).1 = .ok .okay ↔
      ∃ pre body t text, (postUpdate pack c u y).2.2 = pre ++ [.post (.update (updateUrl c.base c.sessionId c.updateId) body) t ⟨201, text⟩]) := by
  unfold postUpdate
  split
  · simp
  · simp
  · next body hbody =>
    obtain ⟨h1, h2, h3⟩ := exchange_shape (.update (updateUrl c.base c.sessionId c.updateId) body) y
    generalize exchange (.update (updateUrl c.base c.sessionId c.updateId) body) y = ex at h1 h2 h3
    obtain ⟨r, evs⟩ := ex
    have single : ∀ pre body' t text, evs = pre ++ [.post (.update (updateUrl c.base c.sessionId c.updateId) body') t ⟨201, text⟩] → body' = body := by
      intro pre body' t text he
      have := attempt_req h1 (q := .update (updateUrl c.base c.sessionId c.updateId) body') (t := t) (r := ⟨201, text⟩) (by simp [he])
      simpa using this
    cases r with
    | throw m =>
      refine ⟨rfl, rfl, Or.inr ⟨body, hbody, h1, rfl⟩, by simp, ?_⟩
      rintro ⟨pre, body', t, text, he⟩
      have hs := single _ _ _ _ he
      subst hs
      have := h3 (by simp) pre ⟨201, text⟩ t he
      simp at this
    | ub m =>
      refine ⟨rfl, rfl, Or.inr ⟨body, hbody, h1, rfl⟩, by simp, ?_⟩
      rintro ⟨pre, body', t, text, he⟩
      have hs := single _ _ _ _ he
      subst hs
      have := h3 (by simp) pre ⟨201, text⟩ t he
      simp at this
    | ok resp =>
      obtain ⟨pre, t, he⟩ := h2 resp rfl
      simp only at he
      by_cases h201 : resp.status = 201
      · simp only [h201, ne_eq, not_true_eq_false, if_false]
        refine ⟨trivial, trivial, Or.inr ⟨body, hbody, h1, trivial⟩, fun _ => ⟨pre, body, t, resp.text, ?_⟩, fun _ => trivial⟩
        rw [he, ← h201]
      · simp only [ne_eq, h201, not_false_eq_true, if_true]
        refine ⟨trivial, trivial, Or.inr ⟨body, hbody, h1, trivial⟩, fun h => by simp [Status.makeAtLine] at h, ?_⟩
        rintro ⟨pre', body', t', text, he'⟩
        have := List.append_inj' (he.symm.trans he') rfl
        simp at this
        exact absurd (by rw [this.2.2.2]) h201

theorem send_spec (pack : U → Outcome β) (c : Client) (u : U) (x y : Exchange) :
    ∃ s up, (send pack c u x y).2.2 = s ++ up ∧ SendSpec pack c u (send pack c u x y).1 (send pack c u x y).2.1 s up := by
  unfold send
  split
  · next hb =>
    refine ⟨[], [], rfl, rfl, .none, fun _ => ⟨rfl, rfl⟩, fun _ => Or.inl ⟨rfl, rfl, by simp⟩, Or.inl ⟨rfl, Or.inl rfl⟩, by simp⟩
  · next hb =>
    unfold openSession
    by_cases hs : c.sessionId = ""
    · rw [if_pos hs]
      obtain ⟨h1, h2, h3⟩ := exchange_shape (β := β) (.session (sessionUrl c.base)) x
      generalize exchange (β := β) (.session (sessionUrl c.base)) x = ex at h1 h2 h3
      obtain ⟨r, evs⟩ := ex
      have bad : ∀ r' : Outcome Status, r' ≠ .ok .okay → (∀ pre t r, evs = pre ++ [.post (.session (sessionUrl c.base)) t r] → r.status ≠ 201) →
          SendSpec pack c u r' c evs [] := by
        intro r' hr' hn
        refine ⟨rfl, h1, fun h => absurd hs h, fun _ => Or.inl ⟨rfl, rfl, not_created h1 hn⟩, Or.inl ⟨rfl, Or.inl rfl⟩, fun h => absurd h hr', by simp⟩
      cases r with
      | throw m =>
        refine ⟨evs, [], by simp, bad _ (by simp) fun pre t r he => ?_⟩
        rw [h3 (by simp) pre r t he]; decide
      | ub m =>
        refine ⟨evs, [], by simp, bad _ (by simp) fun pre t r he => ?_⟩
        rw [h3 (by simp) pre r t he]; decide
      | ok resp =>
        obtain ⟨pre, t, he⟩ := h2 resp rfl
        simp only at he
        by_cases h201 : resp.status = 201
        · simp only [h201, ne_eq, not_true_eq_false, if_false]
          obtain ⟨p1, p2, p3, p4⟩ := post_spec pack { c with sessionId := erase '\n' (erase '"' resp.text) } u y
          generalize postUpdate pack { c with sessionId := erase '\n' (erase '"' resp.text) } u y = po at p1 p2 p3 p4
          simp only at p2
          refine ⟨evs, po.2.2, rfl, p1, h1, fun h => absurd hs h, fun _ => Or.inr ⟨pre, t, resp.text, ?_, created_pre h1 he, ?_⟩, ?_, ?_⟩
          · rw [he, ← h201]; rfl
          · rw [p2, erase_twice]
          · rw [p2]
            rcases p3 with p3 | ⟨body, q1, q2, q3⟩
            · exact Or.inl p3
            · exact Or.inr ⟨body, q1, hb, q2, q3⟩
          · rw [p2]
            exact p4
        · simp only [ne_eq, h201, not_false_eq_true, if_true]
          refine ⟨evs, [], by simp [Status.makeAtLine], ?_⟩
          refine bad _ (by simp [Status.makeAtLine]) fun pre' t' r' he' => ?_
          have := List.append_inj' (he.symm.trans he') rfl
          simp at this
          rw [← this.2.2]
          exact h201
    · rw [if_neg hs]
      obtain ⟨p1, p2, p3, p4⟩ := post_spec pack c u y
      simp only
      generalize postUpdate pack c u y = po at p1 p2 p3 p4
      refine ⟨[], po.2.2, rfl, p1, .none, fun _ => ⟨rfl, p2⟩, fun h => absurd h hs, ?_, ?_⟩
      · rw [p2]
        rcases p3 with p3 | ⟨body, q1, q2, q3⟩
        · exact Or.inl p3
        · exact Or.inr ⟨body, q1, hb, q2, q3⟩
      · rw [p2]
        exact p4

/-! ## Addresses -/

theorem slash_not_in_repr (n : Nat) : '/' ∉ (Nat.repr n).toList := by
  rw [Nat.toList_repr]
  intro h
  have := Nat.isDigit_of_mem_toDigits (by decide) (by decide) h
  revert this
  decide

theorem last_slash : ∀ {a b d e : List Char}, a ++ '/' :: d = b ++ '/' :: e → '/' ∉ d → '/' ∉ e → d = e := by
  intro a
  induction a with
  | nil =>
    intro b d e h hd he
    cases b with
    | nil => simpa using h
    | cons x b =>
      simp at h
      exact absurd (by rw [h.2]; simp) hd
  | cons x a ih =>
    intro b d e h hd he
    cases b with
    | nil =>
      simp at h
      exact absurd (by rw [← h.2]; simp) he
    | cons y b =>
      simp at h
      exact ih h.2 hd he

/-- The update id can be read off the address. -/
theorem updatesAt_id {base s1 s2 : String} {i j : Nat} (h : updatesAt base s1 i = updatesAt base s2 j) : i = j := by
  have h := congrArg String.toList h
  unfold updatesAt at h
  simp only [String.toList_append] at h
  have e : "/updates/".toList = "/updates".toList ++ ['/'] := by decide
  rw [e] at h
  have := last_slash (a := base.toList ++ "/view/sessions/".toList ++ s1.toList ++ "/updates".toList)
    (b := base.toList ++ "/view/sessions/".toList ++ s2.toList ++ "/updates".toList) (d := (Nat.repr i).toList) (e := (Nat.repr j).toList)
    (by simpa using h) (slash_not_in_repr i) (slash_not_in_repr j)
  exact Nat.repr_injective (String.toList_inj.mp this)

end Verif.ViewClient
