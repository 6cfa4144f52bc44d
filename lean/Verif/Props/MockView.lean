import Verif.Proofs.MockView
import Verif.Props.EndToEnd
/-! # C102: what reaches the receiver of the mock view server -/
namespace Verif.Props
open Verif.ViewClient Verif.Spec.ViewClient Verif.MockView Verif.Spec.MockView
variable {β M V U : Type}

/-- The server goes by the first Authorization header with a bearer token: it lets a request pass exactly if that token is "valid token", refuses it with 403 exactly
if the token is "forbidden token", and answers 401 otherwise. -/
theorem c102_headers (headers : List (List Char × List Char)) :
    (validate headers = none ↔ Presents headers "valid token".toList) ∧ (validate headers = some 403 ↔ Presents headers "forbidden token".toList) ∧
    (validate headers = some 401 ↔ ¬ Presents headers "valid token".toList ∧ ¬ Presents headers "forbidden token".toList) := by
  rw [presents_iff, presents_iff, ← validate_none, ← validate_forbidden]
  refine ⟨Iff.rfl, Iff.rfl, ?_⟩
  rcases validate_range headers with h | h | h <;> simp [h]

/-- Two Authorization headers, and one of another kind: the first bearer token counts. -/
example : Presents [("Host".toList, "h".toList), ("Authorization".toList, "Basic x".toList), ("Authorization".toList, "Bearer valid token".toList),
    ("Authorization".toList, "Bearer forbidden token".toList)] "valid token".toList :=
  ⟨[("Host".toList, "h".toList), ("Authorization".toList, "Basic x".toList)], [("Authorization".toList, "Bearer forbidden token".toList)], rfl, by decide⟩

theorem matchUpdate_iff (path a b : List Char) : matchUpdate path = some (a, b) ↔ UpdatePath path a b := by
  unfold UpdatePath
  have hdot : (a.all dot && b.all dot) = true ↔ ∀ ch ∈ a ++ b, ch ≠ '\n' ∧ ch ≠ '\x0d' := by
    rw [← List.all_append, List.all_eq_true]
    refine forall₂_congr fun ch _ => ?_
    unfold dot
    rw [Bool.and_eq_true, decide_eq_true_eq, decide_eq_true_eq]
  unfold matchUpdate
  split
  · next h =>
    obtain ⟨w, hw⟩ := List.isPrefixOf_iff_prefix.mp h
    rw [← hw, List.drop_left, List.append_cancel_left_eq, ← and_assoc, ← lastSplit_some _ _ _ _ (by decide), ← hdot]
    cases lastSplit "/updates/".toList w with
    | none => exact iff_of_false (fun h => nomatch h) (fun h => nomatch h.1)
    | some ab =>
      obtain ⟨a', b'⟩ := ab
      dsimp only
      constructor
      · intro h
        split at h
        · next hd =>
          cases h
          exact ⟨rfl, hd⟩
        · cases h
      · rintro ⟨h1, h2⟩
        cases h1
        rw [if_pos h2]
  · next h =>
    refine iff_of_false (fun h => nomatch h) ?_
    rintro ⟨h1, -⟩
    exact h (List.isPrefixOf_iff_prefix.mpr ⟨_, h1.symm⟩)

/-- Any post: the receiver is called twice with the same arguments or not at all, and it is called exactly if the post presents the valid token, its path is
`/view/sessions/A/updates/B` with the last possible `/updates/` in between and no line breaks, `A` is a UUID, `B` begins with a number, and the body unpacks. -/
theorem c102_receives_iff (s : Server β M V) (p : Post β) (c : MockView.Call V) :
    ((route s p).2 = [] ∨ ∃ d, (route s p).2 = [d, d]) ∧
    (c ∈ (route s p).2 ↔ Presents p.headers "valid token".toList ∧ ∃ a b msg, p.path = "/view/sessions/".toList ++ (a ++ "/updates/".toList ++ b) ∧
      ¬ "/updates/".toList <:+: ("/updates/".toList ++ b).tail ∧ (∀ ch ∈ a ++ b, ch ≠ '\n' ∧ ch ≠ '\x0d') ∧
      s.parse p.body = some msg ∧ Uuid.ofStr a = .ok c.session ∧ stoul b = .ok c.number ∧ s.unpack msg = .ok c.update) := by
  have hmatch : ∀ a b, matchUpdate p.path = some (a, b) ↔ p.path = "/view/sessions/".toList ++ (a ++ "/updates/".toList ++ b) ∧
      ¬ "/updates/".toList <:+: ("/updates/".toList ++ b).tail ∧ ∀ ch ∈ a ++ b, ch ≠ '\n' ∧ ch ≠ '\x0d' := fun a b => matchUpdate_iff p.path a b
  rw [← (c102_headers p.headers).1]
  unfold route
  split
  · next hp =>
    refine ⟨Or.inl rfl, iff_of_false (by simp) ?_⟩
    rintro ⟨-, a, b, -, h, -⟩
    rw [hp] at h
    have := congrArg List.length h
    rw [List.length_append] at this
    have h1 : "/view/sessions/".toList.length = 15 := by decide
    have h2 : "/view/sessions".toList.length = 14 := by decide
    omega
  · cases hm : matchUpdate p.path with
    | none =>
      refine ⟨Or.inl rfl, iff_of_false (by simp) ?_⟩
      rintro ⟨-, a, b, -, h1, h2, h3, -⟩
      have := (hmatch a b).mpr ⟨h1, h2, h3⟩
      rw [hm] at this
      cases this
    | some ab =>
      obtain ⟨a, b⟩ := ab
      obtain ⟨h1, h2, h3⟩ := (hmatch a b).mp hm
      have key : ∀ P : List Char → List Char → M → Prop, (∃ a b msg, p.path = "/view/sessions/".toList ++ (a ++ "/updates/".toList ++ b) ∧
          ¬ "/updates/".toList <:+: ("/updates/".toList ++ b).tail ∧ (∀ ch ∈ a ++ b, ch ≠ '\n' ∧ ch ≠ '\x0d') ∧ P a b msg) ↔ ∃ msg, P a b msg := by
        intro P
        constructor
        · rintro ⟨a', b', msg, h1', h2', h3', hP⟩
          have := (hmatch a' b').mpr ⟨h1', h2', h3'⟩
          rw [hm] at this
          cases this
          exact ⟨msg, hP⟩
        · rintro ⟨msg, hP⟩
          exact ⟨a, b, msg, h1, h2, h3, hP⟩
      rw [key fun a b msg => s.parse p.body = some msg ∧ Uuid.ofStr a = .ok c.session ∧ stoul b = .ok c.number ∧ s.unpack msg = .ok c.update]
      dsimp only
      unfold onUpdate
      cases validate p.headers with
      | some st => exact ⟨Or.inl rfl, by simp⟩
      | none =>
        cases s.parse p.body with
        | none => exact ⟨Or.inl rfl, by simp⟩
        | some msg =>
          dsimp only
          cases Uuid.ofStr a with
          | throw m => exact ⟨Or.inl rfl, by simp⟩
          | ub m => exact ⟨Or.inl rfl, by simp⟩
          | ok session =>
            dsimp only
            cases stoul b with
            | throw m => exact ⟨Or.inl rfl, by simp⟩
            | ub m => exact ⟨Or.inl rfl, by simp⟩
            | ok number =>
              dsimp only
              cases hu : s.unpack msg with
              | throw m => exact ⟨Or.inl rfl, by simp [hu]⟩
              | ub m => exact ⟨Or.inl rfl, by simp [hu]⟩
              | ok update =>
                refine ⟨Or.inr ⟨_, rfl⟩, ?_⟩
                obtain ⟨cu, cs, cn⟩ := c
                simp only [List.mem_cons, List.not_mem_nil, or_false, or_self, MockView.Call.mk.injEq, true_and, Option.some.injEq, Outcome.ok.injEq]
                constructor
                · rintro ⟨rfl, rfl, rfl⟩
                  exact ⟨msg, rfl, rfl, rfl, hu⟩
                · rintro ⟨msg', rfl, rfl, rfl, h⟩
                  rw [hu] at h
                  cases h
                  exact ⟨rfl, rfl, rfl⟩

/-- What any post is answered: sessions are opened for the valid token; the other tokens get 403 or 401 on every known address; what reaches the receiver is answered
with the code of the server and the receiver's reply, and what should but cannot be read is answered 500; other addresses are not found. -/
theorem c102_answers (s : Server β M V) (p : Post β) (r : ViewClient.Response) (h : answer (route s p).1 = .ok r) :
    (Presents p.headers "valid token".toList → p.path = "/view/sessions".toList → r = ⟨201, String.ofList s.session.toStr⟩) ∧
    (Presents p.headers "valid token".toList → ∀ a b, UpdatePath p.path a b →
      (∀ c ∈ (route s p).2, r = ⟨s.code, s.reply c⟩) ∧ ((route s p).2 = [] → r = ⟨500, ""⟩)) ∧
    ((p.path = "/view/sessions".toList ∨ ∃ a b, UpdatePath p.path a b) →
      (Presents p.headers "forbidden token".toList → r = ⟨403, ""⟩) ∧
      (¬ Presents p.headers "valid token".toList → ¬ Presents p.headers "forbidden token".toList → r = ⟨401, ""⟩)) ∧
    (p.path ≠ "/view/sessions".toList → (¬ ∃ a b, UpdatePath p.path a b) → r = ⟨404, ""⟩) := by
  obtain ⟨v1, v2, v3⟩ := c102_headers p.headers
  have ne : ∀ a b, UpdatePath p.path a b → p.path ≠ "/view/sessions".toList := by
    rintro a b ⟨h1, -⟩ h2
    rw [h2] at h1
    have := congrArg List.length h1
    rw [List.length_append] at this
    have h1 : "/view/sessions/".toList.length = 15 := by decide
    have h2 : "/view/sessions".toList.length = 14 := by decide
    omega
  have bad : ∀ a b st, UpdatePath p.path a b → validate p.headers = some st → r = ⟨st, ""⟩ := by
    intro a b st hu hv
    unfold route at h
    rw [if_neg (ne a b hu), (matchUpdate_iff _ a b).mpr hu] at h
    simp only [onUpdate, hv, answer, Outcome.ok.injEq] at h
    exact h.symm
  have badS : ∀ st, p.path = "/view/sessions".toList → validate p.headers = some st → r = ⟨st, ""⟩ := by
    intro st hp hv
    unfold route at h
    rw [if_pos hp] at h
    simp only [onSession, hv, answer, Outcome.ok.injEq] at h
    exact h.symm
  refine ⟨?_, ?_, ?_, ?_⟩
  · intro hv hp
    unfold route at h
    rw [if_pos hp] at h
    simp only [onSession, v1.mpr hv, answer, Outcome.ok.injEq] at h
    exact h.symm
  · intro hv a b hu
    unfold route at h ⊢
    rw [if_neg (ne a b hu), (matchUpdate_iff _ a b).mpr hu] at h ⊢
    simp only [onUpdate, v1.mpr hv] at h ⊢
    cases hp : s.parse p.body with
    | none => rw [hp] at h; simp only [answer, Outcome.ok.injEq] at h; exact ⟨by simp, fun _ => h.symm⟩
    | some msg =>
      rw [hp] at h
      dsimp only at h ⊢
      cases ha : Uuid.ofStr a with
      | throw m => rw [ha] at h; simp only [answer, Outcome.ok.injEq] at h; exact ⟨by simp, fun _ => h.symm⟩
      | ub m => rw [ha] at h; simp [answer] at h
      | ok session =>
        rw [ha] at h
        dsimp only at h ⊢
        cases hb : stoul b with
        | throw m => rw [hb] at h; simp only [answer, Outcome.ok.injEq] at h; exact ⟨by simp, fun _ => h.symm⟩
        | ub m => rw [hb] at h; simp [answer] at h
        | ok number =>
          rw [hb] at h
          dsimp only at h ⊢
          cases hm : s.unpack msg with
          | throw m => rw [hm] at h; simp only [answer, Outcome.ok.injEq] at h; exact ⟨by simp, fun _ => h.symm⟩
          | ub m => rw [hm] at h; simp [answer] at h
          | ok update =>
            rw [hm] at h
            simp only [answer, Outcome.ok.injEq] at h
            subst h
            refine ⟨?_, by simp⟩
            intro c hc
            simp only [List.mem_cons, List.not_mem_nil, or_false, or_self] at hc
            rw [hc]
  · intro hp
    refine ⟨fun hf => ?_, fun h1 h2 => ?_⟩
    · rcases hp with hp | ⟨a, b, hu⟩
      · exact badS _ hp (v2.mpr hf)
      · exact bad a b _ hu (v2.mpr hf)
    · rcases hp with hp | ⟨a, b, hu⟩
      · exact badS _ hp (v3.mpr ⟨h1, h2⟩)
      · exact bad a b _ hu (v3.mpr ⟨h1, h2⟩)
  · intro hp hu
    unfold route at h
    rw [if_neg hp] at h
    cases hm : matchUpdate p.path with
    | none => rw [hm] at h; simp only [answer, Outcome.ok.injEq] at h; exact h.symm
    | some ab => exact absurd ⟨ab.1, ab.2, (matchUpdate_iff _ _ _).mp hm⟩ hu

/-- The same server and header with a good body, an unreadable session, another address, and the session address. -/
example (s : Server Nat Nat Nat) (hs : s = ⟨Uuid.null, 201, fun b => some b, fun m => .ok m, fun _ => "{}"⟩) :
    let hd := [("Authorization".toList, "Bearer valid token".toList)]
    UpdatePath "/view/sessions/x/updates/7".toList "x".toList "7".toList ∧
    answer (route s ⟨"/view/sessions/x/updates/7".toList, hd, 5⟩).1 = .ok ⟨500, ""⟩ ∧
    answer (route s ⟨"/view/sessions/00000000-0000-0000-0000-000000000000/updates/7".toList, hd, 5⟩).1 = .ok ⟨201, "{}"⟩ ∧
    answer (route s ⟨"/view".toList, hd, 5⟩).1 = .ok ⟨404, ""⟩ ∧
    answer (route s ⟨"/view/sessions".toList, [], 5⟩).1 = .ok ⟨401, ""⟩ := by
  subst hs
  exact ⟨(matchUpdate_iff _ _ _).mp (by decide +kernel), by decide +kernel, by decide +kernel, by decide +kernel, by decide +kernel⟩

/-- Sending to the server, whatever the credentials: each send's posts with the valid token reach the receiver, each twice, with the update that was sent, the session of
the server and the same number; nothing else does.  The send returns OK exactly if a post has the valid token and the server is set to answer 201.  Later sends have
larger numbers. -/
theorem c102_sends (s : Server β M V) (base : String) (others : List (List Char × List Char)) (ho : ∀ h ∈ others, h.1 ≠ "Authorization".toList) (empty : β)
    (pack : U → Outcome β) (f : U → V) (h : List (U × Exchange × Exchange)) (hl : h.length < 2 ^ 64)
    (hf : ∀ e ∈ h, ∀ body, pack e.1 = .ok body → ∃ msg, s.parse body = some msg ∧ s.unpack msg = .ok (f e.1))
    (hg : Genuine s base others empty ((ViewClient.run pack (Client.new base) h).flatMap (·.2))) :
    List.Forall₂ (fun e r => (∃ n, received s base others empty r.2 = List.replicate (2 * validUpdates r.2) ⟨f e.1, s.session, n⟩) ∧
      (r.1 = .ok .okay ↔ s.code = 201 ∧ 0 < validUpdates r.2)) h (ViewClient.run pack (Client.new base) h) ∧
    (ViewClient.run pack (Client.new base) h).Pairwise fun a b => ∀ c ∈ received s base others empty a.2, ∀ d ∈ received s base others empty b.2, c.number < d.number := by
  have gen : ∀ (h : List (U × Exchange × Exchange)) (c : Client), Fit s base c → c.updateId + h.length < 2 ^ 64 →
      (∀ e ∈ h, ∀ body, pack e.1 = .ok body → ∃ msg, s.parse body = some msg ∧ s.unpack msg = .ok (f e.1)) →
      Genuine s base others empty ((ViewClient.run pack c h).flatMap (·.2)) →
      List.Forall₂ (fun e r => (∃ n, received s base others empty r.2 = List.replicate (2 * validUpdates r.2) ⟨f e.1, s.session, n⟩) ∧
        (r.1 = .ok .okay ↔ s.code = 201 ∧ 0 < validUpdates r.2)) h (ViewClient.run pack c h) ∧
      ((ViewClient.run pack c h).Pairwise fun a b => ∀ c ∈ received s base others empty a.2, ∀ d ∈ received s base others empty b.2, c.number < d.number) ∧
      ∀ r ∈ ViewClient.run pack c h, ∀ d ∈ received s base others empty r.2, c.updateId ≤ d.number := by
    intro h
    induction h with
    | nil => intro c _ _ _ _; exact ⟨List.Forall₂.nil, List.Pairwise.nil, by simp [ViewClient.run]⟩
    | cons e h ih =>
      intro c hc hl hf hg
      obtain ⟨u, x, y⟩ := e
      rw [ViewClient.run] at hg ⊢
      rw [List.flatMap_cons] at hg
      have hg1 : Genuine s base others empty (send pack c u x y).2.2 := fun q t r hm => hg q t r (List.mem_append_left _ hm)
      have hg2 : Genuine s base others empty ((ViewClient.run pack (send pack c u x y).2.1 h).flatMap (·.2)) := fun q t r hm => hg q t r (List.mem_append_right _ hm)
      obtain ⟨h1, h2, h3, h4, h5⟩ := send_received s base others ho empty pack (f u) c u (hf (u, x, y) List.mem_cons_self) x y hc hg1
      rw [List.length_cons] at hl
      have hmod : (c.updateId + 1) % 2 ^ 64 = c.updateId + 1 := Nat.mod_eq_of_lt (by omega)
      rw [hmod] at h4 h5
      obtain ⟨i1, i2, i3⟩ := ih _ h1 (by omega) (fun e he => hf e (List.mem_cons_of_mem _ he)) hg2
      refine ⟨List.Forall₂.cons ⟨⟨_, h2⟩, h3⟩ i1, List.Pairwise.cons (fun r hr a ha d hd => ?_) i2, ?_⟩
      · have := i3 r hr d hd
        rw [h2] at ha
        obtain ⟨hn, rfl⟩ := List.mem_replicate.mp ha
        rw [h5 (by omega)] at this
        exact this
      · intro r hr d hd
        rcases List.mem_cons.mp hr with rfl | hr
        · rw [h2] at hd
          rw [(List.mem_replicate.mp hd).2]
        · have := i3 r hr d hd
          omega
  have := gen h (Client.new base) ⟨rfl, Or.inl rfl, by simp [Client.new]⟩ (by simpa [Client.new] using hl) hf hg
  exact ⟨this.1, this.2.1⟩

/-- With good credentials and a server that answers 201, every send returns OK, and the receiver is called with exactly the updates sent, in order, each twice,
numbered from zero, in the session of the server. -/
theorem c102_all_received (s : Server β M V) (base : String) (hb : base ≠ "") (others : List (List Char × List Char))
    (ho : ∀ h ∈ others, h.1 ≠ "Authorization".toList) (empty : β) (hcode : s.code = 201) (pack : U → Outcome β) (f : U → V)
    (h : List (U × Exchange × Exchange)) (hl : h.length < 2 ^ 64) (ha : ∀ e ∈ h, Authorised e.2.1 ∧ Authorised e.2.2)
    (hf : ∀ e ∈ h, ∃ body msg, pack e.1 = .ok body ∧ s.parse body = some msg ∧ s.unpack msg = .ok (f e.1))
    (hg : Genuine s base others empty ((ViewClient.run pack (Client.new base) h).flatMap (·.2))) :
    (∀ r ∈ ViewClient.run pack (Client.new base) h, r.1 = .ok .okay) ∧
    received s base others empty ((ViewClient.run pack (Client.new base) h).flatMap (·.2)) =
      (h.map (·.1)).zipIdx.flatMap fun e => [⟨f e.1, s.session, e.2⟩, ⟨f e.1, s.session, e.2⟩] := by
  have gen : ∀ (h : List (U × Exchange × Exchange)) (c : Client), Fit s base c → c.updateId + h.length < 2 ^ 64 → (∀ e ∈ h, Authorised e.2.1 ∧ Authorised e.2.2) →
      (∀ e ∈ h, ∃ body msg, pack e.1 = .ok body ∧ s.parse body = some msg ∧ s.unpack msg = .ok (f e.1)) →
      Genuine s base others empty ((ViewClient.run pack c h).flatMap (·.2)) →
      (∀ r ∈ ViewClient.run pack c h, r.1 = .ok .okay) ∧
      received s base others empty ((ViewClient.run pack c h).flatMap (·.2)) =
        ((h.map (·.1)).zipIdx c.updateId).flatMap fun e => [⟨f e.1, s.session, e.2⟩, ⟨f e.1, s.session, e.2⟩] := by
    intro h
    induction h with
    | nil => intro c _ _ _ _ _; exact ⟨by simp [ViewClient.run], rfl⟩
    | cons e h ih =>
      intro c hc hl ha hf hg
      obtain ⟨u, x, y⟩ := e
      rw [ViewClient.run] at hg ⊢
      rw [List.flatMap_cons] at hg
      have hg1 : Genuine s base others empty (send pack c u x y).2.2 := fun q t r hm => hg q t r (List.mem_append_left _ hm)
      have hg2 : Genuine s base others empty ((ViewClient.run pack (send pack c u x y).2.1 h).flatMap (·.2)) := fun q t r hm => hg q t r (List.mem_append_right _ hm)
      obtain ⟨body, msg, hp1, hp2, hp3⟩ := hf (u, x, y) List.mem_cons_self
      have hf' : ∀ body, pack u = .ok body → ∃ msg, s.parse body = some msg ∧ s.unpack msg = .ok (f u) := by
        intro body' hb'
        rw [hp1] at hb'
        cases hb'
        exact ⟨msg, hp2, hp3⟩
      obtain ⟨h1, h2, h3, h4, h5⟩ := send_received s base others ho empty pack (f u) c u hf' x y hc hg1
      have hv := send_authorised s base others ho empty pack (f u) c u hf' x y hc hb hcode ⟨body, hp1⟩ (ha _ List.mem_cons_self).1 (ha _ List.mem_cons_self).2 hg1
      rw [hv] at h2 h3 h5
      rw [List.length_cons] at hl
      have hmod : (c.updateId + 1) % 2 ^ 64 = c.updateId + 1 := Nat.mod_eq_of_lt (by omega)
      rw [hmod] at h5
      have h5 := h5 (by decide)
      obtain ⟨i1, i2⟩ := ih _ h1 (by omega) (fun e he => ha e (List.mem_cons_of_mem _ he)) (fun e he => hf e (List.mem_cons_of_mem _ he)) hg2
      rw [h5] at i2
      constructor
      · intro r hr
        rcases List.mem_cons.mp hr with rfl | hr
        · exact h3.mpr ⟨hcode, by decide⟩
        · exact i1 r hr
      · rw [List.flatMap_cons, received_append, i2, List.map_cons, List.zipIdx_cons, List.flatMap_cons]
        dsimp only
        rw [h2]
        rfl
  exact gen h (Client.new base) ⟨rfl, Or.inl rfl, by simp [Client.new]⟩ (by simpa [Client.new] using hl) ha hf hg

/-- A program whose tokens are never the valid one gets nothing through: the receiver is not called, and no send returns OK. -/
theorem c102_refused (s : Server β M V) (base : String) (others : List (List Char × List Char)) (ho : ∀ h ∈ others, h.1 ≠ "Authorization".toList) (empty : β)
    (pack : U → Outcome β) (f : U → V) (h : List (U × Exchange × Exchange)) (hl : h.length < 2 ^ 64)
    (hf : ∀ e ∈ h, ∀ body, pack e.1 = .ok body → ∃ msg, s.parse body = some msg ∧ s.unpack msg = .ok (f e.1))
    (hg : Genuine s base others empty ((ViewClient.run pack (Client.new base) h).flatMap (·.2)))
    (ht : ∀ q t r, Event.post q t r ∈ (ViewClient.run pack (Client.new base) h).flatMap (·.2) → t ≠ "valid token") :
    ∀ r ∈ ViewClient.run pack (Client.new base) h, received s base others empty r.2 = [] ∧ r.1 ≠ .ok .okay := by
  intro r hr
  obtain ⟨i, hi, rfl⟩ := List.mem_iff_getElem.mp hr
  have h1 := (c102_sends s base others ho empty pack f h hl hf hg).1
  have hi' : i < h.length := by rw [h1.length_eq]; exact hi
  obtain ⟨⟨n, h2⟩, h3⟩ := List.forall₂_iff_get.mp h1 |>.2 i hi' hi
  simp only [List.get_eq_getElem] at h2 h3
  have hz : validUpdates (ViewClient.run pack (Client.new base) h)[i].2 = 0 := by
    rw [validUpdates, List.countP_eq_zero]
    intro e he
    cases e with
    | refresh => simp [isValidUpdate]
    | post q t r =>
      have := ht q t r (List.mem_flatMap.mpr ⟨_, hr, he⟩)
      cases q <;> simp [isValidUpdate, this]
  rw [hz] at h2 h3
  exact ⟨h2, fun h => absurd (h3.mp h).2 (by decide)⟩

/-! ## Together with `View` -/

open Verif.EndToEnd Verif.Spec.EndToEnd Verif.Spec.View Verif.Proto

/-- The server as the tests of the library set it up, resim/visualization/testing/mock_server.cc:66-74 with the default response code (mock_server.hh:46): a parsed message
is the message that was serialized. -/
noncomputable def viewServer (session : Uuid) (reply : MockView.Call (List ViewPrimitive) → String) : Server UpdateMsg UpdateMsg (List ViewPrimitive) :=
  ⟨session, 201, some, unpackUpdate, reply⟩

/-- What the receiver gets from a program that uses `View` is what was acknowledged, twice. -/
theorem received_acks (session : Uuid) (reply : MockView.Call (List ViewPrimitive) → String) (base : String) (others : List (List Char × List Char))
    (ho : ∀ h ∈ others, h.1 ≠ "Authorization".toList) (empty : UpdateMsg) (prog : Nat → List (EndToEnd.Call ViewPrimitive))
    (hv : ∀ t, ∀ p ∈ views (prog t), Valid p.payload) (sched : List (Nat × ViewClient.Exchange × ViewClient.Exchange))
    (hg : Genuine (viewServer session reply) base others empty (EndToEnd.run packBody (EndToEnd.init base prog) sched).http.flatten) (decoded : List (List ViewPrimitive))
    (hd : (acks (EndToEnd.run packBody (EndToEnd.init base prog) sched).http).map (fun a => unpackUpdate a.2) = decoded.map Outcome.ok) :
    (received (viewServer session reply) base others empty (EndToEnd.run packBody (EndToEnd.init base prog) sched).http.flatten).map (fun c => (c.session, c.update)) =
      decoded.flatMap fun d => [(session, d), (session, d)] := by
  have hi := netInv_run (netInv_init packBody base prog) sched
  obtain ⟨⟨vs, h3⟩, hist, -, h1, h2⟩ := hi
  have hmem : ∀ e ∈ hist, ∀ p ∈ e.1, Valid p.payload := by
    intro e he p hp
    have hm : p ∈ sent (EndToEnd.run packBody (EndToEnd.init base prog) sched).view.log := by
      have hsent : ∀ l : List (View.Event ViewPrimitive), sent l = (sends l).flatMap (·.1) := by
        intro l
        induction l with
        | nil => rfl
        | cons e l ih =>
          unfold sent sends at ih ⊢
          rw [List.flatMap_cons, ih]
          cases e <;> simp
      rw [hsent, h2, List.mem_flatMap]
      obtain ⟨i, hi, rfl⟩ := List.mem_iff_getElem.mp he
      have hl : i < (ViewClient.run packBody (Client.new base) hist).length := by rw [run_length]; exact hi
      refine ⟨(hist[i].1, replyOf ((ViewClient.run packBody (Client.new base) hist)[i]'hl).1), ?_, hp⟩
      rw [List.mem_iff_getElem]
      refine ⟨i, by simp [run_length]; omega, by simp⟩
    rw [h3] at hm
    have hi := View.inv_run (View.inv_init fun t => (prog t).map Call.op) vs
    have hviewed := (View.sent_waiting_sublist _ hi.batches).subset (List.mem_append_left _ hm)
    obtain ⟨t, ht⟩ := prims_mem (prog := prog) vs (Or.inr hviewed)
    exact hv t p ht
  rw [h1] at hg hd ⊢
  -- along the history
  have gen : ∀ (hist : List (List ViewPrimitive × Exchange × Exchange)) (c : Client), Fit (viewServer session reply) base c →
      (∀ e ∈ hist, ∀ p ∈ e.1, Valid p.payload) → Genuine (viewServer session reply) base others empty ((ViewClient.run packBody c hist).map (·.2)).flatten →
      (received (viewServer session reply) base others empty ((ViewClient.run packBody c hist).map (·.2)).flatten).map (fun c => some (c.session, Outcome.ok c.update)) =
        (acks ((ViewClient.run packBody c hist).map (·.2))).flatMap fun a => [some (session, unpackUpdate a.2), some (session, unpackUpdate a.2)] := by
    intro hist
    induction hist with
    | nil => intro c _ _ _; rfl
    | cons e hist ih =>
      intro c hc hm hg
      obtain ⟨u, x, y⟩ := e
      rw [ViewClient.run, List.map_cons, List.flatten_cons] at hg ⊢
      have hg1 : Genuine (viewServer session reply) base others empty (send packBody c u x y).2.2 := fun q t r hm => hg q t r (List.mem_append_left _ hm)
      have hg2 : Genuine (viewServer session reply) base others empty ((ViewClient.run packBody (send packBody c u x y).2.1 hist).map (·.2)).flatten :=
        fun q t r hm => hg q t r (List.mem_append_right _ hm)
      obtain ⟨v, hv, -⟩ := c58_near u (hm (u, x, y) List.mem_cons_self) {}
      have hf : ∀ body, packBody u = .ok body → ∃ msg, (viewServer session reply).parse body = some msg ∧ (viewServer session reply).unpack msg = .ok v := by
        intro body hb
        refine ⟨body, rfl, ?_⟩
        unfold packBody at hb
        rw [hb] at hv
        exact hv
      have h1 := (send_received (viewServer session reply) base others ho empty packBody v c u hf x y hc hg1).1
      have h2 := send_acked (viewServer session reply) base others ho empty rfl packBody v c u hf x y hc hg1
      have ih := ih _ h1 (fun e he => hm e (List.mem_cons_of_mem _ he)) hg2
      rw [received_append, List.map_append, ih, h2]
      simp only [acks, List.flatten_cons, List.filterMap_append, List.flatMap_append]
      rfl
  have h4 := gen hist (Client.new base) ⟨rfl, Or.inl rfl, by simp [Client.new]⟩ hmem hg
  have h5 : ∀ (l : List (String × UpdateMsg)) (decoded : List (List ViewPrimitive)), l.map (fun a => unpackUpdate a.2) = decoded.map Outcome.ok →
      (l.flatMap fun a => [some (session, unpackUpdate a.2), some (session, unpackUpdate a.2)]) =
        (decoded.flatMap fun d => [(session, d), (session, d)]).map fun p => some (p.1, Outcome.ok p.2) := by
    intro l
    induction l with
    | nil =>
      intro decoded h
      cases decoded with
      | nil => rfl
      | cons d ds => cases h
    | cons a l ih =>
      intro decoded h
      cases decoded with
      | nil => cases h
      | cons d ds =>
        rw [List.map_cons, List.map_cons, List.cons.injEq] at h
        rw [List.flatMap_cons, List.flatMap_cons, List.map_append, ih ds h.2, h.1]
        rfl
  rw [h5 _ decoded hd] at h4
  have hinj : Function.Injective fun p : Uuid × List ViewPrimitive => some (p.1, Outcome.ok p.2) := by
    rintro ⟨a, b⟩ ⟨c, d⟩ h
    simpa using h
  apply List.map_injective_iff.mpr hinj
  rw [List.map_map]
  exact h4

/-- A program with any number of threads that views objects, against this server, whatever its credentials and the schedule: the receiver gets batches of objects that were
viewed, each batch twice in a row, under the session of the server; in the order viewed and none more often than it was viewed, but for the doubling; those of one thread in
the order of its calls.  What it gets equals what was viewed up to what C58 allows. -/
theorem c102_view (session : Uuid) (reply : MockView.Call (List ViewPrimitive) → String) (base : String) (others : List (List Char × List Char))
    (ho : ∀ h ∈ others, h.1 ≠ "Authorization".toList) (empty : UpdateMsg) (prog : Nat → List (EndToEnd.Call ViewPrimitive))
    (hv : ∀ t, ∀ p ∈ views (prog t), Valid p.payload) (sched : List (Nat × ViewClient.Exchange × ViewClient.Exchange))
    (hg : Genuine (viewServer session reply) base others empty (EndToEnd.run packBody (EndToEnd.init base prog) sched).http.flatten) :
    ∃ batches decoded : List (List ViewPrimitive),
      (received (viewServer session reply) base others empty (EndToEnd.run packBody (EndToEnd.init base prog) sched).http.flatten).map (fun c => (c.session, c.update)) =
        decoded.flatMap (fun d => [(session, d), (session, d)]) ∧
      List.Forall₂ (List.Forall₂ NearPrimitive) batches decoded ∧
      batches.flatten.Sublist (viewed (EndToEnd.run packBody (EndToEnd.init base prog) sched).view.log) ∧
      ∀ tag : ViewPrimitive → Nat, (∀ t, ∀ p ∈ views (prog t), tag p = t) → ∀ t, (batches.flatten.filter fun p => tag p = t).Sublist (views (prog t)) := by
  obtain ⟨batches, decoded, h1, h2⟩ := c72_acknowledged base prog hv sched
  exact ⟨batches, decoded, received_acks session reply base others ho empty prog hv sched hg decoded h1, h2⟩

/-- If all its requests are answered 201 in the end and all threads finish, the receiver has got every object that was viewed, those of one thread in the order of its
calls, and each batch twice. -/
theorem c102_view_all (session : Uuid) (reply : MockView.Call (List ViewPrimitive) → String) (base : String) (hb : base ≠ "") (others : List (List Char × List Char))
    (ho : ∀ h ∈ others, h.1 ≠ "Authorization".toList) (empty : UpdateMsg) (prog : Nat → List (EndToEnd.Call ViewPrimitive))
    (hv : ∀ t, ∀ p ∈ views (prog t), Valid p.payload) (tag : ViewPrimitive → Nat) (ht : ∀ t, ∀ p ∈ views (prog t), tag p = t)
    (sched : List (Nat × ViewClient.Exchange × ViewClient.Exchange)) (ha : ∀ e ∈ sched, Answered e.2.1 ∧ Answered e.2.2)
    (hd : ∀ t, ((EndToEnd.run packBody (EndToEnd.init base prog) sched).view.threads t).pc = .idle ∧
      ((EndToEnd.run packBody (EndToEnd.init base prog) sched).view.threads t).todo = [])
    (hg : Genuine (viewServer session reply) base others empty (EndToEnd.run packBody (EndToEnd.init base prog) sched).http.flatten) :
    ∃ batches decoded : List (List ViewPrimitive),
      (received (viewServer session reply) base others empty (EndToEnd.run packBody (EndToEnd.init base prog) sched).http.flatten).map (fun c => (c.session, c.update)) =
        decoded.flatMap (fun d => [(session, d), (session, d)]) ∧
      List.Forall₂ (List.Forall₂ NearPrimitive) batches decoded ∧ ∀ t, (batches.flatten.filter fun p => tag p = t) = views (prog t) := by
  obtain ⟨batches, decoded, h1, h2⟩ := c73_all_acknowledged base hb prog hv tag ht sched ha hd
  exact ⟨batches, decoded, received_acks session reply base others ho empty prog hv sched hg decoded h1, h2⟩

/-! ## Examples -/

/-- A server, and a program with credentials for it: the first send needs a refresh twice, the second has a valid token. -/
def exServer : Server Nat Nat Nat := ⟨Uuid.null, 201, fun b => if b < 100 then some b else none, fun m => .ok (m + 1), fun _ => "{}"⟩

def exHeaders : List (List Char × List Char) := [("Host".toList, "localhost".toList), ("Accept".toList, "*/*".toList)]

def exId : String := "00000000-0000-0000-0000-000000000000"

def exSends : List (Nat × Exchange × Exchange) := [
  (5, ⟨.ok "unauthorized token", ⟨401, ""⟩, .ok (), .ok "valid token", ⟨201, exId⟩⟩, ⟨.ok "old", ⟨401, ""⟩, .ok (), .ok "valid token", ⟨201, "{}"⟩⟩),
  (7, ⟨.ok "valid token", ⟨201, exId⟩, .ok (), .ok "valid token", ⟨201, exId⟩⟩, ⟨.ok "valid token", ⟨201, "{}"⟩, .ok (), .ok "x", ⟨0, ""⟩⟩)]

theorem exSends_genuine : Genuine exServer "http://h:1" exHeaders 0 ((ViewClient.run (fun u => Outcome.ok u) (Client.new "http://h:1") exSends).flatMap (·.2)) := by
  have h : ((ViewClient.run (fun u => Outcome.ok u) (Client.new "http://h:1") exSends).flatMap (·.2)).all (fun
      | .post q t r => answer (route exServer (onWire "http://h:1" exHeaders 0 q t)).1 = .ok r
      | .refresh => true) = true := by decide +kernel
  intro q t r hm
  exact of_decide_eq_true (List.all_eq_true.mp h _ hm)

/-- The hypotheses of the theorems above are met, and the receiver gets each update twice. -/
example : (∀ h ∈ exHeaders, h.1 ≠ "Authorization".toList) ∧ (∀ e ∈ exSends, Authorised e.2.1 ∧ Authorised e.2.2) ∧
    (∀ e ∈ exSends, ∃ body msg, (fun u => Outcome.ok u : Nat → Outcome Nat) e.1 = .ok body ∧ exServer.parse body = some msg ∧ exServer.unpack msg = .ok (e.1 + 1)) ∧
    received exServer "http://h:1" exHeaders 0 ((ViewClient.run (fun u => Outcome.ok u) (Client.new "http://h:1") exSends).flatMap (·.2)) =
      [⟨6, Uuid.null, 0⟩, ⟨6, Uuid.null, 0⟩, ⟨8, Uuid.null, 1⟩, ⟨8, Uuid.null, 1⟩] := by
  have h1 : ∀ h ∈ exHeaders, h.1 ≠ "Authorization".toList := by decide
  have h2 : ∀ e ∈ exSends, Authorised e.2.1 ∧ Authorised e.2.2 := by
    simp [exSends, Authorised]
  have h3 : ∀ e ∈ exSends, ∃ body msg, (fun u => Outcome.ok u : Nat → Outcome Nat) e.1 = .ok body ∧ exServer.parse body = some msg ∧
      exServer.unpack msg = .ok (e.1 + 1) := by
    simp [exSends, exServer]
  exact ⟨h1, h2, h3, (c102_all_received exServer "http://h:1" (by decide) exHeaders h1 0 rfl _ (fun u => u + 1) exSends (by decide) h2 h3 exSends_genuine).2⟩

/-- What this server says to a client with the valid token. -/
def exSession : Exchange := ⟨.ok "valid token", ⟨201, exId⟩, .ok (), .ok "valid token", ⟨201, exId⟩⟩

def exUpdate : Exchange := ⟨.ok "valid token", ⟨201, "{}"⟩, .ok (), .ok "valid token", ⟨201, "{}"⟩⟩

/-- Any program can run against the server: with the valid token, these are its answers. -/
theorem exView_genuine (prog : Nat → List (EndToEnd.Call ViewPrimitive)) (hv : ∀ t, ∀ p ∈ views (prog t), Valid p.payload) (ts : List Nat) :
    Genuine (viewServer Uuid.null fun _ => "{}") "http://h:1" exHeaders {}
      (EndToEnd.run packBody (EndToEnd.init "http://h:1" prog) (ts.map fun t => (t, exSession, exUpdate))).http.flatten := by
  have hid : exId = String.ofList Uuid.null.toStr := by decide +kernel
  have ho : ∀ h ∈ exHeaders, h.1 ≠ "Authorization".toList := by decide
  have one : ∀ (c : Client) (u : List ViewPrimitive), Fit (viewServer Uuid.null fun _ => "{}") "http://h:1" c →
      (∃ body v, packBody u = .ok body ∧ unpackUpdate body = .ok v) →
      Genuine (viewServer Uuid.null fun _ => "{}") "http://h:1" exHeaders {} (send packBody c u exSession exUpdate).2.2 := by
    rintro c u hc ⟨body, v, hb, hu⟩ q t r hm
    obtain ⟨ss, up, hev, sp⟩ := send_spec packBody c u exSession exUpdate
    have hex : ∀ (q : Request UpdateMsg) (x : Exchange) (r : ViewClient.Response), x.jwt1 = .ok "valid token" → x.response1 = r → r.status = 201 →
        exchange q x = (.ok r, [.post q "valid token" r]) := by
      intro q x r h1 h2 h3
      unfold exchange
      rw [h1, h2]
      dsimp only
      rw [if_neg (by rw [h3]; decide)]
    have hbase : c.base ≠ "" := by rw [hc.base]; decide
    have hopen : ∃ c' evs, openSession (β := UpdateMsg) c exSession = (.ok .okay, c', evs) ∧ c'.base = "http://h:1" ∧ c'.sessionId = exId ∧ c'.updateId = c.updateId ∧
        ∀ e ∈ evs, e = .post (.session (sessionsAt "http://h:1")) "valid token" ⟨201, exId⟩ := by
      unfold openSession
      by_cases hs : c.sessionId = ""
      · rw [if_pos hs, hex _ exSession ⟨201, exId⟩ rfl rfl rfl, hc.base]
        refine ⟨_, _, rfl, rfl, ?_, rfl, by simp [sessionUrl, sessionsAt]⟩
        change erase '\n' (erase '"' exId) = exId
        decide +kernel
      · rw [if_neg hs]
        exact ⟨c, [], rfl, hc.base, (hc.session.resolve_left hs).trans hid.symm, rfl, by simp⟩
    obtain ⟨c', evs, h1, h2, h3, h4, h5⟩ := hopen
    have hsend : (send packBody c u exSession exUpdate).2.2 = evs ++ [.post (.update (updatesAt "http://h:1" exId c.updateId) body) "valid token" ⟨201, "{}"⟩] := by
      unfold send
      rw [if_neg hbase, h1]
      dsimp only
      congr 1
      unfold postUpdate
      rw [hb]
      dsimp only
      rw [hex _ exUpdate ⟨201, "{}"⟩ rfl rfl rfl, h2, h3, h4]
      rfl
    rw [hsend] at hm
    rcases List.mem_append.mp hm with hm | hm
    · cases h5 _ hm
      rw [route_session _ _ _ ho, if_pos rfl, hid]
      rfl
    · rw [List.mem_singleton] at hm
      cases hm
      rw [hid, route_update _ _ _ ho _ _ _ hc.number body body v rfl hu, if_pos rfl]
      rfl
  have key : ∀ (ts : List Nat) (s : Net ViewPrimitive UpdateMsg), NetInv packBody "http://h:1" prog s → Fit (viewServer Uuid.null fun _ => "{}") "http://h:1" s.client →
      Genuine (viewServer Uuid.null fun _ => "{}") "http://h:1" exHeaders {} s.http.flatten →
      Genuine (viewServer Uuid.null fun _ => "{}") "http://h:1" exHeaders {} (EndToEnd.run packBody s (ts.map fun t => (t, exSession, exUpdate))).http.flatten := by
    intro ts
    induction ts with
    | nil => intro s _ _ h; exact h
    | cons t ts ih =>
      intro s hi hc hg
      rw [List.map_cons, EndToEnd.run]
      cases hs : EndToEnd.step packBody s t exSession exUpdate with
      | none => exact ih s hi hc hg
      | some s' =>
        have hi' := netInv_step hi hs
        have : Fit (viewServer Uuid.null fun _ => "{}") "http://h:1" s'.client ∧
            Genuine (viewServer Uuid.null fun _ => "{}") "http://h:1" exHeaders {} s'.http.flatten := by
          unfold EndToEnd.step at hs
          split at hs
          · rw [Option.map_eq_some_iff] at hs
            obtain ⟨v, -, rfl⟩ := hs
            obtain ⟨⟨vs, h1⟩, -⟩ := hi
            have hval : ∀ p ∈ s.view.prims, Valid p.payload := by
              intro p hp
              rw [h1] at hp
              obtain ⟨t, ht⟩ := prims_mem (prog := prog) vs (Or.inl hp)
              exact hv t p ht
            obtain ⟨v, hv', -⟩ := c58_near s.view.prims hval {}
            obtain ⟨body, hb, hu⟩ := bind_ok hv'
            have hone := one s.client s.view.prims hc ⟨body, v, hb, hu⟩
            refine ⟨(send_received (viewServer Uuid.null fun _ => "{}") "http://h:1" exHeaders ho {} packBody v s.client s.view.prims ?_ exSession exUpdate hc hone).1, ?_⟩
            · intro body' hb'
              have : packBody s.view.prims = .ok body := hb
              rw [this] at hb'
              cases hb'
              exact ⟨body, rfl, hu⟩
            · rw [List.flatten_append, List.flatten_singleton]
              intro q t r hm
              rcases List.mem_append.mp hm with hm | hm
              · exact hg q t r hm
              · exact hone q t r hm
          · rw [Option.map_eq_some_iff] at hs
            obtain ⟨v, -, rfl⟩ := hs
            exact ⟨hc, hg⟩
        exact ih s' hi' this.1 this.2
  exact key ts _ (netInv_init packBody "http://h:1" prog) ⟨rfl, Or.inl rfl, by simp [EndToEnd.init, Client.new]⟩ (by intro q t r hm; simp [EndToEnd.init] at hm)

set_option maxRecDepth 20000 in
/-- Two threads that view three objects meet the hypotheses of `c102_view_all`. -/
example : (∀ t, ∀ p ∈ views (exCalls t), Valid p.payload) ∧ (∀ t, ∀ p ∈ views (exCalls t), p.lineNumber.toNat / 10 = t) ∧
    (∀ e ∈ (exSched.map (·.1)).map fun t => (t, exSession, exUpdate), Answered e.2.1 ∧ Answered e.2.2) ∧
    (∀ t, ((EndToEnd.run packBody (EndToEnd.init "http://h:1" exCalls) ((exSched.map (·.1)).map fun t => (t, exSession, exUpdate))).view.threads t).pc = .idle ∧
      ((EndToEnd.run packBody (EndToEnd.init "http://h:1" exCalls) ((exSched.map (·.1)).map fun t => (t, exSession, exUpdate))).view.threads t).todo = []) ∧
    Genuine (viewServer Uuid.null fun _ => "{}") "http://h:1" exHeaders {}
      (EndToEnd.run packBody (EndToEnd.init "http://h:1" exCalls) ((exSched.map (·.1)).map fun t => (t, exSession, exUpdate))).http.flatten := by
  have ha : ∀ e ∈ (exSched.map (·.1)).map fun t => (t, exSession, exUpdate), Answered e.2.1 ∧ Answered e.2.2 := by
    intro e he
    obtain ⟨t, -, rfl⟩ := List.mem_map.mp he
    exact ⟨⟨⟨_, rfl⟩, Or.inl rfl⟩, ⟨⟨_, rfl⟩, Or.inl rfl⟩⟩
  refine ⟨fun t p hp => (exCalls_meet.1 t p hp).1, exCalls_meet.2.1, ha, ?_, exView_genuine exCalls (fun t p hp => (exCalls_meet.1 t p hp).1) _⟩
  rw [answered_run (by decide) (packable exCalls fun t p hp => (exCalls_meet.1 t p hp).1) _ (EndToEnd.init "http://h:1" exCalls) ha
    (netInv_init packBody "http://h:1" exCalls)]
  intro t
  match t with
  | 0 => exact ⟨rfl, rfl⟩
  | 1 => exact ⟨rfl, rfl⟩
  | 2 => exact ⟨rfl, rfl⟩
  | n + 3 => exact View.empty_finished (View.inv_run (View.inv_init fun t => (exCalls t).map EndToEnd.Call.op) _) rfl

end Verif.Props
