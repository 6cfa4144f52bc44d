import Verif.Spec.MockView
import Verif.Spec.EndToEnd
import Verif.Proofs.ViewClient
import Verif.Proofs.Uuid
import Verif.Props.Uuid
/-! # The mock view server: lemmas -/
namespace Verif.MockView
open Verif.ViewClient Verif.Spec.ViewClient Verif.Spec.MockView
variable {β M V U : Type}

theorem findBearer_some (vs : List (List Char)) (token : List Char) :
    findBearer vs = some token ↔ ∃ a b, vs = a ++ ("Bearer ".toList ++ token) :: b ∧ ∀ v ∈ a, ¬ "Bearer ".toList <+: v := by
  induction vs with
  | nil => simp [findBearer]
  | cons v vs ih =>
    rw [findBearer]
    split
    · next h =>
      rw [List.isPrefixOf_iff_prefix] at h
      obtain ⟨w, rfl⟩ := h
      rw [List.drop_left]
      constructor
      · intro h
        cases h
        exact ⟨[], vs, rfl, by simp⟩
      · rintro ⟨a, b, h1, h2⟩
        cases a with
        | nil =>
          rw [List.nil_append, List.cons.injEq, List.append_cancel_left_eq] at h1
          rw [h1.1]
        | cons c a =>
          rw [List.cons_append, List.cons.injEq] at h1
          exact absurd ⟨w, h1.1⟩ (h2 c List.mem_cons_self)
    · next h =>
      rw [List.isPrefixOf_iff_prefix] at h
      rw [ih]
      constructor
      · rintro ⟨a, b, rfl, h2⟩
        exact ⟨v :: a, b, rfl, fun x hx => by
          rcases List.mem_cons.mp hx with rfl | hx
          · exact h
          · exact h2 x hx⟩
      · rintro ⟨a, b, h1, h2⟩
        cases a with
        | nil =>
          rw [List.nil_append, List.cons.injEq] at h1
          exact absurd ⟨token, h1.1.symm⟩ h
        | cons c a =>
          rw [List.cons_append, List.cons.injEq] at h1
          exact ⟨a, b, h1.2, fun x hx => h2 x (List.mem_cons_of_mem c hx)⟩

theorem presents_iff (headers : List (List Char × List Char)) (token : List Char) :
    Presents headers token ↔ findBearer (authorizations headers) = some token := by
  induction headers with
  | nil => simp [Presents, authorizations, findBearer]
  | cons h hs ih =>
    by_cases hk : h.1 = "Authorization".toList
    · have ha : authorizations (h :: hs) = h.2 :: authorizations hs := by
        rw [authorizations, List.filter_cons_of_pos (p := fun h : List Char × List Char => decide (h.1 = "Authorization".toList)) (decide_eq_true hk), List.map_cons]
        rfl
      rw [ha, findBearer]
      by_cases hb : "Bearer ".toList <+: h.2
      · rw [if_pos (List.isPrefixOf_iff_prefix.mpr hb)]
        obtain ⟨w, hw⟩ := hb
        rw [← hw, List.drop_left]
        constructor
        · rintro ⟨a, b, h1, h2⟩
          cases a with
          | nil =>
            rw [List.nil_append, List.cons.injEq] at h1
            have := congrArg Prod.snd h1.1
            rw [← hw] at this
            rw [List.append_cancel_left this]
          | cons c a =>
            rw [List.cons_append, List.cons.injEq] at h1
            exact absurd ⟨w, by rw [hw, h1.1]⟩ (h2 c List.mem_cons_self (by rw [← h1.1, hk]))
        · intro h
          cases h
          exact ⟨[], hs, by rw [List.nil_append, hw, ← hk], by simp⟩
      · rw [if_neg (by rwa [List.isPrefixOf_iff_prefix]), ← ih]
        constructor
        · rintro ⟨a, b, h1, h2⟩
          cases a with
          | nil =>
            rw [List.nil_append, List.cons.injEq] at h1
            exact absurd ⟨token, (congrArg Prod.snd h1.1).symm⟩ hb
          | cons c a =>
            rw [List.cons_append, List.cons.injEq] at h1
            exact ⟨a, b, h1.2, fun x hx => h2 x (List.mem_cons_of_mem c hx)⟩
        · rintro ⟨a, b, rfl, h2⟩
          refine ⟨h :: a, b, rfl, fun x hx hx' => ?_⟩
          rcases List.mem_cons.mp hx with rfl | hx
          · exact hb
          · exact h2 x hx hx'
    · have ha : authorizations (h :: hs) = authorizations hs := by
        rw [authorizations, List.filter_cons_of_neg (p := fun h : List Char × List Char => decide (h.1 = "Authorization".toList)) (fun h => hk (of_decide_eq_true h))]
        rfl
      rw [ha, ← ih]
      constructor
      · rintro ⟨a, b, h1, h2⟩
        cases a with
        | nil =>
          rw [List.nil_append, List.cons.injEq] at h1
          exact absurd (congrArg Prod.fst h1.1) hk
        | cons c a =>
          rw [List.cons_append, List.cons.injEq] at h1
          exact ⟨a, b, h1.2, fun x hx => h2 x (List.mem_cons_of_mem c hx)⟩
      · rintro ⟨a, b, rfl, h2⟩
        refine ⟨h :: a, b, rfl, fun x hx hx' => ?_⟩
        rcases List.mem_cons.mp hx with rfl | hx
        · exact absurd hx' hk
        · exact h2 x hx hx'

theorem validate_none (headers : List (List Char × List Char)) : validate headers = none ↔ findBearer (authorizations headers) = some "valid token".toList := by
  unfold validate
  split
  · next h =>
    rw [List.isEmpty_iff] at h
    simp [h, findBearer]
  · split
    · next h => simp [h]
    · next token h =>
      rw [h]
      by_cases h1 : token = "unauthorized token".toList
      · subst h1; decide
      · rw [if_neg h1]
        by_cases h2 : token = "forbidden token".toList
        · subst h2; decide
        · rw [if_neg h2]
          by_cases h3 : token = "valid token".toList
          · subst h3; decide
          · rw [if_neg h3]
            exact iff_of_false (fun h => nomatch h) (fun h => h3 (Option.some.inj h))

theorem validate_forbidden (headers : List (List Char × List Char)) :
    validate headers = some 403 ↔ findBearer (authorizations headers) = some "forbidden token".toList := by
  unfold validate
  split
  · next h =>
    rw [List.isEmpty_iff] at h
    simp [h, findBearer]
  · split
    · next h => simp [h]
    · next token h =>
      rw [h]
      by_cases h1 : token = "unauthorized token".toList
      · subst h1; decide
      · rw [if_neg h1]
        by_cases h2 : token = "forbidden token".toList
        · subst h2; decide
        · rw [if_neg h2]
          by_cases h3 : token = "valid token".toList
          · subst h3; decide
          · rw [if_neg h3]
            exact iff_of_false (by decide) (fun h => h2 (Option.some.inj h))

theorem validate_range (headers : List (List Char × List Char)) : validate headers = none ∨ validate headers = some 401 ∨ validate headers = some 403 := by
  unfold validate
  split
  · simp
  · split
    · simp
    · split
      · simp
      · split
        · simp
        · split <;> simp

theorem lastSplit_none_iff (sep s : List Char) (hs : sep ≠ []) : lastSplit sep s = none ↔ ¬ sep <:+: s := by
  induction s with
  | nil => simp [lastSplit, hs]
  | cons c cs ih =>
    rw [lastSplit, List.infix_cons_iff]
    cases h : lastSplit sep cs with
    | some p => simp [h] at ih; simp [ih]
    | none =>
      rw [h] at ih
      simp only [true_iff] at ih
      by_cases hp : sep <+: c :: cs
      · simp [List.isPrefixOf_iff_prefix, hp]
      · simp [List.isPrefixOf_iff_prefix, hp, ih]

theorem lastSplit_some (sep s a b : List Char) (hs : sep ≠ []) :
    lastSplit sep s = some (a, b) ↔ s = a ++ sep ++ b ∧ ¬ sep <:+: (sep ++ b).tail := by
  induction s generalizing a with
  | nil => simp [lastSplit, hs]
  | cons c cs ih =>
    rw [lastSplit]
    cases h : lastSplit sep cs with
    | some p =>
      obtain ⟨a', b'⟩ := p
      simp only [Option.some.injEq, Prod.mk.injEq]
      constructor
      · rintro ⟨rfl, rfl⟩
        obtain ⟨h1, h2⟩ := (ih a').mp (by rw [h])
        exact ⟨by rw [h1]; simp, h2⟩
      · rintro ⟨h1, h2⟩
        have hi : sep <:+: cs := by
          by_contra hn
          rw [(lastSplit_none_iff sep cs hs).mpr hn] at h
          cases h
        cases a with
        | nil =>
          rw [List.nil_append] at h1
          have : cs = (sep ++ b).tail := by rw [← h1]; rfl
          rw [this] at hi
          exact absurd hi h2
        | cons d a =>
          rw [List.cons_append, List.cons_append, List.cons.injEq] at h1
          have := (ih a).mpr ⟨h1.2, h2⟩
          rw [h] at this
          cases this
          exact ⟨by rw [h1.1], rfl⟩
    | none =>
      have hn := (lastSplit_none_iff sep cs hs).mp h
      by_cases hp : sep <+: c :: cs
      · rw [if_pos (List.isPrefixOf_iff_prefix.mpr hp)]
        obtain ⟨w, hw⟩ := hp
        rw [← hw, List.drop_left]
        simp only [Option.some.injEq, Prod.mk.injEq]
        constructor
        · rintro ⟨rfl, rfl⟩
          refine ⟨by simp, ?_⟩
          rw [hw]
          exact hn
        · rintro ⟨h1, h2⟩
          cases a with
          | nil =>
            rw [List.nil_append, List.append_cancel_left_eq] at h1
            exact ⟨rfl, h1⟩
          | cons d a =>
            rw [hw, List.cons_append, List.cons_append, List.cons.injEq] at h1
            exact absurd ⟨a, b, h1.2.symm⟩ hn
      · rw [if_neg (by rwa [List.isPrefixOf_iff_prefix])]
        simp only [false_iff, reduceCtorEq]
        rintro ⟨h1, -⟩
        cases a with
        | nil => exact hp ⟨b, h1.symm⟩
        | cons d a =>
          rw [List.cons_append, List.cons_append, List.cons.injEq] at h1
          exact hn ⟨a, b, h1.2.symm⟩

theorem stoul_repr (n : Nat) (hn : n < 2 ^ 64) : stoul (Nat.repr n).toList = .ok n := by
  have hd : ∀ c ∈ Nat.toDigits 10 n, c.isDigit = true := fun c hc => Nat.isDigit_of_mem_toDigits (by decide) (by decide) hc
  have hne : Nat.toDigits 10 n ≠ [] := by
    have := @Nat.toDigits_ne_nil n 10
    exact this
  have e : (Nat.repr n).toList = Nat.toDigits 10 n := by simp [Nat.repr]
  rw [e]
  have hfold := @Nat.ofDigitChars_ten_toDigits n
  rw [Nat.ofDigitChars_eq_foldl] at hfold
  generalize Nat.toDigits 10 n = ds at *
  match ds, hne with
  | d :: ds, _ =>
    have h0 := hd d List.mem_cons_self
    have hs : isSpace d = false := by
      unfold isSpace
      simp only [Bool.or_eq_false_iff, decide_eq_false_iff_not]
      refine ⟨⟨⟨⟨⟨?_, ?_⟩, ?_⟩, ?_⟩, ?_⟩, ?_⟩ <;> (rintro rfl; revert h0; decide)
    have hm : d ≠ '-' := by rintro rfl; revert h0; decide
    have hp : d ≠ '+' := by rintro rfl; revert h0; decide
    have ht : (d :: ds).takeWhile Char.isDigit = d :: ds := List.takeWhile_eq_self_iff.mpr hd
    have hl : leadingNumber (d :: ds) = some n := by
      unfold leadingNumber
      simp only [ht, List.isEmpty_cons, Bool.false_eq_true, if_false]
      exact congrArg some hfold
    unfold stoul
    rw [List.dropWhile_cons, hs]
    simp [hm, hp, hl, hn]

/-- The characters of a printed UUID are digits of hexadecimal numbers and dashes. -/
theorem toStr_chars (u : Uuid) (c : Char) (hc : c ∈ u.toStr) : Spec.Uuid.IsHex c ∨ c = '-' := by
  obtain ⟨h, -⟩ := Props.c17_printed_canonical u
  obtain ⟨i, hi, rfl⟩ := List.mem_iff_getElem.mp hc
  by_cases hd : i ∈ [8, 13, 18, 23]
  · exact Or.inr (h.dash i hi hd)
  · exact Or.inl (h.hex i hi hd)

theorem toStr_not (u : Uuid) (c : Char) (hc : ¬ (Spec.Uuid.IsHex c ∨ c = '-')) : c ∉ u.toStr := fun h => hc (toStr_chars u c h)

theorem toStr_ne_nil (u : Uuid) : String.ofList u.toStr ≠ "" := by
  obtain ⟨h, -⟩ := Props.c17_printed_canonical u
  intro e
  have := congrArg String.toList e
  rw [String.toList_ofList] at this
  rw [this] at h
  exact absurd h.length (by decide)

theorem sessionIn_toStr (u : Uuid) : sessionIn (String.ofList u.toStr) = String.ofList u.toStr := by
  unfold sessionIn
  rw [String.toList_ofList, List.filter_eq_self.mpr]
  intro c hc
  rw [decide_eq_true_eq]
  constructor <;> (rintro rfl; revert hc; exact toStr_not u _ (by unfold Spec.Uuid.IsHex; decide))

theorem pathOf_append (base x : String) : pathOf base (base ++ x) = x.toList := by
  rw [pathOf, String.toList_append, List.drop_left]

theorem authorizations_wire (others : List (List Char × List Char)) (ho : ∀ h ∈ others, h.1 ≠ "Authorization".toList) (v : List Char) :
    authorizations (others ++ [("Authorization".toList, v)]) = [v] := by
  rw [authorizations, List.filter_append, List.filter_eq_nil_iff.mpr (fun h hh hd => ho h hh (of_decide_eq_true hd)), List.nil_append,
    List.filter_cons_of_pos (p := fun h : List Char × List Char => decide (h.1 = "Authorization".toList)) (decide_eq_true rfl)]
  rfl

theorem findBearer_wire (t : List Char) : findBearer ["Bearer ".toList ++ t] = some t :=
  (findBearer_some _ _).mpr ⟨[], [], rfl, by simp⟩

/-- What the server says to the token of a client. -/
theorem validate_wire (others : List (List Char × List Char)) (ho : ∀ h ∈ others, h.1 ≠ "Authorization".toList) (t : String) :
    validate (others ++ [("Authorization".toList, "Bearer ".toList ++ t.toList)]) =
      if t = "valid token" then none else if t = "forbidden token" then some 403 else some 401 := by
  have hn := validate_none (others ++ [("Authorization".toList, "Bearer ".toList ++ t.toList)])
  have hf := validate_forbidden (others ++ [("Authorization".toList, "Bearer ".toList ++ t.toList)])
  have hr := validate_range (others ++ [("Authorization".toList, "Bearer ".toList ++ t.toList)])
  rw [authorizations_wire others ho, findBearer_wire, Option.some_inj, String.toList_inj] at hn hf
  split
  · next h => exact hn.mpr h
  · next h =>
    split
    · next h' => exact hf.mpr h'
    · next h' =>
      rcases hr with hr | hr | hr
      · exact absurd (hn.mp hr) h
      · exact hr
      · exact absurd (hf.mp hr) h'

/-- The answer to a request for a session. -/
theorem route_session (s : Server β M V) (base : String) (others : List (List Char × List Char)) (ho : ∀ h ∈ others, h.1 ≠ "Authorization".toList)
    (empty : β) (t : String) :
    route s (onWire base others empty (.session (sessionsAt base)) t) =
      (.ok (if t = "valid token" then ⟨201, String.ofList s.session.toStr⟩ else if t = "forbidden token" then ⟨403, ""⟩ else ⟨401, ""⟩), []) := by
  have hp : pathOf base (sessionsAt base) = "/view/sessions".toList := pathOf_append base _
  unfold route onWire
  simp only [hp, if_true, onSession, validate_wire others ho]
  by_cases h1 : t = "valid token"
  · simp only [h1, if_true]
  · by_cases h2 : t = "forbidden token"
    · subst h2; rfl
    · simp only [h1, h2, if_false]

theorem matchUpdate_address (u : Uuid) (n : Nat) :
    matchUpdate ("/view/sessions/".toList ++ (u.toStr ++ ("/updates/".toList ++ (Nat.repr n).toList))) = some (u.toStr, (Nat.repr n).toList) := by
  have hl : lastSplit "/updates/".toList (u.toStr ++ ("/updates/".toList ++ (Nat.repr n).toList)) = some (u.toStr, (Nat.repr n).toList) := by
    rw [lastSplit_some _ _ _ _ (by decide)]
    refine ⟨by rw [List.append_assoc], fun h => ?_⟩
    have hc := h.sublist.count_le '/'
    rw [List.tail_append_of_ne_nil (by decide), List.count_append, List.count_eq_zero_of_not_mem (slash_not_in_repr n)] at hc
    exact absurd hc (by decide)
  have h1 : u.toStr.all dot = true := by
    rw [List.all_eq_true]
    intro c hc
    unfold dot
    rw [Bool.and_eq_true, decide_eq_true_eq, decide_eq_true_eq]
    constructor <;> (rintro rfl; revert hc; exact toStr_not u _ (by unfold Spec.Uuid.IsHex; decide))
  have h2 : (Nat.repr n).toList.all dot = true := by
    rw [List.all_eq_true]
    intro c hc
    rw [Nat.toList_repr] at hc
    have hd := Nat.isDigit_of_mem_toDigits (by decide) (by decide) hc
    unfold dot
    rw [Bool.and_eq_true, decide_eq_true_eq, decide_eq_true_eq]
    constructor <;> (rintro rfl; revert hd; decide)
  unfold matchUpdate
  rw [if_pos (List.isPrefixOf_iff_prefix.mpr ⟨_, rfl⟩), List.drop_left, hl]
  simp only [h1, h2, Bool.and_self, if_true]

/-- The answer to an update posted at its address, and the calls of the receiver. -/
theorem route_update (s : Server β M V) (base : String) (others : List (List Char × List Char)) (ho : ∀ h ∈ others, h.1 ≠ "Authorization".toList)
    (empty : β) (u : Uuid) (n : Nat) (hn : n < 2 ^ 64) (body : β) (msg : M) (v : V) (hp : s.parse body = some msg) (hu : s.unpack msg = .ok v) (t : String) :
    route s (onWire base others empty (.update (updatesAt base (String.ofList u.toStr) n) body) t) =
      if t = "valid token" then (.ok ⟨s.code, s.reply ⟨v, u, n⟩⟩, [⟨v, u, n⟩, ⟨v, u, n⟩])
      else (.ok (if t = "forbidden token" then ⟨403, ""⟩ else ⟨401, ""⟩), []) := by
  have hpath : pathOf base (updatesAt base (String.ofList u.toStr) n) = "/view/sessions/".toList ++ (u.toStr ++ ("/updates/".toList ++ (Nat.repr n).toList)) := by
    have : updatesAt base (String.ofList u.toStr) n = base ++ ("/view/sessions/" ++ (String.ofList u.toStr ++ ("/updates/" ++ Nat.repr n))) := by
      simp only [updatesAt, String.append_assoc]
    rw [this, pathOf_append, String.toList_append, String.toList_append, String.toList_append, String.toList_ofList (l := u.toStr)]
  have hne : "/view/sessions/".toList ++ (u.toStr ++ ("/updates/".toList ++ (Nat.repr n).toList)) ≠ "/view/sessions".toList := by
    intro h
    have := congrArg List.length h
    rw [List.length_append] at this
    have h1 : "/view/sessions/".toList.length = 15 := by decide
    have h2 : "/view/sessions".toList.length = 14 := by decide
    omega
  unfold route onWire
  simp only [hpath]
  rw [if_neg hne, matchUpdate_address]
  simp only [onUpdate, validate_wire others ho]
  by_cases h1 : t = "valid token"
  · simp only [h1, if_true, hp, Props.c17_print_parse, stoul_repr n hn, hu]
  · by_cases h2 : t = "forbidden token"
    · subst h2; rfl
    · simp only [h1, h2, if_false]

/-- What holds of a client of this server at every time. -/
structure Fit (s : Server β M V) (base : String) (c : Client) : Prop where
  base : c.base = base
  session : c.sessionId = "" ∨ c.sessionId = String.ofList s.session.toStr
  number : c.updateId < 2 ^ 64

theorem received_append (s : Server β M V) (base : String) (others : List (List Char × List Char)) (empty : β) (a b : List (Event β)) :
    received s base others empty (a ++ b) = received s base others empty a ++ received s base others empty b := by
  simp [received]

theorem validUpdates_append (a b : List (Event β)) : validUpdates (a ++ b) = validUpdates a + validUpdates b := by simp [validUpdates]

theorem received_updates (s : Server β M V) (base : String) (others : List (List Char × List Char)) (ho : ∀ h ∈ others, h.1 ≠ "Authorization".toList)
    (empty : β) (u : Uuid) (n : Nat) (hn : n < 2 ^ 64) (body : β) (msg : M) (v : V) (hp : s.parse body = some msg) (hu : s.unpack msg = .ok v)
    (l : List (Event β)) (hl : ∀ q t r, Event.post q t r ∈ l → q = .update (updatesAt base (String.ofList u.toStr) n) body) :
    received s base others empty l = List.replicate (2 * validUpdates l) ⟨v, u, n⟩ := by
  induction l with
  | nil => rfl
  | cons e l ih =>
    have ih := ih fun q t r h => hl q t r (List.mem_cons_of_mem e h)
    have e1 : received s base others empty (e :: l) = received s base others empty [e] ++ received s base others empty l := received_append s base others empty [e] l
    have e2 : validUpdates (e :: l) = validUpdates [e] + validUpdates l := validUpdates_append [e] l
    rw [e1, e2, ih, Nat.mul_add, List.replicate_add]
    congr 1
    cases e with
    | refresh => rfl
    | post q t r =>
      cases hl q t r List.mem_cons_self
      simp only [received, List.flatMap_cons, List.flatMap_nil, List.append_nil, route_update s base others ho empty u n hn body msg v hp hu]
      by_cases ht : t = "valid token"
      · simp [validUpdates, isValidUpdate, ht, List.replicate]
      · simp [validUpdates, isValidUpdate, ht]

theorem received_sessions (s : Server β M V) (base : String) (others : List (List Char × List Char)) (ho : ∀ h ∈ others, h.1 ≠ "Authorization".toList)
    (empty : β) (l : List (Event β)) (hl : ∀ q t r, Event.post q t r ∈ l → q = .session (sessionsAt base)) :
    received s base others empty l = [] ∧ validUpdates l = 0 := by
  constructor
  · rw [received, List.flatMap_eq_nil_iff]
    intro e he
    cases e with
    | refresh => rfl
    | post q t r =>
      cases hl q t r he
      simp only [route_session s base others ho]
  · rw [validUpdates, List.countP_eq_zero]
    intro e he
    cases e with
    | refresh => simp [isValidUpdate]
    | post q t r =>
      cases hl q t r he
      simp [isValidUpdate]

/-- If an update is posted, it is in the session of the server. -/
theorem send_session (s : Server β M V) (base : String) (others : List (List Char × List Char)) (ho : ∀ h ∈ others, h.1 ≠ "Authorization".toList)
    (empty : β) {pack : U → Outcome β} (c : Client) {u : U} (hc : Fit s base c) {r : Outcome Status} {c' : Client} {ss up : List (Event β)}
    (sp : SendSpec pack c u r c' ss up) (hg : Genuine s base others empty (ss ++ up)) : (c' = c ∧ up = []) ∨ c'.sessionId = String.ofList s.session.toStr := by
  by_cases hs : c.sessionId = ""
  · rcases sp.session hs with ⟨h3, h4, -⟩ | ⟨pre, t, text, h3, -, h4⟩
    · exact Or.inl ⟨h3, h4⟩
    · right
      have := hg (.session (sessionsAt c.base)) t ⟨201, text⟩ (by rw [h3]; simp)
      rw [hc.base, route_session s base others ho] at this
      by_cases ht : t = "valid token"
      · simp only [ht, if_true, answer, Outcome.ok.injEq, Response.mk.injEq, true_and] at this
        rw [h4, ← this, sessionIn_toStr]
      · by_cases ht' : t = "forbidden token"
        · subst ht'
          simp [answer] at this
        · simp [ht, ht', answer] at this
  · right
    rw [(sp.silent hs).2]
    exact hc.session.resolve_left hs

/-- One send: what the receiver is called with, when it returns OK, and the client afterwards. -/
theorem send_received (s : Server β M V) (base : String) (others : List (List Char × List Char)) (ho : ∀ h ∈ others, h.1 ≠ "Authorization".toList)
    (empty : β) (pack : U → Outcome β) (v : V)
    (c : Client) (u : U) (hf : ∀ body, pack u = .ok body → ∃ msg, s.parse body = some msg ∧ s.unpack msg = .ok v) (x y : Exchange) (hc : Fit s base c) (hg : Genuine s base others empty (send pack c u x y).2.2) :
    Fit s base (send pack c u x y).2.1 ∧
    received s base others empty (send pack c u x y).2.2 = List.replicate (2 * validUpdates (send pack c u x y).2.2) ⟨v, s.session, c.updateId⟩ ∧
    ((send pack c u x y).1 = .ok .okay ↔ s.code = 201 ∧ 0 < validUpdates (send pack c u x y).2.2) ∧
    ((send pack c u x y).2.1.updateId = c.updateId ∨ (send pack c u x y).2.1.updateId = (c.updateId + 1) % 2 ^ 64) ∧
    (0 < validUpdates (send pack c u x y).2.2 → (send pack c u x y).2.1.updateId = (c.updateId + 1) % 2 ^ 64) := by
  obtain ⟨ss, up, hev, sp⟩ := send_spec pack c u x y
  rw [hev] at hg ⊢
  generalize (send pack c u x y).1 = r at sp ⊢
  generalize (send pack c u x y).2.1 = c' at sp ⊢
  obtain ⟨h1, h2⟩ := received_sessions s base others ho empty ss fun q t r h => by rw [attempt_req sp.sessionAttempt h, hc.base]
  rw [received_append, validUpdates_append, h1, h2, List.nil_append, Nat.zero_add]
  have hsess := send_session s base others ho empty c hc sp hg
  have hid : c'.updateId = c.updateId ∨ c'.updateId = (c.updateId + 1) % 2 ^ 64 := by
    rcases sp.update with ⟨-, h⟩ | ⟨-, -, -, -, h⟩
    · exact h
    · exact Or.inr h
  have hfit : Fit s base c' := by
    refine ⟨sp.base.trans hc.base, ?_, ?_⟩
    · rcases hsess with ⟨rfl, -⟩ | h
      · exact hc.session
      · exact Or.inr h
    · rcases hid with h | h
      · rw [h]; exact hc.number
      · rw [h]; exact Nat.mod_lt _ (by decide)
  have ho' := sp.okay
  refine ⟨hfit, ?_⟩
  rcases sp.update with ⟨rfl, -⟩ | ⟨body, hb, -, hat, h5⟩
  · refine ⟨rfl, ?_, hid, fun h => absurd h (by simp [validUpdates])⟩
    rw [ho']
    simp [validUpdates]
  rcases hsess with ⟨rfl, rfl⟩ | hsess
  · refine ⟨rfl, ?_, hid, fun h => absurd h (by simp [validUpdates])⟩
    rw [ho']
    simp [validUpdates]
  obtain ⟨msg, hp, hu⟩ := hf body hb
  rw [hsess, hc.base] at hat ho'
  have hr := fun t => route_update s base others ho empty s.session c.updateId hc.number body msg v hp hu t
  refine ⟨received_updates s base others ho empty s.session c.updateId hc.number body msg v hp hu up fun q t r h => attempt_req hat h, ?_, hid, fun _ => h5⟩
  rw [ho']
  -- the answer to an update
  have hans : ∀ t (r : Response), Event.post (.update (updatesAt base (String.ofList s.session.toStr) c.updateId) body) t r ∈ up →
      (t = "valid token" → r.status = s.code) ∧ (t ≠ "valid token" → r.status ≠ 201) := by
    intro t r hm
    have := hg _ t r (List.mem_append_right ss hm)
    rw [hr] at this
    constructor
    · intro ht
      rw [if_pos ht] at this
      cases this
      rfl
    · intro ht
      rw [if_neg ht] at this
      cases this
      split <;> decide
  constructor
  · rintro ⟨pre, body', t, text, rfl⟩
    have hm : Event.post (.update (updatesAt base (String.ofList s.session.toStr) c.updateId) body') t ⟨201, text⟩ ∈
        pre ++ [Event.post (.update (updatesAt base (String.ofList s.session.toStr) c.updateId) body') t ⟨201, text⟩] := by simp
    cases attempt_req hat hm
    obtain ⟨ha, hb'⟩ := hans t ⟨201, text⟩ hm
    have ht : t = "valid token" := by
      by_contra ht
      exact hb' ht rfl
    refine ⟨(ha ht).symm, ?_⟩
    rw [validUpdates_append]
    simp [validUpdates, isValidUpdate, ht]
  · rintro ⟨hcode, hv⟩
    cases hat with
    | none => exact absurd hv (by simp [validUpdates])
    | one t r =>
      have ht : t = "valid token" := by
        by_contra ht
        simp [validUpdates, isValidUpdate, ht] at hv
      have h6 := (hans t r (by simp)).1 ht
      obtain ⟨st, text⟩ := r
      cases h6.trans hcode
      exact ⟨[], body, t, text, rfl⟩
    | gaveUp t r h401 =>
      have ht : t = "valid token" := by
        by_contra ht
        simp [validUpdates, isValidUpdate, ht] at hv
      have h6 := (hans t r (by simp)).1 ht
      rw [h401, hcode] at h6
      exact absurd h6 (by decide)
    | two t1 t2 r1 r2 h401 =>
      have ht1 : t1 ≠ "valid token" := by
        intro ht
        have h6 := (hans t1 r1 (by simp)).1 ht
        rw [h401, hcode] at h6
        exact absurd h6 (by decide)
      have ht : t2 = "valid token" := by
        by_contra ht
        simp [validUpdates, isValidUpdate, ht, ht1] at hv
      have h6 := (hans t2 r2 (by simp)).1 ht
      obtain ⟨st, text⟩ := r2
      cases h6.trans hcode
      exact ⟨[_, _], body, t2, text, rfl⟩

/-- A request whose credentials are accepted in the end, answered by something that answers 401 to other tokens than two. -/
theorem exchange_authorised (q : Request β) (x : Exchange) (A : String → Response) (ha : Authorised x)
    (hA : ∀ t, t ≠ "valid token" → t ≠ "forbidden token" → (A t).status = 401) (hv : (A "valid token").status ≠ 401)
    (hg : ∀ t r, Event.post q t r ∈ (exchange q x).2 → r = A t) :
    ∃ evs, exchange q x = (.ok (A "valid token"), evs ++ [.post q "valid token" (A "valid token")]) ∧
      (evs = [] ∨ ∃ t r, t ≠ "valid token" ∧ evs = [.post q t r, .refresh]) := by
  rcases ha with h | ⟨t, h, h1, h2, h3, h4⟩
  · have e : x.response1 = A "valid token" := by
      apply hg
      unfold exchange
      rw [h]
      dsimp only
      split
      · split
        · simp
        · simp
        · split <;> simp
      · simp
    refine ⟨[], ?_, Or.inl rfl⟩
    unfold exchange
    rw [h, e]
    dsimp only
    rw [if_neg hv]
    rfl
  · have e1 : x.response1 = A t := by
      apply hg
      unfold exchange
      rw [h]
      dsimp only
      split
      · split
        · simp
        · simp
        · split <;> simp
      · simp
    have e2 : exchange q x = (.ok x.response2, [.post q t x.response1, .refresh, .post q "valid token" x.response2]) := by
      unfold exchange
      rw [h, h3, h4]
      dsimp only
      rw [if_pos (by rw [e1]; exact hA t h1 h2)]
    have e3 : x.response2 = A "valid token" := hg _ _ (by rw [e2]; simp)
    refine ⟨[.post q t x.response1, .refresh], ?_, Or.inr ⟨t, _, h1, rfl⟩⟩
    rw [e2, e3]
    rfl

/-- One send with good credentials to a server that answers 201. -/
theorem send_authorised (s : Server β M V) (base : String) (others : List (List Char × List Char)) (ho : ∀ h ∈ others, h.1 ≠ "Authorization".toList)
    (empty : β) (pack : U → Outcome β) (v : V)
    (c : Client) (u : U) (hf : ∀ body, pack u = .ok body → ∃ msg, s.parse body = some msg ∧ s.unpack msg = .ok v) (x y : Exchange) (hc : Fit s base c) (hb : base ≠ "") (hcode : s.code = 201) (hpack : ∃ body, pack u = .ok body)
    (hx : Authorised x) (hy : Authorised y) (hg : Genuine s base others empty (send pack c u x y).2.2) :
    validUpdates (send pack c u x y).2.2 = 1 := by
  obtain ⟨body, hbody⟩ := hpack
  obtain ⟨msg, hp, hu⟩ := hf body hbody
  -- the session
  have hopen : ∃ (evs : List (Event β)) (c' : Client), openSession c x = (.ok .okay, c', evs) ∧ c'.base = c.base ∧ c'.sessionId = String.ofList s.session.toStr ∧ c'.updateId = c.updateId ∧
      validUpdates evs = 0 := by
    unfold openSession
    by_cases hs : c.sessionId = ""
    · rw [if_pos hs]
      have hsub : ∀ e ∈ (exchange (β := β) (.session (sessionUrl c.base)) x).2, e ∈ (send pack c u x y).2.2 := by
        intro e he
        unfold send
        rw [if_neg (by rwa [hc.base])]
        unfold openSession
        rw [if_pos hs]
        cases hex : exchange (β := β) (.session (sessionUrl c.base)) x with
        | mk r evs =>
          rw [hex] at he
          cases r with
          | throw m => exact he
          | ub w => exact he
          | ok r =>
            dsimp only
            split
            · next h =>
              split at h
              · cases h
              · cases h
                exact List.mem_append_left _ he
            · next h =>
              split at h
              · cases h
                exact he
              · cases h
                exact he
      obtain ⟨evs, h1, h2⟩ := exchange_authorised (.session (sessionUrl c.base)) x
        (fun t => if t = "valid token" then ⟨201, String.ofList s.session.toStr⟩ else if t = "forbidden token" then ⟨403, ""⟩ else ⟨401, ""⟩) hx
        (by intro t h1 h2; simp [h1, h2]) (by simp) (by
          intro t r hm
          have := hg _ t r (hsub _ hm)
          rw [show sessionUrl c.base = sessionsAt base from by rw [hc.base]; rfl, route_session s base others ho] at this
          simp only [answer, Outcome.ok.injEq] at this
          exact this.symm)
      rw [h1]
      simp only [if_true, ne_eq, not_true_eq_false, if_false]
      refine ⟨_, _, rfl, rfl, ?_, rfl, ?_⟩
      · dsimp only
        have : ∀ ch, ch ∈ ['"', '\n'] → erase ch (String.ofList s.session.toStr) = String.ofList s.session.toStr := by
          intro ch hch
          unfold erase
          rw [String.toList_ofList, List.filter_eq_self.mpr]
          intro d hd
          rw [decide_eq_true_eq]
          rintro rfl
          revert hd
          apply toStr_not
          unfold Spec.Uuid.IsHex
          simp only [List.mem_cons, List.not_mem_nil, or_false] at hch
          rcases hch with rfl | rfl <;> decide
        rw [this '"' (by simp), this '\n' (by simp)]
      · rcases h2 with rfl | ⟨t, r, -, rfl⟩ <;> simp [validUpdates, isValidUpdate]
    · rw [if_neg hs]
      exact ⟨[], c, rfl, rfl, hc.session.resolve_left hs, rfl, rfl⟩
  obtain ⟨evs, c', h1, h2, h3, h4, h5⟩ := hopen
  have hsend : (send pack c u x y).2.2 = evs ++ (exchange (.update (updateUrl c'.base c'.sessionId c'.updateId) body) y).2 := by
    unfold send
    rw [if_neg (by rwa [hc.base]), h1]
    dsimp only
    congr 1
    unfold postUpdate
    rw [hbody]
    dsimp only
    cases exchange (.update (updateUrl c'.base c'.sessionId c'.updateId) body) y with
    | mk r e =>
      cases r with
      | throw m => rfl
      | ub w => rfl
      | ok r =>
        dsimp only
        split <;> rfl
  have hurl : updateUrl c'.base c'.sessionId c'.updateId = updatesAt base (String.ofList s.session.toStr) c.updateId := by
    rw [h2, h3, h4, hc.base]; rfl
  rw [hurl] at hsend
  obtain ⟨evs2, h6, h7⟩ := exchange_authorised (.update (updatesAt base (String.ofList s.session.toStr) c.updateId) body) y
    (fun t => if t = "valid token" then ⟨s.code, s.reply ⟨v, s.session, c.updateId⟩⟩ else if t = "forbidden token" then ⟨403, ""⟩ else ⟨401, ""⟩) hy
    (by intro t h1 h2; simp [h1, h2]) (by simp [hcode]) (by
      intro t r hm
      have := hg _ t r (by rw [hsend]; exact List.mem_append_right _ hm)
      rw [route_update s base others ho empty s.session c.updateId hc.number body msg v hp hu] at this
      by_cases ht : t = "valid token"
      · simp only [ht, if_true, answer, Outcome.ok.injEq] at this ⊢
        exact this.symm
      · simp only [ht, if_false, answer, Outcome.ok.injEq] at this ⊢
        exact this.symm)
  rw [hsend, h6, validUpdates_append, h5]
  dsimp only
  rw [validUpdates_append]
  rcases h7 with rfl | ⟨t, r, ht, rfl⟩
  · simp [validUpdates, isValidUpdate]
  · simp [validUpdates, isValidUpdate, ht]

/-- One send to a server that answers 201: the receiver is called with what is acknowledged, twice. -/
theorem send_acked (s : Server β M V) (base : String) (others : List (List Char × List Char)) (ho : ∀ h ∈ others, h.1 ≠ "Authorization".toList)
    (empty : β) (hcode : s.code = 201) (pack : U → Outcome β) (v : V)
    (c : Client) (u : U) (hf : ∀ body, pack u = .ok body → ∃ msg, s.parse body = some msg ∧ s.unpack msg = .ok v) (x y : Exchange) (hc : Fit s base c)
    (hg : Genuine s base others empty (send pack c u x y).2.2) :
    ((received s base others empty (send pack c u x y).2.2).map fun c => (some (c.session, Outcome.ok c.update) : Option (Uuid × Outcome V))) =
      ((send pack c u x y).2.2.filterMap Spec.EndToEnd.ackOf).flatMap fun a =>
        [(s.parse a.2).map fun m => (s.session, s.unpack m), (s.parse a.2).map fun m => (s.session, s.unpack m)] := by
  obtain ⟨ss, up, hev, sp⟩ := send_spec pack c u x y
  rw [hev] at hg ⊢
  generalize (send pack c u x y).1 = r at sp
  generalize (send pack c u x y).2.1 = c' at sp
  obtain ⟨h1, -⟩ := received_sessions s base others ho empty ss fun q t r h => by rw [attempt_req sp.sessionAttempt h, hc.base]
  have h2 : ss.filterMap Spec.EndToEnd.ackOf = [] := by
    rw [List.filterMap_eq_nil_iff]
    intro e he
    cases e with
    | refresh => rfl
    | post q t r =>
      rw [attempt_req sp.sessionAttempt he]
      rfl
  rw [received_append, h1, List.nil_append, List.filterMap_append, h2, List.nil_append]
  have hsess := send_session s base others ho empty c hc sp hg
  rcases sp.update with ⟨rfl, -⟩ | ⟨body, hb, -, hat, -⟩
  · rfl
  rcases hsess with ⟨rfl, rfl⟩ | hsess
  · rfl
  obtain ⟨msg, hp, hu⟩ := hf body hb
  rw [hsess, hc.base] at hat
  have hr := fun t => route_update s base others ho empty s.session c.updateId hc.number body msg v hp hu t
  have hup : ∀ l : List (Event β), (∀ e ∈ l, e ∈ up) →
      ((received s base others empty l).map fun c => (some (c.session, Outcome.ok c.update) : Option (Uuid × Outcome V))) =
      (l.filterMap Spec.EndToEnd.ackOf).flatMap fun a =>
        [(s.parse a.2).map fun m => (s.session, s.unpack m), (s.parse a.2).map fun m => (s.session, s.unpack m)] := by
    intro l
    induction l with
    | nil => intro _; rfl
    | cons e l ih =>
      intro hl
      have ih := ih fun e he => hl e (List.mem_cons_of_mem _ he)
      have e1 : received s base others empty (e :: l) = received s base others empty [e] ++ received s base others empty l := received_append s base others empty [e] l
      rw [e1, List.map_append, ih]
      cases e with
      | refresh => rfl
      | post q t r =>
        have hm := hl _ List.mem_cons_self
        cases attempt_req hat hm
        have hans := hg _ t r (List.mem_append_right ss hm)
        simp only [received, List.flatMap_cons, List.flatMap_nil, List.append_nil]
        rw [hr] at hans ⊢
        by_cases ht : t = "valid token"
        · rw [if_pos ht] at hans ⊢
          cases hans
          simp [Spec.EndToEnd.ackOf, hcode, hp, hu]
        · rw [if_neg ht] at hans ⊢
          have : r.status ≠ 201 := by
            cases hans
            split <;> decide
          simp [Spec.EndToEnd.ackOf, this]
  exact hup up fun e he => he

end Verif.MockView
