import Verif.Proofs.Tracked
/-! # C107: how often a value is copied and moved on its way through status values -/
namespace Verif.Props
open Tracked

/-- C107, putting a value in.  It compiles exactly if a reference of the type held binds to the argument.  A `StatusValue` of a reference refers to the very object
and leaves all objects alone; one of a value makes one new object, by one move if the argument is an rvalue that is not const and by one copy otherwise, and
only in the first case is anything taken from the argument. -/
theorem c107_wrap {α : Type} (objs : List (Obj α)) (k : Holds) (src : Nat) (c : Cat) (o : Obj α) (ho : objs[src]? = some o) :
    ((wrap objs k src c).isSome ↔ (k = .lref → c = .lvalue) ∧ (k = .rref → c = .rvalue) ∧ (k = .constRref → c = .rvalue ∨ c = .constRvalue)) ∧
    ∀ objs' s, wrap objs k src c = some (objs', s) → s.holds = k ∧
      (k ≠ .value ∧ k ≠ .constValue → objs' = objs ∧ s.body = .inl src) ∧
      (k = .value ∨ k = .constValue → s.body = .inl objs.length ∧ objs'.length = objs.length + 1 ∧
        objs'[objs.length]? = some (if c = .rvalue then ⟨o.moves + 1, o.copies, o.content⟩ else ⟨o.moves, o.copies + 1, o.content⟩) ∧
        ∀ i < objs.length, objs'[i]? = if i = src ∧ c = .rvalue then some ⟨o.moves, o.copies, none⟩ else objs[i]?) := by
  have hs := (List.getElem?_eq_some_iff.mp ho).1
  have hc : (construct objs src c).isSome := by simp [construct, ho]
  constructor
  · unfold wrap
    cases k <;> simp [Holds.accepts, Holds.owns, hs] <;> exact hc
  · intro objs' s h
    unfold wrap at h
    split_ifs at h with h1 h2
    · rw [Option.map_eq_some_iff] at h
      obtain ⟨x, hx, e⟩ := h
      obtain ⟨rfl, rfl⟩ := Prod.ext_iff.mp e
      refine ⟨rfl, fun hk => by cases k <;> simp_all [Holds.owns], fun _ => ⟨rfl, (length_construct hx).1, ?_, ?_⟩⟩
      · obtain ⟨y, hy, hi⟩ := getElem?_construct hx
        obtain rfl := Option.some.inj (hy.symm.trans ho)
        rw [hi, if_pos rfl]
        simp only [bindsRref_iff]
        rfl
      · intro i hil
        obtain ⟨y, hy, hi⟩ := getElem?_construct hx
        obtain rfl := Option.some.inj (hy.symm.trans ho)
        rw [hi, if_neg (by omega)]
        simp only [bindsRref_iff]
        rfl
    · obtain ⟨rfl, rfl⟩ := Prod.ext_iff.mp (Option.some.inj h)
      refine ⟨rfl, fun _ => ⟨rfl, rfl⟩, fun hk => by rcases hk with rfl | rfl <;> simp [Holds.owns] at h2⟩

/-- Passing a `StatusValue` on from variable to variable: each is constructed from an expression for the one before, of the given category. -/
def travel {α : Type} (objs : List (Obj α)) (s : SV) : List Cat → Option (List (Obj α) × SV)
  | [] => some (objs, s)
  | c :: cs => (copyOrMove objs s c).bind fun p => travel p.1 p.2 cs

/-- C107, passing on a `StatusValue` of a reference: it refers to the same object afterwards and no object is touched.  It does not compile exactly if a
`StatusValue` of an rvalue reference would have to be copied. -/
theorem c107_travel_reference {α : Type} (objs : List (Obj α)) (s : SV) (hk : s.holds ≠ .value ∧ s.holds ≠ .constValue) (hops : List Cat) :
    ((travel objs s hops).isSome ↔ (s.holds = .rref ∨ s.holds = .constRref → ∀ c ∈ hops, c = .rvalue)) ∧
    ∀ r, travel objs s hops = some r → r = (objs, s) := by
  have hop : ∀ c, copyOrMove objs s c = if (s.holds = .rref ∨ s.holds = .constRref) ∧ c ≠ .rvalue then none else some (objs, s) := by
    intro c
    rcases s with ⟨k, b | st⟩ <;> cases k <;> simp at hk <;> cases c <;> simp [copyOrMove, Holds.owns, Cat.bindsRref]
  induction hops with
  | nil => simp [travel]
  | cons c cs ih =>
    rw [travel, hop]
    split_ifs with h
    · refine ⟨iff_of_false (by simp) (fun k => h.2 (k h.1 c (by simp))), by simp⟩
    · simp only [Option.bind_some]
      refine ⟨ih.1.trans ⟨fun k hr d hd => ?_, fun k hr d hd => k hr d (by simp [hd])⟩, ih.2⟩
      rcases List.mem_cons.mp hd with rfl | hd
      · by_contra hne
        exact h ⟨hr, hne⟩
      · exact k hr d hd

/-- C107, passing on a bad `StatusValue`: the status stays. -/
theorem c107_travel_bad {α : Type} (objs : List (Obj α)) (k : Holds) (st : Status) (hops : List Cat) (r : List (Obj α) × SV)
    (h : travel objs ⟨k, .inr st⟩ hops = some r) : r = (objs, ⟨k, .inr st⟩) := by
  induction hops with
  | nil => exact (Option.some.inj h).symm
  | cons c cs ih =>
    have : copyOrMove objs ⟨k, .inr st⟩ c = none ∨ copyOrMove objs ⟨k, .inr st⟩ c = some (objs, ⟨k, .inr st⟩) := by
      unfold copyOrMove
      split
      · exact .inl rfl
      · exact .inr rfl
    rw [travel] at h
    rcases this with e | e <;> rw [e] at h
    · cases h
    · exact ih h

/-- How many of the hops move a value held by a `StatusValue` of `k`: a const value is never moved. -/
def movesOf (k : Holds) (hops : List Cat) : Nat := if k = .value then hops.count .rvalue else 0

/-- C107, passing on a `StatusValue` of a value: it always compiles; the object held at the end has the content of the first, and has been moved once for every
hop from an rvalue that is not const (if the type held is not const) and copied once for every other hop.  The first object keeps its content unless
the first hop moves it; all other objects are as before. -/
theorem c107_travel_value {α : Type} (objs : List (Obj α)) (s : SV) (hk : s.holds = .value ∨ s.holds = .constValue) (a : Nat) (ha : s.body = .inl a)
    (o : Obj α) (ho : objs[a]? = some o) (hops : List Cat) : ∃ objs' b, travel objs s hops = some (objs', ⟨s.holds, .inl b⟩) ∧
      objs'.length = objs.length + hops.length ∧
      (hops ≠ [] → objs'[b]? = some ⟨o.moves + movesOf s.holds hops, o.copies + (hops.length - movesOf s.holds hops), o.content⟩) ∧
      (hops = [] → b = a ∧ objs' = objs) ∧
      ∀ i < objs.length, objs'[i]? = if i = a ∧ hops.head? = some .rvalue ∧ s.holds = .value then some ⟨o.moves, o.copies, none⟩ else objs[i]? := by
  induction hops generalizing objs s a o with
  | nil =>
    refine ⟨objs, a, ?_, rfl, fun h => absurd rfl h, fun _ => ⟨rfl, rfl⟩, ?_⟩
    · rcases s with ⟨k, b⟩
      simp only at ha
      subst ha
      rfl
    · intro i _; simp
  | cons c cs ih =>
    obtain ⟨k, body⟩ := s
    simp only at hk ha
    subst ha
    have hal := (List.getElem?_eq_some_iff.mp ho).1
    have hm : (memberCat k c).bindsRref = true ↔ c = .rvalue ∧ k = .value := by
      rcases hk with rfl | rfl <;> cases c <;> decide
    obtain ⟨x, hx⟩ : ∃ x, construct objs a (memberCat k c) = some x := by
      unfold construct
      rw [ho]
      exact ⟨_, rfl⟩
    have hop : copyOrMove objs ⟨k, .inl a⟩ c = some (x, ⟨k, .inl objs.length⟩) := by
      have o1 : k.owns = true := by rcases hk with rfl | rfl <;> rfl
      have o2 : ¬ ((!c.bindsRref && (k = .rref || k = .constRref)) = true) := by rcases hk with rfl | rfl <;> cases c <;> decide
      unfold copyOrMove
      rw [if_neg o2]
      simp only [o1, if_true, hx]
      rfl
    obtain ⟨y, hy, hi⟩ := getElem?_construct hx
    obtain rfl := Option.some.inj (hy.symm.trans ho)
    have hxl := (length_construct hx).1
    obtain ⟨objs', b, t1, t2, t3, t4, t5⟩ := ih x ⟨k, .inl objs.length⟩ hk objs.length rfl _ ((hi objs.length).trans (if_pos rfl))
    simp only at t1 t3 t5
    refine ⟨objs', b, by rw [travel, hop]; exact t1, by rw [t2, hxl, List.length_cons]; omega, fun _ => ?_, fun e => absurd e (by simp), ?_⟩
    · have hmv : movesOf k (c :: cs) = movesOf k cs + if c = .rvalue ∧ k = .value then 1 else 0 := by
        unfold movesOf
        by_cases h1 : k = .value
        · simp [h1, List.count_cons]
        · simp [h1]
      have hle : movesOf k cs ≤ cs.length := by
        unfold movesOf
        split_ifs
        · exact List.count_le_length
        · omega
      rcases cs with _ | ⟨d, ds⟩
      · obtain ⟨rfl, rfl⟩ := t4 rfl
        rw [hi, if_pos rfl, hmv]
        simp only [hm]
        by_cases hc : c = .rvalue ∧ k = .value
        · simp [hc, movesOf, Obj.moved]
        · simp [hc, movesOf, Obj.copied]
      · rw [t3 (by simp), hmv]
        simp only [hm]
        by_cases hc : c = .rvalue ∧ k = .value
        · simp only [hc, and_self, if_true, Obj.moved, List.length_cons, Option.some.injEq, Obj.mk.injEq, and_true]
          simp only [List.length_cons] at hle
          constructor <;> omega
        · simp only [hc, if_false, Obj.copied, List.length_cons, Option.some.injEq, Obj.mk.injEq, and_true]
          simp only [List.length_cons] at hle
          constructor <;> omega
    · intro i hil
      rw [t5 i (by omega), if_neg (by omega), hi, if_neg (by omega)]
      simp only [hm, List.head?_cons, Option.some.injEq]
      rfl

/-- C107, taking a value out: the result is the object held or referred to.  It is an rvalue that is not const, and so can be moved from, exactly if `value` is
called on such an rvalue and the type held is a value or an rvalue reference that is not const; and it is const exactly if the type held is const, or a value and
`value` is not called on such an rvalue.  A bad `StatusValue` throws. -/
theorem c107_value (s : SV) (c : Cat) :
    (∀ a, s.body = .inl a → ∃ r, value s c = .ok (a, r) ∧
      (r = .rvalue ↔ c = .rvalue ∧ (s.holds = .value ∨ s.holds = .rref)) ∧
      (r = .constLvalue ∨ r = .constRvalue ↔
        s.holds = .constValue ∨ s.holds = .constLref ∨ s.holds = .constRref ∨ (s.holds = .value ∧ c ≠ .rvalue))) ∧
    ∀ st, s.body = .inr st → (value s c).IsThrow := by
  obtain ⟨k, b | st⟩ := s
  · refine ⟨fun a ha => ?_, fun st h => by cases h⟩
    cases ha
    cases k <;> cases c <;> exact ⟨_, rfl, by simp, by simp⟩
  · exact ⟨fun a h => by (cases h), fun _ _ => ⟨_, rfl⟩⟩

/-- C107, from end to end with a `StatusValue` of a value: an object is put in, the `StatusValue` passed on any number of times, and an object made from what
`value()` gives.  It has the content of the first object, has been moved once for every non-const rvalue on the way and copied once for every other step. -/
theorem c107_value_trip {α : Type} (objs : List (Obj α)) (src : Nat) (o : Obj α) (ho : objs[src]? = some o) (c : Cat) (hops : List Cat) (d : Cat) :
    ∃ objs1 s1 objs2 s2 a r objs3, wrap objs .value src c = some (objs1, s1) ∧ travel objs1 s1 hops = some (objs2, s2) ∧ value s2 d = .ok (a, r) ∧
      construct objs2 a r = some objs3 ∧
      objs3[objs3.length - 1]? = some ⟨o.moves + (c :: hops ++ [d]).count .rvalue, o.copies + ((c :: hops ++ [d]).length - (c :: hops ++ [d]).count .rvalue),
        o.content⟩ := by
  obtain ⟨w1, w2⟩ := c107_wrap objs .value src c o ho
  obtain ⟨⟨objs1, s1⟩, hw⟩ := Option.isSome_iff_exists.mp (w1.mpr (by simp))
  obtain ⟨k1, -, k2⟩ := w2 objs1 s1 hw
  obtain ⟨b1, l1, n1, -⟩ := k2 (.inl rfl)
  obtain ⟨objs2, b, t1, t2, t3, t4, -⟩ := c107_travel_value objs1 s1 (.inl k1) _ b1 _ n1 hops
  obtain ⟨r, v1, v2, -⟩ := (c107_value ⟨s1.holds, .inl b⟩ d).1 b rfl
  rw [k1] at v2 t3
  have hb : objs2[b]? = some ⟨o.moves + (c :: hops).count .rvalue, o.copies + ((c :: hops).length - (c :: hops).count .rvalue), o.content⟩ := by
    have hle : hops.count .rvalue ≤ hops.length := List.count_le_length
    rcases hops with _ | ⟨e, es⟩
    · obtain ⟨rfl, rfl⟩ := t4 rfl
      rw [n1]
      by_cases hc : c = .rvalue
      · subst hc; simp
      · simp [hc]
    · rw [t3 (by simp), movesOf, if_pos rfl, List.count_cons (a := Cat.rvalue) (b := c)]
      by_cases hc : c = .rvalue
      · subst hc
        simp only [if_true, beq_self_eq_true, List.length_cons, Option.some.injEq, Obj.mk.injEq, and_true]
        simp only [List.length_cons] at hle
        constructor <;> omega
      · simp only [hc, if_false, beq_iff_eq, List.length_cons, Option.some.injEq, Obj.mk.injEq, and_true]
        simp only [List.length_cons] at hle
        constructor <;> omega
  obtain ⟨objs3, h3⟩ : ∃ x, construct objs2 b r = some x := by
    unfold construct
    rw [hb]
    exact ⟨_, rfl⟩
  obtain ⟨y, hy, hi⟩ := getElem?_construct h3
  obtain rfl := Option.some.inj (hy.symm.trans hb)
  refine ⟨objs1, s1, objs2, _, b, r, objs3, hw, t1, v1, h3, ?_⟩
  rw [(length_construct h3).1, Nat.add_sub_cancel, hi, if_pos rfl, List.count_append, List.length_append, List.count_singleton]
  have hle : (c :: hops).count .rvalue ≤ (c :: hops).length := List.count_le_length
  have hr : r.bindsRref = true ↔ d = .rvalue := by rw [bindsRref_iff, v2]; simp
  by_cases hd : d = .rvalue
  · simp only [hr, hd, if_true, Obj.moved, beq_self_eq_true, List.length_singleton, Option.some.injEq, Obj.mk.injEq, and_true]
    constructor <;> omega
  · simp only [hr, hd, if_false, Obj.copied, beq_iff_eq, List.length_singleton, Option.some.injEq, Obj.mk.injEq, and_true, Nat.add_zero, true_and]
    omega

/-- C107, from end to end with a `StatusValue` of a reference: `value()` gives the very object that was put in, and none has been copied or moved. -/
theorem c107_reference_trip {α : Type} (objs : List (Obj α)) (k : Holds) (hk : k ≠ .value ∧ k ≠ .constValue) (src : Nat) (o : Obj α) (ho : objs[src]? = some o)
    (c : Cat) (hops : List Cat) (d : Cat) (objs1 objs2 : List (Obj α)) (s1 s2 : SV) (hw : wrap objs k src c = some (objs1, s1))
    (ht : travel objs1 s1 hops = some (objs2, s2)) : objs2 = objs ∧ ∃ r, value s2 d = .ok (src, r) := by
  obtain ⟨k1, k2, -⟩ := (c107_wrap objs k src c o ho).2 objs1 s1 hw
  obtain ⟨rfl, b1⟩ := k2 hk
  obtain ⟨rfl, rfl⟩ := Prod.ext_iff.mp ((c107_travel_reference objs1 s1 (by rw [k1]; exact hk) hops).2 _ ht)
  obtain ⟨r, v1, -⟩ := (c107_value s2 d).1 src b1
  exact ⟨rfl, r, v1⟩

/-- C107, `RETURN_OR_ASSIGN`: a bad `StatusValue` makes the function return its status; otherwise the expression is the object held or referred to.  If this is a
value, it can be moved from exactly if the argument is a `std::move` or the bare name of a variable that is not const. -/
theorem c107_return_or_assign (s : SV) (arg : Arg) :
    (∀ st, s.body = .inr st → st.ok = false → returnOrAssign s arg = .ok (.inl st)) ∧
    ∀ a, s.body = .inl a → ∃ r, returnOrAssign s arg = .ok (.inr (a, r)) ∧
      (r = .rvalue ↔ (arg = .name false ∨ arg = .moved false) ∧ (s.holds = .value ∨ s.holds = .rref)) := by
  obtain ⟨k, b | st⟩ := s
  · refine ⟨fun st h => by (cases h), fun a ha => ?_⟩
    cases ha
    cases k <;> rcases arg with (_ | _) | (_ | _) | (_ | _) <;> exact ⟨_, rfl, by simp⟩
  · refine ⟨fun st' h hs => ?_, fun a h => by (cases h)⟩
    cases h
    simp [returnOrAssign, hs]

/-- C107.  `RETURN_OR_ASSIGN(sv)` with the name of a local variable moves the value out of the variable, though nothing at the call says so: whoever reads `sv` later
finds its value gone.  With `(sv)` in parentheses it is copied. -/
theorem c107_name_is_moved_from {α : Type} (objs : List (Obj α)) (sv : SV) (a : Nat) (hv : sv.holds = .value) (hb : sv.body = .inl a) (o : Obj α)
    (ho : objs[a]? = some o) :
    (∃ r objs', returnOrAssign sv (.name false) = .ok (.inr (a, r)) ∧ construct objs a r = some objs' ∧ objs'[a]? = some ⟨o.moves, o.copies, none⟩) ∧
    ∃ r objs', returnOrAssign sv (.lvalueExpr false) = .ok (.inr (a, r)) ∧ construct objs a r = some objs' ∧ objs'[a]? = some o := by
  have hl := (List.getElem?_eq_some_iff.mp ho).1
  obtain ⟨k, b⟩ := sv
  simp only at hv hb
  subst hv hb
  refine ⟨⟨.rvalue, _, rfl, by simp only [construct, ho]; rfl, ?_⟩, .constLvalue, _, rfl, by simp only [construct, ho]; rfl, ?_⟩
  · simp only [Cat.bindsRref, if_true]
    rw [List.getElem?_append_left (by simpa using hl), List.getElem?_set_self hl]
    rfl
  · simp only [Cat.bindsRref, Bool.false_eq_true, if_false]
    rw [List.getElem?_append_left hl]
    exact ho

/-- C107, assigning one `StatusValue` to another.  A bad one hands over its status.  A good one hands over its value to a target that has a value by one copy or one
move into the object of the target; to a target that is bad by one move, or by one copy and one move. -/
theorem c107_assign {α : Type} (objs : List (Obj α)) (target source : SV) (c : Cat) (objs' : List (Obj α)) (s : SV)
    (h : assignSV objs target source c = some (objs', s)) : target.holds = .value ∧ source.holds = .value ∧ s.holds = .value ∧
    (∀ st, source.body = .inr st → objs' = objs ∧ s.body = .inr st) ∧
    ∀ a o, source.body = .inl a → objs[a]? = some o → ∃ b o', s.body = .inl b ∧ objs'[b]? = some o' ∧ o'.content = o.content ∧
      (∀ d, target.body = .inl d → b = d) ∧
      (c = .rvalue → o'.moves = o.moves + 1 ∧ o'.copies = o.copies) ∧
      (c ≠ .rvalue → o'.copies = o.copies + 1 ∧ (o'.moves = o.moves ↔ target.body.isLeft) ∧ (o'.moves = o.moves + 1 ↔ target.body.isRight)) := by
  unfold assignSV at h
  by_cases hv : target.holds = .value ∧ source.holds = .value
  swap
  · rw [if_neg hv] at h; cases h
  rw [if_pos hv] at h
  obtain ⟨k, tb⟩ := target
  obtain ⟨k', sb⟩ := source
  obtain ⟨rfl, rfl⟩ := hv
  have mc : (memberCat .value c).bindsRref = true ↔ c = .rvalue := by cases c <;> decide
  rcases sb with a | st
  · rcases tb with d | st
    · simp only [Option.map_eq_some_iff] at h
      obtain ⟨x, hx, e⟩ := h
      obtain ⟨rfl, rfl⟩ := Prod.ext_iff.mp e
      refine ⟨rfl, rfl, rfl, fun st e => by (cases e), fun a' o ha ho => ?_⟩
      cases ha
      obtain ⟨-, y, hy, hi⟩ := getElem?_assign hx
      obtain rfl := Option.some.inj (hy.symm.trans ho)
      refine ⟨d, _, rfl, (hi d).trans (if_pos rfl), ?_, fun d' e => Sum.inl.inj e, fun hc => ?_, fun hc => ?_⟩
      · split_ifs <;> rfl
      · rw [if_pos (mc.mpr hc)]; exact ⟨rfl, rfl⟩
      · rw [if_neg (fun k => hc (mc.mp k))]; simp [Obj.copied]
    · simp only at h
      split_ifs at h with hc
      · rw [Option.map_eq_some_iff] at h
        obtain ⟨x, hx, e⟩ := h
        obtain ⟨rfl, rfl⟩ := Prod.ext_iff.mp e
        refine ⟨rfl, rfl, rfl, fun st e => by (cases e), fun a' o ha ho => ?_⟩
        cases ha
        obtain ⟨y, hy, hi⟩ := getElem?_construct hx
        obtain rfl := Option.some.inj (hy.symm.trans ho)
        refine ⟨objs.length, _, rfl, (hi _).trans (if_pos rfl), rfl, fun d' e => by (cases e), fun _ => ⟨rfl, rfl⟩, fun hn => absurd (bindsRref_iff.mp hc) hn⟩
      · rcases hx : construct objs a .constLvalue with _ | x
        · rw [hx] at h; cases h
        · rw [hx] at h
          simp only [Option.map_eq_some_iff] at h
          obtain ⟨z, hz, e⟩ := h
          obtain ⟨rfl, rfl⟩ := Prod.ext_iff.mp e
          refine ⟨rfl, rfl, rfl, fun st e => by (cases e), fun a' o ha ho => ?_⟩
          cases ha
          obtain ⟨y, hy, hi⟩ := getElem?_construct hx
          obtain rfl := Option.some.inj (hy.symm.trans ho)
          obtain ⟨y2, hy2, hi2⟩ := getElem?_construct hz
          obtain rfl := Option.some.inj (hy2.symm.trans ((hi objs.length).trans (if_pos rfl)))
          refine ⟨x.length, _, rfl, (hi2 _).trans (if_pos rfl), rfl, fun d' e => by (cases e), fun e => absurd (bindsRref_iff.mpr e) hc, fun _ => ?_⟩
          simp [Cat.bindsRref, Obj.moved, Obj.copied]
  · have h := Option.some.inj h
    obtain ⟨rfl, rfl⟩ := Prod.ext_iff.mp h
    exact ⟨rfl, rfl, rfl, fun st' e => ⟨rfl, e⟩, fun a o e => by (cases e)⟩

/-- A value put in by copy, passed on by a move and a copy, taken out by a move: two moves, two copies. -/
example : ∃ objs1 s1 objs2 s2 objs3, wrap [Obj.create 7] .value 0 .lvalue = some (objs1, s1) ∧ travel objs1 s1 [.rvalue, .lvalue] = some (objs2, s2) ∧
    value s2 .rvalue = .ok (3, .rvalue) ∧ construct objs2 3 .rvalue = some objs3 ∧ objs3[4]? = some ⟨2, 2, some 7⟩ ∧ objs3[0]? = some ⟨0, 0, some 7⟩ := by
  refine ⟨_, _, _, _, _, rfl, rfl, rfl, rfl, rfl, rfl⟩

/-- An rvalue reference passed on by moves; by a copy it does not compile. -/
example : ∃ objs1 s1, wrap [Obj.create 7] .rref 0 .rvalue = some (objs1, s1) ∧ travel objs1 s1 [.rvalue, .rvalue] = some (objs1, s1) ∧
    (travel objs1 s1 [.rvalue, .lvalue]).isNone := ⟨_, _, rfl, rfl, rfl⟩

/-- A bad one passed on, and a good one assigned over a bad one. -/
example : travel [Obj.create 7] ⟨.value, .inr (.err "m" "f" 1)⟩ [.lvalue] = some ([Obj.create 7], ⟨.value, .inr (.err "m" "f" 1)⟩) ∧
    assignSV [Obj.create 7] ⟨.value, .inr (.err "m" "f" 1)⟩ ⟨.value, .inl 0⟩ .lvalue =
      some ([⟨0, 0, some 7⟩, ⟨0, 1, none⟩, ⟨1, 1, some 7⟩], ⟨.value, .inl 2⟩) := ⟨rfl, rfl⟩

end Verif.Props
