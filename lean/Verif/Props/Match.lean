import Verif.Proofs.Match
/-! # C94: variant matching -/
namespace Verif.Props
open Verif Match

variable {V B : Type}

/-- A branch as the documentation recommends: a lambda that is not `mutable` and takes its parameter by value or is generic. -/
structure PlainBranch (b : Branch V B) : Prop where
  cls : b.isClass = true
  const : b.isConst = true
  param : (∃ t, b.param = .value t) ∨ b.param = .generic

/-- C94.  The order in which the branches are given makes no difference, neither to whether the call compiles nor to what it does. -/
theorem c94_order (bs bs' : List (Branch V B)) (h : bs.Perm bs') (types : List Ty) (c : Cat) (held : Option (Ty × V)) :
    compile types c bs = compile types c bs' ∧ run bs c held = run bs' c held := by
  have hc : ∀ c, consistent types c bs = consistent types c bs' := fun c => by
    unfold consistent
    simp only [select_perm h]
  constructor
  · unfold compile
    rw [hc, hc, show bs.all (·.isClass) = bs'.all (·.isClass) from h.all_eq]
  · unfold run
    cases held with
    | none => rfl
    | some x => simp only [select_perm h]

/-- C94.  If the call compiles, then for every value the variant can hold a branch is run that can take the value, and all such branches return the same type.  A
variant that lost its value throws. -/
theorem c94_total (bs : List (Branch V B)) (types : List Ty) (c : Cat) (h : compile types c bs = .compiles) :
    (∃ ret : Nat, ∀ t ∈ types, ∃ b ∈ bs, (ics t c b.param).isSome ∧ b.ret = ret ∧ ∀ v, run bs c (some (t, v)) = .ok (b.run v)) ∧ (run bs c none).IsThrow := by
  refine ⟨?_, _, rfl⟩
  obtain ⟨-, h2, -⟩ := compile_compiles h
  have hs : ∀ t ∈ types, ∃ b, select bs t c = some b := fun t ht => consistent_select h2 ht
  rw [consistent, Bool.and_eq_true] at h2
  cases types with
  | nil => exact ⟨0, by simp⟩
  | cons t0 ts =>
    obtain ⟨b0, hb0⟩ := hs t0 (by simp)
    refine ⟨b0.ret, fun t ht => ?_⟩
    obtain ⟨b, hb⟩ := hs t ht
    have hr := List.all_eq_true.mp (List.all_eq_true.mp h2.2 t ht) t0 (by simp)
    rw [hb, hb0] at hr
    have hm := hb
    obtain ⟨l, r, e, i, hi, -⟩ := select_iff.mp hb
    refine ⟨b, by rw [e]; simp, by simp [hi], by simpa using hr, fun v => ?_⟩
    simp only [run, hm]

/-- A plain branch that takes the type exactly beats the other plain ones. -/
theorem plain_exact {b x : Branch V B} (hb : PlainBranch b) (hx : PlainBranch x) {t : Ty} (e : b.param = .value t) (n : x.param ≠ .value t) {c : Cat} {j : Ics}
    (hj : ics t c x.param = some j) : better b ⟨0, .none⟩ x j = true := by
  rcases hx.param with ⟨p, hp⟩ | hp
  · rw [hp] at hj n
    simp only [ics, Option.map_eq_some_iff] at hj
    obtain ⟨k, hk, rfl⟩ := hj
    have : k ≠ 0 := by
      rintro rfl
      exact n (by rw [rank_zero hk])
    have kp : 0 < k := Nat.pos_of_ne_zero this
    simp [better, argBetter, objBetter, hb.const, hx.const, kp, this]
  · rw [hp] at hj
    simp only [ics, Option.some.injEq] at hj
    subst hj
    simp [better, argBetter, objBetter, hb.const, hx.const, e, hp]

/-- A generic branch beats plain ones that would have to convert. -/
theorem plain_generic {b x : Branch V B} (hb : PlainBranch b) (hx : PlainBranch x) {t : Ty} (n : x.param ≠ .value t) (n' : x.param ≠ .generic)
    {c : Cat} {j : Ics} (hj : ics t c x.param = some j) : better b ⟨0, .none⟩ x j = true := by
  rcases hx.param with ⟨p, hp⟩ | hp
  · rw [hp] at hj n
    simp only [ics, Option.map_eq_some_iff] at hj
    obtain ⟨k, hk, rfl⟩ := hj
    have : k ≠ 0 := by
      rintro rfl
      exact n (by rw [rank_zero hk])
    have kp : 0 < k := Nat.pos_of_ne_zero this
    simp [better, argBetter, objBetter, hb.const, hx.const, kp, this]
  · exact absurd hp n'

/-- C94.  With branches as recommended, the branch that takes the held type is the one that runs, whatever the other branches are (generic ones, or ones to which the value
could be converted) and wherever they are in the list. -/
theorem c94_exact (l r : List (Branch V B)) (b : Branch V B) (hp : ∀ x ∈ l ++ b :: r, PlainBranch x) (t : Ty) (e : b.param = .value t)
    (n : ∀ x ∈ l ++ r, x.param ≠ .value t) (c : Cat) (v : V) : run (l ++ b :: r) c (some (t, v)) = .ok (b.run v) := by
  have hs : select (l ++ b :: r) t c = some b := by
    refine select_iff.mpr ⟨l, r, rfl, ⟨0, .none⟩, by simp [e, ics, rank_self], fun x hx j hj => ?_⟩
    have hx' : x ∈ l ++ b :: r := by
      rw [List.mem_append] at hx ⊢
      exact hx.imp id (List.mem_cons_of_mem _)
    exact plain_exact (hp b (by simp)) (hp x hx') e (n x hx) hj
  simp only [run, hs]

/-- C94.  The generic branch is the default: it runs for every type that no branch takes exactly, even if another branch could take it by conversion. -/
theorem c94_default (l r : List (Branch V B)) (b : Branch V B) (hp : ∀ x ∈ l ++ b :: r, PlainBranch x) (e : b.param = .generic)
    (n' : ∀ x ∈ l ++ r, x.param ≠ .generic) (t : Ty) (n : ∀ x ∈ l ++ r, x.param ≠ .value t) (c : Cat) (v : V) :
    run (l ++ b :: r) c (some (t, v)) = .ok (b.run v) := by
  have hs : select (l ++ b :: r) t c = some b := by
    refine select_iff.mpr ⟨l, r, rfl, ⟨0, .none⟩, by simp [e, ics], fun x hx j hj => ?_⟩
    have hx' : x ∈ l ++ b :: r := by
      rw [List.mem_append] at hx ⊢
      exact hx.imp id (List.mem_cons_of_mem _)
    exact plain_generic (hp b (by simp)) (hp x hx') (n x hx) (n' x hx) hj
  simp only [run, hs]

/-- C94.  With branches as recommended, no two with the same parameter, one of them generic, and all returning the same type, the call compiles for every variant. -/
theorem c94_accepted (bs : List (Branch V B)) (hp : ∀ x ∈ bs, PlainBranch x) (hn : (bs.map (·.param)).Nodup) (hg : ∃ x ∈ bs, x.param = .generic)
    (hr : ∀ x ∈ bs, ∀ y ∈ bs, x.ret = y.ret) (types : List Ty) (c : Cat) : compile types c bs = .compiles := by
  have hs : ∀ t c, ∃ b ∈ bs, select bs t c = some b := by
    intro t c
    have other : ∀ l r (b : Branch V B), bs = l ++ b :: r → ∀ x ∈ l ++ r, x.param ≠ b.param := by
      intro l r b e x hx hxb
      rw [e, List.map_append, List.map_cons, List.perm_middle.nodup_iff, List.nodup_cons, ← List.map_append] at hn
      exact hn.1 (hxb ▸ List.mem_map_of_mem hx)
    by_cases he : ∃ b ∈ bs, b.param = .value t
    · obtain ⟨b, hb, e⟩ := he
      obtain ⟨l, r, hl⟩ := List.append_of_mem hb
      refine ⟨b, hb, select_iff.mpr ⟨l, r, hl, ⟨0, .none⟩, by simp [e, ics, rank_self], fun x hx j hj => ?_⟩⟩
      have hx' : x ∈ bs := by
        rw [hl]
        rw [List.mem_append] at hx ⊢
        exact hx.imp id (List.mem_cons_of_mem _)
      exact plain_exact (hp b hb) (hp x hx') e (e ▸ other l r b hl x hx) hj
    · obtain ⟨b, hb, e⟩ := hg
      obtain ⟨l, r, hl⟩ := List.append_of_mem hb
      refine ⟨b, hb, select_iff.mpr ⟨l, r, hl, ⟨0, .none⟩, by simp [e, ics], fun x hx j hj => ?_⟩⟩
      have hx' : x ∈ bs := by
        rw [hl]
        rw [List.mem_append] at hx ⊢
        exact hx.imp id (List.mem_cons_of_mem _)
      exact plain_generic (hp b hb) (hp x hx') (fun h => he ⟨x, hx', h⟩) (e ▸ other l r b hl x hx) hj
  have hc : ∀ c, consistent types c bs = true := by
    intro c
    rw [consistent, Bool.and_eq_true]
    constructor
    · refine List.all_eq_true.mpr fun t _ => ?_
      obtain ⟨b, -, h⟩ := hs t c
      rw [h]
      rfl
    · refine List.all_eq_true.mpr fun t _ => List.all_eq_true.mpr fun u _ => ?_
      obtain ⟨b, hb, h⟩ := hs t c
      obtain ⟨b', hb', h'⟩ := hs u c
      rw [h, h', Option.map_some, Option.map_some, hr b hb b' hb', beq_self_eq_true]
  have ha : bs.all (·.isClass) = true := List.all_eq_true.mpr fun x hx => (hp x hx).cls
  unfold compile
  rw [ha, hc, hc]
  rfl

/-- C94.  A case that is forgotten does not compile, if the alternative is a class: without a branch for it and without a generic branch the call is
discarded.  Neither does a call with two branches for one alternative, nor one with a branch that is a function pointer. -/
theorem c94_rejected (bs : List (Branch V B)) (hp : ∀ x ∈ bs, x.isClass = true → PlainBranch x) (types : List Ty) (c : Cat) :
    (∀ n, Ty.cls n ∈ types → (∀ x ∈ bs, x.param ≠ .value (.cls n) ∧ x.param ≠ .generic) → compile types c bs = .discarded) ∧
    (∀ t ∈ types, ∀ l m r x y, bs = l ++ x :: m ++ y :: r → x.param = .value t → y.param = .value t → compile types c bs = .discarded) ∧
    (∀ x ∈ bs, x.isClass = false → compile types c bs = .discarded) := by
  have hf : ∀ x ∈ bs, x.isClass = false → compile types c bs = .discarded := by
    intro x hx hc
    unfold compile
    have : bs.all (·.isClass) = false := by
      by_contra h
      rw [Bool.not_eq_false, List.all_eq_true] at h
      rw [h x hx] at hc
      cases hc
    rw [this]
    rfl
  have hq : (∀ x ∈ bs, PlainBranch x) ∨ compile types c bs = .discarded := by
    by_cases h : ∃ x ∈ bs, x.isClass = false
    · obtain ⟨x, hx, hc⟩ := h
      exact .inr (hf x hx hc)
    · exact .inl fun x hx => hp x hx (by
        by_contra hc
        exact h ⟨x, hx, by simpa using hc⟩)
  refine ⟨fun n hn h => ?_, fun t ht l m r x y e hx hy => ?_, hf⟩
  · rcases hq with hq | hq
    swap
    · exact hq
    refine discarded_of_select hn ?_
    cases hs : select bs (.cls n) .rvalue with
    | none => rfl
    | some b =>
      obtain ⟨l, r, rfl, i, hi, -⟩ := select_iff.mp hs
      have hb := h b (by simp)
      rcases (hq b (by simp)).param with ⟨p, hp⟩ | hp
      · rw [hp] at hi hb
        simp only [ics, Option.map_eq_some_iff] at hi
        obtain ⟨k, hk, -⟩ := hi
        exact absurd (congrArg Param.value (rank_cls (p := p) (n := n) (by rw [hk]; rfl))) hb.1
      · exact absurd hp hb.2
  · rcases hq with hq | hq
    swap
    · exact hq
    refine discarded_of_select ht ?_
    have px := hq x (by rw [e]; simp)
    have py := hq y (by rw [e]; simp)
    cases hs : select bs t .rvalue with
    | none => rfl
    | some b =>
      obtain ⟨l', r', e', i, hi, w⟩ := select_iff.mp hs
      have pb := hq b (by rw [e']; simp)
      -- one of the two is not the one selected
      have key : ∃ z ∈ l' ++ r', PlainBranch z ∧ z.param = .value t := by
        have hp2 : (b :: (l' ++ r')).Perm (x :: y :: (l ++ m ++ r)) := by
          refine (List.perm_middle.symm.trans (by rw [← e', e])).trans ?_
          have h1 : (l ++ x :: m ++ y :: r).Perm (y :: (l ++ x :: m ++ r)) := List.perm_middle
          have h2 : (l ++ x :: m ++ r).Perm (x :: (l ++ m ++ r)) := by
            rw [List.append_assoc, List.append_assoc]
            exact List.perm_middle
          exact (h1.trans (h2.cons y)).trans (List.Perm.swap _ _ _)
        have hy' : y ∈ b :: (l' ++ r') := hp2.symm.subset (by simp)
        rcases List.mem_cons.mp hy' with rfl | hy'
        · have := (hp2.trans (List.Perm.swap _ _ _)).cons_inv
          exact ⟨x, this.symm.subset (by simp), px, hx⟩
        · exact ⟨y, hy', py, hy⟩
      obtain ⟨z, hz, pz, ez⟩ := key
      have hw := w z hz ⟨0, .none⟩ (by simp [ez, ics, rank_self])
      rcases pb.param with ⟨p, hp⟩ | hp
      · rw [hp] at hi
        simp only [ics, Option.map_eq_some_iff] at hi
        obtain ⟨k, hk, rfl⟩ := hi
        simp [better, argBetter, objBetter, pb.const, pz.const, hp, ez] at hw
      · rw [hp] at hi
        simp only [ics, Option.some.injEq] at hi
        subst hi
        simp [better, argBetter, objBetter, pb.const, pz.const, hp, ez] at hw

/-- C94.  For arithmetic alternatives a forgotten case is not always noticed: with `std::variant<int, bool>` and a single branch for `int` the call compiles and the
branch runs for both. -/
theorem c94_forgotten (f : V → B) (c : Cat) (v : V) :
    compile [.int, .bool] c [⟨.value .int, true, true, 0, f⟩] = .compiles ∧
    run [⟨.value .int, true, true, 0, f⟩] c (some (.bool, v)) = .ok (f v) := by
  cases c <;> exact ⟨rfl, rfl⟩

/-- C94.  Conversion of all cases of `std::variant<int, float, double>` to `double` by one branch, the documentation's other use. -/
theorem c94_to_double (f : V → B) (c : Cat) (t : Ty) (ht : t ∈ [Ty.int, .float, .double]) (v : V) :
    compile [.int, .float, .double] c [⟨.value .double, true, true, 0, f⟩] = .compiles ∧
    run [⟨.value .double, true, true, 0, f⟩] c (some (t, v)) = .ok (f v) := by
  simp only [List.mem_cons, List.not_mem_nil, or_false] at ht
  rcases ht with rfl | rfl | rfl <;> cases c <;> exact ⟨rfl, rfl⟩

/-- C94.  The documentation's example, with any results. -/
theorem c94_documented (f g h : V → B) (c : Cat) (v : V) :
    let bs : List (Branch V B) := [⟨.value .char, true, true, 0, f⟩, ⟨.value .int, true, true, 0, g⟩, ⟨.generic, true, true, 0, h⟩]
    compile [.int, .char, .double, .bool] c bs = .compiles ∧ run bs c (some (.char, v)) = .ok (f v) ∧ run bs c (some (.int, v)) = .ok (g v) ∧
    run bs c (some (.double, v)) = .ok (h v) ∧ run bs c (some (.bool, v)) = .ok (h v) := by
  cases c <;> exact ⟨rfl, rfl, rfl, rfl, rfl⟩

/-- C94.  The pitfall of the documentation: if a branch that is `mutable` could take the alternative by conversion, a branch for exactly that alternative that is not
`mutable` makes the call ambiguous, whatever the other branches are. -/
theorem c94_mutable (bs : List (Branch V B)) (types : List Ty) (t p : Ty) (ht : t ∈ types) (hne : t ≠ p) (hr : (rank t p).isSome) (x y : Branch V B)
    (hx : x ∈ bs) (hxp : x.param = .value p) (hxm : x.isConst = false) (hy : y ∈ bs) (hyp : y.param = .value t) (hym : y.isConst = true)
    (ho : ∀ z ∈ bs, z.isConst = true ∧ ((∃ q, z.param = .value q) ∨ z.param = .generic) ∨ z = x) (c : Cat) : compile types c bs = .discarded := by
  refine discarded_of_select ht ?_
  cases hs : select bs t .rvalue with
  | none => rfl
  | some b =>
    obtain ⟨k, hk⟩ := Option.isSome_iff_exists.mp hr
    have k0 : k ≠ 0 := by
      rintro rfl
      exact hne (rank_zero hk)
    obtain ⟨l, r, rfl, i, hi, w⟩ := select_iff.mp hs
    have ix : ics t .rvalue x.param = some ⟨k, .none⟩ := by simp [hxp, ics, hk]
    have iy : ics t .rvalue y.param = some ⟨0, .none⟩ := by simp [hyp, ics, rank_self]
    by_cases hbx : b = x
    · subst hbx
      have hyr : y ∈ l ++ r := by
        rw [List.mem_append, List.mem_cons] at hy
        rcases hy with hy | rfl | hy
        · exact List.mem_append.mpr (.inl hy)
        · rw [hxm] at hym
          cases hym
        · exact List.mem_append.mpr (.inr hy)
      have h1 := w y hyr _ iy
      rw [ix] at hi
      cases hi
      have kp : 0 < k := Nat.pos_of_ne_zero k0
      simp [better, argBetter, kp] at h1
    · have hxr : x ∈ l ++ r := by
        rw [List.mem_append, List.mem_cons] at hx
        rcases hx with hx | rfl | hx
        · exact List.mem_append.mpr (.inl hx)
        · exact absurd rfl hbx
        · exact List.mem_append.mpr (.inr hx)
      have h1 := w x hxr _ ix
      have hbc : b.isConst = true := by
        rcases ho b (by simp) with h | h
        · exact h.1
        · exact absurd h hbx
      simp [better, objBetter, hbc, hxm] at h1

/-- C94.  A branch that takes its parameter by reference to modify it cannot be the only one for an alternative: the call is discarded, though the alternative of a variant
given as an lvalue could be passed to it. -/
theorem c94_reference (t : Ty) (types : List Ty) (ht : t ∈ types) (bs : List (Branch V B)) (h : ∀ b ∈ bs, (∃ p, b.param = .ref p) ∨ ics t .rvalue b.param = none) (c : Cat) :
    compile types c bs = .discarded := by
  refine discarded_of_select ht ?_
  cases hs : select bs t .rvalue with
  | none => rfl
  | some b =>
    obtain ⟨l, r, rfl, i, hi, -⟩ := select_iff.mp hs
    rcases h b (by simp) with ⟨p, hp⟩ | hp
    · rw [hp] at hi
      simp [ics] at hi
    · rw [hp] at hi
      cases hi

/-- C94.  A branch that takes `T &&` passes the check for every variant, but only compiles for a variant given as an rvalue; otherwise the call is an error rather than
discarded. -/
theorem c94_rvalue_reference (t : Ty) (f : V → B) :
    compile [t] .rvalue [⟨.rref t, true, true, 0, f⟩] = .compiles ∧ compile [t] .lvalue [⟨.rref t, true, true, 0, f⟩] = .illFormed ∧
    compile [t] .constLvalue [⟨.rref t, true, true, 0, f⟩] = .illFormed := by
  simp [compile, consistent, select, ics, rank_self, blocks, better_irrefl]

/-- C94.  The documentation asks for one return type of all branches; the code only compares the branches that can be chosen. -/
theorem c94_return_types (f g : V → B) (c : Cat) (v : V) :
    compile [.int] c [⟨.value .int, true, true, 0, f⟩, ⟨.value .double, true, true, 1, g⟩] = .compiles ∧
    run [⟨.value .int, true, true, 0, f⟩, ⟨.value .double, true, true, 1, g⟩] c (some (.int, v)) = .ok (f v) := by
  cases c <;> exact ⟨rfl, rfl⟩

section Examples

/-- Branches for the examples: for `int`, for class 1, and generic. -/
def exBranches : List (Branch Nat Nat) := [⟨.value .int, true, true, 0, id⟩, ⟨.value (.cls 1), true, true, 0, (· + 1)⟩, ⟨.generic, true, true, 0, (· + 2)⟩]

theorem exBranches_plain : ∀ x ∈ exBranches, PlainBranch x := by
  intro x hx
  simp only [exBranches, List.mem_cons, List.not_mem_nil, or_false] at hx
  rcases hx with rfl | rfl | rfl
  · exact ⟨rfl, rfl, .inl ⟨_, rfl⟩⟩
  · exact ⟨rfl, rfl, .inl ⟨_, rfl⟩⟩
  · exact ⟨rfl, rfl, .inr rfl⟩

/-- `c94_order`, `c94_total`, `c94_accepted`: three branches, in both orders. -/
example : compile [.int, .cls 1, .bool] .lvalue exBranches = .compiles ∧ compile [.int, .cls 1, .bool] .lvalue exBranches.reverse = .compiles ∧
    (run exBranches .lvalue none).IsThrow := by
  have h := c94_accepted exBranches exBranches_plain (by decide) ⟨⟨.generic, true, true, 0, (· + 2)⟩, by simp [exBranches], rfl⟩ (by simp [exBranches])
    [.int, .cls 1, .bool] .lvalue
  exact ⟨h, ((c94_order _ _ (List.reverse_perm exBranches).symm _ .lvalue none).1.symm.trans h), (c94_total _ _ _ h).2⟩

/-- `c94_exact`, `c94_default`: class 1 goes to its branch, `bool` to the generic one although it converts to `int`. -/
example : run exBranches .constLvalue (some (.cls 1, 5)) = .ok 6 ∧ run exBranches .constLvalue (some (.bool, 5)) = .ok 7 :=
  ⟨c94_exact [⟨.value .int, true, true, 0, id⟩] [⟨.generic, true, true, 0, (· + 2)⟩] ⟨.value (.cls 1), true, true, 0, (· + 1)⟩ exBranches_plain (.cls 1) rfl (by simp) _ _,
   c94_default [⟨.value .int, true, true, 0, id⟩, ⟨.value (.cls 1), true, true, 0, (· + 1)⟩] [] ⟨.generic, true, true, 0, (· + 2)⟩ exBranches_plain rfl (by simp) .bool
    (by simp) _ _⟩

/-- `c94_rejected`: the cases of the unit test: an alternative of class type forgotten, two branches for `char`, a function pointer. -/
example : compile [.char, .cls 1] .rvalue [(⟨.value .char, true, true, 0, id⟩ : Branch Nat Nat)] = .discarded ∧
    compile [.char, .cls 1] .rvalue [(⟨.value .char, true, true, 0, id⟩ : Branch Nat Nat), ⟨.value .char, true, true, 0, id⟩, ⟨.generic, true, true, 0, id⟩] = .discarded ∧
    compile [.char, .cls 1] .rvalue [(⟨.value .char, true, false, 0, id⟩ : Branch Nat Nat), ⟨.generic, true, true, 0, id⟩] = .discarded := by
  have p : ∀ x : Branch Nat Nat, x.isClass = true → x.isConst = true → ((∃ t, x.param = .value t) ∨ x.param = .generic) → PlainBranch x := fun x h1 h2 h3 => ⟨h1, h2, h3⟩
  refine ⟨(c94_rejected _ ?_ _ _).1 1 (by simp) (by simp), (c94_rejected _ ?_ _ _).2.1 .char (by simp) [] [] [⟨.generic, true, true, 0, id⟩] _ _ rfl rfl rfl,
    (c94_rejected _ ?_ _ _).2.2 _ (List.mem_cons_self ..) rfl⟩ <;>
  · intro x hx hc
    simp only [List.mem_cons, List.not_mem_nil, or_false] at hx
    rcases hx with rfl | rfl | rfl <;> exact p _ hc rfl (by simp)

/-- `c94_mutable`: the documentation's `int` branch that binds a `char`. -/
example : compile [.char, .int] .lvalue [(⟨.value .int, false, true, 0, id⟩ : Branch Nat Nat), ⟨.value .char, true, true, 0, id⟩] = .discarded := by
  refine c94_mutable _ _ .char .int (by simp) (by decide) rfl ⟨.value .int, false, true, 0, id⟩ ⟨.value .char, true, true, 0, id⟩ (by simp) rfl rfl (by simp) rfl rfl ?_ _
  intro z hz
  simp only [List.mem_cons, List.not_mem_nil, or_false] at hz
  rcases hz with rfl | rfl
  · exact .inr rfl
  · exact .inl ⟨rfl, .inl ⟨_, rfl⟩⟩

/-- `c94_reference`: `[](int &x)` alone is discarded, though `std::visit` would accept it for an lvalue. -/
example : compile [.int] .lvalue [(⟨.ref .int, true, true, 0, id⟩ : Branch Nat Nat)] = .discarded ∧
    run [(⟨.ref .int, true, true, 0, id⟩ : Branch Nat Nat)] .lvalue (some (.int, 3)) = .ok 3 :=
  ⟨c94_reference .int _ (by simp) _ (by simp) _, rfl⟩

end Examples
end Verif.Props
