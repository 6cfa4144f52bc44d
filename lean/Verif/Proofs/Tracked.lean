import Verif.Spec.Tracked
import Mathlib.Tactic.Common
/-! # Histories of tracked objects -/
namespace Verif.Tracked
open Spec

theorem length_construct {α : Type} {objs objs' : List (Obj α)} {src : Nat} {c : Cat} (h : construct objs src c = some objs') :
    objs'.length = objs.length + 1 ∧ src < objs.length := by
  unfold construct at h
  rcases he : objs[src]? with _ | o
  · simp [he] at h
  · rw [he] at h
    have := List.getElem?_eq_some_iff.mp he
    simp only [Option.some.injEq] at h
    subst h
    split_ifs <;> simp [this.1]

theorem length_run {α : Type} {h : List (TrackOp α)} {objs : List (Obj α)} (hr : run h = some objs) : objs.length = born h := by
  induction h generalizing objs with
  | nil => cases hr; rfl
  | cons op h ih =>
    obtain ⟨o, h1, h2⟩ := Option.bind_eq_some_iff.mp hr
    have := ih h1
    cases op with
    | create a => cases h2; simp [born, this]
    | construct src c => rw [(length_construct h2).1, this, born]; simp
    | assign dst src c =>
      simp only [step, assign] at h2
      rcases hd : o[dst]? with _ | x <;> rcases hs : o[src]? with _ | y <;> simp only [hd, hs] at h2 <;> try cases h2
      rw [born, ← this]
      split_ifs <;> simp

theorem emptied_born {α : Type} {h : List (TrackOp α)} {i : Nat} (he : Emptied h i) : i < born h := by
  induction he with
  | byConstruct h src hs => simp only [born]; omega
  | byAssign h dst src hs _ => simpa only [born] using hs
  | created h b i _ ih => simp only [born]; omega
  | fromConstruct h src c _ ih => simp only [born]; omega
  | constructed h src c i _ ih => simp only [born]; omega
  | fromAssign h dst src c _ hd _ => simpa only [born] using hd
  | assigned h dst src c i _ _ ih => simpa only [born] using ih

theorem came_born {α : Type} {h : List (TrackOp α)} {i : Nat} {a : α} {l : List Transfer} (he : Came h i a l) : i < born h := by
  induction he with
  | create h a => simp only [born]; omega
  | construct h src c a l _ _ => simp only [born]; omega
  | assign h dst src c a l _ hd _ => simpa only [born] using hd
  | created h b i a l _ ih => simp only [born]; omega
  | constructed h src c i a l _ ih => simp only [born]; omega
  | assigned h dst src c i a l _ _ ih => simpa only [born] using ih

theorem getElem?_construct {α : Type} {objs objs' : List (Obj α)} {src : Nat} {c : Cat} (h : construct objs src c = some objs') :
    ∃ o, objs[src]? = some o ∧ ∀ i, objs'[i]? =
      if i = objs.length then some (if c.bindsRref then o.moved else o.copied) else if i = src ∧ c.bindsRref then some o.left else objs[i]? := by
  have hl := (length_construct h).2
  unfold construct at h
  rw [List.getElem?_eq_getElem hl] at h
  refine ⟨objs[src], List.getElem?_eq_getElem hl, fun i => ?_⟩
  have h := (Option.some.inj h).symm
  subst h
  rcases hc : c.bindsRref
  · simp only [Bool.false_eq_true, if_false, and_false]
    rw [List.getElem?_append]
    split_ifs with h1 h2 h3
    · omega
    · rfl
    · subst h3; simp
    · rw [List.getElem?_eq_none (by simp; omega), List.getElem?_eq_none (by omega)]
  · simp only [if_true, and_true]
    rw [List.getElem?_append, List.length_set]
    split_ifs with h1 h2 h3 h4 h5
    · omega
    · subst h3; rw [List.getElem?_set_self hl]
    · rw [List.getElem?_set_ne (by omega)]
    · subst h4; simp
    · omega
    · rw [List.getElem?_eq_none (by simp; omega), List.getElem?_eq_none (by omega)]

theorem getElem?_assign {α : Type} {objs objs' : List (Obj α)} {dst src : Nat} {c : Cat} (h : assign objs dst src c = some objs') :
    dst < objs.length ∧ ∃ o, objs[src]? = some o ∧ ∀ i, objs'[i]? =
      if i = dst then some (if c.bindsRref then o.moved else o.copied) else if i = src ∧ c.bindsRref then some o.left else objs[i]? := by
  unfold assign at h
  rcases hd : objs[dst]? with _ | x
  · simp [hd] at h
  rcases hs : objs[src]? with _ | o
  · simp [hd, hs] at h
  have hd' := (List.getElem?_eq_some_iff.mp hd).1
  have hs' := (List.getElem?_eq_some_iff.mp hs).1
  simp only [hd, hs] at h
  refine ⟨hd', o, rfl, fun i => ?_⟩
  have h := (Option.some.inj h).symm
  subst h
  rcases hc : c.bindsRref
  · simp only [Bool.false_eq_true, if_false, and_false]
    split_ifs with h1
    · subst h1; rw [List.getElem?_set_self hd']
    · rw [List.getElem?_set_ne (by omega)]
  · simp only [if_true, and_true]
    split_ifs with h1 h2
    · subst h1; rw [List.getElem?_set_self (by simpa using hd')]
    · subst h2; rw [List.getElem?_set_ne (by omega), List.getElem?_set_self hs']
    · rw [List.getElem?_set_ne (by omega), List.getElem?_set_ne (by omega)]

theorem bindsRref_iff {c : Cat} : c.bindsRref = true ↔ c = .rvalue := by cases c <;> simp [Cat.bindsRref]

theorem count_transfer (l : List Transfer) (c : Cat) {α : Type} (o : Obj α) (h1 : o.moves = l.count .move) (h2 : o.copies = l.count .copy) :
    (if c.bindsRref then o.moved else o.copied).moves = (l ++ [transferOf c]).count .move ∧
    (if c.bindsRref then o.moved else o.copied).copies = (l ++ [transferOf c]).count .copy ∧
    (if c.bindsRref then o.moved else o.copied).content = o.content := by
  cases c <;> simp [Cat.bindsRref, transferOf, Obj.moved, Obj.copied, h1, h2]

theorem came_exists {α : Type} {h : List (TrackOp α)} {objs : List (Obj α)} (hr : run h = some objs) (i : Nat) (hi : i < born h) : ∃ a l, Came h i a l := by
  induction h generalizing objs i with
  | nil => simp [born] at hi
  | cons op h ih =>
    obtain ⟨o, h1, h2⟩ := Option.bind_eq_some_iff.mp hr
    have hl := length_run h1
    cases op with
    | create b =>
      by_cases e : i = born h
      · subst e; exact ⟨_, _, .create h b⟩
      · obtain ⟨a, l, k⟩ := ih h1 i (by simp only [born] at hi; omega)
        exact ⟨a, l, .created h b i a l k⟩
    | construct src c =>
      by_cases e : i = born h
      · subst e
        obtain ⟨a, l, k⟩ := ih h1 src (by rw [← hl]; exact (length_construct h2).2)
        exact ⟨_, _, .construct h src c a l k⟩
      · obtain ⟨a, l, k⟩ := ih h1 i (by simp only [born] at hi; omega)
        exact ⟨a, l, .constructed h src c i a l k⟩
    | assign dst src c =>
      obtain ⟨d, x, hx, -⟩ := getElem?_assign h2
      by_cases e : i = dst
      · subst e
        obtain ⟨a, l, k⟩ := ih h1 src (by rw [← hl]; exact (List.getElem?_eq_some_iff.mp hx).1)
        exact ⟨_, _, .assign h i src c a l k hi⟩
      · obtain ⟨a, l, k⟩ := ih h1 i hi
        exact ⟨a, l, .assigned h dst src c i a l k e⟩

theorem counts_of_came {α : Type} {h : List (TrackOp α)} {i : Nat} {a : α} {l : List Transfer} (hc : Came h i a l) {objs : List (Obj α)}
    (hr : run h = some objs) : ∃ o, objs[i]? = some o ∧ o.moves = l.count .move ∧ o.copies = l.count .copy ∧
      (o.content = none ↔ Emptied h i) ∧ (¬ Emptied h i → o.content = some a) := by
  induction hc generalizing objs with
  | create h a =>
    obtain ⟨o, h1, h2⟩ := Option.bind_eq_some_iff.mp hr
    cases h2
    have ne : ¬ Emptied (.create a :: h) (born h) := by
      intro e
      cases e with
      | created _ _ _ e => exact absurd (emptied_born e) (by omega)
    refine ⟨.create a, by rw [← length_run h1]; simp, rfl, rfl, ⟨fun e => by simp [Obj.create] at e, fun e => absurd e ne⟩, fun _ => rfl⟩
  | construct h src c a l _ ih =>
    obtain ⟨o, h1, h2⟩ := Option.bind_eq_some_iff.mp hr
    obtain ⟨x, x0, x1, x2, x3, x4⟩ := ih h1
    obtain ⟨y, y0, y1⟩ := getElem?_construct h2
    obtain rfl := Option.some.inj (y0.symm.trans x0)
    obtain ⟨k1, k2, k3⟩ := count_transfer l c y x1 x2
    have eq : Emptied (.construct src c :: h) (born h) ↔ Emptied h src := by
      constructor
      · intro e
        generalize hb : born h = b at e
        cases e with
        | byConstruct _ _ hs => omega
        | fromConstruct _ _ _ e => exact e
        | constructed _ _ _ _ e => exact absurd (emptied_born e) (by omega)
      · exact .fromConstruct h src c
    refine ⟨_, by rw [y1, length_run h1, if_pos rfl], k1, k2, ?_, ?_⟩
    · rw [k3, eq]; exact x3
    · rw [k3, eq]; exact x4
  | assign h dst src c a l _ hd ih =>
    obtain ⟨o, h1, h2⟩ := Option.bind_eq_some_iff.mp hr
    obtain ⟨x, x0, x1, x2, x3, x4⟩ := ih h1
    obtain ⟨-, y, y0, y1⟩ := getElem?_assign h2
    obtain rfl := Option.some.inj (y0.symm.trans x0)
    obtain ⟨k1, k2, k3⟩ := count_transfer l c y x1 x2
    have eq : Emptied (.assign dst src c :: h) dst ↔ Emptied h src := by
      constructor
      · intro e
        cases e with
        | byAssign _ _ _ hs hn => exact absurd rfl hn
        | fromAssign _ _ _ _ e => exact e
        | assigned _ _ _ _ _ e hn => exact absurd rfl hn
      · exact fun e => .fromAssign h dst src c e hd
    refine ⟨_, by rw [y1, if_pos rfl], k1, k2, ?_, ?_⟩
    · rw [k3, eq]; exact x3
    · rw [k3, eq]; exact x4
  | created h b i a l hc ih =>
    obtain ⟨o, h1, h2⟩ := Option.bind_eq_some_iff.mp hr
    obtain ⟨x, x0, x1, x2, x3, x4⟩ := ih h1
    cases h2
    have hb := came_born hc
    have eq : Emptied (.create b :: h) i ↔ Emptied h i := ⟨fun e => by cases e with | created _ _ _ e => exact e, .created h b i⟩
    refine ⟨x, by rw [List.getElem?_append_left (by rw [length_run h1]; exact hb)]; exact x0, x1, x2, ?_, ?_⟩
    · rw [eq]; exact x3
    · rw [eq]; exact x4
  | constructed h src c i a l hc ih =>
    obtain ⟨o, h1, h2⟩ := Option.bind_eq_some_iff.mp hr
    obtain ⟨x, x0, x1, x2, x3, x4⟩ := ih h1
    obtain ⟨y, y0, y1⟩ := getElem?_construct h2
    have hb := came_born hc
    have hs : src < born h := by rw [← length_run h1]; exact (length_construct h2).2
    rw [length_run h1] at y1
    by_cases hm : i = src ∧ c.bindsRref = true
    · obtain ⟨rfl, hm⟩ := hm
      obtain rfl := Option.some.inj (y0.symm.trans x0)
      have e : Emptied (.construct i c :: h) i := by rw [bindsRref_iff.mp hm]; exact .byConstruct h i hs
      refine ⟨y.left, by rw [y1, if_neg (by omega), if_pos ⟨rfl, hm⟩], x1, x2, ⟨fun _ => e, fun _ => rfl⟩, fun ne => absurd e ne⟩
    · have eq : Emptied (.construct src c :: h) i ↔ Emptied h i := by
        constructor
        · intro e
          cases e with
          | byConstruct _ _ _ => exact absurd ⟨rfl, rfl⟩ hm
          | fromConstruct _ _ _ _ => exact absurd hb (by omega)
          | constructed _ _ _ _ e => exact e
        · exact .constructed h src c i
      refine ⟨x, by rw [y1, if_neg (by omega), if_neg hm]; exact x0, x1, x2, ?_, ?_⟩
      · rw [eq]; exact x3
      · rw [eq]; exact x4
  | assigned h dst src c i a l hc hn ih =>
    obtain ⟨o, h1, h2⟩ := Option.bind_eq_some_iff.mp hr
    obtain ⟨x, x0, x1, x2, x3, x4⟩ := ih h1
    obtain ⟨hd, y, y0, y1⟩ := getElem?_assign h2
    have hs : src < born h := by rw [← length_run h1]; exact (List.getElem?_eq_some_iff.mp y0).1
    by_cases hm : i = src ∧ c.bindsRref = true
    · obtain ⟨rfl, hm⟩ := hm
      obtain rfl := Option.some.inj (y0.symm.trans x0)
      have e : Emptied (.assign dst i c :: h) i := by rw [bindsRref_iff.mp hm]; exact .byAssign h dst i hs hn
      refine ⟨y.left, by rw [y1, if_neg hn, if_pos ⟨rfl, hm⟩], x1, x2, ⟨fun _ => e, fun _ => rfl⟩, fun ne => absurd e ne⟩
    · have eq : Emptied (.assign dst src c :: h) i ↔ Emptied h i := by
        constructor
        · intro e
          cases e with
          | byAssign _ _ _ _ _ => exact absurd ⟨rfl, rfl⟩ hm
          | fromAssign _ _ _ _ _ _ => exact absurd rfl hn
          | assigned _ _ _ _ _ e _ => exact e
        · exact fun e => .assigned h dst src c i e hn
      refine ⟨x, by rw [y1, if_neg hn, if_neg hm]; exact x0, x1, x2, ?_, ?_⟩
      · rw [eq]; exact x3
      · rw [eq]; exact x4

end Verif.Tracked
