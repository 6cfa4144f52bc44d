import Verif.Proofs.Tracked
/-! # C106: the tracker counts the copies and moves of the value that an object has -/
namespace Verif.Props
open Verif.Spec Tracked

/-- C106.  The counters of a tracker are the numbers of moves and copies by which its value came to it from where the value was created.  Its content is what
was created there, and is lost exactly if one of the objects on the way was moved from before it handed the value on, or this one since. -/
theorem c106_counts {α : Type} (h : List (TrackOp α)) (objs : List (Obj α)) (hr : run h = some objs) (i : Nat) :
    (i < objs.length ↔ ∃ a l, Came h i a l) ∧
    ∀ a l, Came h i a l → ∃ o, objs[i]? = some o ∧ o.moves = l.count .move ∧ o.copies = l.count .copy ∧
      (o.content = none ↔ Emptied h i) ∧ (¬ Emptied h i → o.content = some a) :=
  ⟨by rw [length_run hr]; exact ⟨came_exists hr i, fun ⟨_, _, k⟩ => came_born k⟩, fun _ _ k => counts_of_came k hr⟩

/-- C106.  An object that has been moved from goes on counting where its value came from: moving from it, or copying it, does not change its counters. -/
theorem c106_source_keeps {α : Type} (objs objs' : List (Obj α)) (src : Nat) (c : Cat) (o : Obj α) (ho : objs[src]? = some o)
    (h : construct objs src c = some objs' ∨ ∃ dst, dst ≠ src ∧ assign objs dst src c = some objs') :
    ∃ o', objs'[src]? = some o' ∧ o'.moves = o.moves ∧ o'.copies = o.copies ∧ (o'.content = o.content ∨ c = .rvalue) := by
  have key : ∀ n, src ≠ n → (∃ x, objs[src]? = some x ∧ ∀ i, objs'[i]? =
      if i = n then some (if c.bindsRref then x.moved else x.copied) else if i = src ∧ c.bindsRref then some x.left else objs[i]?) → 
      ∃ o', objs'[src]? = some o' ∧ o'.moves = o.moves ∧ o'.copies = o.copies ∧ (o'.content = o.content ∨ c = .rvalue) := by
    rintro n hn ⟨x, hx, hi⟩
    obtain rfl := Option.some.inj (hx.symm.trans ho)
    have e := hi src
    rw [if_neg hn] at e
    by_cases hc : c.bindsRref = true
    · rw [if_pos ⟨rfl, hc⟩] at e
      exact ⟨_, e, rfl, rfl, .inr (bindsRref_iff.mp hc)⟩
    · rw [if_neg (fun k => hc k.2)] at e
      exact ⟨x, e.trans ho, rfl, rfl, .inl rfl⟩
  rcases h with h | ⟨dst, hd, h⟩
  · exact key _ (Nat.ne_of_lt (length_construct h).2) (getElem?_construct h)
  · exact key _ hd.symm (getElem?_assign h).2

/-- An object created with 7, copied, the copy moved into a third, the first assigned back from the third as a copy. -/
example : run [.assign 0 2 .lvalue, .construct 1 .rvalue, .construct 0 .lvalue, .create 7] =
    some [⟨1, 2, some 7⟩, ⟨0, 1, none⟩, ⟨1, 1, some 7⟩] ∧
    Came [.assign 0 2 .lvalue, .construct 1 .rvalue, .construct 0 .lvalue, .create 7] 0 7 [.copy, .move, .copy] ∧
    Emptied ([.assign 0 2 .lvalue, .construct 1 .rvalue, .construct 0 .lvalue, .create 7] : List (TrackOp Nat)) 1 := by
  refine ⟨by decide, ?_, ?_⟩
  · exact .assign _ 0 2 .lvalue 7 [.copy, .move] (.construct _ 1 .rvalue 7 [.copy] (.construct _ 0 .lvalue 7 [] (.create [] 7))) (by decide)
  · exact .assigned _ 0 2 .lvalue 1 (.byConstruct _ 1 (by decide)) (by decide)

/-- The hypotheses of `c106_source_keeps`. -/
example : ∃ objs' : List (Obj Nat), construct [⟨1, 2, some 7⟩] 0 .rvalue = some objs' ∧ objs' = [⟨1, 2, none⟩, ⟨2, 2, some 7⟩] := ⟨_, rfl, rfl⟩

end Verif.Props
