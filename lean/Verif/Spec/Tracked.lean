import Verif.Model.Tracked
/-! # Where the value of an object came from -/
namespace Verif.Spec
open Tracked

/-- How many objects have been constructed; histories have the newest operation first. -/
def born {α : Type} : List (TrackOp α) → Nat
  | [] => 0
  | .assign .. :: h => born h
  | _ :: h => born h + 1

/-- A transfer of a value between objects: by copy or by move. -/
inductive Transfer
  | copy | move
  deriving DecidableEq, Repr

/-- A non-const rvalue is moved from, anything else is copied. -/
def transferOf : Cat → Transfer
  | .rvalue => .move
  | _ => .copy

/-- After history `h`, the value of object `i` is the one created with `a`, handed on by the transfers in `l`, oldest first. -/
inductive Came {α : Type} : List (TrackOp α) → Nat → α → List Transfer → Prop
  | create (h : List (TrackOp α)) (a : α) : Came (.create a :: h) (born h) a []
  | construct (h : List (TrackOp α)) (src : Nat) (c : Cat) (a : α) (l : List Transfer) :
      Came h src a l → Came (.construct src c :: h) (born h) a (l ++ [transferOf c])
  | assign (h : List (TrackOp α)) (dst src : Nat) (c : Cat) (a : α) (l : List Transfer) :
      Came h src a l → dst < born h → Came (.assign dst src c :: h) dst a (l ++ [transferOf c])
  | created (h : List (TrackOp α)) (b : α) (i : Nat) (a : α) (l : List Transfer) : Came h i a l → Came (.create b :: h) i a l
  | constructed (h : List (TrackOp α)) (src : Nat) (c : Cat) (i : Nat) (a : α) (l : List Transfer) : Came h i a l → Came (.construct src c :: h) i a l
  | assigned (h : List (TrackOp α)) (dst src : Nat) (c : Cat) (i : Nat) (a : α) (l : List Transfer) :
      Came h i a l → i ≠ dst → Came (.assign dst src c :: h) i a l

/-- Since it got its value, object `i` has been moved from. -/
inductive Emptied {α : Type} : List (TrackOp α) → Nat → Prop
  | byConstruct (h : List (TrackOp α)) (src : Nat) : src < born h → Emptied (.construct src .rvalue :: h) src
  | byAssign (h : List (TrackOp α)) (dst src : Nat) : src < born h → src ≠ dst → Emptied (.assign dst src .rvalue :: h) src
  | created (h : List (TrackOp α)) (b : α) (i : Nat) : Emptied h i → Emptied (.create b :: h) i
  | fromConstruct (h : List (TrackOp α)) (src : Nat) (c : Cat) : Emptied h src → Emptied (.construct src c :: h) (born h)
  | constructed (h : List (TrackOp α)) (src : Nat) (c : Cat) (i : Nat) : Emptied h i → Emptied (.construct src c :: h) i
  | fromAssign (h : List (TrackOp α)) (dst src : Nat) (c : Cat) : Emptied h src → dst < born h → Emptied (.assign dst src c :: h) dst
  | assigned (h : List (TrackOp α)) (dst src : Nat) (c : Cat) (i : Nat) : Emptied h i → i ≠ dst → Emptied (.assign dst src c :: h) i

end Verif.Spec
