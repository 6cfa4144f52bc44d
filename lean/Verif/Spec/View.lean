import Verif.Model.View
/-! # What a trace of View means, in terms of its events only -/
namespace Verif.Spec.View
open Verif.View
variable {α : Type}

/-- The thread an event belongs to. -/
def tid : Event α → Nat
  | .invoke t _ => t
  | .push t _ => t
  | .send t _ _ => t
  | .cleared t _ => t
  | .ret t _ => t

/-- The events of one thread. -/
def ofThread (t : Nat) (l : List (Event α)) : List (Event α) := l.filter fun e => tid e = t

/-- The objects viewed, in the order in which they were stored. -/
def viewed (l : List (Event α)) : List α := l.filterMap fun
  | .push _ a => some a
  | _ => none

/-- The objects handed to the client, in order, whether it reported success or not. -/
def sent (l : List (Event α)) : List α := l.flatMap fun
  | .send _ b _ => b
  | _ => []

/-- The objects handed to the client in calls it reported as successful. -/
def delivered (l : List (Event α)) : List α := l.flatMap fun
  | .send _ b .okay => b
  | _ => []

/-- The effect of one event on the objects waiting to be sent. -/
def waitStep (w : List α) : Event α → List α
  | .push _ a => w ++ [a]
  | .send _ _ _ => []
  | .cleared _ _ => []
  | _ => w

/-- The objects waiting to be sent after a trace. -/
def waiting (l : List (Event α)) : List α := l.foldl waitStep []

/-- Whether a client is set after a trace: the first one is set at construction. -/
def hasClient (l : List (Event α)) : Bool := l.foldl (fun c e => match e with
  | .cleared _ d => d
  | _ => c) true

/-- `set_client` was not called in this part of a trace. -/
def NoClear (l : List (Event α)) : Prop := ∀ t c, Event.cleared t c ∉ l

/-- Every call of the client in this part of a trace succeeded. -/
def AllOkay (l : List (Event α)) : Prop := ∀ t b r, Event.send t b r ∈ l → r = .okay

/-- A complete call in a trace: thread `t` invokes `op` after `pre`, `mid` happens meanwhile (on all threads), and the call ends, normally or by an
exception. -/
def CallIn (l pre : List (Event α)) (t : Nat) (op : Op α) (mid : List (Event α)) (normally : Bool) (post : List (Event α)) : Prop :=
  l = pre ++ .invoke t op :: (mid ++ .ret t normally :: post) ∧ ∀ b, Event.ret t b ∉ mid

/-- Every batch handed to the client is exactly what was waiting. -/
def BatchesAreWaiting (l : List (Event α)) : Prop := ∀ pre t b r post, l = pre ++ .send t b r :: post → b = waiting pre

/-- The events of one complete call of thread `t`, and whether it returned normally.  A call of `view` or `flush` that reaches the client returns
normally exactly if the client replied OKAY; without a client it throws without sending. -/
inductive Call (t : Nat) : Op α → List (Event α) → Prop
  | viewOkay (a : α) (b : List α) : Call t (.view a) [.invoke t (.view a), .push t a, .send t b .okay, .ret t true]
  | viewFailed (a : α) (b : List α) (r : Reply) (h : r ≠ .okay) :
      Call t (.view a) [.invoke t (.view a), .push t a, .send t b r, .ret t false]
  | viewNoClient (a : α) : Call t (.view a) [.invoke t (.view a), .push t a, .ret t false]
  | flushOkay (b : List α) : Call t .flush [.invoke t .flush, .send t b .okay, .ret t true]
  | flushFailed (b : List α) (r : Reply) (h : r ≠ .okay) : Call t .flush [.invoke t .flush, .send t b r, .ret t false]
  | flushNoClient : Call t .flush [.invoke t .flush, .ret t false]
  | setClient (c : Bool) : Call t (.setClient c) [.invoke t (.setClient c), .cleared t c, .ret t true]

/-- The objects of the `view` calls of a program. -/
def objects (p : List (Op α)) : List α := p.filterMap fun
  | .view a => some a
  | _ => none

end Verif.Spec.View
