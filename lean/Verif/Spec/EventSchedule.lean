import Verif.Model.EventSchedule
/-! # What a user expects of an event schedule: a list kept in time order, first in first out within a time

Only the client-visible types `Op` and `Ret` are shared with the model. -/
namespace Verif.Spec.Schedule
open Verif.EventSchedule (Op Ret)

/-- A pending event: time and payload. -/
abbrev Event (P : Type) := Int × P

/-- Insert behind every event that is not later. -/
def insertStable (e : Event P) : List (Event P) → List (Event P)
  | [] => [e]
  | x :: xs => if x.1 ≤ e.1 then x :: insertStable e xs else e :: x :: xs

/-- Abstract state: pending events in delivery order and how many were ever accepted. -/
structure State (P : Type) where
  accepted : Nat
  pending : List (Event P)

/-- One call on the abstract schedule that accepts at most `limit` events in its life. -/
def step (limit : Nat) (s : State P) : Op P → State P × Outcome (Ret P)
  | .schedule t p =>
    if s.accepted < limit then (⟨s.accepted + 1, insertStable (t, p) s.pending⟩, .ok .unit)
    else (s, .throw "Can't schedule in exhausted EventSchedule.")
  | .top =>
    match s.pending with
    | [] => (s, .ub "top() of an empty priority_queue")
    | (t, p) :: _ => (s, .ok (.event t p))
  | .pop =>
    match s.pending with
    | [] => (s, .ub "pop() of an empty priority_queue")
    | _ :: rest => ({ s with pending := rest }, .ok .unit)
  | .size => (s, .ok (.count s.pending.length))

/-- Run a history of calls, stopping at undefined behaviour: the outcomes seen by the client. -/
def run {S : Type} {P : Type} (stepf : S → Op P → S × Outcome (Ret P)) : S → List (Op P) → List (Outcome (Ret P))
  | _, [] => []
  | s, op :: ops =>
    match stepf s op with
    | (_, .ub w) => [.ub w]
    | (s', o) => o :: run stepf s' ops

/-- The state reached by a history (calls with undefined behaviour leave it as is; used only for histories without them). -/
def final {S : Type} {P : Type} (stepf : S → Op P → S × Outcome (Ret P)) : S → List (Op P) → S
  | s, [] => s
  | s, op :: ops => final stepf (stepf s op).1 ops

/-- The events accepted by the schedule over a history, in order. -/
def accepted {S : Type} {P : Type} (stepf : S → Op P → S × Outcome (Ret P)) : S → List (Op P) → List (Event P)
  | _, [] => []
  | s, .schedule t p :: ops =>
    match (stepf s (.schedule t p)).2 with
    | .ok _ => (t, p) :: accepted stepf (stepf s (.schedule t p)).1 ops
    | _ => accepted stepf (stepf s (.schedule t p)).1 ops
  | s, op :: ops => accepted stepf (stepf s op).1 ops

/-- What a look at the top shows, if anything. -/
def peek {S : Type} {P : Type} (stepf : S → Op P → S × Outcome (Ret P)) (s : S) : List (Event P) :=
  match (stepf s .top).2 with
  | .ok (.event t p) => [(t, p)]
  | _ => []

/-- The events removed over a history: what a client looking at the top just before each pop sees. -/
def delivered {S : Type} {P : Type} (stepf : S → Op P → S × Outcome (Ret P)) : S → List (Op P) → List (Event P)
  | _, [] => []
  | s, .pop :: ops => peek stepf s ++ delivered stepf (stepf s .pop).1 ops
  | s, op :: ops => delivered stepf (stepf s op).1 ops

/-- What a client sees that looks at the top and pops, `n` times. -/
def drain {S : Type} {P : Type} (stepf : S → Op P → S × Outcome (Ret P)) (s : S) (n : Nat) : List (Event P) :=
  delivered stepf s (List.replicate n .pop)

/-- The number `size` reports. -/
def reportedSize {S : Type} {P : Type} (stepf : S → Op P → S × Outcome (Ret P)) (s : S) : Nat :=
  match (stepf s .size).2 with
  | .ok (.count n) => n
  | _ => 0

/-- The schedule calls of a history. -/
def scheduleCalls {P : Type} : List (Op P) → Nat
  | [] => 0
  | .schedule _ _ :: ops => scheduleCalls ops + 1
  | _ :: ops => scheduleCalls ops

/-- `out` is a stable rearrangement of `inp` by time: in time order, and the events of each time appear in their original order. -/
structure StableByTime (inp out : List (Event P)) : Prop where
  sorted : out.Pairwise (fun a b => a.1 ≤ b.1)
  stable : ∀ t : Int, out.filter (fun e => e.1 = t) = inp.filter (fun e => e.1 = t)

end Verif.Spec.Schedule
