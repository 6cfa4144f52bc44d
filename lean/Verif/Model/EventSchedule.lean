import Verif.Model.Outcome
import Mathlib.Data.Multiset.Basic
/-! # resim/time/event_schedule.hh -/
namespace Verif.EventSchedule

/-- `IndexedEvent` (with its base `Event`), resim/time/event_schedule.hh:32-35,63-67.  Times are nanosecond counts; the counter is an
unsigned integer type, whose maximum is a parameter of the model (`MAX_EVENTS`). -/
structure IndexedEvent (P : Type) where
  time : Int
  payload : P
  count : Nat

/-- `CompareEvents::operator()`, resim/time/event_schedule.hh:118-127: `lhs` has lower priority than `rhs`. -/
def compareEvents (lhs rhs : IndexedEvent P) : Bool :=
  if lhs.time > rhs.time then true
  else decide (lhs.time = rhs.time) && decide (lhs.count > rhs.count)

/-- The contract of `std::priority_queue` with comparator `less` (member `event_queue_`, resim/time/event_schedule.hh:76-77): any
container holding a multiset of elements with these operations.  `top` is `none` on an empty queue (undefined behaviour in C++), otherwise
some element that no other element beats; `pop` removes that same element. -/
structure PriorityQueue (α : Type) (less : α → α → Bool) where
  Carrier : Type
  elems : Carrier → Multiset α
  empty : Carrier
  push : α → Carrier → Carrier
  top : Carrier → Option α
  pop : Carrier → Option Carrier
  size : Carrier → Nat
  elems_empty : elems empty = 0
  elems_push : ∀ a q, elems (push a q) = a ::ₘ elems q
  top_none : ∀ q, top q = none ↔ elems q = 0
  top_best : ∀ q a, top q = some a → a ∈ elems q ∧ ∀ b ∈ elems q, less a b = false
  pop_top : ∀ q a, top q = some a → ∃ q', pop q = some q' ∧ elems q = a ::ₘ elems q'
  pop_none : ∀ q, pop q = none ↔ elems q = 0
  size_eq : ∀ q, size q = (elems q).card

/-- The two data members, resim/time/event_schedule.hh:75-77. -/
structure State (Q : PriorityQueue (IndexedEvent P) compareEvents) where
  insertionCount : Nat
  queue : Q.Carrier

variable {P : Type} (Q : PriorityQueue (IndexedEvent P) compareEvents)

/-- Constructor, resim/time/event_schedule.hh:80-82. -/
def init : State Q := ⟨0, Q.empty⟩

/-- `schedule_event`, resim/time/event_schedule.hh:84-92.  `maxEvents` is `MAX_EVENTS` (line 39), the maximum of `Count_t`. -/
def scheduleEvent (maxEvents : Nat) (s : State Q) (time : Int) (payload : P) : Outcome (State Q) := do
  Outcome.reassert (s.insertionCount < maxEvents) "Can't schedule in exhausted EventSchedule."
  pure ⟨s.insertionCount + 1, Q.push ⟨time, payload, s.insertionCount⟩ s.queue⟩

/-- `top_event`, resim/time/event_schedule.hh:94-98: the public part (time, payload) of the top element. -/
def topEvent (s : State Q) : Outcome (Int × P) :=
  match Q.top s.queue with
  | some e => .ok (e.time, e.payload)
  | none => .ub "top() of an empty priority_queue"

/-- `pop_event`, resim/time/event_schedule.hh:100-103. -/
def popEvent (s : State Q) : Outcome (State Q) :=
  match Q.pop s.queue with
  | some q => .ok ⟨s.insertionCount, q⟩
  | none => .ub "pop() of an empty priority_queue"

/-- `size`, resim/time/event_schedule.hh:105-108. -/
def size (s : State Q) : Nat := Q.size s.queue

/-- A call made by a client of the class, resim/time/event_schedule.hh:84-108. -/
inductive Op (P : Type) where
  | schedule (time : Int) (payload : P)
  | top
  | pop
  | size

/-- What a call returns to the client, resim/time/event_schedule.hh:84-108. -/
inductive Ret (P : Type) where
  | unit
  | event (time : Int) (payload : P)
  | count (n : Nat)

/-- One call: the state afterwards and the outcome the client sees (resim/time/event_schedule.hh:84-108).  A throwing call leaves the
state as it is at the point of the throw (line 89, before any update). -/
def step (maxEvents : Nat) (s : State Q) : Op P → State Q × Outcome (Ret P)
  | .schedule t p =>
    match scheduleEvent Q maxEvents s t p with
    | .ok s' => (s', .ok .unit)
    | .throw m => (s, .throw m)
    | .ub w => (s, .ub w)
  | .top =>
    match topEvent Q s with
    | .ok (t, p) => (s, .ok (.event t p))
    | .throw m => (s, .throw m)
    | .ub w => (s, .ub w)
  | .pop =>
    match popEvent Q s with
    | .ok s' => (s', .ok .unit)
    | .throw m => (s, .throw m)
    | .ub w => (s, .ub w)
  | .size => (s, .ok (.count (size Q s)))

end Verif.EventSchedule
