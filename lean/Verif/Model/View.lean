import Verif.Model.Outcome
/-! # resim/visualization/view.cc: View under threads

A transition system: any number of threads, each with a program of calls; one step is one step of one thread between two points at which another
thread may run.  The only synchronisation is `primitives_mutex_`, taken by `std::lock_guard`, so it is released when the scope ends by return or by
exception.  A primitive is an abstract object `α`: its identifier, payload, name, file and line are fixed when it is pushed (view.cc:83-89) and are
not changed afterwards; that `UUID::new_uuid()` never repeats is not modelled.  Memory exhaustion is not modelled. -/
namespace Verif.View

/-- The calls a thread can make: `view_object` (resim/visualization/view.cc:74-94, reached by `operator<<` at lines 48-54, by `ViewObject`'s named
constructor at 120-131 and its `operator<<` at 135-138), `flush` (96-104) and `set_client` (106-110) with a client or null. -/
inductive Op (α : Type) where
  | view (a : α)
  | flush
  | setClient (present : Bool)
  deriving DecidableEq, Repr

/-- How the client's `send_view_update` ends (called at resim/visualization/view.cc:99-101): OKAY, a bad status, or an exception. -/
inductive Reply where
  | okay
  | bad
  | throws
  deriving DecidableEq, Repr

/-- What can be observed: a call starts, an object is stored, the client is called with a batch and replies, the client is replaced, a call returns
(`true`) or throws (`false`).  Observation points are resim/visualization/view.cc:74,83,99,106-109 and the ends of the calls. -/
inductive Event (α : Type) where
  | invoke (t : Nat) (op : Op α)
  | push (t : Nat) (a : α)
  | send (t : Nat) (batch : List α) (reply : Reply)
  | cleared (t : Nat) (present : Bool)
  | ret (t : Nat) (normally : Bool)
  deriving DecidableEq, Repr

/-- Where a thread is: between calls, or before the given step of resim/visualization/view.cc.  `viewLock` 77, `viewPush` 83, `viewUnlock` 90,
`flushLock` 97, `flushCheck` 98, `flushSend` 99, `flushClear` 103, `flushUnlock` 104, `flushThrow` the unlock when leaving by exception from 98, 99 or
102, `setLock` 107, `setClear` 108-109, `setUnlock` 110. -/
inductive Pc (α : Type) where
  | idle
  | viewLock (a : α)
  | viewPush (a : α)
  | viewUnlock
  | flushLock
  | flushCheck
  | flushSend
  | flushClear
  | flushUnlock
  | flushThrow
  | setLock (present : Bool)
  | setClear (present : Bool)
  | setUnlock
  deriving DecidableEq, Repr

/-- A thread: position and remaining calls.  After an exception the caller may go on with its next call, or make none
(resim/visualization/view.cc:46-110). -/
structure Thread (α : Type) where
  pc : Pc α
  todo : List (Op α)

/-- `View`'s members `primitives_`, `primitives_mutex_` (its holder) and whether `client_` is non-null, resim/visualization/view.hh:142-145, with the
threads and the trace. -/
structure Sys (α : Type) where
  lock : Option Nat
  prims : List α
  client : Bool
  threads : Nat → Thread α
  log : List (Event α)

variable {α : Type}

/-- The constructor sets a client, resim/visualization/view.cc:34; thread `t` will run `prog t`. -/
def init (prog : Nat → List (Op α)) : Sys α := ⟨none, [], true, fun t => ⟨.idle, prog t⟩, []⟩

/-- The first position of a call, resim/visualization/view.cc:74,96,106. -/
def entry : Op α → Pc α
  | .view a => .viewLock a
  | .flush => .flushLock
  | .setClient c => .setLock c

/-- Thread `t` goes to position `pc`: the sequencing of resim/visualization/view.cc:74-110, no effect of its own. -/
def Sys.goto (s : Sys α) (t : Nat) (pc : Pc α) : Sys α :=
  { s with threads := fun u => if u = t then { s.threads t with pc := pc } else s.threads u }

/-- `std::lock_guard` taken by `t`, resim/visualization/view.cc:77,97,107: possible only if the mutex is free. -/
def Sys.acquire (s : Sys α) (t : Nat) (pc : Pc α) : Option (Sys α) :=
  match s.lock with
  | none => some (({ s with lock := some t } : Sys α).goto t pc)
  | some _ => none

/-- One step of thread `t`; `reply` is what the client answers if this step calls it.  `none`: the thread cannot step (blocked or finished).
resim/visualization/view.cc:74-110, line by line as listed at `Pc`. -/
def step (s : Sys α) (t : Nat) (reply : Reply) : Option (Sys α) :=
  match (s.threads t).pc with
  | .idle =>
    match (s.threads t).todo with
    | [] => none
    | op :: rest =>
      some { s with threads := fun u => if u = t then ⟨entry op, rest⟩ else s.threads u, log := s.log ++ [.invoke t op] }
  | .viewLock a => s.acquire t (.viewPush a)
  | .viewPush a => some (({ s with prims := s.prims ++ [a], log := s.log ++ [.push t a] } : Sys α).goto t .viewUnlock)
  | .viewUnlock => some (({ s with lock := none } : Sys α).goto t .flushLock)
  | .flushLock => s.acquire t .flushCheck
  | .flushCheck => some (s.goto t (if s.client then .flushSend else .flushThrow))
  | .flushSend =>
    some (({ s with prims := [], log := s.log ++ [.send t s.prims reply] } : Sys α).goto t
      (match reply with
        | .okay => .flushClear
        | .bad => .flushThrow
        | .throws => .flushThrow))
  | .flushClear => some (({ s with prims := [] } : Sys α).goto t .flushUnlock)
  | .flushUnlock => some (({ s with lock := none, log := s.log ++ [.ret t true] } : Sys α).goto t .idle)
  | .flushThrow => some (({ s with lock := none, log := s.log ++ [.ret t false] } : Sys α).goto t .idle)
  | .setLock c => s.acquire t (.setClear c)
  | .setClear c => some (({ s with prims := [], client := c, log := s.log ++ [.cleared t c] } : Sys α).goto t .setUnlock)
  | .setUnlock => some (({ s with lock := none, log := s.log ++ [.ret t true] } : Sys α).goto t .idle)

/-- A schedule: which thread runs next, and the client's answer in case it is called.  A choice that cannot step is skipped (the scheduler does not
run blocked threads; `std::mutex`, resim/visualization/view.cc:77). -/
def run (s : Sys α) : List (Nat × Reply) → Sys α
  | [] => s
  | (t, r) :: rest => run ((step s t r).getD s) rest

end Verif.View
