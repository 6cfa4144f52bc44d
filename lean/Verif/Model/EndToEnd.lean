import Verif.Model.View
import Verif.Model.ViewClient
/-! # View with its own client: resim/visualization/view.cc and resim/visualization/client/view_client.cc together

The system of `Model/View` where the client is the one that `View` constructs for itself (view.cc:34), as modelled in `Model/ViewClient`.  The server and the
authentication client are still inputs: each step of a schedule carries the two exchanges (opening a session, posting the update) that happen if the step
sends. -/
namespace Verif.EndToEnd
open Verif

variable {α β : Type}

/-- How a call of `send_view_update` looks to `flush`, resim/visualization/view.cc:99-102.  Undefined behaviour in packing is counted as an exception: the
update is not acknowledged in either case. -/
def replyOf : Outcome Status → View.Reply
  | .ok .okay => .okay
  | .ok (.err ..) => .bad
  | .throw _ => .throws
  | .ub _ => .throws

/-- `View` with the client behind `client_` (resim/visualization/view.hh:142-145), and what the client did in each of its calls so far, in order. -/
structure Net (α β : Type) where
  view : View.Sys α
  client : ViewClient.Client
  http : List (List (ViewClient.Event β))

/-- The calls a thread can make here: those of `View.Op` but for `set_client`, which puts another client in place of this one.
resim/visualization/view.cc:74-110. -/
inductive Call (α : Type) where
  | view (a : α)
  | flush
  deriving DecidableEq, Repr

/-- A call as an operation of `Model/View`, resim/visualization/view.cc:74-110. -/
def Call.op : Call α → View.Op α
  | .view a => .view a
  | .flush => .flush

/-- The constructor, resim/visualization/view.cc:34, with any base address; thread `t` will make the calls `prog t`. -/
def init (base : String) (prog : Nat → List (Call α)) : Net α β :=
  ⟨View.init fun t => (prog t).map Call.op, ViewClient.Client.new base, []⟩

/-- One step of thread `t`.  The step at resim/visualization/view.cc:99 runs `send_view_update` (view_client.cc:41-121) with the objects that are waiting, and goes
on with its result; the others are those of `View.step`.  `pack` is packing and serializing (view_client.cc:73-76). -/
def step (pack : List α → Outcome β) (s : Net α β) (t : Nat) (x y : ViewClient.Exchange) : Option (Net α β) :=
  match (s.view.threads t).pc with
  | .flushSend =>
    let r := ViewClient.send pack s.client s.view.prims x y
    (View.step s.view t (replyOf r.1)).map fun v => ⟨v, r.2.1, s.http ++ [r.2.2]⟩
  | _ => (View.step s.view t .okay).map fun v => { s with view := v }

/-- A schedule, as in `View.run`: resim/visualization/view.cc:74-110. -/
def run (pack : List α → Outcome β) (s : Net α β) : List (Nat × ViewClient.Exchange × ViewClient.Exchange) → Net α β
  | [] => s
  | (t, x, y) :: rest => run pack ((step pack s t x y).getD s) rest

end Verif.EndToEnd
