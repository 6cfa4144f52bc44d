import Verif.Model.Status
/-! # resim/examples/assert_and_status.cc, the companion of docs/resim/assert/index.md -/
namespace Verif.StatusExample
open Verif.StatusChain

/-- `Arg`, resim/examples/assert_and_status.cc:25-28. -/
inductive Arg where
  | good
  | bad
  deriving DecidableEq, Repr

/-- `my_subroutine`, resim/examples/assert_and_status.cc:113-119. -/
def mySubroutine (arg : Arg) : Status :=
  if arg = .bad then Status.makeAtLine "resim/examples/assert_and_status.cc" 116 "Oh no! We failed!" else .okay

/-- `my_wrapping_subroutine`, resim/examples/assert_and_status.cc:121-129; the state is what has been printed. -/
def myWrappingSubroutine (arg : Arg) (out : List Int) : Outcome (List Int × Status) :=
  exec (Chain.check (V := Int) (fun s => (s, mySubroutine arg)) .done) out

/-- `my_returning_subroutine`, resim/examples/assert_and_status.cc:131-136. -/
def myReturningSubroutine (arg : Arg) : Outcome (StatusValue Int) :=
  if arg = .bad then StatusValue.ofStatus (Status.makeAtLine "resim/examples/assert_and_status.cc" 133 "Oh no! We failed!")
  else .ok (StatusValue.ofValue 3)

/-- How a value is taken from a status value in these functions: `RETURN_OR_ASSIGN(f(arg))` as written at
resim/examples/assert_and_status.cc:139,144 (`direct`), or `auto x = f(arg); RETURN_OR_ASSIGN(x)`, which is not in the code (`named`). -/
inductive Taking where
  | direct
  | named

/-- The statement that takes a value, resim/examples/assert_and_status.cc:139,144 (see `Taking`); the macro is that of
resim/utils/status_value.hh:155-165. -/
def take {σ : Type} : Taking → StatusValue Int → (Int → Chain σ Int) → Chain σ Int
  | .direct, v, rest => .assignTemp (fun s => (s, v)) rest
  | .named, v, rest => .assign (fun s => (s, v)) rest

/-- `my_returning_wrapper`, resim/examples/assert_and_status.cc:138-141: the local `val` is the state.  Simplification: the double `2.0 * val` is
the integer it equals. -/
def myReturningWrapper (how : Taking) (arg : Arg) : Outcome (StatusValue Int) := do
  let v ← myReturningSubroutine arg
  let r ← execValue (take how v fun val => .check (fun _ => (val, .okay)) .done) (fun val => 2 * val) 0
  pure r.2

/-- `my_outer_wrapper`, resim/examples/assert_and_status.cc:143-147: the state is what has been printed, last first. -/
def myOuterWrapper (how : Taking) (arg : Arg) (out : List Int) : Outcome (List Int × Status) := do
  let v ← myReturningWrapper how arg
  exec (take how v fun val => .check (fun s => (val :: s, .okay)) .done) out

/-- `main` up to and including the third block, resim/examples/assert_and_status.cc:54-95: the assertions on constants (58-62), on
`my_subroutine` (71-77) and on `my_wrapping_subroutine` (89-95). -/
def mainBefore (out : List Int) : Outcome (List Int) := do
  Outcome.reassert (true = true) ""
  Outcome.reassert (true = true) "Some failure message."
  Outcome.reassert ((mySubroutine .good).ok = true) ""
  Outcome.reassert ((mySubroutine .good).what = "OKAY") ""
  Outcome.reassert (¬ (mySubroutine .bad).ok = true) ""
  let (out, good) ← myWrappingSubroutine .good out
  Outcome.reassert (good.ok = true) ""
  Outcome.reassert (good.what = "OKAY") ""
  let (out, bad) ← myWrappingSubroutine .bad out
  Outcome.reassert (¬ bad.ok = true) ""
  pure out

/-- `main`, resim/examples/assert_and_status.cc:54-111; returns what is printed and the exit code. -/
def main (how : Taking) : Outcome (List Int × Nat) := do
  let out ← mainBefore []
  let (out, good) ← myOuterWrapper how .good out
  Outcome.reassert (good.ok = true) ""
  Outcome.reassert (good.what = "OKAY") ""
  let (out, _) ← myOuterWrapper how .bad out
  pure (out, 0)

end Verif.StatusExample
