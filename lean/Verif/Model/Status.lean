import Verif.Model.Outcome
/-! # resim/utils/status.hh, status.cc, status_value.hh -/
namespace Verif

/-- `Status` with its variant `OkayType` / `ErrType`, resim/utils/status.hh:52-69. -/
inductive Status where
  | okay
  | err (message file : String) (line : Int)
  deriving DecidableEq, Repr

namespace Status

/-- `Status::make_at_line` and `MAKE_STATUS`, resim/utils/status.hh:78,102-109. -/
def makeAtLine (file : String) (line : Int) (message : String) : Status := .err message file line

/-- `Status::ok`, resim/utils/status.hh:113-115. -/
def ok : Status → Bool
  | .okay => true
  | .err .. => false

/-- `Status::what`, resim/utils/status.cc:13-26. -/
def what : Status → String
  | .okay => "OKAY"
  | .err message file line => "<" ++ file ++ ":" ++ toString line ++ "> " ++ message

/-- `CHECK_STATUS_OK`, resim/utils/status.hh:82-90; `text` is the stringised argument.  The colour escape codes are left out. -/
def checkOk (text : String) (s : Status) : Outcome Unit :=
  Outcome.reassert (s.ok = true) ("{" ++ text ++ ".what() == " ++ s.what ++ "}")

/-- `CHECK_STATUS_OK(f())`, resim/utils/status.hh:82-90: the macro pastes its argument twice, so the expression is evaluated for the message
and again for the condition; `σ` is everything the expression can read and change. -/
def checkOkExpr {σ : Type} (text : String) (f : σ → σ × Status) (s : σ) : σ × Outcome Unit :=
  let errMsg := "{" ++ text ++ ".what() == " ++ (f s).2.what ++ "}"
  let s1 := (f s).1
  ((f s1).1, Outcome.reassert ((f s1).2.ok = true) errMsg)

end Status

/-- `StatusValue<T>` with its member `value_or_status_`, resim/utils/status_value.hh:101. -/
inductive StatusValue (α : Type u) where
  | value (a : α)
  | status (s : Status)

namespace StatusValue

/-- Default constructor, resim/utils/status_value.hh:104-106. -/
def default : StatusValue α :=
  .status (Status.makeAtLine "resim/utils/status_value.hh" 106 "Uninitialized StatusValue!")

/-- Constructor from a value, resim/utils/status_value.hh:108-114. -/
def ofValue (a : α) : StatusValue α := .value a

/-- `status`, resim/utils/status_value.hh:141-147. -/
def getStatus : StatusValue α → Status
  | .value _ => .okay
  | .status s => s

/-- `ok`, resim/utils/status_value.hh:122-125. -/
def ok (v : StatusValue α) : Bool := v.getStatus.ok

/-- Constructor from a status, resim/utils/status_value.hh:116-120. -/
def ofStatus (s : Status) : Outcome (StatusValue α) := do
  let v : StatusValue α := .status s
  if v.ok then .throw "Can't make okay StatusValue without value!" else .ok v

/-- `value`, both overloads, resim/utils/status_value.hh:127-139.  `std::get` on the wrong alternative throws
`std::bad_variant_access`. -/
def getValue (v : StatusValue α) : Outcome α :=
  if v.ok then
    match v with
    | .value a => .ok a
    | .status _ => .throw "std::bad_variant_access"
  else .throw "Can't dereference bad StatusValue!"

end StatusValue

namespace StatusChain

/-- The body of a function made of `RETURN_IF_NOT_OK(f())` and `x = RETURN_OR_ASSIGN(g)` statements (resim/utils/status.hh:94-100,
resim/utils/status_value.hh:155-165); `σ` is everything the expressions can read and change.  In `assign` the expression denotes an object
that outlives the statement (a variable, a moved variable, a returned reference); in `assignTemp` it is a call returning by value. -/
inductive Chain (σ V : Type) where
  | done
  | check (f : σ → σ × Status) (rest : Chain σ V)
  | assign (g : σ → σ × StatusValue V) (rest : V → Chain σ V)
  | assignTemp (g : σ → σ × StatusValue V) (rest : V → Chain σ V)

/-- Execution of such a body in a function returning `Status`, ending with `return OKAY_STATUS` (macros as cited at `Chain`:
resim/utils/status.hh:94-100, resim/utils/status_value.hh:155-165).  In `assignTemp` the temporary is bound to the parameter of `std::forward`
(line 158) and destroyed at the end of that declaration, so that line 159 calls `status()` on a destroyed object. -/
def exec {σ V : Type} : Chain σ V → σ → Outcome (σ × Status)
  | .done, s => .ok (s, .okay)
  | .check f rest, s =>
    if (f s).2.ok then exec rest (f s).1 else .ok ((f s).1, (f s).2)
  | .assign g rest, s =>
    if (g s).2.getStatus.ok then
      match (g s).2.getValue with
      | .ok v => exec (rest v) (g s).1
      | .throw m => .throw m
      | .ub w => .ub w
    else .ok ((g s).1, (g s).2.getStatus)
  | .assignTemp _ _, _ => .ub "use of a temporary after its lifetime"

/-- Execution in a function returning `StatusValue<R>` and ending with `return r(state)`: the returned status converts through the
constructor (resim/utils/status_value.hh:116-120), a value through lines 108-114. -/
def execValue {σ V R : Type} (c : Chain σ V) (r : σ → R) (s : σ) : Outcome (σ × StatusValue R) := do
  let (s', st) ← exec c s
  if st.ok then pure (s', StatusValue.ofValue (r s'))
  else do
    let v ← StatusValue.ofStatus st
    pure (s', v)

end StatusChain
end Verif
