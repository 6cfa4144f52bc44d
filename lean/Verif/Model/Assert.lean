import Verif.Model.Outcome
/-! # Assertions: resim/assert/assert.hh and assert.cc

`REASSERT` is a macro, so its arguments are tokens.  Modelled are the steps of the preprocessor that it depends on: collecting and expanding
arguments, splitting them at commas, choosing a parameter and turning one into a string (C++20, [cpp.replace], [cpp.stringize]).
Simplifications: macros used in the arguments are object-like (function-like ones are not expanded); a token is its spelling. -/
namespace Verif

/-- A preprocessing token with the white space and comments before it: the arguments of `REASSERT`, resim/assert/assert.hh:76-77. -/
structure Tok where
  space : String
  text : String
  deriving DecidableEq, Repr

/-- The object-like macros defined where `REASSERT` is used (resim/assert/assert.hh:76), each with its replacement. -/
abbrev Macros := List (String × List Tok)

namespace Assert

/-- The first token of a replacement takes the place of the macro's name, for the arguments at resim/assert/assert.hh:77. -/
def respace (s : String) : List Tok → List Tok
  | [] => []
  | t :: ts => { t with space := s } :: ts

/-- Macro expansion of an argument, as done for `__VA_ARGS__` at resim/assert/assert.hh:77.  A macro is not expanded again in its own
replacement, so it is left out of the table there; `n` is at least the size of the table. -/
def expandN : Nat → Macros → List Tok → List Tok
  | 0, _, ts => ts
  | n + 1, ms, ts => ts.flatMap fun t =>
    match ms.lookup t.text with
    | none => [t]
    | some body => respace t.space (expandN n (ms.filter fun m => m.1 != t.text) body)

/-- Macro expansion of `__VA_ARGS__`, resim/assert/assert.hh:77. -/
def expand (ms : Macros) (ts : List Tok) : List Tok := expandN ms.length ms ts

/-- Splitting of the arguments of a macro at the commas outside parentheses (resim/assert/assert.hh:65,68,72); `depth` is the number of open
parentheses and `cur` the argument begun. -/
def splitGo (depth : Int) (cur : List Tok) : List Tok → List (List Tok)
  | [] => [cur]
  | t :: ts =>
    if t.text = "," ∧ depth = 0 then cur :: splitGo 0 [] ts
    else splitGo (if t.text = "(" then depth + 1 else if t.text = ")" then depth - 1 else depth) (cur ++ [t]) ts

/-- The arguments of a macro call, resim/assert/assert.hh:65,68,72. -/
def split (ts : List Tok) : List (List Tok) := splitGo 0 [] ts

/-- `#cond`, resim/assert/assert.hh:69,73: the value of the string literal made.  White space between tokens becomes one space and at the ends none. -/
def stringize : List Tok → String
  | [] => ""
  | t :: ts => t.text ++ String.join (ts.map fun u => (if u.space = "" then "" else " ") ++ u.text)

/-- What a use of `REASSERT` (resim/assert/assert.hh:65-77) becomes: a call of `assert_impl` for a condition, its text and perhaps a message;
or whatever is the third argument, called with the arguments; or an error. -/
inductive Expanded where
  | assertImpl (cond : List Tok) (text : String) (message : Option (List Tok))
  | call (what args : List Tok)
  | error
  deriving DecidableEq, Repr

/-- `SELECT_ASSERTER`, resim/assert/assert.hh:65: the third argument. -/
def selectAsserter : List (List Tok) → List Tok
  | _ :: _ :: a :: _ => a
  | _ => []

/-- `REASSERT`, resim/assert/assert.hh:68-77. -/
def reassert (ms : Macros) (args : List Tok) : Expanded :=
  let e := expand ms args
  let a := selectAsserter (split e ++ [[⟨" ", "REASSERT_2"⟩], [⟨" ", "REASSERT_1"⟩]])
  if a.map Tok.text = ["REASSERT_1"] then
    match split e with
    | [c] => .assertImpl c (stringize c) none
    | _ => .error
  else if a.map Tok.text = ["REASSERT_2"] then
    match split e with
    | [c, m] => .assertImpl c (stringize c) (some m)
    | _ => .error
  else .call a e

/-- `AssertException::AssertException` and `what`, resim/assert/assert.cc:15-27. -/
def what (condStr file : String) (line : Int) (message : String) : String :=
  "<" ++ file ++ ":" ++ toString line ++ "> - ReAssertion failed: (" ++ condStr ++ "). Message: " ++ message

/-- `assert_impl`, resim/assert/assert.hh:46-55. -/
def assertImpl (cond : Bool) (condStr file : String) (line : Int) (message : String) : Outcome Unit :=
  if !cond then .throw (what condStr file line message) else .ok ()

/-- The call made by `REASSERT_2`, resim/assert/assert.hh:72-73, on a program state: both arguments are evaluated before the call, in an order
chosen by the compiler (`messageFirst`). -/
def assertCall {S : Type} (messageFirst : Bool) (cond : S → Bool × S) (condStr file : String) (line : Int) (message : S → String × S) (s : S) :
    Outcome Unit × S :=
  if messageFirst then
    let (m, s₁) := message s
    let (c, s₂) := cond s₁
    (assertImpl c condStr file line m, s₂)
  else
    let (c, s₁) := cond s
    let (m, s₂) := message s₁
    (assertImpl c condStr file line m, s₂)

end Assert
end Verif
