import Verif.Model.Outcome
/-! # Output parameters: `InOut` and `NullableReference`, resim/utils/inout.hh and resim/utils/nullable_reference.hh -/
namespace Verif.References

/-- The objects of one type `V` that exist, by address, with their values; `none` where no object lives.  The memory that `T &x_` and `T *x_` refer to
(resim/utils/inout.hh:41, resim/utils/nullable_reference.hh:37). -/
abbrev Mem (V : Type) := Nat → Option V

/-- `*p` for a raw pointer or a reference, as used at resim/utils/inout.hh:34, resim/utils/nullable_reference.hh:60: undefined unless an object lives there. -/
def load (m : Mem V) (a : Nat) : Outcome V :=
  match m a with
  | some v => .ok v
  | none => .ub "access to an object that does not exist"

/-- `*p = v`, as in resim/examples/output_parameters.cc:51,58. -/
def store (m : Mem V) (a : Nat) (v : V) : Outcome (Mem V) :=
  match m a with
  | some _ => .ok fun b => if b = a then some v else m b
  | none => .ub "access to an object that does not exist"

/-- `InOut<T>`, resim/utils/inout.hh:28-42: a reference `x_`. -/
structure InOut where
  x : Nat

/-- `InOut::operator*` and `operator->`, resim/utils/inout.hh:34,37. -/
def InOut.deref (r : InOut) : Nat := r.x

/-- `NullableReference<T>`, resim/utils/nullable_reference.hh:15-38: a pointer `x_`, `none` for `nullptr`. -/
structure NullableReference where
  x : Option Nat
  deriving DecidableEq

/-- `NullableReference(T &x)`, resim/utils/nullable_reference.hh:44-45. -/
def NullableReference.of (a : Nat) : NullableReference := ⟨some a⟩

/-- `null_reference`, resim/utils/nullable_reference.hh:20,37,40-42. -/
def nullReference : NullableReference := ⟨none⟩

/-- `NullableReference::has_value` and `operator bool`, resim/utils/nullable_reference.hh:47-55. -/
def NullableReference.hasValue (r : NullableReference) : Bool := r.x.isSome

/-- `NullableReference::operator*` and `operator->`, resim/utils/nullable_reference.hh:57-67: the address, or an assertion failure. -/
def NullableReference.deref (r : NullableReference) : Outcome Nat := do
  Outcome.reassert (r.hasValue = true) "Can't dereference empty NullableReference!"
  match r.x with
  | some a => .ok a
  | none => .ub "null"

/-- The body of a function that takes `n` wrapped parameters and does with them all that the wrappers offer: ask whether there is a value, read, write, in any order and
depending on what it read, and return something (as the functions of resim/examples/output_parameters.cc:51-60).  It has no other access to the memory of type `V`. -/
inductive Body (n : Nat) (V A : Type) where
  | ret (a : A)
  | hasValue (i : Fin n) (k : Bool → Body n V A)
  | read (i : Fin n) (k : V → Body n V A)
  | write (i : Fin n) (v : V) (k : Body n V A)

/-- Running a body with `NullableReference` parameters (resim/utils/nullable_reference.hh:47-67). -/
def Body.runNullable (args : Fin n → NullableReference) : Body n V A → Mem V → Outcome (A × Mem V)
  | .ret a, m => .ok (a, m)
  | .hasValue i k, m => (k (args i).hasValue).runNullable args m
  | .read i k, m => do
    let a ← (args i).deref
    let v ← load m a
    (k v).runNullable args m
  | .write i v k, m => do
    let a ← (args i).deref
    let m' ← store m a v
    k.runNullable args m'

/-- Running a body with `InOut` parameters (resim/utils/inout.hh:31-37), which have no `has_value`: the answer is taken to be yes. -/
def Body.runInOut (args : Fin n → InOut) : Body n V A → Mem V → Outcome (A × Mem V)
  | .ret a, m => .ok (a, m)
  | .hasValue _ k, m => (k true).runInOut args m
  | .read i k, m => do
    let v ← load m (args i).deref
    (k v).runInOut args m
  | .write i v k, m => do
    let m' ← store m (args i).deref v
    k.runInOut args m'

/-- Running a body with raw pointers instead (docs/resim/utils/output_parameters.md:87-92): the same, but using a null pointer is undefined. -/
def Body.runPointer (args : Fin n → Option Nat) : Body n V A → Mem V → Outcome (A × Mem V)
  | .ret a, m => .ok (a, m)
  | .hasValue i k, m => (k (args i).isSome).runPointer args m
  | .read i k, m =>
    match args i with
    | none => .ub "null"
    | some a => do
      let v ← load m a
      (k v).runPointer args m
  | .write i v k, m =>
    match args i with
    | none => .ub "null"
    | some a => do
      let m' ← store m a v
      k.runPointer args m'

/-- `set_to_three`, resim/examples/output_parameters.cc:51-53. -/
def setToThree : Body 1 Int Unit := .write 0 3 (.ret ())

/-- `maybe_set_to_three`, resim/examples/output_parameters.cc:55-60; the console output is left out. -/
def maybeSetToThree : Body 1 Int Unit := .hasValue 0 fun b => if b then .write 0 3 (.ret ()) else .ret ()

end Verif.References
