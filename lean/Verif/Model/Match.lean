import Verif.Model.Outcome
/-! # Variant matching: `resim::match`, resim/utils/match.hh

The branch is picked by C++ overload resolution ([over.match] of the C++ standard), which is modelled here for one-argument call operators over the
arithmetic types of the documentation and over classes. -/
namespace Verif.Match

/-- The types of the alternatives and parameters that are modelled: the arithmetic types named in docs/resim/utils/match.md:10-13,34-35 and any number of
classes without conversions between them (as `MyObject` and `MoveCopyTracker` of resim/utils/match_test.cc:76,105). -/
inductive Ty where
  | bool
  | char
  | int
  | float
  | double
  | cls (n : Nat)
  deriving DecidableEq, Repr

/-- The rank of the standard conversion sequence from one type to another, where there is one ([over.ics.scs], [conv.prom], [conv.fpprom]): 0 exact match,
1 promotion, 2 conversion.  The overload resolution of the call in resim/utils/match.hh:98-100 compares these. -/
def rank (a b : Ty) : Option Nat :=
  if a = b then some 0
  else match a, b with
    | .cls _, _ => none
    | _, .cls _ => none
    | .bool, .int => some 1
    | .char, .int => some 1
    | .float, .double => some 1
    | _, _ => some 2

/-- How `std::visit` passes the alternative to the branch: as an rvalue (for a variant given as rvalue), an lvalue, or a const lvalue
(resim/utils/match.hh:100, `std::forward<T>(variant)`). -/
inductive Cat where
  | rvalue
  | lvalue
  | constLvalue
  deriving DecidableEq, Repr

/-- The parameter of a branch: `T x`, `const T &x`, `T &x`, `T &&x`, or `auto x` (docs/resim/utils/match.md:56-66, resim/utils/match_test.cc:45-47,82,96;
a `const` on a parameter taken by value makes no difference). -/
inductive Param where
  | value (t : Ty)
  | constRef (t : Ty)
  | ref (t : Ty)
  | rref (t : Ty)
  | generic
  deriving DecidableEq, Repr

/-- Reference bindings that overload resolution tells apart, for the call in resim/utils/match.hh:98-100. -/
inductive Binding where
  | none
  | ref
  | constRef
  | rref
  deriving DecidableEq, Repr

/-- A branch passed to `match` (resim/utils/match.hh:92-100): its parameter, whether its call operator is const (a lambda that is not `mutable`), whether it is
of class type at all (a function pointer is not), the type it returns (a number), and what it returns for the value that the variant holds, conversion to
its parameter included.  `V` is the type of values, `B` that of results. -/
structure Branch (V B : Type) where
  param : Param
  isConst : Bool
  isClass : Bool
  ret : Nat
  run : V → B

/-- An implicit conversion sequence to a parameter: its rank and how a reference is bound ([over.ics.ref]), as overload resolution uses it for the call in
resim/utils/match.hh:98-100. -/
structure Ics where
  rank : Nat
  binding : Binding
  deriving DecidableEq, Repr

/-- The conversion sequence from an argument to a parameter, if the branch is viable (resim/utils/match.hh:19-20, the call operators of the overload set).  A
reference to another type binds to a temporary, which only `const T &` and `T &&` can; `T &` binds only to an lvalue that is not const; `T &&` does not bind
to an lvalue of the same type. -/
def ics (t : Ty) (c : Cat) : Param → Option Ics
  | .value p => (rank t p).map (⟨·, .none⟩)
  | .generic => some ⟨0, .none⟩
  | .constRef p => (rank t p).map (⟨·, .constRef⟩)
  | .ref p => if t = p ∧ c = .lvalue then some ⟨0, .ref⟩ else none
  | .rref p => if t = p ∧ c ≠ .rvalue then none else (rank t p).map (⟨·, .rref⟩)

/-- Whether one conversion sequence is better than another ([over.ics.rank]/3.2), for the call in resim/utils/match.hh:98-100: by rank; of references, `T &&`
is better than an lvalue reference, and `T &` better than `const T &`. -/
def argBetter (x y : Ics) : Bool :=
  x.rank < y.rank || (x.rank == y.rank && ((x.binding == .rref && (y.binding == .ref || y.binding == .constRef)) || (x.binding == .ref && y.binding == .constRef)))

/-- Whether the call operator of one branch is better than that of another for the object, which is not const: docs/resim/utils/match.md:82-84, "non-`const` member
functions are preferred over `const`". -/
def objBetter (x y : Branch V B) : Bool := !x.isConst && y.isConst

/-- Whether one viable branch is better than another ([over.match.best]/2), for the call in resim/utils/match.hh:98-100: worse in nothing, and better in something,
or not a template while the other is one (`const auto x`). -/
def better (x : Branch V B) (ix : Ics) (y : Branch V B) (iy : Ics) : Bool :=
  !argBetter iy ix && !objBetter y x && (argBetter ix iy || objBetter x y || (x.param != .generic && y.param == .generic))

/-- Whether `y` keeps `x` from being the best branch: it is viable and `x` is not better.  Every viable branch does so to itself.  For the call in
resim/utils/match.hh:98-100. -/
def blocks (t : Ty) (c : Cat) (x y : Branch V B) : Bool :=
  match ics t c x.param, ics t c y.param with
  | some ix, some iy => !better x ix y iy
  | _, some _ => true
  | _, none => false

/-- The branch that a call on an argument runs: the one that is better than all other viable ones, if there is one (otherwise the call is ill-formed).  For
`std::is_invocable_v<Overloads<...>, T>`, resim/utils/match.hh:53-55, and for the call of `std::visit`, resim/utils/match.hh:98-100.  That no *other* branch is in the way is
written as: exactly one is, itself. -/
def select (bs : List (Branch V B)) (t : Ty) (c : Cat) : Option (Branch V B) :=
  bs.find? fun x => (ics t c x.param).isSome && bs.countP (blocks t c x) == 1

/-- `BranchesConsistent`, resim/utils/match.hh:53-55,66-80, for `std::variant<types...>`: for every alternative, as an rvalue, there is a best branch, and the best branches return the
same type. -/
def consistent (types : List Ty) (c : Cat) (bs : List (Branch V B)) : Bool :=
  types.all (fun t => (select bs t c).isSome) && types.all fun t => types.all fun u => (select bs t c).map (·.ret) == (select bs u c).map (·.ret)

/-- What the compiler makes of a call of `match`, resim/utils/match.hh:95-101. -/
inductive Verdict where
  /-- The constraints are not met: the function is no candidate. -/
  | discarded
  /-- The constraints are met but `std::visit` does not compile. -/
  | illFormed
  | compiles
  deriving DecidableEq, Repr

/-- Compiling `match(variant, branch...)` with a variant of the given category, resim/utils/match.hh:94-101.  The constraints look at alternatives as rvalues
(`std::is_invocable_v<..., Ts>` with object types `Ts`), whatever the variant is passed as; the call of `std::visit` does not.  With no branches no alternative is callable. -/
def compile (types : List Ty) (c : Cat) (bs : List (Branch V B)) : Verdict :=
  if bs.all (·.isClass) && consistent types .rvalue bs then (if consistent types c bs then .compiles else .illFormed) else .discarded

/-- Running `match` on a variant, where it compiles, resim/utils/match.hh:98-100.  `none` is a variant without value (`valueless_by_exception`), for which `std::visit` throws
`std::bad_variant_access`. -/
def run (bs : List (Branch V B)) (c : Cat) (held : Option (Ty × V)) : Outcome B :=
  match held with
  | none => .throw "bad_variant_access"
  | some (t, v) =>
    match select bs t c with
    | some b => .ok (b.run v)
    | none => .ub "ill-formed program"

end Verif.Match
