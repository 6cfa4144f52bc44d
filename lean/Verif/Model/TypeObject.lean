import Verif.Model.Outcome
/-! # Types as objects: resim/utils/type.hh

What the header promises is about which function a call picks, so the C++ rules for that are modelled: unqualified name lookup ([basic.lookup.unqual]),
argument-dependent lookup ([basic.lookup.argdep]) and overload resolution ([over.match]), for calls with one argument.  Left out: using declarations and
directives, inline namespaces, friends, and conversions other than to a base class. -/
namespace Verif.TypeObject

/-- Namespaces: `resim`, `resim::detail` (resim/utils/type.hh:82,89) and those of clients, such as `resim::test_namespace` (resim/utils/type_test.cc:11). -/
inductive Ns where
  | resim
  | detail
  | client (n : Nat)
  deriving DecidableEq, Repr

/-- Types: built-in ones, pointers, classes, specializations of class templates with one argument, classes with a base class, and both.  The classes of
resim/utils/type.hh:84-96 and of their clients (resim/utils/type_test.cc:13) are of these kinds.  Names are numbers. -/
inductive Ty where
  | builtin (n : Nat)
  | ptr (t : Ty)
  | plain (ns : Ns) (name : Nat)
  | tmpl (ns : Ns) (name : Nat) (arg : Ty)
  | derived (ns : Ns) (name : Nat) (base : Ty)
  | tmplDerived (ns : Ns) (name : Nat) (arg : Ty) (base : Ty)
  deriving DecidableEq, Repr

/-- `BasicType<T>`, resim/utils/type.hh:84-87. -/
def basicType (t : Ty) : Ty := .tmpl .resim 0 t

/-- `Type<T>`, resim/utils/type.hh:89-99: a member of `TypeADLGuard<T>` and so no template specialization itself; its base class is `BasicType<T>`. -/
def typeOf (t : Ty) : Ty := .derived .detail 0 (basicType t)

/-- The alias `type` of both, resim/utils/type.hh:86,93. -/
def unwrap : Ty → Option Ty
  | .tmpl .resim 0 t => some t
  | .derived .detail 0 (.tmpl .resim 0 t) => some t
  | _ => none

/-- The namespaces of a class and its base classes ([basic.lookup.argdep]/3.2), for the base of resim/utils/type.hh:92.  Arguments of base classes do not count. -/
def classNs : Ty → List Ns
  | .plain ns _ => [ns]
  | .tmpl ns _ _ => [ns]
  | .derived ns _ b => ns :: classNs b
  | .tmplDerived ns _ _ b => ns :: classNs b
  | _ => []

/-- The namespaces associated with an argument ([basic.lookup.argdep]/3): of the class and its bases, and for a template specialization also those associated with its
argument.  This is what resim/utils/type.hh:50-56 is about. -/
def associated : Ty → List Ns
  | .builtin _ => []
  | .ptr t => associated t
  | .plain ns _ => [ns]
  | .tmpl ns _ a => ns :: associated a
  | .derived ns _ b => ns :: classNs b
  | .tmplDerived ns _ a b => ns :: (classNs b ++ associated a)

/-- The parameter of a function: `f(t)`, `template <T> f(T)` (resim/utils/type_test.cc:19), `template <T> f(BasicType<T>)` (resim/utils/type.hh:46-49), and
`template <T> f(Type<T>)` (29-32). -/
inductive Param where
  | exactly (t : Ty)
  | anything
  | anyBasic
  | anyType
  deriving DecidableEq, Repr

/-- A function: its namespace, name and parameter, and a number that says which one it is (resim/utils/type_test.cc:19,27). -/
structure Fn where
  ns : Ns
  name : Nat
  param : Param
  body : Nat
  deriving DecidableEq, Repr

/-- How many steps up the base classes `p` is from the argument, for the conversion to a base ([over.ics.rank]/4.4) that resim/utils/type.hh:92 provides. -/
def steps (p : Ty) : Ty → Option Nat
  | .derived ns n b => if p = .derived ns n b then some 0 else (steps p b).map (· + 1)
  | .tmplDerived ns n a b => if p = .tmplDerived ns n a b then some 0 else (steps p b).map (· + 1)
  | t => if p = t then some 0 else none

/-- Deducing `T` for a parameter `BasicType<T>` from the argument or its base classes ([temp.deduct.call]/4.3), resim/utils/type.hh:46-50: how many steps up. -/
def stepsBasic : Ty → Option Nat
  | .tmpl ns n _ => if ns = .resim ∧ n = 0 then some 0 else none
  | .derived _ _ b => (stepsBasic b).map (· + 1)
  | .tmplDerived ns n _ b => if ns = .resim ∧ n = 0 then some 0 else (stepsBasic b).map (· + 1)
  | _ => none

/-- The rank of a function for an argument, if it is viable (calls as at resim/utils/type.hh:67,72): 0 is an exact match.  `T` cannot be deduced from `Type<T>`, whose
`T` is in a non-deduced context (resim/utils/type.hh:34-41). -/
def viable (t : Ty) : Param → Option Nat
  | .exactly p => steps p t
  | .anything => some 0
  | .anyBasic => stepsBasic t
  | .anyType => none

/-- How special a parameter is ([over.match.best]/2.4,2.5): a function that is no template is better than one that is, and `BasicType<T>` more specialized than `T`
(resim/utils/type.hh:59-65). -/
def special : Param → Nat
  | .exactly _ => 0
  | .anyBasic => 1
  | .anyType => 1
  | .anything => 2

/-- Whether the first of two viable functions is better ([over.match.best]/2), for the calls at resim/utils/type.hh:67,72. -/
def better (t : Ty) (x y : Fn) : Bool :=
  match viable t x.param, viable t y.param with
  | some i, some j => i < j || (i == j && special x.param < special y.param)
  | _, _ => false

/-- What unqualified lookup finds: the functions of the innermost namespace around the call that has one of that name ([basic.lookup.unqual]), as for the call at
resim/utils/type_test.cc:34. -/
def ordinary (fns : List Fn) (f : Nat) : List Ns → List Fn
  | [] => []
  | ns :: scopes =>
    match fns.filter (fun x => x.name = f ∧ x.ns = ns) with
    | [] => ordinary fns f scopes
    | found => found

/-- The candidates of a call: what unqualified and argument-dependent lookup find, resim/utils/type_test.cc:34. -/
def candidates (fns : List Fn) (f : Nat) (scopes : List Ns) (t : Ty) : List Fn :=
  fns.filter fun x => x ∈ ordinary fns f scopes ∨ (x.name = f ∧ x.ns ∈ associated t)

/-- The function that a call of `f` with an argument of type `t` runs, from inside the namespaces `scopes`, innermost first (resim/utils/type_test.cc:34).  `throw`
stands for a program that does not compile. -/
def call (fns : List Fn) (f : Nat) (scopes : List Ns) (t : Ty) : Outcome Fn :=
  match (candidates fns f scopes t).filter (fun x => (viable t x.param).isSome) with
  | [] => .throw "no matching function"
  | vs =>
    match vs.find? (fun x => vs.all fun y => y == x || better t x y) with
    | some x => .ok x
    | none => .throw "ambiguous"

end Verif.TypeObject
