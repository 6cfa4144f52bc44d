import Verif.Model.Status
/-! # Copies and moves: resim/testing/move_copy_tracker.cc, and resim/utils/status_value.hh with the value categories of C++

Objects live at numbers, in the order in which they are constructed; none is destroyed, so references never dangle here (C19 has the case of a temporary).
The rules of C++ that decide between copying, moving and binding a reference (overload resolution between `const T &` and `T &&`, reference collapsing) are
written out as functions of the category of the expression. -/
namespace Verif.Tracked

/-- The type and category of an expression for an object of class type `U`: `U` or `const U`, lvalue or rvalue (the parameters
in resim/testing/move_copy_tracker.hh:20-25 and resim/utils/status_value.hh:56-94 tell them apart). -/
inductive Cat
  | lvalue | constLvalue | rvalue | constRvalue
  deriving DecidableEq, Repr

/-- What a `MoveCopyTracker` member of an object counts, resim/testing/move_copy_tracker.hh:32-33, and what else the object contains: nothing that can be
relied on once it has been moved from.  `int` is modelled by `Nat`: fewer than 2^31 copies and moves are made. -/
structure Obj (α : Type) where
  moves : Nat
  copies : Nat
  content : Option α
  deriving DecidableEq, Repr

/-- A new object, resim/testing/move_copy_tracker.hh:18,32-33 (and resim/utils/status_value_test.cc:28). -/
def Obj.create {α : Type} (a : α) : Obj α := ⟨0, 0, some a⟩

/-- What the copy constructor and copy assignment give the new owner, resim/testing/move_copy_tracker.cc:11-13,19-23. -/
def Obj.copied {α : Type} (other : Obj α) : Obj α := ⟨other.moves, other.copies + 1, other.content⟩

/-- What the move constructor and move assignment give the new owner, resim/testing/move_copy_tracker.cc:15-17,24-28. -/
def Obj.moved {α : Type} (other : Obj α) : Obj α := ⟨other.moves + 1, other.copies, other.content⟩

/-- What a move leaves behind: the counters stay (resim/testing/move_copy_tracker.cc:15-17,24-28 do not touch `other`), the content is taken. -/
def Obj.left {α : Type} (other : Obj α) : Obj α := ⟨other.moves, other.copies, none⟩

/-- Whether `U &&` binds to the expression; then the move constructor (resim/testing/move_copy_tracker.cc:15) is preferred to the copy constructor (:11). -/
def Cat.bindsRref : Cat → Bool
  | .rvalue => true
  | _ => false

/-- `U y{e}` for an expression `e` of category `c` that denotes object `src`: the constructors at resim/testing/move_copy_tracker.cc:11-17.  The new object is
the last one. -/
def construct {α : Type} (objs : List (Obj α)) (src : Nat) (c : Cat) : Option (List (Obj α)) :=
  match objs[src]? with
  | none => none
  | some o => some (if c.bindsRref then objs.set src o.left ++ [o.moved] else objs ++ [o.copied])

/-- `x = e` for an object `x` that is not const and an expression `e` of category `c` that denotes `src`: the assignments at
resim/testing/move_copy_tracker.cc:19-28.  The source is read before the target is written; an object assigned to itself keeps its content. -/
def assign {α : Type} (objs : List (Obj α)) (dst src : Nat) (c : Cat) : Option (List (Obj α)) :=
  match objs[dst]?, objs[src]? with
  | some _, some o => some (if c.bindsRref then (objs.set src o.left).set dst o.moved else objs.set dst o.copied)
  | _, _ => none

/-- What a program does with objects of one class: it creates one, constructs one from another, assigns one to another.  `c` is the category of the
expression that denotes the source (resim/testing/move_copy_tracker.hh:20-25). -/
inductive TrackOp (α : Type)
  | create (a : α)
  | construct (src : Nat) (c : Cat)
  | assign (dst src : Nat) (c : Cat)

/-- What one operation of a program does: the constructors and assignments at resim/testing/move_copy_tracker.cc:11-28. -/
def step {α : Type} (objs : List (Obj α)) : TrackOp α → Option (List (Obj α))
  | .create a => some (objs ++ [.create a])
  | .construct src c => construct objs src c
  | .assign dst src c => assign objs dst src c

/-- A program, newest operation first; `none` if it names an object that does not exist
(resim/testing/move_copy_tracker.cc:11-28, one after the other). -/
def run {α : Type} : List (TrackOp α) → Option (List (Obj α))
  | [] => some []
  | op :: h => (run h).bind (step · op)

/-- The template argument of a `StatusValue`, resim/utils/status_value.hh:18: `U`, `const U`, `U &`, `const U &`, `U &&`, `const U &&`. -/
inductive Holds
  | value | constValue | lref | constLref | rref | constRref
  deriving DecidableEq, Repr

/-- Whether an expression can initialise a reference of the given type (C++ reference binding); for `U` and `const U` every expression can.
For `ValueWrapper`, resim/utils/status_value.hh:89-95. -/
def Holds.accepts : Holds → Cat → Bool
  | .value, _ | .constValue, _ | .constLref, _ => true
  | .lref, c => c = .lvalue
  | .rref, c => c = .rvalue
  | .constRref, c => c = .rvalue || c = .constRvalue

/-- Whether the `StatusValue` holds an object of its own, resim/utils/status_value.hh:89-95. -/
def Holds.owns : Holds → Bool
  | .value | .constValue => true
  | _ => false

/-- A `StatusValue`, resim/utils/status_value.hh:101: its template argument, and the object that it holds or refers to, or its status. -/
structure SV where
  holds : Holds
  body : Nat ⊕ Status

/-- The constructor from a value and the `ValueWrapper` in it, resim/utils/status_value.hh:89-95,108-114.  `none`: it does not compile. -/
def wrap {α : Type} (objs : List (Obj α)) (k : Holds) (src : Nat) (c : Cat) : Option (List (Obj α) × SV) :=
  if k.accepts c then
    if k.owns then (construct objs src c).map fun objs' => (objs', ⟨k, .inl objs.length⟩)
    else if src < objs.length then some (objs, ⟨k, .inl src⟩) else none
  else none

/-- The category of the member `value` when a `StatusValue` that owns its object is copied or moved member by member,
resim/utils/status_value.hh:66-69 (defaulted) and 95. -/
def memberCat (k : Holds) (c : Cat) : Cat :=
  if c.bindsRref then (if k = .constValue then .constRvalue else .rvalue) else .constLvalue

/-- The copy and move constructors of `StatusValue`, resim/utils/status_value.hh:66-67: an rvalue that is not const is moved, anything else copied.  A
reference is copied as a reference; a `StatusValue` of an rvalue reference cannot be copied, so that `none` is returned: it does not compile. -/
def copyOrMove {α : Type} (objs : List (Obj α)) (s : SV) (c : Cat) : Option (List (Obj α) × SV) :=
  if !c.bindsRref && (s.holds = .rref || s.holds = .constRref) then none
  else
    match s.body with
    | .inr st => some (objs, ⟨s.holds, .inr st⟩)
    | .inl a =>
      if s.holds.owns then (construct objs a (memberCat s.holds c)).map fun objs' => (objs', ⟨s.holds, .inl objs.length⟩)
      else some (objs, s)

/-- The assignments of `StatusValue`, resim/utils/status_value.hh:68-69, which are those of `std::variant`: `target = source`.  Only a `StatusValue` of a type
that is neither const nor a reference can be assigned to.  Over a status, a value is copied into a temporary that is then moved in, because the copy
constructor of `U` may throw and its move constructor may not; the temporary counts as an object. -/
def assignSV {α : Type} (objs : List (Obj α)) (target source : SV) (c : Cat) : Option (List (Obj α) × SV) :=
  if target.holds = .value ∧ source.holds = .value then
    match target.body, source.body with
    | _, .inr st => some (objs, ⟨.value, .inr st⟩)
    | .inl d, .inl a => (assign objs d a (memberCat .value c)).map fun objs' => (objs', target)
    | .inr _, .inl a =>
      if c.bindsRref then (construct objs a .rvalue).map fun objs' => (objs', ⟨.value, .inl objs.length⟩)
      else
        match construct objs a .constLvalue with
        | none => none
        | some objs1 => (construct objs1 objs.length .rvalue).map fun objs2 => (objs2, ⟨.value, .inl objs1.length⟩)
  else none

/-- `value()`, resim/utils/status_value.hh:127-139: which object the result denotes, and with which category.  On an rvalue that is not const the second
overload is chosen, whose result type is `T &&`; otherwise the first one, whose result type is `const T &`, in which a reference `T` absorbs the const and
becomes an lvalue reference. -/
def value (s : SV) (c : Cat) : Outcome (Nat × Cat) :=
  match s.body with
  | .inr _ => .throw "Can't dereference bad StatusValue!"
  | .inl a =>
    if c.bindsRref then
      .ok (a, match s.holds with
        | .value => .rvalue
        | .constValue => .constRvalue
        | .lref => .lvalue
        | .constLref => .constLvalue
        | .rref => .rvalue
        | .constRref => .constRvalue)
    else
      .ok (a, match s.holds with
        | .value => .constLvalue
        | .constValue => .constLvalue
        | .lref => .lvalue
        | .constLref => .constLvalue
        | .rref => .lvalue
        | .constRref => .constLvalue)

/-- An argument of `RETURN_OR_ASSIGN` that denotes an existing `StatusValue`: the bare name of a variable that is no reference, the name of an lvalue reference
or any other lvalue expression such as `(sv)`, the result of `std::move` (resim/utils/status_value.hh:155-158). -/
inductive Arg
  | name (isConst : Bool)
  | lvalueExpr (isConst : Bool)
  | moved (isConst : Bool)
  deriving DecidableEq, Repr

/-- The category of `std::forward<decltype(status_value)>(status_value)`, resim/utils/status_value.hh:157-158: `decltype` of a bare name is the type of the
variable, which is not a reference, and `std::forward` to such a type gives an rvalue. -/
def Arg.forwarded : Arg → Cat
  | .name true => .constRvalue
  | .name false => .rvalue
  | .lvalueExpr true => .constLvalue
  | .lvalueExpr false => .lvalue
  | .moved true => .constRvalue
  | .moved false => .rvalue

/-- `RETURN_OR_ASSIGN(status_value)`, resim/utils/status_value.hh:155-165, resim/utils/status.hh:94-100: the status with which the enclosing function returns,
or the object and category of the expression. -/
def returnOrAssign (s : SV) (arg : Arg) : Outcome (Status ⊕ Nat × Cat) :=
  match s.body with
  | .inr st => if st.ok then .throw "Can't dereference bad StatusValue!" else .ok (.inl st)
  | .inl _ => do
    let r ← value s arg.forwarded
    .ok (.inr r)

end Verif.Tracked
