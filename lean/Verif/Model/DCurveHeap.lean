import Verif.Model.DCurve
/-! # resim/curves/d_curve.cc with its shared pointers

`Model/DCurve` replaces the pointers of a curve by the poses they point to.  Here the poses are in a heap, curves hold addresses, and copies of a
curve hold the same addresses.  Addresses are never freed (a shared pointer keeps its pose alive) and every allocation gets a new one. -/
namespace Verif.DHeap
variable {G A V : Type}

/-- `DCurve::Control`, resim/curves/d_curve.hh:27-32. -/
structure Control where
  arcLength : ℝ
  ptr : Nat

/-- `DCurve::Segment`, resim/curves/d_curve.hh:36-43. -/
structure Segment (G : Type) where
  origArcLength : ℝ
  destArcLength : ℝ
  refFromOrig : Nat
  refFromDest : Nat
  origFromDest : Framed G

/-- `DCurve<Group>`, resim/curves/d_curve.hh:82-84. -/
structure Curve (G : Type) where
  controls : List Control
  segments : List (Segment G)

/-- The poses made by `std::make_shared`, resim/curves/d_curve.cc:43-44, by address. -/
abbrev Heap (G : Type) := List (Framed G)

/-- `*pointer`, as at resim/curves/d_curve.cc:53,81,104. -/
def read (m : Heap G) (p : Nat) : Outcome (Framed G) :=
  match m[p]? with
  | none => .ub "dangling pointer"
  | some g => .ok g

/-- The default constructor, resim/curves/d_curve.hh:44. -/
def empty : Curve G := ⟨[], []⟩

/-- `curve_length`, resim/curves/d_curve.cc:96-99. -/
def curveLength (c : Curve G) : ℝ :=
  match c.controls.getLast? with
  | none => 0
  | some p => p.arcLength

/-- `is_framed`, resim/curves/d_curve.cc:101-105. -/
def isFramed (m : Heap G) (c : Curve G) : Outcome Bool :=
  match c.controls.head? with
  | none => .throw DCurve.emptyErr
  | some p => do
    let g ← read m p.ptr
    .ok g.isFramed

/-- `point_frame`, resim/curves/d_curve.cc:107-111. -/
def pointFrame (m : Heap G) (c : Curve G) : Outcome Frame :=
  match c.controls.head? with
  | none => .throw DCurve.emptyErr
  | some p => do
    let g ← read m p.ptr
    .ok g.src

/-- `reference_frame`, resim/curves/d_curve.cc:113-117. -/
def referenceFrame (m : Heap G) (c : Curve G) : Outcome Frame :=
  match c.controls.head? with
  | none => .throw DCurve.emptyErr
  | some p => do
    let g ← read m p.ptr
    .ok g.into

/-- The frame check at the start of `append`, resim/curves/d_curve.cc:35-41. -/
def checkFrames (m : Heap G) (c : Curve G) (p : Framed G) : Outcome Unit :=
  if c.controls.isEmpty then .ok ()
  else do
    if ← isFramed m c then
      let r ← referenceFrame m c
      let f ← pointFrame m c
      Outcome.reassert (p.verifyFrames r f) "Control points must have the same reference and point frames."
    else .ok ()

/-- `append(Group)`, resim/curves/d_curve.cc:33-67: the heap and the curve afterwards and how the call ended. -/
noncomputable def append (L : LieOps ℝ G A V) (arc : G → ℝ) (m : Heap G) (c : Curve G) (p : Framed G) : Heap G × Curve G × Outcome Unit :=
  match checkFrames m c p with
  | .throw e => (m, c, .throw e)
  | .ub w => (m, c, .ub w)
  | .ok () =>
    let new := m.length
    let m := m ++ [p]
    match c.controls.getLast? with
    | none => (m, { c with controls := c.controls ++ [⟨0, new⟩] }, .ok ())
    | some back =>
      match (do let o ← read m back.ptr; let i ← Framed.inverse L o; let q ← read m new; Framed.mul L i q) with
      | .throw e => (m, c, .throw e)
      | .ub w => (m, c, .ub w)
      | .ok rel =>
        let dest := back.arcLength + arc rel.val
        (m, ⟨c.controls ++ [⟨dest, new⟩], c.segments ++ [⟨back.arcLength, dest, back.ptr, new, rel⟩]⟩, .ok ())

open Classical in
/-- `point_at_impl`, resim/curves/d_curve.cc:119-138, as in `DCurve.pointAtImpl`. -/
noncomputable def pointAtImpl (c : Curve G) (s : ℝ) : Outcome (Segment G × ℝ) := do
  Outcome.reassert (s ≥ 0) "Arc length values must be positive."
  Outcome.reassert (s ≤ curveLength c) "Attempt to query a point at an arc length longer that the curve."
  match c.segments.find? (fun g => decide (s ≤ g.destArcLength)) with
  | none => .throw "Did not find valid segment."
  | some g =>
    if g.destArcLength - g.origArcLength = 0 then .ub "division by zero"
    else .ok (g, (s - g.origArcLength) / (g.destArcLength - g.origArcLength))

/-- `point_at`, resim/curves/d_curve.cc:76-82. -/
noncomputable def pointAt (L : LieOps ℝ G A V) (m : Heap G) (c : Curve G) (s : ℝ) : Outcome (Framed G) := do
  let d ← pointAtImpl c s
  let q ← Framed.interp L d.1.origFromDest d.2
  let o ← read m d.1.refFromOrig
  Framed.mul L o q

/-- `*control_pts().at(k).ref_from_control`, resim/curves/d_curve.hh:31,59. -/
def controlPose (m : Heap G) (c : Curve G) (k : Nat) : Outcome (Framed G) :=
  match c.controls[k]? with
  | none => .throw "vector::_M_range_check"
  | some p => read m p.ptr

/-- A program with curves in variables; the heap they share through the `shared_ptr`s of resim/curves/d_curve.hh:31. -/
structure State (G : Type) where
  heap : Heap G
  vars : List (Curve G)

/-- Statements of a client, resim/curves/d_curve.hh:44-69: a new empty curve, a copy of curve `i` in a new variable (the implicit copy constructor), an append to
curve `i`, and an assignment through the pointer of control `k` of curve `i`, which `control_pts()` hands out without const. -/
inductive Op (G : Type) where
  | declare
  | copy (i : Nat)
  | append (i : Nat) (p : Framed G)
  | write (i k : Nat) (g : Framed G)

/-- One statement, resim/curves/d_curve.cc:33-67 and resim/curves/d_curve.hh:27-69.  A variable that does not exist is outside the language. -/
noncomputable def step (L : LieOps ℝ G A V) (arc : G → ℝ) (s : State G) : Op G → State G × Outcome Unit
  | .declare => ({ s with vars := s.vars ++ [empty] }, .ok ())
  | .copy i =>
    match s.vars[i]? with
    | none => (s, .ub "no such variable")
    | some c => ({ s with vars := s.vars ++ [c] }, .ok ())
  | .append i p =>
    match s.vars[i]? with
    | none => (s, .ub "no such variable")
    | some c =>
      let r := append L arc s.heap c p
      (⟨r.1, s.vars.set i r.2.1⟩, r.2.2)
  | .write i k g =>
    match s.vars[i]? with
    | none => (s, .ub "no such variable")
    | some c =>
      match c.controls[k]? with
      | none => (s, .throw "vector::_M_range_check")
      | some p => ({ s with heap := s.heap.set p.ptr g }, .ok ())

/-- A program, statement by statement; a statement that throws leaves the rest to run (the client catches).  resim/curves/d_curve.hh:44-69. -/
noncomputable def run (L : LieOps ℝ G A V) (arc : G → ℝ) (s : State G) : List (Op G) → State G × List (Outcome Unit)
  | [] => (s, [])
  | op :: ops =>
    let r := step L arc s op
    let q := run L arc r.1 ops
    (q.1, r.2 :: q.2)

end Verif.DHeap
