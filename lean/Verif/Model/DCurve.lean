import Verif.Model.SE3
import Verif.Model.Frame
/-! # resim/curves/d_curve.cc in exact real arithmetic

Generic in the group class; `arc` is its `arc_length`.  The template is instantiated for SE3 only (d_curve.cc:140).  Shared pointers are
modelled by the values they point to; `c81_values_partial` shows that this makes no difference to clients that do not write through them. -/
namespace Verif

variable {G A V : Type}

/-- `DCurve::Control`, resim/curves/d_curve.hh:27-32. -/
structure DControl (G : Type) where
  arcLength : ℝ
  pose : Framed G

/-- `DCurve::Segment`, resim/curves/d_curve.hh:36-43. -/
structure DSegment (G : Type) where
  origArcLength : ℝ
  destArcLength : ℝ
  refFromOrig : Framed G
  refFromDest : Framed G
  origFromDest : Framed G

/-- `DCurve<Group>`, resim/curves/d_curve.hh:82-84: `control_pts_`, `segments_`. -/
structure DCurve (G : Type) where
  controls : List (DControl G)
  segments : List (DSegment G)

namespace DCurve

/-- The default constructor, resim/curves/d_curve.hh:44. -/
def empty : DCurve G := ⟨[], []⟩

/-- `EMPTY_ERR`, resim/curves/d_curve.cc:17-18. -/
def emptyErr : String := "Cannot query the frames of a curve with no control points"

/-- `curve_length`, resim/curves/d_curve.cc:96-99. -/
def curveLength (c : DCurve G) : ℝ :=
  match c.controls.getLast? with
  | none => 0
  | some p => p.arcLength

/-- `is_framed`, resim/curves/d_curve.cc:101-105. -/
def isFramed (c : DCurve G) : Outcome Bool :=
  match c.controls.head? with
  | none => .throw emptyErr
  | some p => .ok p.pose.isFramed

/-- `point_frame`, resim/curves/d_curve.cc:107-111. -/
def pointFrame (c : DCurve G) : Outcome Frame :=
  match c.controls.head? with
  | none => .throw emptyErr
  | some p => .ok p.pose.src

/-- `reference_frame`, resim/curves/d_curve.cc:113-117. -/
def referenceFrame (c : DCurve G) : Outcome Frame :=
  match c.controls.head? with
  | none => .throw emptyErr
  | some p => .ok p.pose.into

/-- The frame check at the start of `append`, resim/curves/d_curve.cc:35-41. -/
def checkFrames (c : DCurve G) (p : Framed G) : Outcome Unit :=
  if c.controls.isEmpty then .ok ()
  else do
    if ← isFramed c then
      let r ← referenceFrame c
      let f ← pointFrame c
      Outcome.reassert (p.verifyFrames r f) "Control points must have the same reference and point frames."
    else .ok ()

/-- `append(Group)`, resim/curves/d_curve.cc:33-67: the curve afterwards and how the call ended. -/
noncomputable def append (L : LieOps ℝ G A V) (arc : G → ℝ) (c : DCurve G) (p : Framed G) : DCurve G × Outcome Unit :=
  match checkFrames c p with
  | .throw m => (c, .throw m)
  | .ub w => (c, .ub w)
  | .ok () =>
    match c.controls.getLast? with
    | none => ({ c with controls := c.controls ++ [⟨0, p⟩] }, .ok ())
    | some back =>
      match (do let i ← Framed.inverse L back.pose; Framed.mul L i p) with
      | .throw m => (c, .throw m)
      | .ub w => (c, .ub w)
      | .ok rel =>
        let dest := back.arcLength + arc rel.val
        (⟨c.controls ++ [⟨dest, p⟩], c.segments ++ [⟨back.arcLength, dest, back.pose, p, rel⟩]⟩, .ok ())

/-- `append(initializer_list)`, resim/curves/d_curve.cc:69-74: stops at the first pose that is refused. -/
noncomputable def appendList (L : LieOps ℝ G A V) (arc : G → ℝ) (c : DCurve G) : List (Framed G) → DCurve G × Outcome Unit
  | [] => (c, .ok ())
  | p :: ps =>
    match append L arc c p with
    | (c', .ok ()) => appendList L arc c' ps
    | (c', o) => (c', o)

/-- The constructors, resim/curves/d_curve.cc:21-31. -/
noncomputable def make (L : LieOps ℝ G A V) (arc : G → ℝ) (ps : List (Framed G)) : Outcome (DCurve G) :=
  match appendList L arc empty ps with
  | (c, .ok ()) => .ok c
  | (_, .throw m) => .throw m
  | (_, .ub w) => .ub w

open Classical in
/-- `point_at_impl`, resim/curves/d_curve.cc:119-138: the segment and the fraction.  Division by zero, which gives not-a-number or infinity in
the code, is the outcome `ub` here. -/
noncomputable def pointAtImpl (c : DCurve G) (s : ℝ) : Outcome (DSegment G × ℝ) := do
  Outcome.reassert (s ≥ 0) "Arc length values must be positive."
  Outcome.reassert (s ≤ curveLength c) "Attempt to query a point at an arc length longer that the curve."
  match c.segments.find? (fun g => decide (s ≤ g.destArcLength)) with
  | none => .throw "Did not find valid segment."
  | some g =>
    if g.destArcLength - g.origArcLength = 0 then .ub "division by zero"
    else .ok (g, (s - g.origArcLength) / (g.destArcLength - g.origArcLength))

/-- `point_at`, resim/curves/d_curve.cc:76-82. -/
noncomputable def pointAt (L : LieOps ℝ G A V) (c : DCurve G) (s : ℝ) : Outcome (Framed G) := do
  let d ← pointAtImpl c s
  let q ← Framed.interp L d.1.origFromDest d.2
  Framed.mul L d.1.refFromOrig q

end DCurve
end Verif
