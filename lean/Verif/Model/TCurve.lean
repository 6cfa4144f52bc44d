import Verif.Model.TwoJet
import Mathlib.Algebra.Module.Defs
import Mathlib.Data.Real.Basic
import Mathlib.Data.Fin.VecNotation
/-! # resim/curves/quintic_poly_coeffs.cc, t_curve_segment.cc, t_curve.cc in exact real arithmetic

Generic in the Lie group class, as in the C++ templates.  Doubles are finite real numbers here: not-a-number and infinite times are
outside the model. -/
namespace Verif

/-- `TwoJetPolyCoeffs`, resim/curves/quintic_poly_coeffs.hh:19-23. -/
structure PolyCoeffs where
  a : ℝ
  da : ℝ
  d2a : ℝ

namespace Quintic

/-- `DEST_ORIG`, resim/curves/quintic_poly_coeffs.hh:69. -/
noncomputable def destOrigTable : Fin 5 → ℝ := ![0, 0, 10, -15, 6]
/-- `D_ORIG`, resim/curves/quintic_poly_coeffs.hh:70. -/
noncomputable def dOrigTable : Fin 5 → ℝ := ![1, 0, -6, 8, -3]
/-- `D_DEST`, resim/curves/quintic_poly_coeffs.hh:71. -/
noncomputable def dDestTable : Fin 5 → ℝ := ![0, 0, -4, 7, -3]
/-- `D2_ORIG`, resim/curves/quintic_poly_coeffs.hh:72. -/
noncomputable def d2OrigTable : Fin 5 → ℝ := ![0, 0.5, -1.5, 1.5, -0.5]
/-- `D2_DEST`, resim/curves/quintic_poly_coeffs.hh:73. -/
noncomputable def d2DestTable : Fin 5 → ℝ := ![0, 0, 0.5, -1, 0.5]
/-- `A`, resim/curves/quintic_poly_coeffs.hh:81. -/
def multA : Fin 5 → ℝ := ![1, 1, 1, 1, 1]
/-- `DA`, resim/curves/quintic_poly_coeffs.hh:82. -/
def multDA : Fin 5 → ℝ := ![1, 2, 3, 4, 5]
/-- `D2A`, resim/curves/quintic_poly_coeffs.hh:83. -/
def multD2A : Fin 5 → ℝ := ![0, 2, 6, 12, 20]

/-- `two_jet_single_coeff`, resim/curves/quintic_poly_coeffs.cc:27-37: the loop runs over the indices from 4 down to `smallest`. -/
noncomputable def singleCoeff (mult coeffs : Fin 5 → ℝ) (t : ℝ) (smallest : Nat) : ℝ :=
  ([4, 3, 2, 1, 0].takeWhile (fun i : Fin 5 => smallest ≤ i.val)).foldl (fun acc i => t * (mult i * coeffs i + acc)) 0

/-- `two_jet_coeffs`, resim/curves/quintic_poly_coeffs.cc:39-48. -/
noncomputable def coeffs (c : Fin 5 → ℝ) (t : ℝ) : PolyCoeffs :=
  ⟨singleCoeff multA c t 0, multDA 0 * c 0 + singleCoeff multDA c t 1, multD2A 1 * c 1 + singleCoeff multD2A c t 2⟩

/-- `dest_from_orig`, resim/curves/quintic_poly_coeffs.cc:11-13. -/
noncomputable def destFromOrig (t : ℝ) : PolyCoeffs := coeffs destOrigTable t
/-- `d_orig`, resim/curves/quintic_poly_coeffs.cc:14-16. -/
noncomputable def dOrig (t : ℝ) : PolyCoeffs := coeffs dOrigTable t
/-- `d_dest`, resim/curves/quintic_poly_coeffs.cc:17-19. -/
noncomputable def dDest (t : ℝ) : PolyCoeffs := coeffs dDestTable t
/-- `d2_orig`, resim/curves/quintic_poly_coeffs.cc:20-22. -/
noncomputable def d2Orig (t : ℝ) : PolyCoeffs := coeffs d2OrigTable t
/-- `d2_dest`, resim/curves/quintic_poly_coeffs.cc:23-25. -/
noncomputable def d2Dest (t : ℝ) : PolyCoeffs := coeffs d2DestTable t

end Quintic

variable {G A V : Type} [AddCommGroup A]

/-- `TCurveSegment<Group>`, resim/curves/t_curve_segment.hh:27-72: `orig_`, `dest_`. -/
@[ext] structure TSegment (G A : Type) where
  orig : TwoJetL G A
  dest : TwoJetL G A

namespace TSegment

/-- The constructor, resim/curves/t_curve_segment.cc:27-38. -/
def make (orig dest : TwoJetL G A) : Outcome (TSegment G A) :=
  if orig.g.verifyFrames dest.g.into dest.g.src then .ok ⟨orig, dest⟩
  else .throw "Origin and destination TwoJets must have matching frames."

/-- `point_value_accumulator`, resim/curves/t_curve_segment.cc:121-133. -/
def accumulate (L : LieOps ℝ G A V) (seg : TSegment G A) (k : PolyCoeffs) (vec : A) (point : TwoJetL G A) : Outcome (TwoJetL G A) := do
  let e ← Framed.exp L (L.smul k.a vec) seg.orig.g.into seg.orig.g.into
  TwoJetL.mul L ⟨e, L.smul k.da vec, L.smul k.d2a vec⟩ point

/-- `point_at`, resim/curves/t_curve_segment.cc:40-92. -/
noncomputable def pointAt (L : LieOps ℝ G A V) (seg : TSegment G A) (t : ℝ) : Outcome (TwoJetL G A) := do
  let start ← Framed.identity L seg.orig.g.into seg.orig.g.into
  let p0 : TwoJetL G A := ⟨start, (TwoJetL.identityUnframed L).d, (TwoJetL.identityUnframed L).d2⟩
  let origInv ← Framed.inverse L seg.orig.g
  let destFromOrig ← Framed.mul L seg.dest.g origInv
  let p1 ← accumulate L seg (Quintic.destFromOrig t) (L.log destFromOrig.val) p0
  let p2 ← accumulate L seg (Quintic.dOrig t) seg.orig.d p1
  let p3 ← accumulate L seg (Quintic.dDest t) seg.dest.d p2
  let p4 ← accumulate L seg (Quintic.d2Orig t) seg.orig.d2 p3
  let p5 ← accumulate L seg (Quintic.d2Dest t) seg.dest.d2 p4
  let g ← Framed.mul L p5.g seg.orig.g
  .ok { p5 with g := g }

/-- `reference_frame`, resim/curves/t_curve_segment.cc:99-103. -/
def referenceFrame (seg : TSegment G A) : Frame := seg.orig.g.src

/-- `point_frame`, resim/curves/t_curve_segment.cc:105-109. -/
def pointFrame (seg : TSegment G A) : Frame := seg.orig.g.into

end TSegment

/-- `TCurve::Control`, resim/curves/t_curve.hh:35-41. -/
structure TControl (G A : Type) where
  time : ℝ
  point : TwoJetL G A

/-- `TCurve::Segment`, resim/curves/t_curve.hh:44-48. -/
structure TPiece (G A : Type) where
  origTime : ℝ
  destTime : ℝ
  curve : TSegment G A

/-- `TCurve<Group>`, resim/curves/t_curve.hh:93-95: `control_pts_`, `segments_`. -/
structure TCurve (G A : Type) where
  controls : List (TControl G A)
  segments : List (TPiece G A)

/-- `std::lower_bound` (called at resim/curves/t_curve.cc:145-151) as the halving search of the C++ standard's complexity requirement:
`first` is the start of the remaining range and `len` its length; the result is an index.  `p` is the comparison with the value
filled in. -/
def lowerBound {α : Type} (p : α → Bool) (l : List α) (first len : Nat) : Nat :=
  if _h : len = 0 then first
  else
    let half := len / 2
    match l[first + half]? with
    | none => first
    | some x => if p x then lowerBound p l (first + half + 1) (len - half - 1) else lowerBound p l first half
termination_by len
decreasing_by all_goals omega

namespace TCurve

/-- The default constructor, resim/curves/t_curve.hh:49. -/
def empty : TCurve G A := ⟨[], []⟩

/-- `EMPTY_ERR`, resim/curves/t_curve.cc:25-26. -/
def emptyErr : String := "Cannot query the frame of a curve with no control points"

/-- `reference_frame`, resim/curves/t_curve.cc:28-33,104-107. -/
def referenceFrame (c : TCurve G A) : Outcome Frame :=
  match c.controls.getLast? with
  | none => .throw emptyErr
  | some p => .ok p.point.g.src

/-- `point_frame`, resim/curves/t_curve.cc:35-40,109-112. -/
def pointFrame (c : TCurve G A) : Outcome Frame :=
  match c.controls.getLast? with
  | none => .throw emptyErr
  | some p => .ok p.point.g.into

/-- `is_framed`, resim/curves/t_curve.cc:98-102. -/
def isFramed (c : TCurve G A) : Outcome Bool :=
  match c.controls.getLast? with
  | none => .throw emptyErr
  | some p => .ok p.point.g.isFramed

/-- `start_time`, resim/curves/t_curve.cc:172-176. -/
def startTime (c : TCurve G A) : Outcome ℝ :=
  match c.controls.head? with
  | none => .throw emptyErr
  | some p => .ok p.time

/-- `end_time`, resim/curves/t_curve.cc:166-170. -/
def endTime (c : TCurve G A) : Outcome ℝ :=
  match c.controls.getLast? with
  | none => .throw emptyErr
  | some p => .ok p.time

/-- A two-jet with derivatives scaled by `dt`, `dt * dt`, resim/curves/t_curve.cc:74-81. -/
def scaled [Module ℝ A] (j : TwoJetL G A) (dt : ℝ) : TwoJetL G A := ⟨j.g, dt • j.d, dt • dt • j.d2⟩

open Classical in
/-- `append(Control)`, resim/curves/t_curve.cc:55-89: the curve afterwards and how the call ended. -/
noncomputable def append [Module ℝ A] (c : TCurve G A) (p : TControl G A) : TCurve G A × Outcome Unit :=
  match c.controls.getLast? with
  | none => ({ c with controls := c.controls ++ [p] }, .ok ())
  | some back =>
    if ¬ p.time > back.time then (c, .throw "Control points must have strictly increasing time")
    else if ¬ p.point.g.verifyFrames back.point.g.into back.point.g.src then
      (c, .throw "Control points must all have the same ref and point frame")
    else
      let dt := p.time - back.time
      match TSegment.make (scaled back.point dt) (scaled p.point dt) with
      | .ok s =>
        let c1 : TCurve G A := { c with segments := c.segments ++ [⟨back.time, p.time, s⟩] }
        ({ c1 with controls := c1.controls ++ [p] }, .ok ())
      | .throw m => (c, .throw m)
      | .ub w => (c, .ub w)

/-- `append(initializer_list)`, resim/curves/t_curve.cc:91-96: stops at the first control that is refused. -/
noncomputable def appendList [Module ℝ A] (c : TCurve G A) : List (TControl G A) → TCurve G A × Outcome Unit
  | [] => (c, .ok ())
  | p :: ps =>
    match append c p with
    | (c', .ok ()) => appendList c' ps
    | (c', o) => (c', o)

/-- The constructors from a list of controls, resim/curves/t_curve.cc:43-53. -/
noncomputable def make [Module ℝ A] (ps : List (TControl G A)) : Outcome (TCurve G A) :=
  match appendList empty ps with
  | (c, .ok ()) => .ok c
  | (_, .throw m) => .throw m
  | (_, .ub w) => .ub w

/-- `PointAtData`, resim/curves/t_curve.hh:80-87. -/
structure PointAtData (G A : Type) where
  piece : TPiece G A
  invDt : ℝ
  timeNrm : ℝ

open Classical in
/-- `point_at_impl`, resim/curves/t_curve.cc:134-156.  Reading `control_pts_` or the end of `segments_` when there is no such element is
undefined behaviour.  Division by zero (equal segment times) is undefined behaviour here, in place of IEEE infinity. -/
noncomputable def pointAtImpl (c : TCurve G A) (time : ℝ) : Outcome (PointAtData G A) := do
  Outcome.reassert (c.segments ≠ []) "Cannot query a curve with less than two control points"
  match c.controls.head?, c.controls.getLast? with
  | some front, some back =>
    Outcome.reassert (¬ time < front.time ∧ ¬ time > back.time)
      "Query time must be within the range of times in the control points."
    match c.segments[lowerBound (fun s => decide (s.destTime < time)) c.segments 0 c.segments.length]? with
    | none => .ub "segment iterator past the end"
    | some s =>
      let dt := s.destTime - s.origTime
      if dt = 0 then .ub "division by zero"
      else .ok ⟨s, 1 / dt, 1 / dt * (time - s.origTime)⟩
  | _, _ => .ub "front or back of empty vector"

/-- `unnormalize_derivatives`, resim/curves/t_curve.cc:158-164. -/
def unnormalize [Module ℝ A] (invDt : ℝ) (j : TwoJetL G A) : TwoJetL G A := { j with d := invDt • j.d, d2 := invDt • invDt • j.d2 }

/-- `point_at`, resim/curves/t_curve.cc:114-120. -/
noncomputable def pointAt [Module ℝ A] (L : LieOps ℝ G A V) (c : TCurve G A) (time : ℝ) : Outcome (TwoJetL G A) := do
  let pd ← pointAtImpl c time
  let p ← TSegment.pointAt L pd.piece.curve pd.timeNrm
  .ok (unnormalize pd.invDt p)

end TCurve
end Verif
