import Verif.Model.SampleIntervalDouble
import Verif.Model.TCurve
/-! # The time and distance arithmetic of resim/curves/t_curve.cc and resim/curves/d_curve.cc in binary64 arithmetic

All doubles, infinities and not-a-number included.  Only times and arc lengths are modelled here, not the poses; the frames of the controls are
taken to match.  Simplifications: the sign of zero is dropped (the only divisors below that can be zero are differences of equal numbers, which
are positive zero), and the compiler does not fuse multiplications and additions. -/
namespace Verif
open SampleIntervalDouble

/-- A `double`: the arithmetic type of resim/curves/t_curve.cc:63-73,142-155 and resim/curves/d_curve.cc:50-64,122-137. -/
inductive Double where
  | nan
  | inf (negative : Bool)
  | num (q : ℚ)
  deriving DecidableEq

namespace Double

/-- The double nearest to an exact result: rounding of the operations in resim/curves/t_curve.cc:73,152-154. -/
def ofExact (q : ℚ) : Double := if |round64 q| < 2 ^ 1024 then num (round64 q) else inf (decide (q < 0))

/-- `<` and `>` on doubles, used at resim/curves/t_curve.cc:63,142-143,150. -/
def lt : Double → Double → Bool
  | nan, _ => false
  | _, nan => false
  | num a, num b => decide (a < b)
  | inf n, inf m => n && !m
  | inf n, num _ => n
  | num _, inf m => !m

/-- `<=` and `>=` on doubles, used at resim/curves/d_curve.cc:123,126,131. -/
def le : Double → Double → Bool
  | nan, _ => false
  | _, nan => false
  | num a, num b => decide (a ≤ b)
  | inf n, inf m => n || !m
  | inf n, num _ => n
  | num _, inf m => !m

/-- `+` on doubles, used at resim/curves/d_curve.cc:56. -/
def add : Double → Double → Double
  | nan, _ => nan
  | _, nan => nan
  | num a, num b => ofExact (a + b)
  | inf n, inf m => if n = m then inf n else nan
  | inf n, num _ => inf n
  | num _, inf m => inf m

/-- `-` on doubles, used at resim/curves/t_curve.cc:73,152,154 and resim/curves/d_curve.cc:135-136. -/
def sub : Double → Double → Double
  | nan, _ => nan
  | _, nan => nan
  | num a, num b => ofExact (a - b)
  | inf n, inf m => if n = m then nan else inf n
  | inf n, num _ => inf n
  | num _, inf m => inf (!m)

/-- `*` on doubles, used at resim/curves/t_curve.cc:154. -/
def mul : Double → Double → Double
  | nan, _ => nan
  | _, nan => nan
  | num a, num b => ofExact (a * b)
  | inf n, inf m => inf (n != m)
  | inf n, num b => if b = 0 then nan else inf (n != decide (b < 0))
  | num a, inf m => if a = 0 then nan else inf (m != decide (a < 0))

/-- `/` on doubles, used at resim/curves/t_curve.cc:153 and resim/curves/d_curve.cc:135-136. -/
def div : Double → Double → Double
  | nan, _ => nan
  | _, nan => nan
  | num a, num b => if b = 0 then (if a = 0 then nan else inf (decide (a < 0))) else ofExact (a / b)
  | inf _, inf _ => nan
  | inf n, num b => inf (n != decide (b < 0))
  | num _, inf _ => num 0

end Double

/-- The times held by a `TCurve`, resim/curves/t_curve.hh:93-95: those of `control_pts_`, and `orig_time` and `dest_time` of `segments_`. -/
structure TTimes where
  controls : List Double
  segments : List (Double × Double)
  deriving DecidableEq

namespace TTimes
open Double

/-- `append(Control)`, resim/curves/t_curve.cc:55-89, for a control at time `p` whose frames match. -/
def append (c : TTimes) (p : Double) : TTimes × Outcome Unit :=
  match c.controls.getLast? with
  | none => ({ c with controls := c.controls ++ [p] }, .ok ())
  | some back =>
    if lt back p = false then (c, .throw "Control points must have strictly increasing time")
    else (⟨c.controls ++ [p], c.segments ++ [(back, p)]⟩, .ok ())

/-- The loop over `append`, resim/curves/t_curve.cc:91-96. -/
def appendList (c : TTimes) : List Double → TTimes × Outcome Unit
  | [] => (c, .ok ())
  | p :: ps =>
    match append c p with
    | (c', .ok ()) => appendList c' ps
    | (c', o) => (c', o)

/-- The constructors, resim/curves/t_curve.cc:43-53. -/
def make (ps : List Double) : Outcome TTimes :=
  match appendList ⟨[], []⟩ ps with
  | (c, .ok ()) => .ok c
  | (_, .throw m) => .throw m
  | (_, .ub w) => .ub w

/-- `point_at_impl`, resim/curves/t_curve.cc:134-156: the index of the segment, `inv_dt` and `time_nrm`. -/
def query (c : TTimes) (time : Double) : Outcome (Nat × Double × Double) := do
  Outcome.reassert (c.segments ≠ []) "Cannot query a curve with less than two control points"
  match c.controls.head?, c.controls.getLast? with
  | some front, some back =>
    let timeLo := lt time front
    let timeHi := lt back time
    Outcome.reassert ((!timeLo && !timeHi) = true) "Query time must be within the range of times in the control points."
    let i := lowerBound (fun s => lt s.2 time) c.segments 0 c.segments.length
    match c.segments[i]? with
    | none => .ub "segment iterator past the end"
    | some s =>
      let dt := sub s.2 s.1
      let invDt := div (num 1) dt
      .ok (i, invDt, mul invDt (sub time s.1))
  | _, _ => .ub "front or back of empty vector"

end TTimes

/-- The arc lengths held by a `DCurve`, resim/curves/d_curve.hh:82-84: those of `control_pts_`, and `orig_arc_length` and `dest_arc_length` of
`segments_`. -/
structure DLengths where
  controls : List Double
  segments : List (Double × Double)
  deriving DecidableEq

namespace DLengths
open Double

/-- `append(Group)`, resim/curves/d_curve.cc:33-67, for a pose whose frames match; `len` is `orig_from_control.arc_length()` (line 53), which is not
looked at for the first pose. -/
def append (c : DLengths) (len : Double) : DLengths :=
  match c.controls.getLast? with
  | none => { c with controls := c.controls ++ [num 0] }
  | some back => ⟨c.controls ++ [add back len], c.segments ++ [(back, add back len)]⟩

/-- The constructors, resim/curves/d_curve.cc:21-31,69-74: a first pose and then one for each of the lengths.  The first pose
has no length, so not-a-number stands for it. -/
def make (lens : List Double) : DLengths := lens.foldl append (append ⟨[], []⟩ nan)

/-- `curve_length`, resim/curves/d_curve.cc:96-99. -/
def curveLength (c : DLengths) : Double :=
  match c.controls.getLast? with
  | none => num 0
  | some l => l

/-- `point_at_impl`, resim/curves/d_curve.cc:119-138: the index of the segment and `fraction`. -/
def query (c : DLengths) (arc : Double) : Outcome (Nat × Double) := do
  Outcome.reassert (le (num 0) arc = true) "Arc length values must be positive."
  Outcome.reassert (le arc (curveLength c) = true) "Attempt to query a point at an arc length longer that the curve."
  let i := c.segments.findIdx (fun s => le arc s.2)
  match c.segments[i]? with
  | none => .throw "Did not find valid segment."
  | some s => .ok (i, div (sub arc s.1) (sub s.2 s.1))

end DLengths
end Verif
