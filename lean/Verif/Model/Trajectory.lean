import Verif.Model.RigidBodyState
import Verif.Model.TCurve
import Verif.Model.Binary64
import Mathlib.Algebra.Order.Archimedean.Real.Basic
import Mathlib.Algebra.Order.Floor.Ring
/-! # resim/actor/state/trajectory.cc

Timestamps and durations are `int64_t` nanosecond counts, kept as integers with undefined behaviour on overflow.  The times stored in the curve are
the rounded doubles computed by `as_seconds`; the curve itself computes in exact real arithmetic (resim/curves/t_curve.cc model). -/
namespace Verif

namespace Binary64
/-- `roundEven` on reals (a double held as a real number): rounding rule of resim/time/timestamp.hh:30-33. -/
noncomputable def roundEvenR (x : ℝ) : ℤ :=
  let f := ⌊x⌋
  let d := x - f
  if d < 1 / 2 then f
  else if 1 / 2 < d then f + 1
  else if f % 2 = 0 then f else f + 1

/-- `fl` on reals: rounding of an exact result to a double, as in resim/time/timestamp.hh:30-33. -/
noncomputable def flR (x : ℝ) : ℝ := if x = 0 then 0 else roundEvenR (x / 2 ^ (Int.log 2 |x| - 52)) * 2 ^ (Int.log 2 |x| - 52)

/-- `trunc` on reals, `static_cast<int64_t>` inside `duration_cast` (resim/time/timestamp.hh:31). -/
noncomputable def truncR (x : ℝ) : ℤ := if 0 ≤ x then ⌊x⌋ else ⌈x⌉

/-- `as_duration` on a double held as a real number, resim/time/timestamp.hh:30-33.  It agrees with `asDuration` on rationals. -/
noncomputable def asDurationR (x : ℝ) : Outcome Int := i64 (truncR (flR (x * 1000000000)))
end Binary64

open Binary64

/-- `Trajectory::Control`, resim/actor/state/trajectory.hh:42-47. -/
@[ext] structure TrajControl where
  atTime : Int
  state : RBState

/-- `Trajectory`, resim/actor/state/trajectory.hh:97-98: `curve_`, `start_time_`. -/
structure Trajectory where
  curve : TCurve Pose Twist
  startTime : Int

namespace Trajectory

/-- The default constructor, resim/actor/state/trajectory.hh:50 (a default `Timestamp` is the epoch). -/
noncomputable def empty : Trajectory := ⟨TCurve.empty, 0⟩

/-- The constructor from a curve, resim/actor/state/trajectory.cc:28-30. -/
def ofCurve (c : TCurve Pose Twist) (start : Int) : Trajectory := ⟨c, start⟩

/-- The error string of resim/actor/state/trajectory.cc:80-81,87-88. -/
def emptyErr : String := "Cannot query the frame of a trajectory with no control points"

/-- `reference_frame`, resim/actor/state/trajectory.cc:79-84. -/
def referenceFrame (T : Trajectory) : Outcome Frame :=
  match T.curve.controls.getLast? with
  | none => .throw emptyErr
  | some p => .ok p.point.g.src

/-- `body_frame`, resim/actor/state/trajectory.cc:86-91. -/
def bodyFrame (T : Trajectory) : Outcome Frame :=
  match T.curve.controls.getLast? with
  | none => .throw emptyErr
  | some p => .ok p.point.g.into

/-- The end of `append(Control)`, resim/actor/state/trajectory.cc:47-49: the trajectory afterwards and how the call ended. -/
noncomputable def push (T : Trajectory) (p : TrajControl) : Trajectory × Outcome Unit :=
  match i64 (p.atTime - T.startTime) with
  | .ok d =>
    match TwoJetR.left SE3.ops p.state.twoJet with
    | .ok j =>
      let r := TCurve.append T.curve ⟨(asSeconds d : ℝ), j⟩
      ({ T with curve := r.1 }, r.2)
    | .throw m => (T, .throw m)
    | .ub w => (T, .ub w)
  | .throw m => (T, .throw m)
  | .ub w => (T, .ub w)

/-- `append(Control)`, resim/actor/state/trajectory.cc:32-50: the trajectory afterwards and how the call ended. -/
noncomputable def append (T : Trajectory) (p : TrajControl) : Trajectory × Outcome Unit :=
  if T.curve.controls.length = 0 then push { T with startTime := p.atTime } p
  else
    match bodyFrame T with
    | .ok f => if p.state.refFromBody.src = f then push T p else (T, .throw "All control points must have the same body frame")
    | .throw m => (T, .throw m)
    | .ub w => (T, .ub w)

/-- `append(initializer_list)`, resim/actor/state/trajectory.cc:52-56: stops at the first control that is refused. -/
noncomputable def appendList (T : Trajectory) : List TrajControl → Trajectory × Outcome Unit
  | [] => (T, .ok ())
  | p :: ps =>
    match append T p with
    | (T', .ok ()) => appendList T' ps
    | (T', o) => (T', o)

/-- The constructor from a list, resim/actor/state/trajectory.cc:24-26. -/
noncomputable def make (ps : List TrajControl) : Outcome Trajectory :=
  match appendList empty ps with
  | (T, .ok ()) => .ok T
  | (_, .throw m) => .throw m
  | (_, .ub w) => .ub w

/-- `point_at(Duration)`, resim/actor/state/trajectory.cc:63-67. -/
noncomputable def pointAtDuration (T : Trajectory) (d : Int) : Outcome RBState := do
  let j ← TCurve.pointAt SE3.ops T.curve (asSeconds d : ℝ)
  let r ← TwoJetL.right SE3.ops j
  .ok ⟨r⟩

/-- `point_at(Timestamp)`, resim/actor/state/trajectory.cc:58-61. -/
noncomputable def pointAt (T : Trajectory) (t : Int) : Outcome RBState := do
  let d ← i64 (t - T.startTime)
  let j ← TCurve.pointAt SE3.ops T.curve (asSeconds d : ℝ)
  let r ← TwoJetL.right SE3.ops j
  .ok ⟨r⟩

/-- `time_duration`, resim/actor/state/trajectory.cc:75-77; `back()` of an empty vector is undefined behaviour. -/
noncomputable def timeDuration (T : Trajectory) : Outcome Int :=
  match T.curve.controls.getLast? with
  | none => .ub "back of empty vector"
  | some p => asDurationR p.time

/-- `end_time`, resim/actor/state/trajectory.cc:71-73. -/
noncomputable def endTime (T : Trajectory) : Outcome Int := do
  let d ← timeDuration T
  i64 (T.startTime + d)

end Trajectory
end Verif
