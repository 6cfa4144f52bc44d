import Verif.Model.TestElements
import Verif.Model.CurveExamples
import Verif.Model.Proto
/-! # Payloads for the tests of the view: resim/visualization/view_server/view_server_test_helper.cc and resim/visualization/proto/view_primitive_test_helper.cc

`fresh n` is the result of the call number `n` of `Frame::new_frame` (resim/transforms/frame.hh:31), counted from the beginning of the function at hand;
`r` are the pseudo-random numbers, which depend only on the constant seed at hand; real arithmetic; the count fits an `int`. -/
namespace Verif.TestPayloads
open TestElements CurveExamples Proto

/-- The types for which `generate_payload_type` is specialised, resim/visualization/view_server/view_server_test_helper.cc:46,59,78,97,125,145,166. -/
inductive Viewable where
  | frame | se3 | so3 | dCurve | tCurve | trajectory | framedVector
  deriving DecidableEq

/-- `LOW_COUNT`, resim/visualization/view_server/view_server_test_helper.cc:32-34. -/
def lowCount : String := "The minimum number of test elements you can request is seven. Please increase the count."

/-- `MIN_TEST_ELEMENTS`, resim/visualization/view_server/view_server_test_helper.hh:15. -/
def minTestElements : Nat := 7

/-- The loop over the elements, resim/visualization/view_server/view_server_test_helper.cc:64-74 and 83-93: two new frames for every element, or none. -/
def giveFrames {G : Type} (fresh : Nat → Frame) (framed : Bool) (n : Nat) : List G → Outcome (List (Framed G))
  | [] => .ok []
  | element :: elements => do
    let point ← if framed then Framed.setFrames (Framed.unframed element) (fresh (n + 1)) (fresh n) else .ok (Framed.setUnframed (Framed.unframed element))
    let points ← giveFrames fresh framed (n + 2) elements
    .ok (point :: points)

/-- The loops that push the same thing `count` times, resim/visualization/view_server/view_server_test_helper.cc:106-116,136-140. -/
def repeated {α : Type} (make : Outcome α) : Nat → Outcome (List α)
  | 0 => .ok []
  | count + 1 => do
    let x ← make
    let xs ← repeated make count
    .ok (x :: xs)

/-- `DCurveCircle<SE3>::points`, resim/curves/d_curve_test_helpers.cc:22-48, with its frames. -/
noncomputable def circlePoints (ref pnt : Frame) : List (Framed Pose) := threeQuarters.map fun g => ⟨g, ref, pnt⟩

/-- `generate_payload_type<DCurve<SE3>>`, resim/visualization/view_server/view_server_test_helper.cc:97-123.  `ref` and `pnt` are `REF_FRAME` and
`PNT_FRAME`, resim/curves/d_curve_test_helpers.hh:21-22.  Assigning to `front()` (line 120) of no curves would be undefined. -/
noncomputable def generateDCurves (ref pnt : Frame) (count : Nat) (framed : Bool) : Outcome (List (DCurve Pose)) := do
  Outcome.reassert (count ≥ minTestElements) lowCount
  let curves ← repeated (DCurve.make SE3.ops SE3.arcLength (if framed then circlePoints ref pnt else circlePoints Frame.null Frame.null)) count
  if framed then .ok curves else
    match curves with
    | [] => .ub "front of an empty vector"
    | _ :: rest => .ok (DCurve.empty :: rest)

/-- `generate_payload_type<TCurve<SE3>>`, resim/visualization/view_server/view_server_test_helper.cc:125-143. -/
noncomputable def generateTCurves (fresh : Nat → Frame) (count : Nat) (framed : Bool) : Outcome (List (TCurve Pose Twist)) := do
  Outcome.reassert (count ≥ minTestElements) lowCount
  let into := if framed then fresh 0 else Frame.null
  let src := if framed then fresh 1 else Frame.null
  repeated (makeCircleCurve into src) count

/-- `generate_payload_type`, resim/visualization/view_server/view_server_test_helper.cc:46-180.  The constructor of `FramedVector`
from a vector alone makes a new frame (resim/transforms/framed_vector.hh:49-51). -/
noncomputable def generatePayloads (fresh : Nat → Frame) (ref pnt : Frame) (r : ℕ → ℝ) (count : Nat) (framed : Bool) : Viewable → Outcome (List Payload)
  | .frame => do
    Outcome.reassert (count ≥ minTestElements) lowCount
    .ok ((List.range count).map fun i => Payload.frame (fresh i))
  | .se3 => do
    Outcome.reassert (count ≥ minTestElements) lowCount
    let elements ← makeTestPoses r count
    let points ← giveFrames fresh framed 0 elements
    .ok (points.map Payload.se3)
  | .so3 => do
    Outcome.reassert (count ≥ minTestElements) lowCount
    let elements ← makeTestRotations r count
    let points ← giveFrames fresh framed 0 elements
    .ok (points.map Payload.so3)
  | .dCurve => do
    let curves ← generateDCurves ref pnt count framed
    .ok (curves.map Payload.dCurve)
  | .tCurve => do
    let curves ← generateTCurves fresh count framed
    .ok (curves.map Payload.tCurve)
  | .trajectory => do
    Outcome.reassert (count ≥ minTestElements) lowCount
    let curves ← generateTCurves fresh count true
    .ok (curves.map fun c => Payload.trajectory (Trajectory.ofCurve c 0))
  | .framedVector => .ok ((List.range count).map fun i => Payload.framedVector ⟨random3 r 0, fresh i⟩)

/-- `NUM_GROUP_POINTS`, resim/visualization/proto/view_primitive_test_helper.cc:34. -/
def numGroupPoints : Nat := 10

/-- `generate_test_t_curve`, resim/visualization/proto/view_primitive_test_helper.cc:38-61: a second after each other, the derivatives from the numbers
`s` of the generator passed in.  `into` and `src` are the two new frames. -/
noncomputable def testTCurve (into src : Frame) (r s : ℕ → ℝ) : Outcome (TCurve Pose Twist) := do
  let poses ← makeTestPoses r numGroupPoints
  TCurve.make (poses.mapIdx fun i g => ⟨i, ⟨⟨g, into, src⟩, random6 s (12 * i), random6 s (12 * i + 6)⟩⟩)

/-- `generate_test_object`, resim/visualization/proto/view_primitive_test_helper.cc:64-116; `s` are the numbers of the generator seeded with 42, `r` those of
`make_test_group_elements`. -/
noncomputable def testObject (fresh : Nat → Frame) (r s : ℕ → ℝ) : Viewable → Outcome Payload
  | .frame => .ok (Payload.frame (fresh 0))
  | .se3 => do
    let g ← Framed.exp SE3.ops (random6 s 0) (fresh 0) (fresh 1)
    .ok (Payload.se3 g)
  | .so3 => do
    let g ← Framed.exp SO3.ops (random3 s 0) (fresh 0) (fresh 1)
    .ok (Payload.so3 g)
  | .dCurve => do
    let poses ← makeTestPoses r numGroupPoints
    let c ← DCurve.make SE3.ops SE3.arcLength (poses.map Framed.unframed)
    .ok (Payload.dCurve c)
  | .tCurve => do
    let c ← testTCurve (fresh 0) (fresh 1) r s
    .ok (Payload.tCurve c)
  | .trajectory => do
    let c ← testTCurve (fresh 0) (fresh 1) r s
    .ok (Payload.trajectory (Trajectory.ofCurve c 0))
  | .framedVector => .ok (Payload.framedVector ⟨random3 s 0, fresh 0⟩)

/-- `generate_test_primitive`, resim/visualization/proto/view_primitive_test_helper.cc:118-129, with `TEST_FILE_NAME` and `TEST_LINE_NUMBER`,
resim/visualization/proto/view_primitive_test_helper.hh:17-18; `id` is the new identifier. -/
noncomputable def testPrimitive (fresh : Nat → Frame) (r s : ℕ → ℝ) (id : Uuid) (name : Option String) (k : Viewable) : Outcome ViewPrimitive := do
  let payload ← testObject fresh r s k
  .ok ⟨id, payload, name, "test_file_name", 42⟩

end Verif.TestPayloads
