import Verif.Model.Trajectory
import Verif.Model.CurveExamples
/-! # The drone trajectory of the visualization examples, resim/visualization/examples/example_04_actor_trajectory.cc

Simplifications: `double` is modelled by `ℝ` (by `ℚ` with binary64 rounding where it becomes a time), `M_PI` and `M_PI_2` by `π` and `π / 2`. -/
namespace Verif.DroneExample
open SO3 CurveExamples

/-- The axis `Vector3d::UnitX()`, resim/visualization/examples/example_04_actor_trajectory.cc:66. -/
def xAxis : V3 := ![1, 0, 0]

/-- `DEFAULT_TIMES`, resim/visualization/examples/example_04_actor_trajectory.cc:35-38. -/
def defaultTimes : List ℚ := [0, 33 / 2, 33]

/-- `timestamps`, resim/visualization/examples/example_04_actor_trajectory.cc:45-53; `ZERO_TIME` (:33) is zero nanoseconds. -/
def timestamps : Outcome (List Int) :=
  defaultTimes.mapM fun t => do
    let d ← Binary64.asDuration t
    i64 (0 + d)

/-- `WAYPOINTS`, resim/visualization/examples/example_04_actor_trajectory.cc:39-42. -/
def waypoint : Fin 3 → V3 := ![![0, -3, 0], ![8, 0, 0], ![0, 3, 0]]

/-- `FWD_V_MPS`, resim/visualization/examples/example_04_actor_trajectory.cc:62. -/
def forwardSpeed : ℝ := 5

/-- `TURN_FWD_V_MPS`, resim/visualization/examples/example_04_actor_trajectory.cc:72. -/
def turnSpeed : ℝ := 7

/-- `TURN_R_M`, resim/visualization/examples/example_04_actor_trajectory.cc:73. -/
def turnRadius : ℝ := 150

/-- `turn_ang_v_radps`, resim/visualization/examples/example_04_actor_trajectory.cc:74. -/
noncomputable def turnRate : ℝ := Real.sqrt (turnSpeed / turnRadius)

/-- `state_0`, resim/visualization/examples/example_04_actor_trajectory.cc:60-63. -/
noncomputable def state0 (ref body : Frame) : Outcome RBState := do
  let pose ← Framed.mk' ((1, waypoint 0) : Pose) ref body
  .ok ((RBState.ofPose ⟨(1, 0), .null, .null⟩ pose).setLinearVelocity ![forwardSpeed, 0, 0])

/-- `state_1`, resim/visualization/examples/example_04_actor_trajectory.cc:65-76. -/
noncomputable def state1 (ref body : Frame) : Outcome RBState := do
  let pose ← Framed.mk' ((SO3.exp ((Real.pi / 2) • zAxis) * SO3.exp (-(Real.pi / 2) • xAxis), waypoint 1) : Pose) ref body
  .ok (((RBState.ofPose ⟨(1, 0), .null, .null⟩ pose).setLinearVelocity ![turnSpeed, 0, 0]).setAngularVelocity ![0, -turnRate, 0])

/-- `state_2`, resim/visualization/examples/example_04_actor_trajectory.cc:78-84. -/
noncomputable def state2 (ref body : Frame) : Outcome RBState := do
  let pose ← Framed.mk' ((SO3.exp (Real.pi • zAxis), waypoint 2) : Pose) ref body
  .ok ((RBState.ofPose ⟨(1, 0), .null, .null⟩ pose).setLinearVelocity ![forwardSpeed, 0, 0])

/-- `out_and_back_banked`, resim/visualization/examples/example_04_actor_trajectory.cc:58-90; `ref` and `body` are `REF_FRAME` and `BOD_FRAME` (:30-31). -/
noncomputable def outAndBackBanked (ref body : Frame) : Outcome Trajectory := do
  let s0 ← state0 ref body
  let s1 ← state1 ref body
  let s2 ← state2 ref body
  let times ← timestamps
  match times with
  | [t0, t1, t2] => Trajectory.make [⟨t0, s0⟩, ⟨t1, s1⟩, ⟨t2, s2⟩]
  | _ => .throw "std::out_of_range"

end Verif.DroneExample
