import Verif.Model.SE3
import Verif.Model.RigidBodyState
import Verif.Model.TCurve
/-! # The curves of the shipped examples

Simplifications: `double` is modelled by `ℝ` and the constants `M_PI`, `M_PI_2` by `π`, `π / 2`; frames are left out here and given where the poses are used. -/
namespace Verif.CurveExamples
open SO3

/-- The axis `{0., 0., 1.}`, resim/examples/curves.cc:45, resim/examples/trajectory.cc:64, and `Eigen::Vector3d::UnitZ()`,
resim/visualization/examples/example_02_distance_parameterized_unit_circle.cc:34. -/
def zAxis : V3 := ![0, 0, 1]

/-- The control points of `d_curve`, resim/examples/curves.cc:42-48. -/
noncomputable def leftRight : List Pose :=
  [(1, ![0, 0, 0]), (1, ![1, 0, 0]), (angleAxisMatrix (Real.pi / 2) zAxis, ![2, 1, 0]), (angleAxisMatrix (Real.pi / 2) zAxis, ![2, 2, 0]), (1, ![3, 3, 0])]

/-- The arc length of the query, resim/examples/curves.cc:51. -/
noncomputable def queryArcLength : ℝ := 1 + Real.pi / 2 + 0.5

/-- `unit_circle`, resim/visualization/examples/example_02_distance_parameterized_unit_circle.cc:20-58: its arguments are the translation `t` and the
scale factor `k`. -/
noncomputable def unitCircle (t : V3) (k : ℝ) : List Pose :=
  [(1, ![k * (1 + t 0), k * t 1, k * t 2]),
   (angleAxisMatrix (Real.pi / 2) zAxis, ![k * t 0, k * (1 + t 1), k * t 2]),
   (angleAxisMatrix Real.pi zAxis, ![k * (-1 + t 0), k * t 1, k * t 2]),
   (angleAxisMatrix (3 * Real.pi / 2) zAxis, ![k * t 0, k * (-1 + t 1), k * t 2]),
   (1, ![k * (1 + t 0), k * t 1, k * t 2])]

/-- `DCurveCircle<SE3>::points`, resim/curves/d_curve_test_helpers.cc:22-48: three quarters of the unit circle. -/
noncomputable def threeQuarters : List Pose :=
  [(1, ![1, 0, 0]), (angleAxisMatrix (Real.pi / 2) zAxis, ![0, 1, 0]), (angleAxisMatrix Real.pi zAxis, -![1, 0, 0]),
   (angleAxisMatrix (3 * Real.pi / 2) zAxis, -![0, 1, 0])]

/-- `derivatives`, resim/examples/trajectory.cc:33-57: forward at one unit per second, yawing at one radian per second, no acceleration. -/
def orbitDerivatives : RBDerivatives := ⟨⟨![1, 0, 0], ![0, 0, 1]⟩, ⟨![0, 0, 0], ![0, 0, 0]⟩⟩

/-- The state of `control_a` and `control_e`, resim/examples/trajectory.cc:66-70,85-89. -/
noncomputable def orbitStart (into src : Frame) : RBState :=
  RBState.ofDerivatives ⟨(angleAxisMatrix (Real.pi / 2) zAxis, ![1, 0, 0]), into, src⟩ orbitDerivatives

/-- The state of `control_c`, half a turn later, resim/examples/trajectory.cc:76-80. -/
noncomputable def orbitHalf (into src : Frame) : RBState :=
  RBState.ofDerivatives ⟨(angleAxisMatrix (-(Real.pi / 2)) zAxis, ![-1, 0, 0]), into, src⟩ orbitDerivatives

/-- `velocity`, resim/visualization/examples/example_03_time_parameterized_closed_curve.cc:28-33 and resim/curves/test_helpers.cc:25-30: angular part first. -/
def circleVelocity : Twist := (![0, 0, -1], ![-1, 0, 0])

/-- A control of `make_circle_curve`, resim/visualization/examples/example_03_time_parameterized_closed_curve.cc:37-47 and resim/curves/test_helpers.cc:34-44. -/
noncomputable def circleControl (into src : Frame) (time : ℝ) : TControl Pose Twist :=
  ⟨time, ⟨⟨(SO3.exp (-(Real.pi / 2 + time) • zAxis), ![0, 1, 0]), into, src⟩, circleVelocity, 0⟩⟩

/-- `make_circle_curve`, resim/visualization/examples/example_03_time_parameterized_closed_curve.cc:27-51, and the same code at
resim/curves/test_helpers.cc:22-48.  The frames are taken to be both set or both null; otherwise the constructor of the first pose throws (C20). -/
noncomputable def makeCircleCurve (into src : Frame) : Outcome (TCurve Pose Twist) :=
  TCurve.make ([0, Real.pi / 2, Real.pi, 3 * (Real.pi / 2), 2 * Real.pi].map (circleControl into src))

/-- The loop of `translate_t_curve`, resim/visualization/examples/example_03_time_parameterized_closed_curve.cc:56-70: every pose is moved to the sensor, the
derivatives are kept.  The lines that show the poses are left out. -/
noncomputable def translateControls (sensorFromCurve : Framed Pose) : List (TControl Pose Twist) → Outcome (List (TControl Pose Twist))
  | [] => .ok []
  | control :: rest => do
    let sensorFromWorld ← Framed.mul SE3.ops sensorFromCurve control.point.g
    let moved ← translateControls sensorFromCurve rest
    .ok (⟨control.time, ⟨sensorFromWorld, control.point.d, control.point.d2⟩⟩ :: moved)

/-- `translate_t_curve`, resim/visualization/examples/example_03_time_parameterized_closed_curve.cc:53-72. -/
noncomputable def translateTCurve (curveFromWorld : TCurve Pose Twist) (sensorFromCurve : Framed Pose) : Outcome (TCurve Pose Twist) := do
  let controls ← translateControls sensorFromCurve curveFromWorld.controls
  TCurve.make controls

/-- The poses of the sensor on the circle, resim/visualization/examples/example_02_distance_parameterized_unit_circle.cc:121-127. -/
noncomputable def worldFromSensor (robotFromSensor : Framed Pose) : List (Framed Pose) → Outcome (List (Framed Pose))
  | [] => .ok []
  | worldFromRobot :: rest => do
    let point ← Framed.mul SE3.ops worldFromRobot robotFromSensor
    let points ← worldFromSensor robotFromSensor rest
    .ok (point :: points)

end Verif.CurveExamples
