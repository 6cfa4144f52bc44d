import Verif.Model.SE3
import Verif.Model.SO3Construct
/-! # Scenes of framed transforms

Models the examples that compose framed transforms into a scene.  Simplifications: `double` is modelled by `ℝ`, `M_PI` and `M_PI_2` by `π` and `π / 2`; showing the
transforms (`VIEW`) is left out (see `Model/View`). -/
namespace Verif.SceneGraph
open Framed

/-- An expression of the kind written at resim/visualization/examples/example_01_framed_transform_composition.cc:81,95-98: transforms, `inverse()` and `*`,
with any brackets. -/
inductive Expr where
  | link (l : Framed Pose)
  | inverse (e : Expr)
  | mul (a b : Expr)

/-- The value of an expression: `inverse`, resim/transforms/se3.cc:93-100, and `operator*`, resim/transforms/se3.cc:61-72, as used at
resim/visualization/examples/example_01_framed_transform_composition.cc:81,95-98. -/
noncomputable def Expr.eval : Expr → Outcome (Framed Pose)
  | .link l => .ok l
  | .inverse e => do
    let a ← e.eval
    Framed.inverse SE3.ops a
  | .mul a b => do
    let x ← a.eval
    let y ← b.eval
    Framed.mul SE3.ops x y

/-- The transforms an expression is made of, resim/visualization/examples/example_01_framed_transform_composition.cc:81. -/
def Expr.links : Expr → List (Framed Pose)
  | .link l => [l]
  | .inverse e => e.links
  | .mul a b => a.links ++ b.links

/-- `world_from_robot`, resim/visualization/examples/example_01_framed_transform_composition.cc:40-56, with the constructor of resim/transforms/se3.cc:44-51. -/
noncomputable def worldFromRobot (world robot : Frame) : Outcome (Framed Pose) :=
  fromRotationFramed (fun r => (r, ![1, 0, 1])) (SO3.ofAngleAxis (Real.pi / 2) ![0, 0, 1]) world robot

/-- `robot_from_sensor`, resim/visualization/examples/example_01_framed_transform_composition.cc:65-68, with the constructor of resim/transforms/se3.cc:38-42. -/
noncomputable def robotFromSensor (robot sensor : Frame) : Outcome (Framed Pose) := mk' (SO3.one, ![0.1, 0, 0.1]) robot sensor

/-- `world_from_sensor`, resim/visualization/examples/example_01_framed_transform_composition.cc:81. -/
noncomputable def worldFromSensor (world robot sensor : Frame) : Outcome (Framed Pose) := do
  let a ← worldFromRobot world robot
  let b ← robotFromSensor robot sensor
  Framed.mul SE3.ops a b

/-- The deliberate bug in the comment at resim/visualization/examples/example_01_framed_transform_composition.cc:93-99. -/
noncomputable def badWorldFromSensor (world robot sensor : Frame) : Outcome (Framed Pose) := do
  let a ← worldFromRobot world robot
  let b ← robotFromSensor robot sensor
  let c ← Framed.inverse SE3.ops b
  Framed.mul SE3.ops a c

/-- The scene of the example, resim/examples/view.cc:52-63: `scene_from_robot` and `robot_from_sensor`. -/
noncomputable def viewScene (scene robot sensor : Frame) : Outcome (List (Framed Pose)) := do
  let a ← fromRotationFramed (fun r => (r, ![1, 0, 1])) (identityUnframed SO3.ops) scene robot
  let b ← fromRotationFramed (fun r => (r, ![-0.25, 0.25, 0.25])) (SO3.ofAngleAxis Real.pi ![0, 0, 1]) robot sensor
  pure [a, b]

end Verif.SceneGraph
