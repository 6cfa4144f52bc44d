import Lean.Util.CollectAxioms
import Lean.Elab.Command
import Verif.Props.Binary64
import Verif.Props.SafeInt
import Verif.Props.SampleInterval
import Verif.Props.SampleIntervalReal
import Verif.Props.Timestamp
import Verif.Props.EventSchedule
import Verif.Props.Uuid
import Verif.Props.Status
import Verif.Props.Frame
import Verif.Props.Transform
import Verif.Props.TinyAngle
import Verif.Props.ExpLog
import Verif.Props.TwoJet
import Verif.Props.Segment
import Verif.Props.TCurve
import Verif.Props.DCurve
import Verif.Props.RigidBodyState
import Verif.Props.Trajectory
import Verif.Props.Proto
import Verif.Props.View
import Verif.Props.ViewClient
import Verif.Props.Auth
import Verif.Props.Stats
import Verif.Props.EndToEnd
import Verif.Props.ExpDiff
import Verif.Props.SmallTurns
import Verif.Props.SampleIntervalDouble
import Verif.Props.Unpack
import Verif.Props.Obtained
import Verif.Props.Approx
import Verif.Props.SO3Construct
import Verif.Props.DCurveHeap
import Verif.Props.OneAxis
import Verif.Props.Change
import Verif.Props.Local
import Verif.Props.Rectangles
import Verif.Props.TransformDouble
import Verif.Props.OneCircle
import Verif.Props.HelixLength
import Verif.Props.CurveExamples
import Verif.Props.ExactMotion
import Verif.Props.SmoothTrajectory
import Verif.Props.Mounted
import Verif.Props.MountedExamples
import Verif.Props.Between
import Verif.Props.LieGuide
import Verif.Props.Match
import Verif.Props.References
import Verif.Props.Difference
import Verif.Props.CurveDouble
import Verif.Props.Assert
import Verif.Props.TestElements
import Verif.Props.TestDirectory
import Verif.Props.Switch
import Verif.Props.MockView
import Verif.Props.MockDevice
import Verif.Props.TestCircles
import Verif.Props.DroneExample
import Verif.Props.Tracked
import Verif.Props.StatusValueMoves
import Verif.Props.TestPayloads
import Verif.Props.ExpDouble
import Verif.Props.LogDouble
import Verif.Props.DCurveDouble
import Verif.Props.TCurveDouble
import Verif.Props.TrajectoryDouble
import Verif.Props.StatsDouble
import Verif.Props.StateDouble
import Verif.Props.MessageDouble
import Verif.Props.ApproxDouble
import Verif.Props.ConstructDouble
import Verif.Props.GuideDouble
import Verif.Props.TripDouble
import Verif.Props.DistanceDouble
import Verif.Props.GaussianDouble
import Verif.Props.GaussianDraws
import Verif.Props.SceneGraph
import Verif.Props.TestCurves
import Verif.Props.MockAuth
import Verif.Props.PrimitivesEqual
import Verif.Props.ShippedExamples
import Verif.Props.UnpackInto
import Verif.Props.TypeObject
import Verif.Props.TwoJetIdentity
import Verif.Props.FramedConstruct
/-! # Audit: the axioms behind everything in this project

Elaborating this file fails if any declaration in the namespace `Verif` depends on an axiom other than the three of Lean's library. -/
open Lean Elab Command

run_cmd do
  let env ← getEnv
  let mut todo := env.constants.fold (fun (l : Array Name) n _ => if (`Verif).isPrefixOf n then l.push n else l) #[]
  if todo.size < 1000 then throwError "only {todo.size} declarations found"
  let mut seen : NameSet := {}
  repeat
    let some n := todo.back? | break
    todo := todo.pop
    if seen.contains n then continue
    seen := seen.insert n
    let some c := env.find? n | throwError "unknown {n}"
    if c matches .axiomInfo _ then
      unless n ∈ [``propext, ``Classical.choice, ``Quot.sound] do throwError "depends on {n}"
    for e in c.type :: (c.value? (allowOpaque := true)).toList do
      todo := todo ++ e.getUsedConstants
