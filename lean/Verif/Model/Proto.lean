import Verif.Model.DCurve
import Verif.Model.Trajectory
import Verif.Model.Timestamp
import Verif.Model.Status
/-! # The packers and unpackers of resim/**/proto/*_to_proto.cc and .hh

A protobuf message is modelled by its fields: a repeated field is a list, a sub-message is an `Option` (absent reads as the default message, as the
generated accessors do), a scalar field its value.  The generated classes and the wire format are not modelled.  A packer takes the previous content
of the message it writes to, `none` standing for a null pointer, and returns the new content.  Doubles are real numbers. -/
namespace Verif.Proto
open Verif

/-- The text of every packer's null check, resim/math/proto/matrix_to_proto.hh:46, resim/transforms/proto/frame_3_to_proto.cc:17. -/
def nullErr : String := "Can't pack into invalid proto!"

/-! ## Matrices -/

/-- `in.reshaped()`, resim/math/proto/matrix_to_proto.hh:48: the elements column after column (the order stated in lines 39-40). -/
def flat {K : Type} {r c : Nat} (M : Matrix (Fin r) (Fin c) K) : List K :=
  (List.finRange c).flatMap fun j => (List.finRange r).map fun i => M i j

/-- `pack_matrix`, resim/math/proto/matrix_to_proto.hh:42-50. -/
def packMatrix {K : Type} {r c : Nat} (M : Matrix (Fin r) (Fin c) K) (out : Option (List K)) : Outcome (List K) :=
  match out with
  | none => .throw nullErr
  | some _ =>
    let cleared : List K := []
    .ok (cleared ++ flat M)

/-- `SIZE_ERR`, resim/math/proto/matrix_to_proto.hh:62-64. -/
def sizeErr : String := "The expected number of elements in the Matrix (as indicated by .size()) must match the number of elements in the proto field."

theorem flat_index {r c : Nat} (i : Fin r) (j : Fin c) : j.val * r + i.val < r * c := by
  have h1 : j.val + 1 ≤ c := j.isLt
  have h2 : (j.val + 1) * r ≤ c * r := Nat.mul_le_mul_right r h1
  have h3 := i.isLt
  have h4 : (j.val + 1) * r = j.val * r + r := Nat.succ_mul _ _
  have h5 : r * c = c * r := Nat.mul_comm _ _
  omega

/-- `unpack_matrix`, resim/math/proto/matrix_to_proto.hh:58-67: all elements of the matrix `out` are written, in the order of `reshaped()`. -/
def unpackMatrix {K : Type} {r c : Nat} (inp : List K) (_out : Matrix (Fin r) (Fin c) K) : Outcome (Matrix (Fin r) (Fin c) K) :=
  if h : inp.length = r * c then .ok (Matrix.of fun i j => inp[j.val * r + i.val]'(h ▸ flat_index i j)) else .throw sizeErr

/-- `pack_matrix` on a column vector (callers: resim/transforms/proto/liegroup_to_proto.cc:24, framed_vector_3_to_proto.cc:21,
resim/curves/proto/two_jet_to_proto.cc:25-30,38-43). -/
def packVec {n : Nat} (v : Fin n → ℝ) (out : Option (List ℝ)) : Outcome (List ℝ) := packMatrix (Matrix.of fun i (_ : Fin 1) => v i) out

/-- `unpack_matrix` into a fresh column vector (callers: resim/transforms/proto/liegroup_to_proto.cc:31-32, framed_vector_3_to_proto.cc:27-28,
resim/curves/proto/two_jet_to_proto.cc:54-57,64-67).  The uninitialised vector is modelled as zero; all elements are overwritten. -/
noncomputable def unpackVec (n : Nat) (l : List ℝ) : Outcome (Fin n → ℝ) := do
  let M ← unpackMatrix l (Matrix.of fun (_ : Fin n) (_ : Fin 1) => (0 : ℝ))
  .ok fun i => M i 0

/-! ## Frames and framed vectors -/

/-- Message `Frame_3`, resim/transforms/proto/frame_3.proto. -/
structure FrameMsg where
  id : Option Uuid.Msg := none

/-- `pack(Frame)`, resim/transforms/proto/frame_3_to_proto.cc:16-20. -/
def packFrame (f : Frame) (out : Option FrameMsg) : Outcome FrameMsg :=
  match out with
  | none => .throw nullErr
  | some _ => do
    let cleared : FrameMsg := {}
    let id ← Uuid.pack f.id (some (cleared.id.getD {}))
    .ok { cleared with id := some id }

/-- `unpack(Frame_3)`, resim/transforms/proto/frame_3_to_proto.cc:22-24. -/
def unpackFrame (m : FrameMsg) : Outcome Frame := do
  let id ← Uuid.unpack (m.id.getD {})
  .ok ⟨id⟩

/-- Message `FramedVector_3`, resim/transforms/proto/framed_vector_3.proto. -/
structure VectorMsg where
  algebra : List ℝ := []
  frame : Option FrameMsg := none

/-- `pack(FramedVector)`, resim/transforms/proto/framed_vector_3_to_proto.cc:18-23. -/
def packVector (v : FramedVector V3) (out : Option VectorMsg) : Outcome VectorMsg :=
  match out with
  | none => .throw nullErr
  | some _ => do
    let cleared : VectorMsg := {}
    let algebra ← packVec v.vector (some cleared.algebra)
    let frame ← packFrame v.frame (some (cleared.frame.getD {}))
    .ok { cleared with algebra := algebra, frame := some frame }

/-- `unpack(FramedVector_3)`, resim/transforms/proto/framed_vector_3_to_proto.cc:25-36. -/
noncomputable def unpackVector (m : VectorMsg) : Outcome (FramedVector V3) := do
  let v ← unpackVec 3 m.algebra
  let f ← unpackFrame (m.frame.getD {})
  .ok ⟨v, f⟩

/-! ## Transforms -/

/-- How the tangent vectors of a group class are stored as `Eigen` column vectors of size `DOF` (`TangentVector`,
resim/transforms/liegroup.hh:51). -/
structure Layout (A : Type) where
  dof : Nat
  enc : A → Fin dof → ℝ
  dec : (Fin dof → ℝ) → A

/-- `SO3::TangentVector` has the three elements themselves, resim/transforms/liegroup.hh:51 with `DOF` 3. -/
def so3Layout : Layout V3 := ⟨3, id, id⟩

/-- `SE3::TangentVector`: `head<3>` is the rotation part and `tail<3>` the translation part, resim/transforms/se3.cc:220-247. -/
def se3Layout : Layout Twist where
  dof := 6
  enc x i := if h : i.val < 3 then x.1 ⟨i.val, h⟩ else x.2 ⟨i.val - 3, by omega⟩
  dec f := (fun i => f ⟨i.val, by omega⟩, fun i => f ⟨i.val + 3, by omega⟩)

variable {G A V : Type}

/-- Messages `SE3` and `SO3`, resim/transforms/proto/se3.proto, so3.proto (same fields). -/
structure GroupMsg where
  algebra : List ℝ := []
  into : Option FrameMsg := none
  src : Option FrameMsg := none

/-- `pack_liegroup`, resim/transforms/proto/liegroup_to_proto.cc:20-27, called by `pack` in se3_to_proto.cc:15, so3_to_proto.cc:15. -/
def packGroup (L : LieOps ℝ G A V) (F : Layout A) (g : Framed G) (out : Option GroupMsg) : Outcome GroupMsg :=
  match out with
  | none => .throw nullErr
  | some _ => do
    let cleared : GroupMsg := {}
    let algebra ← packVec (F.enc (L.log g.val)) (some cleared.algebra)
    let into ← packFrame g.into (some (cleared.into.getD {}))
    let src ← packFrame g.src (some (cleared.src.getD {}))
    .ok { cleared with algebra := algebra, into := some into, src := some src }

/-- `unpack_liegroup`, resim/transforms/proto/liegroup_to_proto.cc:29-34, called by `unpack` in se3_to_proto.cc:17-21, so3_to_proto.cc:17-21. -/
noncomputable def unpackGroup (L : LieOps ℝ G A V) (F : Layout A) (m : GroupMsg) : Outcome (Framed G) := do
  let alg ← unpackVec F.dof m.algebra
  let into ← unpackFrame (m.into.getD {})
  let src ← unpackFrame (m.src.getD {})
  Framed.exp L (F.dec alg) into src

/-! ## Two-jets and curves -/

/-- Messages `TwoJetL_*` and `TwoJetR_*`, resim/curves/proto/two_jet.proto. -/
structure JetMsg where
  group : Option GroupMsg := none
  d : List ℝ := []
  d2 : List ℝ := []

/-- `pack_two_jetl`, resim/curves/proto/two_jet_to_proto.cc:20-31. -/
def packTwoJetL (L : LieOps ℝ G A V) (F : Layout A) (j : TwoJetL G A) (out : Option JetMsg) : Outcome JetMsg :=
  match out with
  | none => .throw nullErr
  | some _ => do
    let cleared : JetMsg := {}
    let g ← packGroup L F j.g (some (cleared.group.getD {}))
    let d ← packVec (F.enc j.d) (some cleared.d)
    let d2 ← packVec (F.enc j.d2) (some cleared.d2)
    .ok { cleared with group := some g, d := d, d2 := d2 }

/-- `pack_two_jetr`, resim/curves/proto/two_jet_to_proto.cc:33-44. -/
def packTwoJetR (L : LieOps ℝ G A V) (F : Layout A) (j : TwoJetR G A) (out : Option JetMsg) : Outcome JetMsg :=
  match out with
  | none => .throw nullErr
  | some _ => do
    let cleared : JetMsg := {}
    let g ← packGroup L F j.g (some (cleared.group.getD {}))
    let d ← packVec (F.enc j.d) (some cleared.d)
    let d2 ← packVec (F.enc j.d2) (some cleared.d2)
    .ok { cleared with group := some g, d := d, d2 := d2 }

/-- `unpack_two_jetl`, resim/curves/proto/two_jet_to_proto.cc:51-59. -/
noncomputable def unpackTwoJetL (L : LieOps ℝ G A V) (F : Layout A) (m : JetMsg) : Outcome (TwoJetL G A) := do
  let g ← unpackGroup L F (m.group.getD {})
  let d ← unpackVec F.dof m.d
  let d2 ← unpackVec F.dof m.d2
  .ok ⟨g, F.dec d, F.dec d2⟩

/-- `unpack_two_jetr`, resim/curves/proto/two_jet_to_proto.cc:61-69. -/
noncomputable def unpackTwoJetR (L : LieOps ℝ G A V) (F : Layout A) (m : JetMsg) : Outcome (TwoJetR G A) := do
  let g ← unpackGroup L F (m.group.getD {})
  let d ← unpackVec F.dof m.d
  let d2 ← unpackVec F.dof m.d2
  .ok ⟨g, F.dec d, F.dec d2⟩

/-- Message `TCurve_*::Control`, resim/curves/proto/t_curve.proto. -/
structure ControlMsg where
  time : ℝ
  point : Option JetMsg := none

/-- Messages `TCurve_SE3` and `TCurve_SO3`, resim/curves/proto/t_curve.proto. -/
structure TCurveMsg where
  points : List ControlMsg := []

/-- The loop of `pack_t_curve`, resim/curves/proto/t_curve_to_proto.cc:24-29. -/
noncomputable def packControls (L : LieOps ℝ G A V) (F : Layout A) (m : TCurveMsg) : List (TControl G A) → Outcome TCurveMsg
  | [] => .ok m
  | c :: cs => do
    let added : ControlMsg := { time := 0 }
    let p ← packTwoJetL L F c.point (some (added.point.getD {}))
    packControls L F { m with points := m.points ++ [{ added with time := c.time, point := some p }] } cs

/-- `pack_t_curve`, resim/curves/proto/t_curve_to_proto.cc:20-30. -/
noncomputable def packTCurve (L : LieOps ℝ G A V) (F : Layout A) (c : TCurve G A) (out : Option TCurveMsg) : Outcome TCurveMsg :=
  match out with
  | none => .throw nullErr
  | some _ =>
    let cleared : TCurveMsg := {}
    packControls L F cleared c.controls

/-- The loop of `unpack_t_curve`, resim/curves/proto/t_curve_to_proto.cc:38-42. -/
noncomputable def unpackControls [AddCommGroup A] [Module ℝ A] (L : LieOps ℝ G A V) (F : Layout A) (c : TCurve G A) :
    List ControlMsg → Outcome (TCurve G A)
  | [] => .ok c
  | p :: ps => do
    let j ← unpackTwoJetL L F (p.point.getD {})
    match TCurve.append c ⟨p.time, j⟩ with
    | (c', .ok ()) => unpackControls L F c' ps
    | (_, .throw m) => .throw m
    | (_, .ub w) => .ub w

/-- `unpack_t_curve`, resim/curves/proto/t_curve_to_proto.cc:35-43. -/
noncomputable def unpackTCurve [AddCommGroup A] [Module ℝ A] (L : LieOps ℝ G A V) (F : Layout A) (m : TCurveMsg) : Outcome (TCurve G A) :=
  unpackControls L F TCurve.empty m.points

/-- Message `DCurve_SE3`, resim/curves/proto/d_curve.proto. -/
structure DCurveMsg where
  refFromControl : List GroupMsg := []

/-- The loop of `pack_d_curve`, resim/curves/proto/d_curve_to_proto.cc:21-23. -/
def packPoses (L : LieOps ℝ G A V) (F : Layout A) (m : DCurveMsg) : List (DControl G) → Outcome DCurveMsg
  | [] => .ok m
  | c :: cs => do
    let added : GroupMsg := {}
    let g ← packGroup L F c.pose (some added)
    packPoses L F { m with refFromControl := m.refFromControl ++ [g] } cs

/-- `pack_d_curve`, resim/curves/proto/d_curve_to_proto.cc:16-24. -/
def packDCurve (L : LieOps ℝ G A V) (F : Layout A) (c : DCurve G) (out : Option DCurveMsg) : Outcome DCurveMsg :=
  match out with
  | none => .throw nullErr
  | some _ =>
    let cleared : DCurveMsg := {}
    packPoses L F cleared c.controls

/-- The loop of `unpack_d_curve`, resim/curves/proto/d_curve_to_proto.cc:32-35. -/
noncomputable def unpackPoses (L : LieOps ℝ G A V) (F : Layout A) (points : List (Framed G)) : List GroupMsg → Outcome (List (Framed G))
  | [] => .ok points
  | m :: ms => do
    let g ← unpackGroup L F m
    unpackPoses L F (points ++ [g]) ms

/-- `unpack_d_curve`, resim/curves/proto/d_curve_to_proto.cc:26-38. -/
noncomputable def unpackDCurve (L : LieOps ℝ G A V) (arc : G → ℝ) (F : Layout A) (m : DCurveMsg) : Outcome (DCurve G) := do
  let points ← unpackPoses L F [] m.refFromControl
  DCurve.make L arc points

/-! ## Trajectories -/

/-- Message `Trajectory`, resim/actor/state/proto/trajectory.proto; `start_time` is a `google.protobuf.Timestamp` with the two given fields. -/
structure TrajMsg where
  startTime : Option Timestamp.SecsAndNanos := none
  curve : Option TCurveMsg := none

/-- `pack(Trajectory)`, resim/actor/state/proto/trajectory_to_proto.cc:18-28. -/
noncomputable def packTrajectory (T : Trajectory) (out : Option TrajMsg) : Outcome TrajMsg :=
  match out with
  | none => .throw nullErr
  | some _ => do
    let cleared : TrajMsg := {}
    let s ← Timestamp.toSecsAndNanos T.startTime
    let c ← packTCurve SE3.ops se3Layout T.curve (some (cleared.curve.getD {}))
    .ok { cleared with startTime := some ⟨s.secs, s.nanos⟩, curve := some c }

/-- `unpack(Trajectory)`, resim/actor/state/proto/trajectory_to_proto.cc:30-34. -/
noncomputable def unpackTrajectory (m : TrajMsg) : Outcome Trajectory := do
  let start ← Timestamp.fromSecsAndNanos (m.startTime.getD ⟨0, 0⟩)
  let c ← unpackTCurve SE3.ops se3Layout (m.curve.getD {})
  .ok (Trajectory.ofCurve c start)

/-! ## View primitives and updates -/

/-- The payload variant of `ViewPrimitive`, resim/visualization/view_primitive.hh:29-37. -/
inductive Payload where
  | se3 (g : Framed Pose)
  | so3 (g : Framed M3)
  | dCurve (c : DCurve Pose)
  | tCurve (c : TCurve Pose Twist)
  | trajectory (T : Trajectory)
  | frame (f : Frame)
  | framedVector (v : FramedVector V3)

/-- `ViewPrimitive`, resim/visualization/view_primitive.hh:27-42. -/
structure ViewPrimitive where
  id : Uuid
  payload : Payload
  name : Option String
  fileName : String
  lineNumber : Int

/-- The `oneof payload` of message `ViewPrimitive`, resim/visualization/proto/view_primitive.proto:19-27. -/
inductive PayloadMsg where
  | se3 (m : GroupMsg)
  | so3 (m : GroupMsg)
  | dCurve (m : DCurveMsg)
  | tCurve (m : TCurveMsg)
  | trajectory (m : TrajMsg)
  | frame (m : FrameMsg)
  | framedVector (m : VectorMsg)

/-- Message `ViewPrimitive`, resim/visualization/proto/view_primitive.proto.  String fields without presence: unset reads as empty. -/
structure PrimitiveMsg where
  id : Option Uuid.Msg := none
  payload : Option PayloadMsg := none
  name : String := ""
  fileName : String := ""
  lineNumber : Int := 0

/-- The `match` of `pack(ViewPrimitive)`, resim/visualization/proto/view_primitive_to_proto.cc:40-58.  `mutable_x()` on a cleared message
selects alternative `x` with a default message. -/
noncomputable def packPayload : Payload → Outcome PayloadMsg
  | .frame f => do let m ← packFrame f (some {}); .ok (.frame m)
  | .se3 g => do let m ← packGroup SE3.ops se3Layout g (some {}); .ok (.se3 m)
  | .so3 g => do let m ← packGroup SO3.ops so3Layout g (some {}); .ok (.so3 m)
  | .dCurve c => do let m ← packDCurve SE3.ops se3Layout c (some {}); .ok (.dCurve m)
  | .tCurve c => do let m ← packTCurve SE3.ops se3Layout c (some {}); .ok (.tCurve m)
  | .trajectory T => do let m ← packTrajectory T (some {}); .ok (.trajectory m)
  | .framedVector v => do let m ← packVector v (some {}); .ok (.framedVector m)

/-- `pack(ViewPrimitive)`, resim/visualization/proto/view_primitive_to_proto.cc:28-59. -/
noncomputable def packPrimitive (p : ViewPrimitive) (out : Option PrimitiveMsg) : Outcome PrimitiveMsg :=
  match out with
  | none => .throw nullErr
  | some _ => do
    let cleared : PrimitiveMsg := {}
    let id ← Uuid.pack p.id (some (cleared.id.getD {}))
    let m1 := { cleared with id := some id }
    let m2 := match p.name with
      | some n => { m1 with name := n }
      | none => m1
    let m3 := { m2 with fileName := p.fileName, lineNumber := p.lineNumber }
    let payload ← packPayload p.payload
    .ok { m3 with payload := some payload }

/-- The cases of the `switch` of `detail::unpack`, resim/visualization/proto/view_primitive_to_proto.cc:82-102. -/
noncomputable def unpackPayload : PayloadMsg → Outcome Payload
  | .frame m => do let x ← unpackFrame m; .ok (.frame x)
  | .se3 m => do let x ← unpackGroup SE3.ops se3Layout m; .ok (.se3 x)
  | .so3 m => do let x ← unpackGroup SO3.ops so3Layout m; .ok (.so3 x)
  | .dCurve m => do let x ← unpackDCurve SE3.ops SE3.arcLength se3Layout m; .ok (.dCurve x)
  | .tCurve m => do let x ← unpackTCurve SE3.ops se3Layout m; .ok (.tCurve x)
  | .trajectory m => do let x ← unpackTrajectory m; .ok (.trajectory x)
  | .framedVector m => do let x ← unpackVector m; .ok (.framedVector x)

/-- `detail::unpack`, resim/visualization/proto/view_primitive_to_proto.cc:68-108; its second constructor argument is the status of line 104. -/
noncomputable def unpackPrimitiveStatus (m : PrimitiveMsg) : Outcome (StatusValue ViewPrimitive) := do
  let id ← Uuid.unpack (m.id.getD {})
  let name := if m.name.isEmpty then none else some m.name
  match m.payload with
  | some pm =>
    let payload ← unpackPayload pm
    .ok (StatusValue.ofValue ⟨id, payload, name, m.fileName, m.lineNumber⟩)
  | none =>
    StatusValue.ofStatus (Status.makeAtLine "resim/visualization/proto/view_primitive_to_proto.cc" 104 "Can't unpack unset ViewPrimitive!")

/-- `unpack(ViewPrimitive)`, resim/visualization/proto/view_primitive_to_proto.cc:61-65. -/
noncomputable def unpackPrimitive (m : PrimitiveMsg) : Outcome ViewPrimitive := do
  let sv ← unpackPrimitiveStatus m
  Status.checkOk "result_sv.status()" sv.getStatus
  sv.getValue

/-- Message `ViewUpdate`, resim/visualization/proto/view_update.proto. -/
structure UpdateMsg where
  primitive : List PrimitiveMsg := []

/-- The loop of `pack(ViewUpdate)`, resim/visualization/proto/view_update_to_proto.cc:17-19. -/
noncomputable def packPrimitives (m : UpdateMsg) : List ViewPrimitive → Outcome UpdateMsg
  | [] => .ok m
  | p :: ps => do
    let added : PrimitiveMsg := {}
    let q ← packPrimitive p (some added)
    packPrimitives { m with primitive := m.primitive ++ [q] } ps

/-- `pack(ViewUpdate)`, resim/visualization/proto/view_update_to_proto.cc:14-20; the update is its list of primitives
(resim/visualization/view_update.hh:17-19). -/
noncomputable def packUpdate (u : List ViewPrimitive) (out : Option UpdateMsg) : Outcome UpdateMsg :=
  match out with
  | none => .throw nullErr
  | some _ =>
    let cleared : UpdateMsg := {}
    packPrimitives cleared u

/-- The loop of `unpack(ViewUpdate)`, resim/visualization/proto/view_update_to_proto.cc:25-27. -/
noncomputable def unpackPrimitives (result : List ViewPrimitive) : List PrimitiveMsg → Outcome (List ViewPrimitive)
  | [] => .ok result
  | m :: ms => do
    let p ← unpackPrimitive m
    unpackPrimitives (result ++ [p]) ms

/-- `unpack(ViewUpdate)`, resim/visualization/proto/view_update_to_proto.cc:22-29. -/
noncomputable def unpackUpdate (m : UpdateMsg) : Outcome (List ViewPrimitive) := unpackPrimitives [] m.primitive

end Verif.Proto
