import Verif.Model.SO3
/-! # The constructors of `SO3` and its quaternion, resim/transforms/so3.cc:25-42,142-144 -/
namespace Verif.SO3
open Matrix

/-- `SO3(rotation_matrix)`, resim/transforms/so3.cc:39-42: the matrix is not checked. -/
def ofMatrix (m : M3) : Framed M3 := Framed.unframed m

/-- `SO3(rotation_matrix, into, from)`, resim/transforms/so3.cc:39-42. -/
def ofMatrixFramed (m : M3) (into src : Frame) : Outcome (Framed M3) := Framed.mk' m into src

/-- `SO3(quaternion)`, resim/transforms/so3.cc:34-37: the quaternion is neither checked nor normalised. -/
def ofQuaternion (q : Quat) : Framed M3 := Framed.unframed (quatMatrix q)

/-- `SO3(quaternion, into, from)`, resim/transforms/so3.cc:34-37. -/
def ofQuaternionFramed (q : Quat) (into src : Frame) : Outcome (Framed M3) := Framed.mk' (quatMatrix q) into src

/-- `SO3(angle, axis)` and `SO3(angle_axis)`, resim/transforms/so3.cc:25-32: the axis is neither checked nor normalised. -/
noncomputable def ofAngleAxis (angle : ℝ) (axis : V3) : Framed M3 := Framed.unframed (angleAxisMatrix angle axis)

/-- `SO3(angle, axis, into, from)` and `SO3(angle_axis, into, from)`, resim/transforms/so3.cc:25-32. -/
noncomputable def ofAngleAxisFramed (angle : ℝ) (axis : V3) (into src : Frame) : Outcome (Framed M3) := Framed.mk' (angleAxisMatrix angle axis) into src

/-- `SO3::quaternion`, resim/transforms/so3.cc:142-144. -/
noncomputable def quaternion (a : Framed M3) : Quat := quatOfMatrix a.val

end Verif.SO3
