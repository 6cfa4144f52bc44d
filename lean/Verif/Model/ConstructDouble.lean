import Verif.Model.LogDouble
/-! # The constructors of `SO3` in binary64 arithmetic

resim/transforms/so3.cc:25-42,142-144 with the conversions of Eigen that they call (Eigen is not part of /repo).  As in `ExpDouble` a finite double is its
rational value and the model is a relation that admits every order of the sums.  Simplifications: overflow is not modelled; frames are left out. -/
namespace Verif.ConstructDouble
open SampleIntervalDouble TransformDouble ExpDouble LogDouble

/-- `SO3(angle_axis)` and `SO3(angle, axis)`, resim/transforms/so3.cc:25-32: the axis is neither checked nor normalised. -/
def FromAngleAxis (angle : ℚ) (axis : Fin 3 → ℚ) (m : Matrix (Fin 3) (Fin 3) ℚ) : Prop := AngleAxisMatrix angle axis m

/-- `SO3(quaternion)`, resim/transforms/so3.cc:34-37: `Eigen::Quaterniond::toRotationMatrix`.  Twice a double is exact; every entry off the diagonal is a sum
of two products, and those on it one less such a sum.  The quaternion is neither checked nor normalised. -/
def FromQuaternion (q : Quat64) (m : Matrix (Fin 3) (Fin 3) ℚ) : Prop :=
  let x := q.v 0
  let y := q.v 1
  let z := q.v 2
  (∃ p, Evaluates ![2 * y, 2 * z] ![y, z] Finset.univ p ∧ m 0 0 = round64 (1 - p)) ∧
  (∃ p, Evaluates ![2 * x, 2 * z] ![x, z] Finset.univ p ∧ m 1 1 = round64 (1 - p)) ∧
  (∃ p, Evaluates ![2 * x, 2 * y] ![x, y] Finset.univ p ∧ m 2 2 = round64 (1 - p)) ∧
  Evaluates ![2 * y, -(2 * z)] ![x, q.w] Finset.univ (m 0 1) ∧ Evaluates ![2 * y, 2 * z] ![x, q.w] Finset.univ (m 1 0) ∧
  Evaluates ![2 * z, 2 * y] ![x, q.w] Finset.univ (m 0 2) ∧ Evaluates ![2 * z, -(2 * y)] ![x, q.w] Finset.univ (m 2 0) ∧
  Evaluates ![2 * z, -(2 * x)] ![y, q.w] Finset.univ (m 1 2) ∧ Evaluates ![2 * z, 2 * x] ![y, q.w] Finset.univ (m 2 1)

/-- `SO3::quaternion`, resim/transforms/so3.cc:142-144. -/
def ToQuaternion (m : Matrix (Fin 3) (Fin 3) ℚ) (q : Quat64) : Prop := QuatOf m q

end Verif.ConstructDouble
