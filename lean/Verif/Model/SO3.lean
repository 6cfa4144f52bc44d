import Verif.Model.Frame
import Mathlib.LinearAlgebra.CrossProduct
import Mathlib.Analysis.SpecialFunctions.Complex.Arg
import Mathlib.Analysis.SpecialFunctions.Sqrt
/-! # resim/transforms/so3.cc, cross_matrix.cc, liegroup_exp_diff.cc in exact real arithmetic

Eigen operations are modelled by their definitions: products and transposes are matrix operations, `AngleAxisd` and
`Quaterniond` conversions follow Eigen's published algorithms (Eigen is not part of /repo). -/
namespace Verif
open Matrix

/-- `Eigen::Vector3d` (resim/transforms/so3.hh:77), real entries. -/
abbrev V3 := Fin 3 → ℝ

/-- `Eigen::Matrix3d` (resim/transforms/so3.hh:145), real entries. -/
abbrev M3 := Matrix (Fin 3) (Fin 3) ℝ

namespace SO3

/-- `cross_matrix`, resim/transforms/cross_matrix.cc:11-20. -/
def crossMatrix (v : V3) : M3 := !![0, -v 2, v 1; v 2, 0, -v 0; -v 1, v 0, 0]

/-- `squaredNorm`, used at resim/transforms/so3.cc:103. -/
def sqNorm (v : V3) : ℝ := v ⬝ᵥ v

/-- `norm`, used at resim/transforms/so3.cc:98. -/
noncomputable def eucNorm (v : V3) : ℝ := Real.sqrt (sqNorm v)

open Classical in
/-- `normalized`, used at resim/transforms/so3.cc:98.  Eigen returns the vector itself if its squared norm is zero. -/
noncomputable def normalized (v : V3) : V3 := if 0 < sqNorm v then (eucNorm v)⁻¹ • v else v

/-- `Eigen::AngleAxisd(angle, axis).toRotationMatrix()`, used at resim/transforms/so3.cc:28. -/
noncomputable def angleAxisMatrix (angle : ℝ) (axis : V3) : M3 :=
  let s : V3 := Real.sin angle • axis
  let c := Real.cos angle
  let k : V3 := (1 - c) • axis
  !![k 0 * axis 0 + c, k 0 * axis 1 - s 2, k 0 * axis 2 + s 1;
     k 0 * axis 1 + s 2, k 1 * axis 1 + c, k 1 * axis 2 - s 0;
     k 0 * axis 2 - s 1, k 1 * axis 2 + s 0, k 2 * axis 2 + c]

/-- `Eigen::Quaterniond`, used at resim/transforms/so3.cc:35 and, inside `AngleAxisd(matrix)`, at so3.cc:110. -/
@[ext] structure Quat where
  w : ℝ
  v : V3

/-- `Quaterniond::toRotationMatrix`, used at resim/transforms/so3.cc:37. -/
def quatMatrix (q : Quat) : M3 :=
  let x := q.v 0
  let y := q.v 1
  let z := q.v 2
  !![1 - (2 * y * y + 2 * z * z), 2 * y * x - 2 * z * q.w, 2 * z * x + 2 * y * q.w;
     2 * y * x + 2 * z * q.w, 1 - (2 * x * x + 2 * z * z), 2 * z * y - 2 * x * q.w;
     2 * z * x - 2 * y * q.w, 2 * z * y + 2 * x * q.w, 1 - (2 * x * x + 2 * y * y)]

open Classical in
/-- The index of the largest diagonal entry as Eigen finds it in `Quaterniond(matrix)` (resim/transforms/so3.cc:110,143). -/
noncomputable def largestDiag (m : M3) : Fin 3 :=
  let i : Fin 3 := if m 1 1 > m 0 0 then 1 else 0
  if m 2 2 > m i i then 2 else i

open Classical in
/-- `Quaterniond(matrix)`, used at resim/transforms/so3.cc:143 and inside `AngleAxisd(matrix)` at so3.cc:110. -/
noncomputable def quatOfMatrix (m : M3) : Quat :=
  let tr := m 0 0 + m 1 1 + m 2 2
  if tr > 0 then
    let t := Real.sqrt (tr + 1)
    let r := 1 / 2 / t
    ⟨1 / 2 * t, ![(m 2 1 - m 1 2) * r, (m 0 2 - m 2 0) * r, (m 1 0 - m 0 1) * r]⟩
  else
    let i := largestDiag m
    let j : Fin 3 := i + 1
    let k : Fin 3 := j + 1
    let t := Real.sqrt (m i i - m j j - m k k + 1)
    let r := 1 / 2 / t
    ⟨(m k j - m j k) * r, fun l => if l = i then 1 / 2 * t else if l = j then (m j i + m i j) * r else (m k i + m i k) * r⟩

open Classical in
/-- `AngleAxisd(quaternion)`: angle and axis, used inside `AngleAxisd(matrix)` at resim/transforms/so3.cc:110.  `atan2(y, x)` is the
argument of the complex number `x + y i`. -/
noncomputable def angleAxisOfQuat (q : Quat) : ℝ × V3 :=
  let n := eucNorm q.v
  if n ≠ 0 then
    let angle := 2 * Complex.arg ⟨|q.w|, n⟩
    let n' := if q.w < 0 then -n else n
    (angle, n'⁻¹ • q.v)
  else (0, ![1, 0, 0])

/-- `SO3::exp`, matrix part, resim/transforms/so3.cc:95-100. -/
noncomputable def exp (w : V3) : M3 := angleAxisMatrix (eucNorm w) (normalized w)

/-- `SO3::log`, resim/transforms/so3.cc:109-113. -/
noncomputable def log (m : M3) : V3 :=
  let aa := angleAxisOfQuat (quatOfMatrix m)
  aa.1 • aa.2

/-- `SO3::operator*(SO3)`, matrix part, resim/transforms/so3.cc:52,57. -/
def mul (a b : M3) : M3 := a * b

/-- `SO3::operator*(Vector3d)` and `rotate`, resim/transforms/so3.cc:60-66. -/
def act (a : M3) (v : V3) : V3 := a *ᵥ v

/-- `SO3::inverse`, matrix part, resim/transforms/so3.cc:79-81. -/
def inv (a : M3) : M3 := aᵀ

/-- `SO3::identity`, matrix part, resim/transforms/so3.cc:44-47. -/
def one : M3 := 1

/-- `SO3::adjoint()`, resim/transforms/so3.cc:115. -/
def adjointMatrix (a : M3) : M3 := a

/-- `SO3::adjoint(alg)`, resim/transforms/so3.cc:117-119. -/
def algAdjointMatrix (x : V3) : M3 := crossMatrix x

/-- `SO3::adjoint_times(alg)`, resim/transforms/so3.cc:121-123. -/
def adjointTimes (a : M3) (x : V3) : V3 := a *ᵥ x

/-- `SO3::adjoint_times(alg_0, alg_1)`, resim/transforms/so3.cc:125-129. -/
def bracket (x y : V3) : V3 := x ⨯₃ y

/-- `ExpDiffCoeffs`, resim/transforms/liegroup_exp_diff.hh:22-26. -/
structure Coeffs where
  a : ℝ
  b : ℝ
  c : ℝ

/-- `TINY_SQUARE_ANGLE`, resim/transforms/liegroup_exp_diff.hh:11. -/
noncomputable def tinySquareAngle : ℝ := 4e-6

open Classical in
/-- `derivative_of_exp_so3`, resim/transforms/liegroup_exp_diff.cc:35-56 with the constants of lines 19-29. -/
noncomputable def expDiffCoeffs (sq : ℝ) : Coeffs :=
  if sq < tinySquareAngle then
    let b := 0.5 - sq * (1 / 24 - sq * (1 / 720))
    let c := 1 / 6 - sq * (1 / 120 - sq * (1 / 5040))
    ⟨1 - sq * c, b, c⟩
  else
    let angle := Real.sqrt sq
    let invAngle := 1 / angle
    let invSq := invAngle * invAngle
    let a := Real.sin angle * invAngle
    ⟨a, (1 - Real.cos angle) * invSq, (1 - a) * invSq⟩

/-- `SO3::exp_diff`, resim/transforms/so3.cc:102-107. -/
noncomputable def expDiff (w : V3) : M3 :=
  let k := expDiffCoeffs (sqNorm w)
  k.a • (1 : M3) + k.b • crossMatrix w + k.c • vecMulVec w w

/-- The `SO3` class as a Lie group (resim/transforms/so3.cc, functions cited above; scaling of tangent vectors at so3.cc:84). -/
noncomputable def ops : LieOps ℝ M3 V3 V3 where
  one := one
  mul := mul
  inv := inv
  exp := exp
  log := log
  Ad := adjointTimes
  ad := bracket
  smul := fun f x => f • x
  rotate := act

end SO3
end Verif
