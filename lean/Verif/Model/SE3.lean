import Verif.Model.SO3
/-! # resim/transforms/se3.cc in exact real arithmetic

A pose is a pair (rotation matrix, translation); a tangent vector is a pair (rotation part = `head<3>`, translation part =
`tail<3>`), resim/transforms/se3.cc:220-247. -/
namespace Verif
open Matrix

/-- The data members `rotation_`, `translation_` of `SE3`, resim/transforms/se3.hh:167-168.  The frames inside `rotation_` are always
null because every constructor calls `set_unframed` on it (se3.cc:27,35,50), so they are left out here. -/
abbrev Pose := M3 × V3

/-- `SE3::TangentVector`, resim/transforms/liegroup.hh:51 with the split of resim/transforms/se3.cc:220-247. -/
abbrev Twist := V3 × V3

namespace SE3
open SO3 (sqNorm eucNorm expDiffCoeffs crossMatrix)

/-- `SE3::identity`, resim/transforms/se3.cc:53-59. -/
def one : Pose := (SO3.one, 0)

/-- `SE3::operator*(SE3)`, resim/transforms/se3.cc:62-63. -/
def mul (a b : Pose) : Pose := (SO3.mul a.1 b.1, SO3.act a.1 b.2 + a.2)

/-- `SE3::operator*(Vector3d)`, resim/transforms/se3.cc:74-76. -/
def act (a : Pose) (v : V3) : V3 := SO3.act a.1 v + a.2

/-- `SE3::rotate`, resim/transforms/se3.cc:78-80. -/
def rotate (a : Pose) (v : V3) : V3 := SO3.act a.1 v

/-- `SE3::inverse`, resim/transforms/se3.cc:93-100. -/
def inv (a : Pose) : Pose := (SO3.inv a.1, SO3.act (SO3.inv a.1) (-a.2))

/-- `SE3::exp`, resim/transforms/se3.cc:118-127. -/
noncomputable def exp (x : Twist) : Pose :=
  let w := x.1
  let u := x.2
  let k := expDiffCoeffs (sqNorm w)
  (SO3.exp w, k.a • u + k.b • (w ⨯₃ u) + (k.c * (w ⬝ᵥ u)) • w)

open Classical in
/-- The coefficient `order_2_coeff` of `SE3::log`, resim/transforms/se3.cc:129-151 (with the expression of line 146 as written). -/
noncomputable def order2Coeff (sq : ℝ) : ℝ :=
  let k := expDiffCoeffs sq
  if sq < SO3.tinySquareAngle then 1 / 12 + sq * (1 / 720 + sq + 1 / 30240)
  else if sq > 9 then (k.b - 0.5 * k.a) / (k.b * sq)
  else (k.b * 0.5 - k.c) / k.a

/-- `SE3::log`, resim/transforms/se3.cc:129-158. -/
noncomputable def log (g : Pose) : Twist :=
  let w := SO3.log g.1
  let q := order2Coeff (sqNorm w)
  let wt := w ⨯₃ g.2
  (w, g.2 - (0.5 : ℝ) • wt + q • (w ⨯₃ wt))

/-- `SE3::arc_length`, resim/transforms/se3.cc:102-104. -/
noncomputable def arcLength (g : Pose) : ℝ := eucNorm (log g).2

/-- `SE3::adjoint()`, resim/transforms/se3.cc:160-168. -/
def adjointMatrix (g : Pose) : Matrix (Fin 3 ⊕ Fin 3) (Fin 3 ⊕ Fin 3) ℝ :=
  fromBlocks (SO3.adjointMatrix g.1) 0 (crossMatrix g.2 * SO3.adjointMatrix g.1) (SO3.adjointMatrix g.1)

/-- `SE3::adjoint(alg)`, resim/transforms/se3.cc:170-181. -/
def algAdjointMatrix (x : Twist) : Matrix (Fin 3 ⊕ Fin 3) (Fin 3 ⊕ Fin 3) ℝ :=
  fromBlocks (SO3.algAdjointMatrix x.1) 0 (SO3.algAdjointMatrix x.2) (SO3.algAdjointMatrix x.1)

/-- `SE3::adjoint_times(alg)`, resim/transforms/se3.cc:183-191. -/
def adjointTimes (g : Pose) (x : Twist) : Twist :=
  let rw := g.1 *ᵥ x.1
  (rw, g.2 ⨯₃ rw + g.1 *ᵥ x.2)

/-- `SE3::adjoint_times(alg_0, alg_1)`, resim/transforms/se3.cc:193-204. -/
def bracket (x y : Twist) : Twist := (x.1 ⨯₃ y.1, x.2 ⨯₃ y.1 + x.1 ⨯₃ y.2)

/-- `se3_distance`, resim/transforms/se3.cc:267-270. -/
noncomputable def distance (a b : Framed Pose) : Outcome ℝ :=
  if a.src.eq b.src then .ok (eucNorm (a.val.2 - b.val.2)) else .throw "From frames must match"

/-- `se3_inverse_distance`, resim/transforms/se3.cc:272-275. -/
noncomputable def inverseDistance (a b : Framed Pose) : Outcome ℝ :=
  if a.into.eq b.into then .ok (eucNorm (a.val.2 - b.val.2)) else .throw "Into frames must match"

/-- The `SE3` class as a Lie group (resim/transforms/se3.cc, functions cited above; scaling of tangent vectors at se3.cc:107). -/
noncomputable def ops : LieOps ℝ Pose Twist V3 where
  one := one
  mul := mul
  inv := inv
  exp := exp
  log := log
  Ad := adjointTimes
  ad := bracket
  smul := fun f x => f • x
  rotate := rotate

end SE3
end Verif
