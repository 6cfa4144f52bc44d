import Verif.Model.SampleIntervalDouble
import Mathlib.Data.Matrix.Basic
import Mathlib.Data.Fintype.Basic
import Mathlib.Data.Fin.VecNotation
/-! # Composition, inversion and application of transforms in binary64 arithmetic

resim/transforms/so3.cc and se3.cc.  A finite double is its rational value.  How Eigen evaluates an inner product (order of additions, vector
instructions, fused multiply-add) depends on compiler and machine, so the model is a relation that admits every such evaluation.
Simplifications: frames are left out (they do not influence the numbers); results that overflow are not modelled (for stored rotations entries
are at most 2 in magnitude, and translations are assumed bounded in the theorems); the sign of zero is dropped. -/
namespace Verif.TransformDouble
open SampleIntervalDouble

/-- `r` is a double that Eigen may compute for `∑ x i * y i` over the index set: terms in any order and bracketing, each addition rounded, each
product rounded or fused with the addition.  The inner products of `rotation_matrix_ * other.rotation_matrix_` (resim/transforms/so3.cc:51,56),
`rotation_matrix_ * source_vector` (so3.cc:60,64) and `rotation_ * other.translation_ + translation_` (resim/transforms/se3.cc:63,75). -/
inductive Evaluates {ι : Type} [DecidableEq ι] (x y : ι → ℚ) : Finset ι → ℚ → Prop
  | product (i : ι) : Evaluates x y {i} (round64 (x i * y i))
  | add {s t : Finset ι} {a b : ℚ} : Evaluates x y s a → Evaluates x y t b → Disjoint s t → Evaluates x y (s ∪ t) (round64 (a + b))
  | fused {s : Finset ι} {a : ℚ} (i : ι) : Evaluates x y s a → i ∉ s → Evaluates x y (insert i s) (round64 (x i * y i + a))

/-- A stored transform: the entries of `rotation_` and `translation_`, resim/transforms/se3.hh:167-168, so3.hh (`rotation_matrix_`). -/
structure Stored where
  rot : Matrix (Fin 3) (Fin 3) ℚ
  trans : Fin 3 → ℚ

/-- `SO3::operator*(SO3)`, resim/transforms/so3.cc:48-57. -/
def MulRot (a b c : Matrix (Fin 3) (Fin 3) ℚ) : Prop := ∀ i j, Evaluates (a i) (fun k => b k j) Finset.univ (c i j)

/-- `SO3::operator*(Vector3d)` and `SO3::rotate`, resim/transforms/so3.cc:59-65; `SE3::rotate`, se3.cc:78-80. -/
def Rotated (a : Matrix (Fin 3) (Fin 3) ℚ) (v w : Fin 3 → ℚ) : Prop := ∀ i, Evaluates (a i) v Finset.univ (w i)

/-- `SE3::operator*(Vector3d)`, resim/transforms/se3.cc:74-76: a sum of four terms, the last one a translation (times one). -/
def Applied (a : Stored) (v w : Fin 3 → ℚ) : Prop :=
  ∀ i, Evaluates (Fin.snoc (α := fun _ => ℚ) (a.rot i) (a.trans i)) (Fin.snoc (α := fun _ => ℚ) v 1) Finset.univ (w i)

/-- `SE3::operator*(SE3)`, resim/transforms/se3.cc:61-71. -/
def Mul (a b c : Stored) : Prop := MulRot a.rot b.rot c.rot ∧ Applied a b.trans c.trans

/-- `SE3::inverse`, resim/transforms/se3.cc:93-100 (the transpose of so3.cc:79-81 copies entries). -/
def Inverse (a c : Stored) : Prop := c.rot = a.rot.transpose ∧ Rotated a.rot.transpose (-a.trans) c.trans

/-- A client expression made of given transforms, `operator*` and `inverse` (resim/transforms/se3.cc:61-71,93-100). -/
inductive Expr (α : Type) where
  | given (a : α)
  | mul (x y : Expr α)
  | inv (x : Expr α)

/-- `c` may be the double result of evaluating an expression over stored transforms (resim/transforms/se3.cc:61-71,93-100). -/
inductive Computes : Expr Stored → Stored → Prop
  | given (a : Stored) : Computes (.given a) a
  | mul {x y : Expr Stored} {a b c : Stored} : Computes x a → Computes y b → Mul a b c → Computes (.mul x y) c
  | inv {x : Expr Stored} {a c : Stored} : Computes x a → Inverse a c → Computes (.inv x) c

end Verif.TransformDouble
