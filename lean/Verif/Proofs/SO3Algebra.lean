import Verif.Spec.Rotation
import Verif.Model.SE3
import Mathlib.LinearAlgebra.Matrix.Adjugate
import Mathlib.LinearAlgebra.Matrix.NonsingularInverse
import Mathlib.Tactic.LinearCombination
/-! # Matrix algebra of rotations -/
namespace Verif
open Matrix Spec

namespace SO3

theorem IsRotation_orth' {R : M3} (h : IsRotation R) : R * Rᵀ = 1 := mul_eq_one_comm.mp h.orth

theorem isRotation_one : IsRotation (1 : M3) := ⟨by simp, by simp⟩

theorem isRotation_mul {A B : M3} (ha : IsRotation A) (hb : IsRotation B) : IsRotation (A * B) := by
  refine ⟨?_, by rw [det_mul, ha.det, hb.det, one_mul]⟩
  rw [transpose_mul, Matrix.mul_assoc, ← Matrix.mul_assoc Aᵀ, ha.orth, Matrix.one_mul, hb.orth]

theorem isRotation_transpose {A : M3} (ha : IsRotation A) : IsRotation Aᵀ :=
  ⟨by rw [transpose_transpose]; exact IsRotation_orth' ha, by rw [det_transpose, ha.det]⟩

/-- The cofactor matrix of a rotation is the rotation itself. -/
theorem adjugate_eq {R : M3} (h : IsRotation R) : adjugate R = Rᵀ := by
  have h1 : R * adjugate R = 1 := by rw [mul_adjugate, h.det, one_smul]
  calc adjugate R = (Rᵀ * R) * adjugate R := by rw [h.orth, Matrix.one_mul]
    _ = Rᵀ := by rw [Matrix.mul_assoc, h1, Matrix.mul_one]

/-- Rows are orthonormal, in entries. -/
theorem rows {R : M3} (h : IsRotation R) (i j : Fin 3) :
    R i 0 * R j 0 + R i 1 * R j 1 + R i 2 * R j 2 = if i = j then 1 else 0 := by
  have := congrFun (congrFun (IsRotation_orth' h) i) j
  simpa [Matrix.mul_apply, Fin.sum_univ_three, Matrix.one_apply] using this

/-- Columns are orthonormal, in entries. -/
theorem cols {R : M3} (h : IsRotation R) (i j : Fin 3) :
    R 0 i * R 0 j + R 1 i * R 1 j + R 2 i * R 2 j = if i = j then 1 else 0 := by
  have := congrFun (congrFun h.orth i) j
  simpa [Matrix.mul_apply, Fin.sum_univ_three, Matrix.one_apply] using this

/-- The nine cofactor equations. -/
structure Cofactors (R : M3) : Prop where
  c00 : R 1 1 * R 2 2 - R 1 2 * R 2 1 = R 0 0
  c01 : R 1 2 * R 2 0 - R 1 0 * R 2 2 = R 0 1
  c02 : R 1 0 * R 2 1 - R 1 1 * R 2 0 = R 0 2
  c10 : R 0 2 * R 2 1 - R 0 1 * R 2 2 = R 1 0
  c11 : R 0 0 * R 2 2 - R 0 2 * R 2 0 = R 1 1
  c12 : R 0 1 * R 2 0 - R 0 0 * R 2 1 = R 1 2
  c20 : R 0 1 * R 1 2 - R 0 2 * R 1 1 = R 2 0
  c21 : R 0 2 * R 1 0 - R 0 0 * R 1 2 = R 2 1
  c22 : R 0 0 * R 1 1 - R 0 1 * R 1 0 = R 2 2

theorem cofactors {R : M3} (h : IsRotation R) : Cofactors R := by
  have e : ∀ i j, adjugate R i j = R j i := by
    intro i j; rw [adjugate_eq h]; rfl
  have f := adjugate_fin_three R
  have g : ∀ i j, _ = R j i := fun i j => (congrFun (congrFun f i) j).symm.trans (e i j)
  have g00 := g 0 0
  have g01 := g 0 1
  have g02 := g 0 2
  have g10 := g 1 0
  have g11 := g 1 1
  have g12 := g 1 2
  have g20 := g 2 0
  have g21 := g 2 1
  have g22 := g 2 2
  simp at g00 g01 g02 g10 g11 g12 g20 g21 g22
  constructor <;> linarith

/-- Rotations preserve cross products. -/
theorem mulVec_cross {R : M3} (h : IsRotation R) (a b : V3) : R *ᵥ (a ⨯₃ b) = (R *ᵥ a) ⨯₃ (R *ᵥ b) := by
  have c := cofactors h
  obtain ⟨c00, c01, c02, c10, c11, c12, c20, c21, c22⟩ := c
  ext i
  fin_cases i
  · simp [crossProduct, mulVec, dotProduct, Fin.sum_univ_three]
    linear_combination -(a 1 * b 2 - a 2 * b 1) * c00 - (a 2 * b 0 - a 0 * b 2) * c01 - (a 0 * b 1 - a 1 * b 0) * c02
  · simp [crossProduct, mulVec, dotProduct, Fin.sum_univ_three]
    linear_combination -(a 1 * b 2 - a 2 * b 1) * c10 - (a 2 * b 0 - a 0 * b 2) * c11 - (a 0 * b 1 - a 1 * b 0) * c12
  · simp [crossProduct, mulVec, dotProduct, Fin.sum_univ_three]
    linear_combination -(a 1 * b 2 - a 2 * b 1) * c20 - (a 2 * b 0 - a 0 * b 2) * c21 - (a 0 * b 1 - a 1 * b 0) * c22

/-- Rotations preserve inner products. -/
theorem dot_mulVec {R : M3} (h : IsRotation R) (a b : V3) : (R *ᵥ a) ⬝ᵥ (R *ᵥ b) = a ⬝ᵥ b := by
  rw [dotProduct_mulVec, vecMul_mulVec, ← mulVec_transpose, transpose_mul, transpose_transpose, h.orth]
  simp

theorem crossMatrix_mulVec (v w : V3) : crossMatrix v *ᵥ w = v ⨯₃ w := by
  ext i
  fin_cases i <;> simp [crossMatrix, crossProduct, mulVec, dotProduct, Fin.sum_univ_three] <;> ring

end SO3
end Verif
