import Verif.Proofs.MatrixExp
/-! # Poses as homogeneous matrices, quaternions as rotations, adjoints as conjugation -/
namespace Verif
open Matrix Spec

namespace SO3

theorem isRotation_quatMatrix {q : Quat} (h : q.w ^ 2 + sqNorm q.v = 1) : IsRotation (quatMatrix q) := by
  rw [sqNorm_eq] at h
  obtain ⟨w, v⟩ := q
  simp only at h
  constructor
  · ext i j
    fin_cases i <;> fin_cases j <;> simp [quatMatrix, Matrix.mul_apply, Fin.sum_univ_three]
    · linear_combination (4 * v 1 ^ 2 + 4 * v 2 ^ 2) * h
    · linear_combination (-4 * v 0 * v 1) * h
    · linear_combination (-4 * v 0 * v 2) * h
    · linear_combination (-4 * v 0 * v 1) * h
    · linear_combination (4 * v 0 ^ 2 + 4 * v 2 ^ 2) * h
    · linear_combination (-4 * v 1 * v 2) * h
    · linear_combination (-4 * v 0 * v 2) * h
    · linear_combination (-4 * v 1 * v 2) * h
    · linear_combination (4 * v 0 ^ 2 + 4 * v 1 ^ 2) * h
  · rw [det_fin_three]
    simp [quatMatrix]
    linear_combination (4 * (v 0 ^ 2 + v 1 ^ 2 + v 2 ^ 2)) * h

theorem crossMatrix_conj {R : M3} (h : IsRotation R) (x : V3) : crossMatrix (R *ᵥ x) = R * crossMatrix x * Rᵀ := by
  have : crossMatrix (R *ᵥ x) * R = R * crossMatrix x := by
    apply Matrix.ext_of_mulVec_single
    intro i
    rw [← mulVec_mulVec, ← mulVec_mulVec, crossMatrix_mulVec, crossMatrix_mulVec, mulVec_cross h]
  rw [← this, Matrix.mul_assoc, IsRotation_orth' h, Matrix.mul_one]

theorem crossMatrix_bracket (x y : V3) : crossMatrix (x ⨯₃ y) = crossMatrix x * crossMatrix y - crossMatrix y * crossMatrix x := by
  ext i j
  fin_cases i <;> fin_cases j <;> simp [crossMatrix, crossProduct] <;> ring

theorem sqNorm_mulVec {R : M3} (h : IsRotation R) (x : V3) : sqNorm (R *ᵥ x) = sqNorm x := dot_mulVec h x x

theorem eucNorm_mulVec {R : M3} (h : IsRotation R) (x : V3) : eucNorm (R *ᵥ x) = eucNorm x := by
  rw [eucNorm, sqNorm_mulVec h, eucNorm]

/-- The exponential commutes with conjugation. -/
theorem exp_conj {R : M3} (h : IsRotation R) (x : V3) : SO3.exp (R *ᵥ x) = R * SO3.exp x * Rᵀ := by
  by_cases hx : x = 0
  · subst hx
    rw [mulVec_zero, exp_zero, Matrix.mul_one, IsRotation_orth' h]
  · have hx' : R *ᵥ x ≠ 0 := by
      intro e
      apply hx
      rw [← sqNorm_eq_zero, ← sqNorm_mulVec h, e, sqNorm_eq_zero]
    rw [exp_eq hx, exp_eq hx', eucNorm_mulVec h, crossMatrix_conj h]
    have : (R * crossMatrix x * Rᵀ) ^ 2 = R * (crossMatrix x ^ 2) * Rᵀ := by
      rw [pow_two, pow_two]
      calc R * crossMatrix x * Rᵀ * (R * crossMatrix x * Rᵀ) = R * crossMatrix x * (Rᵀ * R) * crossMatrix x * Rᵀ := by
            simp only [Matrix.mul_assoc]
        _ = _ := by rw [h.orth, Matrix.mul_one]; simp only [Matrix.mul_assoc]
    rw [this, Matrix.mul_add, Matrix.add_mul, Matrix.mul_add, Matrix.add_mul, Matrix.mul_one, IsRotation_orth' h]
    simp

end SO3

namespace SE3
open SO3

/-- The homogeneous matrix of a pose. -/
def H (g : Pose) : Matrix (Fin 3 ⊕ Unit) (Fin 3 ⊕ Unit) ℝ := homogeneous g.1 g.2

/-- The twist matrix of a tangent vector. -/
def T (x : Twist) : Matrix (Fin 3 ⊕ Unit) (Fin 3 ⊕ Unit) ℝ := twistMatrix x.1 x.2

theorem H_one : H one = 1 := by simp [H, homogeneous, one, SO3.one]

theorem H_mul (a b : Pose) : H (mul a b) = H a * H b := by
  simp only [H, homogeneous, mul, fromBlocks_multiply, SO3.mul, SO3.act]
  congr 1
  · simp
  · ext i j; simp [Matrix.mul_apply, mulVec, dotProduct]
  · simp
  · simp

theorem H_injective : Function.Injective H := by
  intro a b h
  simp only [H, homogeneous, fromBlocks_inj] at h
  exact Prod.ext h.1 (by
    funext i
    exact congrFun (congrFun h.2.1 i) ())

theorem T_injective : Function.Injective T := by
  intro a b h
  simp only [T, twistMatrix, fromBlocks_inj] at h
  obtain ⟨h1, h2, -⟩ := h
  refine Prod.ext ?_ ?_
  · have e1 := congrFun (congrFun h1 2) 1
    have e2 := congrFun (congrFun h1 0) 2
    have e3 := congrFun (congrFun h1 1) 0
    simp at e1 e2 e3
    funext i
    fin_cases i <;> assumption
  · funext i
    exact congrFun (congrFun h2 i) ()

theorem H_inv {g : Pose} (h : PoseValid g) : H (inv g) * H g = 1 ∧ H g * H (inv g) = 1 := by
  constructor
  · rw [← H_mul, show mul (inv g) g = one from se3Laws.inv_mul h, H_one]
  · rw [← H_mul, show mul g (inv g) = one from se3Laws.mul_inv h, H_one]

theorem T_bracket (x y : Twist) : T (bracket x y) = T x * T y - T y * T x := by
  rw [sub_eq_add_neg]
  simp only [T, twistMatrix_eq, bracket, fromBlocks_multiply, fromBlocks_neg, fromBlocks_add]
  congr 1
  · simp [crossMatrix_bracket, sub_eq_add_neg]
  · rw [← crossMatrix_mulVec x.1 y.2, ← cross_anticomm y.1 x.2, ← crossMatrix_mulVec]
    ext i j
    simp [Matrix.mul_apply, mulVec, dotProduct]
    ring
  · simp
  · simp

theorem T_conj_aux {g : Pose} (h : PoseValid g) (x : Twist) : T (adjointTimes g x) * H g = H g * T x := by
  simp only [T, H, homogeneous, twistMatrix_eq, adjointTimes, fromBlocks_multiply]
  have hr : IsRotation g.1 := h
  congr 1
  · rw [crossMatrix_conj hr, Matrix.mul_assoc, hr.orth]
    simp
  · rw [← replicateCol_mulVec, crossMatrix_mulVec, ← cross_anticomm g.2]
    ext i j
    simp only [replicateCol_apply, Matrix.add_apply, Matrix.mul_apply, mulVec, dotProduct, Pi.neg_apply, Pi.add_apply,
      Matrix.mul_one, Matrix.mul_zero, Matrix.zero_apply]
    ring
  · simp
  · simp

theorem T_conj {g : Pose} (h : PoseValid g) (x : Twist) : T (adjointTimes g x) = H g * T x * H (inv g) := by
  rw [← T_conj_aux h, Matrix.mul_assoc, (H_inv h).2, Matrix.mul_one]

/-- The exponential commutes with conjugation outside the small-angle region. -/
theorem exp_conj {g : Pose} (h : PoseValid g) (x : Twist) (hx : x.1 = 0 ∨ tinySquareAngle ≤ sqNorm x.1) :
    SE3.exp (adjointTimes g x) = mul (mul g (SE3.exp x)) (inv g) := by
  have hr : IsRotation g.1 := h
  have hx' : (adjointTimes g x).1 = 0 ∨ tinySquareAngle ≤ sqNorm (adjointTimes g x).1 := by
    rcases hx with h0 | h0
    · left; simp [adjointTimes, h0]
    · right
      rw [show sqNorm (adjointTimes g x).1 = sqNorm x.1 from sqNorm_mulVec hr x.1]
      exact h0
  apply H_injective
  rw [H_mul, H_mul]
  have e1 : H (SE3.exp (adjointTimes g x)) = NormedSpace.exp (T (adjointTimes g x)) := exp_eq_matrix_exp _ _ hx'
  have e2 : H (SE3.exp x) = NormedSpace.exp (T x) := exp_eq_matrix_exp _ _ hx
  have hinv : (H g)⁻¹ = H (inv g) := inv_eq_left_inv (H_inv h).1
  have hu : IsUnit (H g) := IsUnit.of_mul_eq_one _ (H_inv h).2
  rw [e1, e2, T_conj h, ← hinv, Matrix.exp_conj _ _ hu]

end SE3
end Verif
