import Verif.Proofs.BanachExp
import Verif.Proofs.LieLaws
import Mathlib.Analysis.Normed.Algebra.MatrixExponential
/-! # The closed forms of `exp` are matrix exponentials -/
namespace Verif
open Matrix Spec

section
variable {n : Type} [Fintype n] [DecidableEq n]

/-- `exp_closed_form` for matrices with the entrywise topology. -/
theorem matrix_exp_closed_form (X : Matrix n n ℝ) (θ : ℝ) (hθ : θ ≠ 0) (h : X ^ 4 = (-(θ ^ 2)) • X ^ 2) :
    NormedSpace.exp X = 1 + X + ((1 - Real.cos θ) / θ ^ 2) • X ^ 2 + ((θ - Real.sin θ) / θ ^ 3) • X ^ 3 := by
  let : NormedRing (Matrix n n ℝ) := Matrix.linftyOpNormedRing
  let : NormedAlgebra ℝ (Matrix n n ℝ) := Matrix.linftyOpNormedAlgebra
  exact exp_closed_form X θ hθ h

/-- `exp_sq_zero` for matrices with the entrywise topology. -/
theorem matrix_exp_sq_zero (X : Matrix n n ℝ) (h : X ^ 2 = 0) : NormedSpace.exp X = 1 + X := by
  let : NormedRing (Matrix n n ℝ) := Matrix.linftyOpNormedRing
  let : NormedAlgebra ℝ (Matrix n n ℝ) := Matrix.linftyOpNormedAlgebra
  exact exp_sq_zero X h

end

namespace SO3

theorem sqNorm_eq (w : V3) : sqNorm w = w 0 ^ 2 + w 1 ^ 2 + w 2 ^ 2 := by
  simp [sqNorm, dotProduct, Fin.sum_univ_three]; ring

theorem sqNorm_nonneg (w : V3) : 0 ≤ sqNorm w := by rw [sqNorm_eq]; positivity

theorem sqNorm_eq_zero {w : V3} : sqNorm w = 0 ↔ w = 0 := by
  rw [sqNorm_eq]
  constructor
  · intro h
    have h0 : w 0 = 0 := by nlinarith [sq_nonneg (w 0), sq_nonneg (w 1), sq_nonneg (w 2)]
    have h1 : w 1 = 0 := by nlinarith [sq_nonneg (w 0), sq_nonneg (w 1), sq_nonneg (w 2)]
    have h2 : w 2 = 0 := by nlinarith [sq_nonneg (w 0), sq_nonneg (w 1), sq_nonneg (w 2)]
    ext i
    fin_cases i <;> simp [h0, h1, h2]
  · rintro rfl
    simp

theorem eucNorm_sq (w : V3) : eucNorm w ^ 2 = sqNorm w := Real.sq_sqrt (sqNorm_nonneg w)

theorem eucNorm_nonneg (w : V3) : 0 ≤ eucNorm w := Real.sqrt_nonneg _

theorem eucNorm_eq_zero {w : V3} : eucNorm w = 0 ↔ w = 0 := by
  rw [eucNorm, Real.sqrt_eq_zero (sqNorm_nonneg w), sqNorm_eq_zero]

theorem eucNorm_zero : eucNorm (0 : V3) = 0 := eucNorm_eq_zero.mpr rfl

theorem eucNorm_pos {w : V3} (h : w ≠ 0) : 0 < eucNorm w :=
  lt_of_le_of_ne (eucNorm_nonneg w) (fun e => h (eucNorm_eq_zero.mp e.symm))

theorem sqNorm_smul (c : ℝ) (w : V3) : sqNorm (c • w) = c ^ 2 * sqNorm w := by
  simp [sqNorm_eq]; ring

theorem eucNorm_smul (c : ℝ) (w : V3) : eucNorm (c • w) = |c| * eucNorm w := by
  rw [eucNorm, sqNorm_smul, Real.sqrt_mul (sq_nonneg c), Real.sqrt_sq_eq_abs, eucNorm]

theorem normalized_of_ne {w : V3} (h : w ≠ 0) : normalized w = (eucNorm w)⁻¹ • w := by
  have : 0 < sqNorm w := lt_of_le_of_ne (sqNorm_nonneg w) (fun e => h (sqNorm_eq_zero.mp e.symm))
  rw [normalized, if_pos this]

theorem normalized_unit {w : V3} (h : w ≠ 0) : sqNorm (normalized w) = 1 := by
  have := eucNorm_pos h
  rw [normalized_of_ne h, sqNorm_smul, ← eucNorm_sq]
  field_simp

theorem eucNorm_smul_normalized (w : V3) : eucNorm w • normalized w = w := by
  by_cases h : w = 0
  · subst h; rw [eucNorm_zero, zero_smul]
  · have := eucNorm_pos h
    rw [normalized_of_ne h, smul_smul, mul_inv_cancel₀ this.ne', one_smul]

theorem crossMatrix_smul (c : ℝ) (w : V3) : crossMatrix (c • w) = c • crossMatrix w := by
  ext i j; fin_cases i <;> fin_cases j <;> simp [crossMatrix]

theorem crossMatrix_zero : crossMatrix 0 = 0 := by
  ext i j; fin_cases i <;> fin_cases j <;> simp [crossMatrix]

theorem crossMatrix_add (v w : V3) : crossMatrix (v + w) = crossMatrix v + crossMatrix w := by
  ext i j; fin_cases i <;> fin_cases j <;> simp [crossMatrix] <;> ring

theorem crossMatrix_sq (w : V3) : crossMatrix w * crossMatrix w = vecMulVec w w - sqNorm w • (1 : M3) := by
  ext i j
  fin_cases i <;> fin_cases j <;>
    simp [crossMatrix, Matrix.mul_apply, Fin.sum_univ_three, vecMulVec_apply, sqNorm_eq] <;> ring

theorem crossMatrix_cube (w : V3) : crossMatrix w ^ 3 = (-sqNorm w) • crossMatrix w := by
  ext i j
  fin_cases i <;> fin_cases j <;>
    simp [pow_succ, crossMatrix, Matrix.mul_apply, Fin.sum_univ_three, sqNorm_eq] <;> ring

theorem crossMatrix_four (w : V3) : crossMatrix w ^ 4 = (-sqNorm w) • crossMatrix w ^ 2 := by
  rw [show (4 : ℕ) = 3 + 1 from rfl, pow_succ, crossMatrix_cube, smul_mul_assoc, ← pow_two]

theorem angleAxisMatrix_eq (t : ℝ) (n : V3) :
    angleAxisMatrix t n = Real.cos t • (1 : M3) + Real.sin t • crossMatrix n + (1 - Real.cos t) • vecMulVec n n := by
  ext i j
  fin_cases i <;> fin_cases j <;> simp [angleAxisMatrix, crossMatrix, vecMulVec_apply] <;> ring

/-- Rodrigues' formula with powers of the cross matrix. -/
theorem angleAxisMatrix_eq' (t : ℝ) {n : V3} (hn : sqNorm n = 1) :
    angleAxisMatrix t n = 1 + Real.sin t • crossMatrix n + (1 - Real.cos t) • (crossMatrix n) ^ 2 := by
  rw [angleAxisMatrix_eq, pow_two, crossMatrix_sq, hn]
  module

theorem exp_zero : SO3.exp 0 = 1 := by
  rw [SO3.exp, eucNorm_zero, angleAxisMatrix_eq]
  simp

theorem exp_eq {w : V3} (h : w ≠ 0) :
    SO3.exp w = 1 + (Real.sin (eucNorm w) / eucNorm w) • crossMatrix w +
      ((1 - Real.cos (eucNorm w)) / eucNorm w ^ 2) • crossMatrix w ^ 2 := by
  have hp := eucNorm_pos h
  rw [SO3.exp, angleAxisMatrix_eq' _ (normalized_unit h), normalized_of_ne h, crossMatrix_smul, smul_pow, smul_smul, smul_smul, inv_pow]
  congr 2

/-- A rotation by any angle about a unit axis is a proper rotation. -/
theorem isRotation_angleAxis (t : ℝ) {n : V3} (hn : sqNorm n = 1) : IsRotation (angleAxisMatrix t n) := by
  rw [sqNorm_eq] at hn
  constructor
  · rw [angleAxisMatrix_eq' t (by rw [sqNorm_eq]; exact hn)]
    have h4 := crossMatrix_four n
    have h3 := crossMatrix_cube n
    have hq : sqNorm n = 1 := by rw [sqNorm_eq]; exact hn
    rw [hq] at h3 h4
    have ht : (crossMatrix n)ᵀ = -crossMatrix n := by
      ext i j; fin_cases i <;> fin_cases j <;> simp [crossMatrix]
    generalize crossMatrix n = K at *
    have h4' : K ^ 2 * K ^ 2 = -K ^ 2 := by rw [← pow_add, h4]; simp
    have h3' : K * K ^ 2 = -K := by rw [← pow_succ', h3]; simp
    have h3'' : K ^ 2 * K = -K := by rw [← pow_succ, h3]; simp
    have hKK : K * K = K ^ 2 := (pow_two K).symm
    simp only [transpose_add, transpose_one, transpose_smul, transpose_pow, ht, neg_pow_two]
    simp only [add_mul, mul_add, one_mul, mul_one, smul_mul_assoc, mul_smul_comm, neg_mul, smul_neg, hKK, h4', h3', h3'']
    have e : (1 - Real.cos t) • K ^ 2 + (1 - Real.cos t) • K ^ 2 - (Real.sin t * Real.sin t) • K ^ 2
        - ((1 - Real.cos t) * (1 - Real.cos t)) • K ^ 2 = 0 := by
      rw [← add_smul, ← sub_smul, ← sub_smul]
      have : 1 - Real.cos t + (1 - Real.cos t) - Real.sin t * Real.sin t - (1 - Real.cos t) * (1 - Real.cos t) = 0 := by
        linear_combination -(Real.sin_sq_add_cos_sq t)
      rw [this, zero_smul]
    rw [← sub_eq_zero, ← e]
    module
  · rw [det_fin_three]
    simp [angleAxisMatrix]
    have hs := Real.sin_sq_add_cos_sq t
    generalize Real.sin t = s at *
    generalize Real.cos t = c at *
    generalize n 0 = x at *
    generalize n 1 = y at *
    generalize n 2 = z at *
    linear_combination ((1 - c) * (c ^ 2 + s ^ 2 * (x ^ 2 + y ^ 2 + z ^ 2)) + s ^ 2) * hn + hs

theorem isRotation_exp (w : V3) : IsRotation (SO3.exp w) := by
  by_cases h : w = 0
  · subst h; rw [exp_zero]; exact isRotation_one
  · exact isRotation_angleAxis _ (normalized_unit h)

/-- `SO3::exp` is the matrix exponential of the cross product matrix. -/
theorem exp_eq_matrix_exp (w : V3) : SO3.exp w = NormedSpace.exp (crossMatrix w) := by
  by_cases h : w = 0
  · subst h
    rw [crossMatrix_zero, exp_zero, NormedSpace.exp_zero]
  · have hp := eucNorm_pos h
    have h4 := crossMatrix_four w
    rw [← eucNorm_sq] at h4
    rw [matrix_exp_closed_form (crossMatrix w) (eucNorm w) hp.ne' h4, exp_eq h, crossMatrix_cube, ← eucNorm_sq, smul_smul]
    have e : Real.sin (eucNorm w) / eucNorm w = 1 + (eucNorm w - Real.sin (eucNorm w)) / eucNorm w ^ 3 * -eucNorm w ^ 2 := by
      field_simp; ring
    rw [e]
    module

end SO3

namespace SE3
open SO3

/-- In every branch the first coefficient is one minus squared angle times the third. -/
theorem coeff_a (q : ℝ) (hq : 0 ≤ q) : (expDiffCoeffs q).a = 1 - q * (expDiffCoeffs q).c := by
  unfold expDiffCoeffs
  split_ifs with h
  · rfl
  · have hq' : 0 < q := lt_of_lt_of_le (by unfold tinySquareAngle; norm_num) (not_lt.mp h)
    have hs := Real.sqrt_pos.mpr hq'
    have e : Real.sqrt q ^ 2 = q := Real.sq_sqrt hq
    simp only
    have : q * (1 / Real.sqrt q * (1 / Real.sqrt q)) = 1 := by
      rw [div_mul_div_comm, Real.mul_self_sqrt hq, one_mul, mul_one_div_cancel hq'.ne']
    linear_combination (1 - Real.sin (Real.sqrt q) * (1 / Real.sqrt q)) * this

/-- Above the threshold the coefficients are the exact ones. -/
theorem coeff_exact {q : ℝ} (h : tinySquareAngle ≤ q) :
    (expDiffCoeffs q).b = (1 - Real.cos (Real.sqrt q)) / Real.sqrt q ^ 2 ∧
    (expDiffCoeffs q).c = (Real.sqrt q - Real.sin (Real.sqrt q)) / Real.sqrt q ^ 3 := by
  have hq' : 0 < q := lt_of_lt_of_le (by unfold tinySquareAngle; norm_num) h
  have hs := Real.sqrt_pos.mpr hq'
  unfold expDiffCoeffs
  rw [if_neg (not_lt.mpr h)]
  constructor
  · simp only; field_simp
  · simp only; field_simp

theorem exp_translation (x : Twist) : (SE3.exp x).2 =
    x.2 + (expDiffCoeffs (sqNorm x.1)).b • (crossMatrix x.1 *ᵥ x.2) +
      (expDiffCoeffs (sqNorm x.1)).c • ((crossMatrix x.1 ^ 2) *ᵥ x.2) := by
  obtain ⟨w, u⟩ := x
  have ha := coeff_a (sqNorm w) (sqNorm_nonneg w)
  simp only [SE3.exp]
  rw [pow_two, crossMatrix_sq, crossMatrix_mulVec, sub_mulVec, smul_mulVec, one_mulVec, ha]
  have : vecMulVec w w *ᵥ u = (w ⬝ᵥ u) • w := by
    ext i
    simp [vecMulVec_apply, mulVec, dotProduct, Fin.sum_univ_three]; ring
  rw [this]
  module

theorem twistMatrix_eq (w u : V3) : twistMatrix w u = fromBlocks (crossMatrix w) (replicateCol Unit u) 0 0 := rfl

theorem twistMatrix_sq (w u : V3) :
    twistMatrix w u ^ 2 = fromBlocks (crossMatrix w ^ 2) (replicateCol Unit (crossMatrix w *ᵥ u)) 0 0 := by
  rw [pow_two, twistMatrix_eq, fromBlocks_multiply]
  simp [pow_two, replicateCol_mulVec]

theorem twistMatrix_cube (w u : V3) :
    twistMatrix w u ^ 3 = fromBlocks (crossMatrix w ^ 3) (replicateCol Unit (crossMatrix w ^ 2 *ᵥ u)) 0 0 := by
  rw [pow_succ, twistMatrix_sq, twistMatrix_eq, fromBlocks_multiply]
  simp [pow_succ, replicateCol_mulVec]

theorem twistMatrix_four (w u : V3) : twistMatrix w u ^ 4 = (-sqNorm w) • twistMatrix w u ^ 2 := by
  rw [pow_succ, twistMatrix_cube, twistMatrix_sq, twistMatrix_eq, fromBlocks_multiply, fromBlocks_smul]
  have : crossMatrix w ^ 3 * replicateCol Unit u = -sqNorm w • replicateCol Unit (crossMatrix w *ᵥ u) := by
    rw [← replicateCol_mulVec, crossMatrix_cube, smul_mulVec]; rfl
  simp only [Matrix.mul_zero, add_zero, this, smul_zero, Matrix.zero_mul]
  congr 1
  rw [← pow_succ, crossMatrix_four]

/-- `SE3::exp` is the matrix exponential of the twist matrix outside the small-angle region. -/
theorem exp_eq_matrix_exp (w u : V3) (h : w = 0 ∨ tinySquareAngle ≤ sqNorm w) :
    homogeneous (SE3.exp (w, u)).1 (SE3.exp (w, u)).2 = NormedSpace.exp (twistMatrix w u) := by
  have hrot : (SE3.exp (w, u)).1 = SO3.exp w := rfl
  by_cases h0 : w = 0
  · subst h0
    rw [matrix_exp_sq_zero, hrot, exp_translation, SO3.exp_zero]
    · simp only [crossMatrix_zero]
      rw [twistMatrix_eq, crossMatrix_zero, ← fromBlocks_one, fromBlocks_add]
      simp [homogeneous]
    · rw [twistMatrix_sq, crossMatrix_zero]
      simp
  · have hq := h.resolve_left h0
    have hp := eucNorm_pos h0
    have h4 := twistMatrix_four w u
    rw [← eucNorm_sq] at h4
    obtain ⟨hb, hc⟩ := coeff_exact hq
    rw [matrix_exp_closed_form _ _ hp.ne' h4, hrot, exp_translation, twistMatrix_sq, twistMatrix_cube, twistMatrix_eq,
      ← fromBlocks_one, fromBlocks_smul, fromBlocks_smul, fromBlocks_add, fromBlocks_add, fromBlocks_add]
    simp only [homogeneous]
    congr 1
    · rw [SO3.exp_eq_matrix_exp]
      have h4 := crossMatrix_four w
      rw [← eucNorm_sq] at h4
      exact matrix_exp_closed_form (crossMatrix w) (eucNorm w) hp.ne' h4
    · rw [hb, hc]
      ext i j
      simp [eucNorm]
    · simp
    · simp

end SE3
end Verif
