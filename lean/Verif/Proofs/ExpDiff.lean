import Verif.Proofs.ExpDeriv
import Mathlib.Analysis.SpecialFunctions.Trigonometric.Deriv
import Mathlib.Analysis.SpecialFunctions.Sqrt
/-! # The differential of the rotation exponential -/
namespace Verif.SO3
open Matrix Spec Topology

/-- The exact differential of the exponential at `w`, applied to `v`. -/
noncomputable def trueDiff (w v : V3) : V3 :=
  (Real.sin (eucNorm w) / eucNorm w) • v + ((1 - Real.cos (eucNorm w)) / eucNorm w ^ 2) • (w ⨯₃ v) +
    ((eucNorm w - Real.sin (eucNorm w)) / eucNorm w ^ 3 * (w ⬝ᵥ v)) • w

theorem crossMatrix_cross (w v : V3) : crossMatrix (w ⨯₃ v) = crossMatrix w * crossMatrix v - crossMatrix v * crossMatrix w := by
  ext i j
  fin_cases i <;> fin_cases j <;> simp [crossMatrix, cross_apply] <;> ring

theorem crossMatrix_sandwich (w v : V3) : crossMatrix w * crossMatrix v * crossMatrix w = (-(w ⬝ᵥ v)) • crossMatrix w := by
  ext i j
  fin_cases i <;> fin_cases j <;> simp [crossMatrix, Matrix.mul_apply, Fin.sum_univ_three, dotProduct] <;> ring

/-- The algebra behind the differential: `a`, `b`, `c` are the three coefficients and `d` the derivative of `b`. -/
theorem diff_algebra (w v : V3) {a b c d : ℝ} (h1 : c * sqNorm w = 1 - a) (h2 : d = a * c - b ^ 2) (h3 : a ^ 2 = 2 * b - b ^ 2 * sqNorm w) :
    crossMatrix (a • v + b • (w ⨯₃ v) + (c * (w ⬝ᵥ v)) • w) * (1 + a • crossMatrix w + b • crossMatrix w ^ 2) =
      ((w ⬝ᵥ v) * (c - b)) • crossMatrix w + a • crossMatrix v + ((w ⬝ᵥ v) * d) • crossMatrix w ^ 2 +
        b • (crossMatrix v * crossMatrix w + crossMatrix w * crossMatrix v) := by
  simp only [crossMatrix_add, crossMatrix_smul, crossMatrix_cross]
  have hc := crossMatrix_cube w
  have hs := crossMatrix_sandwich w v
  generalize crossMatrix w = K at *
  generalize crossMatrix v = V at *
  generalize w ⬝ᵥ v = r at *
  generalize sqNorm w = n at *
  rw [pow_three] at hc
  have hs2 : K * V * (K * K) = (-r) • (K * K) := by rw [← mul_assoc, hs, smul_mul_assoc]
  have hc2 : V * K * (K * K) = (-n) • (V * K) := by rw [mul_assoc, hc, mul_smul_comm]
  have hc3 : V * (K * K) * K = (-n) • (V * K) := by rw [mul_assoc, mul_assoc, hc, mul_smul_comm]
  simp only [pow_two, mul_add, add_mul, sub_mul, smul_mul_assoc, mul_smul_comm, mul_one, smul_add, smul_sub, smul_smul, hc, hs, hs2, hc2]
  have e1 : V * K * K = V * (K * K) := mul_assoc _ _ _
  rw [e1, h2]
  have hVK : a * a = 2 * b - b * b * n := by linear_combination h3
  have hK : c * n = 1 - a := h1
  ext i j
  simp only [Matrix.add_apply, Matrix.sub_apply, Matrix.smul_apply, smul_eq_mul]
  linear_combination (V * K) i j * hVK - b * r * K i j * hK

theorem cos_sin_coeffs {w : V3} (h : w ≠ 0) :
    (eucNorm w - Real.sin (eucNorm w)) / eucNorm w ^ 3 * sqNorm w = 1 - Real.sin (eucNorm w) / eucNorm w ∧
    (Real.sin (eucNorm w) / eucNorm w) ^ 2 = 2 * ((1 - Real.cos (eucNorm w)) / eucNorm w ^ 2) - ((1 - Real.cos (eucNorm w)) / eucNorm w ^ 2) ^ 2 * sqNorm w := by
  have hp := eucNorm_pos h
  rw [← eucNorm_sq]
  generalize eucNorm w = t at *
  constructor
  · field_simp
  · field_simp
    linear_combination Real.sin_sq_add_cos_sq t

theorem sqNorm_deriv {x : ℝ → V3} {v : V3} {t : ℝ} (h : HasDerivAt x v t) : HasDerivAt (fun s => sqNorm (x s)) (2 * (x t ⬝ᵥ v)) t := by
  have h := hasDerivAt_pi.mp h
  have e : (fun s => sqNorm (x s)) = fun s => x s 0 * x s 0 + x s 1 * x s 1 + x s 2 * x s 2 := by
    funext s; simp [sqNorm, dotProduct, Fin.sum_univ_three]
  rw [e]
  refine ((((h 0).mul (h 0)).add ((h 1).mul (h 1))).add ((h 2).mul (h 2))).congr_deriv ?_
  simp [dotProduct, Fin.sum_univ_three]; ring

theorem eucNorm_deriv {x : ℝ → V3} {v : V3} {t : ℝ} (h : HasDerivAt x v t) (h0 : x t ≠ 0) :
    HasDerivAt (fun s => eucNorm (x s)) ((x t ⬝ᵥ v) / eucNorm (x t)) t := by
  have := (sqNorm_deriv h).sqrt (by rw [Ne, sqNorm_eq_zero]; exact h0)
  refine this.congr_deriv ?_
  unfold eucNorm
  have : Real.sqrt (sqNorm (x t)) ≠ 0 := (eucNorm_pos h0).ne'
  field_simp

/-- Away from zero: the derivative of the exponential along any path. -/
theorem exp_deriv {x : ℝ → V3} {v : V3} {t : ℝ} (h : HasDerivAt x v t) (h0 : x t ≠ 0) :
    MHas (fun s => SO3.exp (x s)) (rotHat (trueDiff (x t) v) * SO3.exp (x t)) t := by
  have hne : ∀ᶠ s in 𝓝 t, x s ≠ 0 := h.continuousAt.eventually_ne h0
  have hth := eucNorm_deriv h h0
  have hp := eucNorm_pos h0
  obtain ⟨k1, k3⟩ := cos_sin_coeffs h0
  have ha : HasDerivAt (fun s => Real.sin (eucNorm (x s)) / eucNorm (x s))
      ((x t ⬝ᵥ v) * ((eucNorm (x t) - Real.sin (eucNorm (x t))) / eucNorm (x t) ^ 3 - (1 - Real.cos (eucNorm (x t))) / eucNorm (x t) ^ 2)) t := by
    refine (hth.sin.div hth hp.ne').congr_deriv ?_
    field_simp
    ring
  have hb : HasDerivAt (fun s => (1 - Real.cos (eucNorm (x s))) / eucNorm (x s) ^ 2)
      ((x t ⬝ᵥ v) * (Real.sin (eucNorm (x t)) / eucNorm (x t) * ((eucNorm (x t) - Real.sin (eucNorm (x t))) / eucNorm (x t) ^ 3) -
        ((1 - Real.cos (eucNorm (x t))) / eucNorm (x t) ^ 2) ^ 2)) t := by
    refine ((hth.cos.const_sub 1).div (hth.pow 2) (pow_ne_zero 2 hp.ne')).congr_deriv ?_
    simp only [Nat.cast_ofNat, Pi.pow_apply]
    generalize eucNorm (x t) = θ at *
    generalize x t ⬝ᵥ v = r
    have := Real.sin_sq_add_cos_sq θ
    field_simp
    linear_combination r * θ * this
  have hK : MHas (fun s => crossMatrix (x s)) (crossMatrix v) t := rotHat_deriv.mpr h
  have hK2 := hK.mul hK
  refine MHas.congr (F := fun s => 1 + (Real.sin (eucNorm (x s)) / eucNorm (x s)) • crossMatrix (x s) +
      ((1 - Real.cos (eucNorm (x s))) / eucNorm (x s) ^ 2) • (crossMatrix (x s) * crossMatrix (x s))) ?_ ?_
  · rw [exp_eq h0]
    change MHas _ (crossMatrix (trueDiff (x t) v) * _) t
    rw [trueDiff, diff_algebra (x t) v k1 rfl k3]
    intro i j
    have := ((hasDerivAt_const t ((1 : M3) i j)).add (ha.mul (hK i j))).add (hb.mul (hK2 i j))
    refine this.congr_deriv ?_
    simp only [Matrix.add_apply, Matrix.smul_apply, smul_eq_mul, pow_two]
    ring
  · filter_upwards [hne] with s hs
    rw [exp_eq hs, pow_two (crossMatrix (x s))]

/-- At zero the differential is the identity. -/
theorem exp_deriv_zero {x : ℝ → V3} {v : V3} {t : ℝ} (h : HasDerivAt x v t) (h0 : x t = 0) : MHas (fun s => SO3.exp (x s)) (rotHat v) t := by
  let : NormedRing M3 := Matrix.linftyOpNormedRing
  let : NormedAlgebra ℝ M3 := Matrix.linftyOpNormedAlgebra
  have hK : MHas (fun s => crossMatrix (x s)) (crossMatrix v) t := rotHat_deriv.mpr h
  have hK' : HasDerivAt (fun s => crossMatrix (x s)) (crossMatrix v) t := hasDerivAt_pi.mpr fun i => hasDerivAt_pi.mpr fun j => hK i j
  have he : HasFDerivAt (NormedSpace.exp : M3 → M3) (1 : M3 →L[ℝ] M3) (crossMatrix (x t)) := by
    rw [h0, crossMatrix_zero]; exact hasFDerivAt_exp_zero
  have hc := he.comp_hasDerivAt t hK'
  have e : (fun s => SO3.exp (x s)) = NormedSpace.exp ∘ fun s => crossMatrix (x s) := by
    funext s; exact exp_eq_matrix_exp _
  rw [e]
  exact fun i j => hasDerivAt_pi.mp (hasDerivAt_pi.mp hc i) j

theorem expDiff_mulVec (w v : V3) : expDiff w *ᵥ v = (expDiffCoeffs (sqNorm w)).a • v + (expDiffCoeffs (sqNorm w)).b • (w ⨯₃ v) +
    ((expDiffCoeffs (sqNorm w)).c * (w ⬝ᵥ v)) • w := by
  unfold expDiff
  simp only [Matrix.add_mulVec, Matrix.smul_mulVec, Matrix.one_mulVec, crossMatrix_mulVec]
  congr 1
  ext i
  simp [Matrix.mulVec, vecMulVec_apply, dotProduct, Fin.sum_univ_three]
  ring

theorem abs_dot_le (v w : V3) : |v ⬝ᵥ w| ≤ eucNorm v * eucNorm w := by
  refine abs_le_of_sq_le_sq ?_ (mul_nonneg (eucNorm_nonneg _) (eucNorm_nonneg _))
  rw [mul_pow, eucNorm_sq, eucNorm_sq, sqNorm_eq, sqNorm_eq]
  simp only [dotProduct, Fin.sum_univ_three]
  nlinarith [sq_nonneg (v 0 * w 1 - v 1 * w 0), sq_nonneg (v 0 * w 2 - v 2 * w 0), sq_nonneg (v 1 * w 2 - v 2 * w 1)]

end Verif.SO3
