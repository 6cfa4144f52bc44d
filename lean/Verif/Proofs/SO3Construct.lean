import Verif.Model.SO3Construct
import Verif.Proofs.SO3Log
import Verif.Proofs.Homogeneous
/-! # Which numbers give a rotation -/
namespace Verif.SO3
open Matrix Verif.Spec

theorem quatMatrix_of_zero (w : ℝ) : quatMatrix ⟨w, 0⟩ = 1 := by
  ext i j
  fin_cases i <;> fin_cases j <;> simp [quatMatrix]

theorem quatMatrix_iff (q : Quat) : IsRotation (quatMatrix q) ↔ q.w ^ 2 + sqNorm q.v = 1 ∨ q.v = 0 := by
  constructor
  · intro h
    have t : ((quatMatrix q)ᵀ * quatMatrix q).trace = 3 := by rw [h.orth, trace_one]; simp
    have e : ((quatMatrix q)ᵀ * quatMatrix q).trace = 3 + 8 * (sqNorm q.v * (q.w ^ 2 + sqNorm q.v - 1)) := by
      simp [quatMatrix, trace, mul_apply, Fin.sum_univ_three, sqNorm_eq]
      ring
    rw [e] at t
    have t' : sqNorm q.v * (q.w ^ 2 + sqNorm q.v - 1) = 0 := by linarith
    rcases mul_eq_zero.mp t' with h0 | h0
    · exact .inr (sqNorm_eq_zero.mp h0)
    · exact .inl (by linarith)
  · rintro (h | h)
    · exact isRotation_quatMatrix h
    · obtain ⟨w, v⟩ := q
      change v = 0 at h
      rw [h, quatMatrix_of_zero]
      exact isRotation_one

theorem angleAxis_gram (t : ℝ) (n : V3) (i j : Fin 3) : ((angleAxisMatrix t n)ᵀ * angleAxisMatrix t n) i j =
    (if i = j then Real.cos t ^ 2 + Real.sin t ^ 2 * sqNorm n else 0) +
      (2 * Real.cos t * (1 - Real.cos t) + (1 - Real.cos t) ^ 2 * sqNorm n - Real.sin t ^ 2) * (n i * n j) := by
  rw [sqNorm_eq]
  fin_cases i <;> fin_cases j <;> simp [angleAxisMatrix, mul_apply, Fin.sum_univ_three] <;> ring

theorem angleAxisMatrix_of_cos {t : ℝ} (h : Real.cos t = 1) (n : V3) : angleAxisMatrix t n = 1 := by
  have hs : Real.sin t = 0 := by
    have := Real.sin_sq_add_cos_sq t
    rw [h] at this
    exact pow_eq_zero_iff two_ne_zero |>.mp (by linarith)
  rw [angleAxisMatrix_eq, h, hs]
  simp

theorem angleAxisMatrix_iff (t : ℝ) (n : V3) : IsRotation (angleAxisMatrix t n) ↔ sqNorm n = 1 ∨ Real.cos t = 1 := by
  constructor
  · intro h
    have hsc := Real.sin_sq_add_cos_sq t
    by_cases h0 : n = 0
    · subst h0
      have := h.det
      rw [angleAxisMatrix_eq] at this
      have e : crossMatrix 0 = 0 := crossMatrix_zero
      simp [e] at this
      refine .inr ?_
      have h3 : (Real.cos t - 1) * (Real.cos t ^ 2 + Real.cos t + 1) = 0 := by linear_combination this
      rcases mul_eq_zero.mp h3 with h4 | h4
      · linarith
      · nlinarith [sq_nonneg (Real.cos t + 1 / 2)]
    · have g : ∀ i j : Fin 3, (if i = j then Real.cos t ^ 2 + Real.sin t ^ 2 * sqNorm n else 0) +
          (2 * Real.cos t * (1 - Real.cos t) + (1 - Real.cos t) ^ 2 * sqNorm n - Real.sin t ^ 2) * (n i * n j) = (1 : M3) i j := fun i j => by
        rw [← angleAxis_gram, h.orth]
      generalize hr : 2 * Real.cos t * (1 - Real.cos t) + (1 - Real.cos t) ^ 2 * sqNorm n - Real.sin t ^ 2 = r at g
      generalize hp : Real.cos t ^ 2 + Real.sin t ^ 2 * sqNorm n = p at g
      have g00 := g 0 0
      have g11 := g 1 1
      have g22 := g 2 2
      have g01 := g 0 1
      have g02 := g 0 2
      have g12 := g 1 2
      simp at g00 g11 g22 g01 g02 g12
      have hr0 : r = 0 := by
        by_contra hr0
        have e01 : n 0 * n 1 = 0 := by rcases g01 with h | h | h <;> simp_all
        have e02 : n 0 * n 2 = 0 := by rcases g02 with h | h | h <;> simp_all
        have e12 : n 1 * n 2 = 0 := by rcases g12 with h | h | h <;> simp_all
        have d1 : n 0 * n 0 = n 1 * n 1 := mul_left_cancel₀ hr0 (by linarith)
        have d2 : n 0 * n 0 = n 2 * n 2 := mul_left_cancel₀ hr0 (by linarith)
        have z : n 0 * n 0 * (n 0 * n 0) = 0 := by
          calc n 0 * n 0 * (n 0 * n 0) = n 0 * n 0 * (n 1 * n 1) := by rw [← d1]
            _ = n 0 * n 1 * (n 0 * n 1) := by ring
            _ = 0 := by rw [e01, zero_mul]
        have z0 : n 0 * n 0 = 0 := by simpa using z
        apply h0
        funext i
        fin_cases i
        · simpa using z0
        · simpa using d1.symm.trans z0
        · simpa using d2.symm.trans z0
      have hp1 : p = 1 := by rw [hr0] at g00; linarith
      have hs : Real.sin t ^ 2 * (sqNorm n - 1) = 0 := by linear_combination hp + hp1 - hsc
      rcases mul_eq_zero.mp hs with h1 | h1
      · have hc : (Real.cos t - 1) * (Real.cos t + 1) = 0 := by linear_combination hsc - h1
        rcases mul_eq_zero.mp hc with h2 | h2
        · exact .inr (by linarith)
        · have hc' : Real.cos t = -1 := by linarith
          rw [hc', h1, hr0] at hr
          exact .inl (by linarith)
      · exact .inl (by linarith)
  · rintro (h | h)
    · exact isRotation_angleAxis t h
    · rw [angleAxisMatrix_of_cos h]
      exact isRotation_one

theorem angleAxis_exp (t : ℝ) {n : V3} (hn : sqNorm n = 1) : angleAxisMatrix t n = SO3.exp (t • n) := by
  by_cases ht : t = 0
  · subst ht
    rw [zero_smul, exp_zero, angleAxisMatrix_of_cos Real.cos_zero]
  · have h1 : eucNorm n = 1 := by rw [eucNorm, hn, Real.sqrt_one]
    have hne : t • n ≠ 0 := by
      rw [ne_eq, ← eucNorm_eq_zero, eucNorm_smul, h1, mul_one]
      exact abs_ne_zero.mpr ht
    rw [exp_eq hne, eucNorm_smul, h1, mul_one, angleAxisMatrix_eq' t hn, crossMatrix_smul, smul_pow, smul_smul, smul_smul, sq_abs, Real.cos_abs]
    congr 2
    · rcases abs_choice t with h | h <;> rw [h]
      · field_simp
      · rw [Real.sin_neg]; field_simp
    · field_simp

theorem mulVec_angleAxis (t : ℝ) (n v : V3) :
    angleAxisMatrix t n *ᵥ v = Real.cos t • v + Real.sin t • (n ⨯₃ v) + ((1 - Real.cos t) * (n ⬝ᵥ v)) • n := by
  funext i
  fin_cases i <;> simp [angleAxisMatrix, mulVec, dotProduct, Fin.sum_univ_three, cross_apply, vecHead, vecTail] <;> ring

end Verif.SO3
