import Verif.Proofs.SO3Log
import Verif.Proofs.TransformDouble
import Mathlib.Analysis.Quaternion
import Mathlib.Analysis.SpecialFunctions.Trigonometric.Bounds
/-! # Distances of quaternions, rotations and rotation vectors -/
namespace Verif.SO3
open Matrix Spec
open scoped Quaternion

/-- A quaternion of the model as a quaternion of Mathlib. -/
def toH (q : Quat) : ℍ[ℝ] := ⟨q.w, q.v 0, q.v 1, q.v 2⟩

/-- A vector as a quaternion. -/
def vecH (v : V3) : ℍ[ℝ] := ⟨0, v 0, v 1, v 2⟩

@[simp] theorem toH_re (q : Quat) : (toH q).re = q.w := rfl
@[simp] theorem toH_imI (q : Quat) : (toH q).imI = q.v 0 := rfl
@[simp] theorem toH_imJ (q : Quat) : (toH q).imJ = q.v 1 := rfl
@[simp] theorem toH_imK (q : Quat) : (toH q).imK = q.v 2 := rfl
@[simp] theorem vecH_re (v : V3) : (vecH v).re = 0 := rfl
@[simp] theorem vecH_imI (v : V3) : (vecH v).imI = v 0 := rfl
@[simp] theorem vecH_imJ (v : V3) : (vecH v).imJ = v 1 := rfl
@[simp] theorem vecH_imK (v : V3) : (vecH v).imK = v 2 := rfl

theorem norm_toH_sq (q : Quat) : ‖toH q‖ ^ 2 = qsq q := by
  rw [pow_two, ← Quaternion.normSq_eq_norm_mul_self, Quaternion.normSq_def', qsq, sqNorm_eq]
  simp only [toH]
  ring

theorem norm_vecH (v : V3) : ‖vecH v‖ = eucNorm v := by
  have : ‖vecH v‖ ^ 2 = eucNorm v ^ 2 := by
    rw [pow_two, ← Quaternion.normSq_eq_norm_mul_self, Quaternion.normSq_def', eucNorm_sq, sqNorm_eq]
    simp only [vecH]
    ring
  exact (sq_eq_sq₀ (norm_nonneg _) (eucNorm_nonneg _)).mp this

theorem norm_toH {q : Quat} (h : qsq q = 1) : ‖toH q‖ = 1 := by
  have := norm_toH_sq q
  rw [h] at this
  exact (sq_eq_sq₀ (norm_nonneg _) zero_le_one).mp (by rw [this, one_pow])

/-- The matrix of a unit quaternion turns vectors by conjugation. -/
theorem vecH_mulVec {q : Quat} (h : qsq q = 1) (x : V3) : vecH (quatMatrix q *ᵥ x) = toH q * vecH x * star (toH q) := by
  rw [qsq, sqNorm_eq] at h
  ext <;> simp [quatMatrix, dotProduct, Fin.sum_univ_three]
  · ring
  · linear_combination (-x 0) * h
  · linear_combination (-x 1) * h
  · linear_combination (-x 2) * h

/-- Close quaternions turn alike. -/
theorem turnsAlike_quat {p q : Quat} (hp : qsq p = 1) (hq : qsq q = 1) : TurnsAlike (2 * ‖toH p - toH q‖) (quatMatrix p) (quatMatrix q) := by
  intro x
  have e : vecH (quatMatrix p *ᵥ x - quatMatrix q *ᵥ x) = vecH (quatMatrix p *ᵥ x) - vecH (quatMatrix q *ᵥ x) := by
    ext <;> simp
  have e2 : toH p * vecH x * star (toH p) - toH q * vecH x * star (toH q) =
      (toH p - toH q) * vecH x * star (toH p) + toH q * vecH x * star (toH p - toH q) := by
    rw [star_sub]; noncomm_ring
  rw [← norm_vecH, e, vecH_mulVec hp, vecH_mulVec hq, e2]
  refine (norm_add_le _ _).trans ?_
  rw [norm_mul, norm_mul, norm_mul, norm_mul, norm_star, norm_star, norm_toH hp, norm_toH hq, norm_vecH]
  linarith

/-- The unit quaternion of a turn by twice `φ` about `n`. -/
noncomputable def turnQuat (φ : ℝ) (n : V3) : Quat := ⟨Real.cos φ, Real.sin φ • n⟩

theorem qsq_turnQuat (φ : ℝ) {n : V3} (hn : sqNorm n = 1) : qsq (turnQuat φ n) = 1 := by
  rw [qsq, turnQuat, sqNorm_smul, hn]
  linarith [Real.sin_sq_add_cos_sq φ]

theorem polar (w : V3) : ∃ n, sqNorm n = 1 ∧ w = eucNorm w • n := by
  by_cases h : w = 0
  · exact ⟨![1, 0, 0], by rw [sqNorm_eq]; simp, by rw [h, eucNorm_zero, zero_smul]⟩
  · have hp := eucNorm_pos h
    refine ⟨(eucNorm w)⁻¹ • w, ?_, by rw [smul_smul, mul_inv_cancel₀ hp.ne', one_smul]⟩
    rw [sqNorm_smul, ← eucNorm_sq, inv_pow, inv_mul_cancel₀ (by positivity)]

theorem exp_polar {θ : ℝ} {n : V3} (hθ : 0 ≤ θ) (hn : sqNorm n = 1) : SO3.exp (θ • n) = quatMatrix (turnQuat (θ / 2) n) := by
  have h1 : eucNorm n = 1 := by rw [eucNorm, hn, Real.sqrt_one]
  rcases hθ.eq_or_lt with rfl | h
  · rw [zero_smul, exp_zero]
    ext i j
    fin_cases i <;> fin_cases j <;> simp [quatMatrix, turnQuat]
  · have hn0 : n ≠ 0 := by intro e; rw [e, eucNorm_zero] at h1; norm_num at h1
    have e1 : eucNorm (θ • n) = θ := by rw [eucNorm_smul, h1, mul_one, abs_of_pos h]
    rw [SO3.exp, normalized_of_ne (smul_ne_zero h.ne' hn0), e1, smul_smul, inv_mul_cancel₀ h.ne', one_smul]
    have := angleAxis_half (θ / 2) hn
    rw [mul_div_cancel₀ θ (two_ne_zero' ℝ)] at this
    exact this

theorem turnQuat_dist (φ ψ : ℝ) {n m : V3} (hn : sqNorm n = 1) (hm : sqNorm m = 1) :
    ‖toH (turnQuat φ n) - toH (turnQuat ψ m)‖ ^ 2 = 4 * Real.sin ((φ - ψ) / 2) ^ 2 + Real.sin φ * Real.sin ψ * sqNorm (n - m) := by
  have e : toH (turnQuat φ n) - toH (turnQuat ψ m) = toH ⟨Real.cos φ - Real.cos ψ, Real.sin φ • n - Real.sin ψ • m⟩ := by
    ext <;> simp [turnQuat]
  rw [e, norm_toH_sq, qsq]
  have h2 : 2 * Real.sin ((φ - ψ) / 2) ^ 2 = 1 - Real.cos (φ - ψ) := by
    have := Real.cos_two_mul' ((φ - ψ) / 2)
    rw [mul_div_cancel₀ _ (two_ne_zero' ℝ)] at this
    linarith [Real.sin_sq_add_cos_sq ((φ - ψ) / 2)]
  rw [Real.cos_sub] at h2
  rw [sqNorm_eq] at hn hm
  rw [sqNorm_eq, sqNorm_eq]
  simp only [Pi.sub_apply, Pi.smul_apply, smul_eq_mul]
  have a := Real.sin_sq_add_cos_sq φ
  have b := Real.sin_sq_add_cos_sq ψ
  generalize Real.sin ((φ - ψ) / 2) = z at *
  generalize Real.sin φ = s at *
  generalize Real.sin ψ = t at *
  generalize Real.cos φ = c at *
  generalize Real.cos ψ = d at *
  linear_combination a + b + (s ^ 2 - s * t) * hn + (t ^ 2 - s * t) * hm - 2 * h2

theorem polar_dist (φ ψ : ℝ) {n m : V3} (hn : sqNorm n = 1) (hm : sqNorm m = 1) :
    eucNorm (φ • n - ψ • m) ^ 2 = (φ - ψ) ^ 2 + φ * ψ * sqNorm (n - m) := by
  rw [sqNorm_eq] at hn hm
  rw [eucNorm_sq, sqNorm_eq, sqNorm_eq]
  simp only [Pi.sub_apply, Pi.smul_apply, smul_eq_mul]
  linear_combination (φ ^ 2 - φ * ψ) * hn + (ψ ^ 2 - φ * ψ) * hm

theorem sqNorm_nonneg' (v : V3) : 0 ≤ sqNorm v := by rw [← eucNorm_sq]; positivity

/-- Close rotation vectors turn alike, at every length. -/
theorem turnsAlike_exp (a b : V3) : TurnsAlike (eucNorm (a - b)) (SO3.exp a) (SO3.exp b) := by
  obtain ⟨n, hn, ha⟩ := polar a
  obtain ⟨m, hm, hb⟩ := polar b
  have ha0 := eucNorm_nonneg a
  have hb0 := eucNorm_nonneg b
  have e1 : SO3.exp a = quatMatrix (turnQuat (eucNorm a / 2) n) := by
    conv_lhs => rw [ha]
    exact exp_polar ha0 hn
  have e2 : SO3.exp b = quatMatrix (turnQuat (eucNorm b / 2) m) := by
    conv_lhs => rw [hb]
    exact exp_polar hb0 hm
  rw [e1, e2]
  have key : 2 * ‖toH (turnQuat (eucNorm a / 2) n) - toH (turnQuat (eucNorm b / 2) m)‖ ≤ eucNorm (a - b) := by
    have d1 := turnQuat_dist (eucNorm a / 2) (eucNorm b / 2) hn hm
    have d2 := polar_dist (eucNorm a) (eucNorm b) hn hm
    rw [← ha, ← hb] at d2
    refine (sq_le_sq₀ (by positivity) (eucNorm_nonneg _)).mp ?_
    rw [mul_pow, d1, d2]
    generalize eucNorm a = α at *
    generalize eucNorm b = β at *
    have s1 : |Real.sin ((α / 2 - β / 2) / 2)| ≤ |(α / 2 - β / 2) / 2| := Real.abs_sin_le_abs
    have s2 : |Real.sin (α / 2)| ≤ α / 2 := Real.abs_sin_le_abs.trans (abs_of_nonneg (by linarith)).le
    have s3 : |Real.sin (β / 2)| ≤ β / 2 := Real.abs_sin_le_abs.trans (abs_of_nonneg (by linarith)).le
    have s4 : Real.sin (α / 2) * Real.sin (β / 2) ≤ α / 2 * (β / 2) := by
      refine (le_abs_self _).trans ?_
      rw [abs_mul]
      exact mul_le_mul s2 s3 (abs_nonneg _) (by linarith)
    have s5 := sq_le_sq.mpr s1
    have s6 := mul_le_mul_of_nonneg_right s4 (sqNorm_nonneg' (n - m))
    linarith
  exact fun x => (turnsAlike_quat (qsq_turnQuat _ hn) (qsq_turnQuat _ hm) x).trans (mul_le_mul_of_nonneg_right key (eucNorm_nonneg x))

/-- Up to half a turn, rotation vectors of close quaternions are close. -/
theorem polar_near {φ ψ : ℝ} (hφ : 0 ≤ φ) (hφ' : φ ≤ Real.pi / 2) (hψ : 0 ≤ ψ) (hψ' : ψ ≤ Real.pi / 2) {n m : V3} (hn : sqNorm n = 1) (hm : sqNorm m = 1) :
    eucNorm ((2 * φ) • n - (2 * ψ) • m) ≤ Real.pi * ‖toH (turnQuat φ n) - toH (turnQuat ψ m)‖ := by
  have d1 := turnQuat_dist φ ψ hn hm
  have d2 := polar_dist (2 * φ) (2 * ψ) hn hm
  have hpi := Real.pi_pos
  refine (sq_le_sq₀ (eucNorm_nonneg _) (by positivity)).mp ?_
  rw [mul_pow, d1, d2]
  have j : ∀ x, 0 ≤ x → x ≤ Real.pi / 2 → x ≤ Real.pi / 2 * Real.sin x := by
    intro x h0 h1
    have := Real.mul_le_sin h0 h1
    calc x = Real.pi / 2 * (2 / Real.pi * x) := by field_simp
      _ ≤ _ := mul_le_mul_of_nonneg_left this (by positivity)
  have k1 : (φ - ψ) ^ 2 ≤ Real.pi ^ 2 * Real.sin ((φ - ψ) / 2) ^ 2 := by
    have h1 : |(φ - ψ) / 2| ≤ Real.pi / 2 := by rw [abs_le]; constructor <;> linarith
    have h2 := j |(φ - ψ) / 2| (abs_nonneg _) h1
    have h3 : 0 ≤ Real.sin |(φ - ψ) / 2| := Real.sin_nonneg_of_nonneg_of_le_pi (abs_nonneg _) (by linarith)
    have h4 := mul_self_le_mul_self (abs_nonneg _) h2
    have h5 : Real.sin |(φ - ψ) / 2| ^ 2 = Real.sin ((φ - ψ) / 2) ^ 2 := by
      rcases abs_choice ((φ - ψ) / 2) with h | h <;> rw [h]
      rw [Real.sin_neg, neg_sq]
    rw [← pow_two, sq_abs] at h4
    nlinarith
  have k2 : φ * ψ ≤ Real.pi ^ 2 / 4 * (Real.sin φ * Real.sin ψ) := by
    have h1 := mul_le_mul (j φ hφ hφ') (j ψ hψ hψ') hψ (by have := hφ.trans (j φ hφ hφ'); exact this)
    linarith
  have k3 := mul_le_mul_of_nonneg_right k2 (sqNorm_nonneg' (n - m))
  nlinarith

end Verif.SO3
