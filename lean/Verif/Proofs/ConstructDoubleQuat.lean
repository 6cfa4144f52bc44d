import Verif.Proofs.ConstructDouble
import Verif.Props.SO3Construct
import Mathlib.Analysis.Quaternion
/-! # Rotations from stored quaternions that are nearly unit quaternions -/
namespace Verif.ConstructDouble
open SampleIntervalDouble TransformDouble ExpDouble LogDouble Verif.Spec Matrix SO3
open Verif.Props (hamilton pure)

theorem pure_general (q : Quat) (v : V3) :
    pure (quatMatrix q *ᵥ v) = hamilton q * pure v * star (hamilton q) + (1 - qsq q) • pure v := by
  have e0 : (hamilton q).re = q.w := rfl
  have e1 : (hamilton q).imI = q.v 0 := rfl
  have e2 : (hamilton q).imJ = q.v 1 := rfl
  have e3 : (hamilton q).imK = q.v 2 := rfl
  have f0 : ∀ v, (pure v).re = 0 := fun _ => rfl
  have f1 : ∀ v, (pure v).imI = v 0 := fun _ => rfl
  have f2 : ∀ v, (pure v).imJ = v 1 := fun _ => rfl
  have f3 : ∀ v, (pure v).imK = v 2 := fun _ => rfl
  rw [qsq, sqNorm_eq]
  ext <;> simp only [Quaternion.re_mul, Quaternion.imI_mul, Quaternion.imJ_mul, Quaternion.imK_mul, Quaternion.re_star, Quaternion.imI_star,
    Quaternion.imJ_star, Quaternion.imK_star, Quaternion.re_add, Quaternion.imI_add, Quaternion.imJ_add, Quaternion.imK_add, Quaternion.re_smul,
    Quaternion.imI_smul, Quaternion.imJ_smul, Quaternion.imK_smul, e0, e1, e2, e3, f0, f1, f2, f3] <;>
    simp [quatMatrix, mulVec, dotProduct, Fin.sum_univ_three] <;> ring

theorem norm_hamilton (q : Quat) : ‖hamilton q‖ ^ 2 = qsq q := by
  rw [sq, ← Quaternion.normSq_eq_norm_mul_self, Quaternion.normSq_def', qsq, sqNorm_eq]
  change q.w ^ 2 + q.v 0 ^ 2 + q.v 1 ^ 2 + q.v 2 ^ 2 = _
  ring

theorem norm_pure (v : V3) : ‖pure v‖ = eucNorm v := by
  have h : ‖pure v‖ ^ 2 = eucNorm v ^ 2 := by
    rw [sq, ← Quaternion.normSq_eq_norm_mul_self, Quaternion.normSq_def', eucNorm_sq, sqNorm_eq]
    change (0 : ℝ) ^ 2 + v 0 ^ 2 + v 1 ^ 2 + v 2 ^ 2 = _
    ring
  exact (sq_eq_sq₀ (norm_nonneg _) (eucNorm_nonneg _)).mp h

theorem pure_sub (v w : V3) : pure (v - w) = pure v - pure w := by
  ext
  · change (0 : ℝ) = 0 - 0; ring
  · rfl
  · rfl
  · rfl

/-- Nearby quaternions turn alike, even if only one of them is a unit quaternion. -/
theorem quat_turns {q Q : Quat} {e : ℝ} (hQ : qsq Q = 1) (h0 : |q.w - Q.w| ≤ e) (hv : ∀ i, |q.v i - Q.v i| ≤ e) (he : e ≤ 1 / 200) :
    TurnsAlike (8.04 * e) (quatMatrix q) (quatMatrix Q) := by
  intro v
  have he0 : 0 ≤ e := (abs_nonneg _).trans h0
  have nQ : ‖hamilton Q‖ = 1 := by
    have := norm_hamilton Q
    rw [hQ] at this
    exact (sq_eq_sq₀ (norm_nonneg _) zero_le_one).mp (by rw [this, one_pow])
  have nd : ‖hamilton q - hamilton Q‖ ≤ 2 * e := by
    refine le_of_sq_le_sq ?_ (by linarith)
    rw [sq, ← Quaternion.normSq_eq_norm_mul_self, Quaternion.normSq_def']
    change (q.w - Q.w) ^ 2 + (q.v 0 - Q.v 0) ^ 2 + (q.v 1 - Q.v 1) ^ 2 + (q.v 2 - Q.v 2) ^ 2 ≤ _
    have a := sq_le_sq' (by linarith [abs_le.mp h0]) (abs_le.mp h0).2
    have b := fun i => sq_le_sq' (by linarith [abs_le.mp (hv i)]) (abs_le.mp (hv i)).2
    nlinarith [b 0, b 1, b 2]
  have nq : ‖hamilton q‖ ≤ 1 + 2 * e := by
    have := norm_add_le (hamilton q - hamilton Q) (hamilton Q)
    rw [sub_add_cancel, nQ] at this
    linarith
  have nq2 : 1 - 2 * e ≤ ‖hamilton q‖ := by
    have := norm_sub_le (hamilton q) (hamilton q - hamilton Q)
    rw [sub_sub_cancel, nQ] at this
    linarith
  have n1 : |1 - qsq q| ≤ 2 * e * (2 + 2 * e) := by
    rw [← norm_hamilton, abs_le]
    constructor <;> nlinarith
  rw [← norm_pure, pure_sub, pure_general, pure_general, hQ, sub_self, zero_smul, add_zero]
  have id : hamilton q * pure v * star (hamilton q) + (1 - qsq q) • pure v - hamilton Q * pure v * star (hamilton Q) =
      (hamilton q - hamilton Q) * pure v * star (hamilton q) + hamilton Q * pure v * star (hamilton q - hamilton Q) + (1 - qsq q) • pure v := by
    rw [star_sub]; noncomm_ring
  rw [id]
  refine (norm_add_le _ _).trans ((add_le_add_left (norm_add_le _ _) _).trans ?_)
  rw [norm_mul, norm_mul, norm_mul, norm_mul, norm_star, norm_star, norm_smul, Real.norm_eq_abs, nQ, norm_pure, one_mul]
  have x0 := eucNorm_nonneg v
  have k1 := mul_le_mul nd nq (norm_nonneg _) (by linarith)
  have k2 : ‖hamilton q - hamilton Q‖ * eucNorm v * ‖hamilton q‖ + eucNorm v * ‖hamilton q - hamilton Q‖ + |1 - qsq q| * eucNorm v =
      (‖hamilton q - hamilton Q‖ * ‖hamilton q‖ + ‖hamilton q - hamilton Q‖ + |1 - qsq q|) * eucNorm v := by ring
  rw [k2]
  refine mul_le_mul_of_nonneg_right ?_ x0
  nlinarith

theorem quatMatrix_scale (q : Quat) (c : ℝ) : quatMatrix ⟨c * q.w, c • q.v⟩ = 1 + c ^ 2 • (quatMatrix q - 1) := by
  ext i j
  fin_cases i <;> fin_cases j <;> simp [quatMatrix] <;> ring

/-- The rotation that a stored quaternion means. -/
theorem quat_meant (q : Quat) (hq : 0 < qsq q) : ∃ Q : Quat, qsq Q = 1 ∧ Q = ⟨(Real.sqrt (qsq q))⁻¹ * q.w, (Real.sqrt (qsq q))⁻¹ • q.v⟩ ∧
    (∀ v, pure (quatMatrix Q *ᵥ v) = hamilton q * pure v * (hamilton q)⁻¹) ∧ TurnsAlike (2 * |qsq q - 1|) (quatMatrix q) (quatMatrix Q) := by
  have r0 := Real.sqrt_pos.mpr hq
  have rs := Real.sq_sqrt hq.le
  have hQ : qsq ⟨(Real.sqrt (qsq q))⁻¹ * q.w, (Real.sqrt (qsq q))⁻¹ • q.v⟩ = 1 := by
    have e : qsq ⟨(Real.sqrt (qsq q))⁻¹ * q.w, (Real.sqrt (qsq q))⁻¹ • q.v⟩ = ((Real.sqrt (qsq q))⁻¹) ^ 2 * qsq q := by
      generalize (Real.sqrt (qsq q))⁻¹ = c
      rw [qsq, qsq, sqNorm_eq, sqNorm_eq]
      simp only [Pi.smul_apply, smul_eq_mul]
      ring
    rw [e, inv_pow, rs, inv_mul_cancel₀ hq.ne']
  refine ⟨_, hQ, rfl, fun v => ?_, fun x => ?_⟩
  · rw [pure_general, hQ, sub_self, zero_smul, add_zero, Quaternion.inv_def]
    have e : hamilton ⟨(Real.sqrt (qsq q))⁻¹ * q.w, (Real.sqrt (qsq q))⁻¹ • q.v⟩ = (Real.sqrt (qsq q))⁻¹ • hamilton q := by
      ext <;> rfl
    have n : Quaternion.normSq (hamilton q) = qsq q := by
      rw [Quaternion.normSq_eq_norm_mul_self, ← sq, norm_hamilton]
    rw [e, n, Quaternion.star_smul, smul_mul_assoc, smul_mul_assoc, mul_smul_comm, mul_smul_comm, smul_smul, ← mul_inv, ← sq, rs]
  · have hR := isRotation_quatMatrix hQ
    have e := quatMatrix_scale q (Real.sqrt (qsq q))⁻¹
    generalize quatMatrix ⟨(Real.sqrt (qsq q))⁻¹ * q.w, (Real.sqrt (qsq q))⁻¹ • q.v⟩ = R at *
    have e2 : quatMatrix q *ᵥ x - R *ᵥ x = (qsq q - 1) • (R *ᵥ x - x) := by
      have : quatMatrix q = 1 + qsq q • (R - 1) := by
        rw [e, add_sub_cancel_left, smul_smul, inv_pow, rs, mul_inv_cancel₀ hq.ne', one_smul]; abel
      rw [this, add_mulVec, smul_mulVec, sub_mulVec, one_mulVec]
      module
    rw [e2, eucNorm_smul]
    have k := eucNorm_add_le (R *ᵥ x) (-x)
    rw [eucNorm_neg, ← sub_eq_add_neg, show eucNorm (R *ᵥ x) = eucNorm x by rw [eucNorm, sqNorm_mulVec hR, eucNorm]] at k
    have := mul_le_mul_of_nonneg_left k (abs_nonneg (qsq q - 1))
    linarith

end Verif.ConstructDouble
