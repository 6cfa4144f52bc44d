import Verif.Proofs.OneAxis
import Verif.Proofs.DCurveSE3
/-! # Logarithms of rotations about one axis, and screw pieces of distance curves -/
namespace Verif
open Framed Spec Matrix

namespace SO3

theorem log_one : SO3.log (1 : M3) = 0 := by
  rw [← SO3.exp_zero]
  exact SO3.log_exp (by rw [eucNorm_zero]; exact Real.pi_pos)

/-- The logarithm of a rotation about `w`, by any angle, is along `w`. -/
theorem log_on_axis (w : V3) (α : ℝ) : ∃ β : ℝ, SO3.log (SO3.exp (α • w)) = β • w := by
  obtain ⟨v, hv⟩ : ∃ v, v = α • w := ⟨_, rfl⟩
  rw [← hv]
  by_cases h0 : v = 0
  · exact ⟨0, by rw [h0, SO3.exp_zero, log_one, zero_smul]⟩
  have hp := eucNorm_pos h0
  by_cases hcos : Real.cos (eucNorm v) = 1
  · have hs : Real.sin (eucNorm v) = 0 := by
      have := Real.sin_sq_add_cos_sq (eucNorm v)
      rw [hcos] at this
      nlinarith
    refine ⟨0, ?_⟩
    rw [SO3.exp_eq h0, hcos, hs, zero_smul, sub_self, zero_div, zero_div, zero_smul, zero_smul, add_zero, add_zero, log_one]
  obtain ⟨ρ, hρ⟩ : ∃ ρ, ρ = SO3.log (SO3.exp v) := ⟨_, rfl⟩
  have hfix : SO3.exp v *ᵥ ρ = ρ := by
    have h1 := (SO3.oneParam ρ).Ad 1
    rw [one_smul] at h1
    have h2 : SO3.exp ρ = SO3.exp v := by rw [hρ]; exact (SO3.exp_log (SO3.isRotation_exp v)).1
    rw [h2] at h1
    exact h1
  rw [← hρ]
  rw [SO3.exp_eq h0, add_mulVec, add_mulVec, one_mulVec, smul_mulVec, smul_mulVec, pow_two (crossMatrix v), ← mulVec_mulVec, crossMatrix_mulVec, crossMatrix_mulVec,
    add_assoc, add_eq_left] at hfix
  obtain ⟨u, hu⟩ : ∃ u, u = v ⨯₃ ρ := ⟨_, rfl⟩
  rw [← hu] at hfix
  have hd := congrArg (fun y => y ⬝ᵥ (v ⨯₃ u)) hfix
  simp only [add_dotProduct, smul_dotProduct, zero_dotProduct, dot_cross_self, smul_zero, zero_add] at hd
  have hk : (1 - Real.cos (eucNorm v)) / eucNorm v ^ 2 ≠ 0 := div_ne_zero (sub_ne_zero.mpr (Ne.symm hcos)) (pow_pos hp 2).ne'
  have hz : v ⨯₃ u = 0 := by
    rw [smul_eq_mul] at hd
    exact sqNorm_eq_zero.mp ((mul_eq_zero.mp hd).resolve_left hk)
  have htr : v ⨯₃ u = (v ⬝ᵥ ρ) • v - sqNorm v • ρ := by
    rw [hu, sqNorm_eq]
    funext i
    fin_cases i <;> simp [cross_apply, Matrix.vec3_dotProduct] <;> ring
  rw [hz] at htr
  have hq : sqNorm v ≠ 0 := by rw [← eucNorm_sq]; exact (pow_pos hp 2).ne'
  have : ρ = ((v ⬝ᵥ ρ) / sqNorm v) • v := by
    rw [div_eq_inv_mul, mul_smul, sub_eq_zero.mp htr.symm, smul_smul, inv_mul_cancel₀ hq, one_smul]
  exact ⟨(v ⬝ᵥ ρ) / sqNorm v * α, by rw [mul_smul, ← hv]; exact this⟩

end SO3

namespace SE3
open SO3

/-- Turning about the point `c`: the amount can be taken to be the one that the logarithm gives back, at most half a turn. -/
theorem xexp_about_wrap (w c : V3) (α : ℝ) : ∃ β : ℝ, xexp (α • ((w, c ⨯₃ w) : Twist)) = xexp (β • ((w, c ⨯₃ w) : Twist)) ∧
    SO3.log (SO3.exp (β • w)) = β • w ∧ eucNorm (β • w) ≤ Real.pi := by
  obtain ⟨β, hβ⟩ := SO3.log_on_axis w α
  obtain ⟨h1, h2⟩ := SO3.exp_log (SO3.isRotation_exp (α • w))
  rw [hβ] at h1 h2
  exact ⟨β, by rw [xexp_about, xexp_about, h1], by rw [h1, hβ], h2⟩

end SE3
end Verif
