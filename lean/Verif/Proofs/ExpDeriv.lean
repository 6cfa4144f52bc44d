import Verif.Proofs.Motion
import Verif.Proofs.SE3Log
import Mathlib.Analysis.SpecialFunctions.Exponential
/-! # Derivatives of `exp` along a fixed direction -/
namespace Verif
open Matrix Spec Topology

section
variable {n : Type} [Fintype n] [DecidableEq n]

theorem mhas_exp (K : Matrix n n ℝ) (t : ℝ) : MHas (fun u : ℝ => NormedSpace.exp (u • K)) (K * NormedSpace.exp (t • K)) t := by
  let : NormedRing (Matrix n n ℝ) := Matrix.linftyOpNormedRing
  let : NormedAlgebra ℝ (Matrix n n ℝ) := Matrix.linftyOpNormedAlgebra
  have h := (hasDerivAt_exp_smul_const' K t).hasFDerivAt
  intro i j
  have h2 := (LinearMap.toContinuousLinearMap (Matrix.entryLinearMap ℝ ℝ i j : Matrix n n ℝ →ₗ[ℝ] ℝ)).hasFDerivAt.comp t h
  have h3 := h2.hasDerivAt
  refine h3.congr_deriv ?_
  change ((1 : ℝ) • (K * NormedSpace.exp (t • K))) i j = _
  rw [one_smul]

theorem mhas_exp_comp (K : Matrix n n ℝ) {f : ℝ → ℝ} {f' t : ℝ} (h : HasDerivAt f f' t) :
    MHas (fun s : ℝ => NormedSpace.exp (f s • K)) ((f' • K) * NormedSpace.exp (f t • K)) t := by
  intro i j
  have := (mhas_exp K (f t) i j).scomp t h
  rw [Matrix.smul_mul, Matrix.smul_apply]
  exact this
end

/-- Rotating about a fixed axis by a time-dependent angle. -/
theorem SO3.exp_jet {f f' : ℝ → ℝ} {f'' t : ℝ} (w : V3) (h1 : ∀ᶠ s in 𝓝 t, HasDerivAt f (f' s) s) (h2 : HasDerivAt f' f'' t) :
    HasLeftJet (fun R : M3 => R) rotHat (fun s => SO3.exp (f s • w)) t (f' t • w) (f'' • w) := by
  refine ⟨fun s => f' s • w, ?_, rfl, h2.smul_const w⟩
  filter_upwards [h1] with s hs
  have := mhas_exp_comp (rotHat w) hs
  have e : ∀ c : ℝ, c • rotHat w = rotHat (c • w) := fun c => (SO3.crossMatrix_smul c w).symm
  have e2 : ∀ x : V3, SO3.exp x = NormedSpace.exp (rotHat x) := SO3.exp_eq_matrix_exp
  simp only [e2]
  simp only [e] at this
  exact this

/-- Moving along a fixed screw by a time-dependent amount, outside the small-angle region. -/
theorem SE3.exp_jet {f f' : ℝ → ℝ} {f'' t : ℝ} (x : Twist) (hx : x.1 = 0 ∨ SO3.tinySquareAngle < SO3.sqNorm (f t • x.1))
    (h1 : ∀ᶠ s in 𝓝 t, HasDerivAt f (f' s) s) (h2 : HasDerivAt f' f'' t) :
    HasLeftJet poseMatrix twistHat (fun s => SE3.exp (f s • x)) t (f' t • x) (f'' • x) := by
  refine ⟨fun s => f' s • x, ?_, rfl, h2.smul_const x⟩
  have hgood : ∀ᶠ s in 𝓝 t, (f s • x).1 = 0 ∨ SO3.tinySquareAngle < SO3.sqNorm (f s • x.1) := by
    rcases hx with h0 | hx
    · filter_upwards with s
      left; simp [h0]
    · have hc : ContinuousAt (fun s => SO3.sqNorm (f s • x.1)) t := by
        have hf : ContinuousAt f t := h1.self_of_nhds.continuousAt
        have : (fun s => SO3.sqNorm (f s • x.1)) = fun s => f s ^ 2 * SO3.sqNorm x.1 := by funext s; exact SO3.sqNorm_smul _ _
        rw [this]
        exact (hf.pow 2).mul continuousAt_const
      filter_upwards [hc.eventually (lt_mem_nhds hx)] with s hs
      exact .inr hs
  have hee : ∀ᶠ s in 𝓝 t, poseMatrix (SE3.exp (f s • x)) = NormedSpace.exp (f s • twistHat x) := by
    filter_upwards [hgood] with s hs
    have := SE3.exp_eq_matrix_exp (f s • x).1 (f s • x).2 (by rcases hs with h | h; exact .inl h; exact .inr h.le)
    rw [show f s • twistHat x = twistHat (f s • x) from (se3Rep.hat_smul _ _).symm]
    exact this
  filter_upwards [h1, hee.eventually_nhds] with s hs he
  have := (mhas_exp_comp (twistHat x) hs).congr he
  change MHas (fun r => poseMatrix (SE3.exp (f r • x))) _ s
  refine this.congr' ?_
  rw [he.self_of_nhds, se3Rep.hat_smul]

namespace SE3
open SO3 (sqNorm)

/-- The translation of `exp (a x)` inside the small-angle region, as coefficients of `u`, `w × u` and `(w ⬝ u) w`. -/
noncomputable def tinyU (n a : ℝ) : ℝ := a - n * a ^ 3 / 6 + n ^ 2 * a ^ 5 / 120 - n ^ 3 * a ^ 7 / 5040
noncomputable def tinyWU (n a : ℝ) : ℝ := a ^ 2 / 2 - n * a ^ 4 / 24 + n ^ 2 * a ^ 6 / 720
noncomputable def tinyWW (n a : ℝ) : ℝ := a ^ 3 / 6 - n * a ^ 5 / 120 + n ^ 2 * a ^ 7 / 5040
noncomputable def tinyU' (n a : ℝ) : ℝ := 1 - n * a ^ 2 / 2 + n ^ 2 * a ^ 4 / 24 - n ^ 3 * a ^ 6 / 720
noncomputable def tinyWU' (n a : ℝ) : ℝ := a - n * a ^ 3 / 6 + n ^ 2 * a ^ 5 / 120
noncomputable def tinyWW' (n a : ℝ) : ℝ := a ^ 2 / 2 - n * a ^ 4 / 24 + n ^ 2 * a ^ 6 / 720

theorem hasDerivAt_poly7 (b c d e a : ℝ) :
    HasDerivAt (fun a : ℝ => b * a + c * a ^ 3 + d * a ^ 5 + e * a ^ 7) (b + 3 * c * a ^ 2 + 5 * d * a ^ 4 + 7 * e * a ^ 6) a := by
  have h := ((((hasDerivAt_id a).const_mul b).add ((hasDerivAt_pow 3 a).const_mul c)).add ((hasDerivAt_pow 5 a).const_mul d)).add
    ((hasDerivAt_pow 7 a).const_mul e)
  refine h.congr_deriv ?_
  norm_num
  ring

theorem hasDerivAt_poly6 (c d e k a : ℝ) :
    HasDerivAt (fun a : ℝ => k + c * a ^ 2 + d * a ^ 4 + e * a ^ 6) (2 * c * a + 4 * d * a ^ 3 + 6 * e * a ^ 5) a := by
  have h := (((hasDerivAt_const a k).add ((hasDerivAt_pow 2 a).const_mul c)).add ((hasDerivAt_pow 4 a).const_mul d)).add
    ((hasDerivAt_pow 6 a).const_mul e)
  refine h.congr_deriv ?_
  norm_num
  ring

theorem tinyU_deriv (n a : ℝ) : HasDerivAt (tinyU n) (tinyU' n a) a := by
  have e : tinyU n = fun a => 1 * a + (-n / 6) * a ^ 3 + (n ^ 2 / 120) * a ^ 5 + (-n ^ 3 / 5040) * a ^ 7 := by funext a; unfold tinyU; ring
  rw [e]
  exact (hasDerivAt_poly7 _ _ _ _ a).congr_deriv (by unfold tinyU'; ring)

theorem tinyWU_deriv (n a : ℝ) : HasDerivAt (tinyWU n) (tinyWU' n a) a := by
  have e : tinyWU n = fun a => 0 + (1 / 2) * a ^ 2 + (-n / 24) * a ^ 4 + (n ^ 2 / 720) * a ^ 6 := by funext a; unfold tinyWU; ring
  rw [e]
  exact (hasDerivAt_poly6 _ _ _ _ a).congr_deriv (by unfold tinyWU'; ring)

theorem tinyWW_deriv (n a : ℝ) : HasDerivAt (tinyWW n) (tinyWW' n a) a := by
  have e : tinyWW n = fun a => 0 * a + (1 / 6) * a ^ 3 + (-n / 120) * a ^ 5 + (n ^ 2 / 5040) * a ^ 7 := by funext a; unfold tinyWW; ring
  rw [e]
  exact (hasDerivAt_poly7 _ _ _ _ a).congr_deriv (by unfold tinyWW'; ring)

theorem tinyU'_deriv (n : ℝ) : HasDerivAt (tinyU' n) 0 0 := by
  have e : tinyU' n = fun a => 1 + (-n / 2) * a ^ 2 + (n ^ 2 / 24) * a ^ 4 + (-n ^ 3 / 720) * a ^ 6 := by funext a; unfold tinyU'; ring
  rw [e]
  exact (hasDerivAt_poly6 _ _ _ _ 0).congr_deriv (by ring)

theorem tinyWU'_deriv (n : ℝ) : HasDerivAt (tinyWU' n) 1 0 := by
  have e : tinyWU' n = fun a => 1 * a + (-n / 6) * a ^ 3 + (n ^ 2 / 120) * a ^ 5 + 0 * a ^ 7 := by funext a; unfold tinyWU'; ring
  rw [e]
  exact (hasDerivAt_poly7 _ _ _ _ 0).congr_deriv (by ring)

theorem tinyWW'_deriv (n : ℝ) : HasDerivAt (tinyWW' n) 0 0 := by
  have e : tinyWW' n = fun a => 0 + (1 / 2) * a ^ 2 + (-n / 24) * a ^ 4 + (n ^ 2 / 720) * a ^ 6 := by funext a; unfold tinyWW'; ring
  rw [e]
  exact (hasDerivAt_poly6 _ _ _ _ 0).congr_deriv (by ring)

theorem exp_tiny (x : Twist) (a : ℝ) (h : sqNorm (a • x.1) < SO3.tinySquareAngle) :
    SE3.exp (a • x) = (SO3.exp (a • x.1), tinyU (sqNorm x.1) a • x.2 + tinyWU (sqNorm x.1) a • (x.1 ⨯₃ x.2)
      + (tinyWW (sqNorm x.1) a * (x.1 ⬝ᵥ x.2)) • x.1) := by
  refine Prod.ext rfl ?_
  have hc : SO3.expDiffCoeffs (sqNorm (a • x.1)) = ⟨1 - sqNorm (a • x.1) * (1 / 6 - sqNorm (a • x.1) * (1 / 120 - sqNorm (a • x.1) * (1 / 5040))),
      0.5 - sqNorm (a • x.1) * (1 / 24 - sqNorm (a • x.1) * (1 / 720)),
      1 / 6 - sqNorm (a • x.1) * (1 / 120 - sqNorm (a • x.1) * (1 / 5040))⟩ := by
    unfold SO3.expDiffCoeffs; rw [if_pos h]
  simp only [SE3.exp, Prod.smul_fst, Prod.smul_snd, hc]
  simp only [SO3.sqNorm_smul, map_smul, LinearMap.smul_apply, smul_smul, dotProduct_smul,
    smul_dotProduct, smul_eq_mul, tinyU, tinyWU, tinyWW]
  congr 1
  · congr 1
    · congr 1; ring
    · congr 1; norm_num; ring
  · congr 1; ring

/-- Moving along a fixed screw at a moment when the amount is zero. -/
theorem exp_jet_zero {f f' : ℝ → ℝ} {f'' t : ℝ} (x : Twist) (h0 : f t = 0)
    (h1 : ∀ᶠ s in 𝓝 t, HasDerivAt f (f' s) s) (h2 : HasDerivAt f' f'' t) :
    HasLeftJet poseMatrix twistHat (fun s => SE3.exp (f s • x)) t (f' t • x) (f'' • x) := by
  obtain ⟨n, hn⟩ : ∃ n, n = sqNorm x.1 := ⟨_, rfl⟩
  have hf : HasDerivAt f (f' t) t := h1.self_of_nhds
  have htiny : ∀ᶠ s in 𝓝 t, sqNorm (f s • x.1) < SO3.tinySquareAngle := by
    have hc : ContinuousAt (fun s => sqNorm (f s • x.1)) t := by
      have : (fun s => sqNorm (f s • x.1)) = fun s => f s ^ 2 * sqNorm x.1 := by funext s; exact SO3.sqNorm_smul _ _
      rw [this]
      exact (hf.continuousAt.pow 2).mul continuousAt_const
    refine hc.eventually (gt_mem_nhds ?_)
    change sqNorm (f t • x.1) < _
    rw [h0, SO3.sqNorm_smul]; unfold SO3.tinySquareAngle; norm_num
  let q : ℝ → V3 := fun a => tinyU n a • x.2 + tinyWU n a • (x.1 ⨯₃ x.2) + (tinyWW n a * (x.1 ⬝ᵥ x.2)) • x.1
  let q' : ℝ → V3 := fun a => tinyU' n a • x.2 + tinyWU' n a • (x.1 ⨯₃ x.2) + (tinyWW' n a * (x.1 ⬝ᵥ x.2)) • x.1
  have hq : ∀ a, HasDerivAt q (q' a) a := fun a =>
    (((tinyU_deriv n a).smul_const x.2).add ((tinyWU_deriv n a).smul_const _)).add
      (((tinyWW_deriv n a).mul_const (x.1 ⬝ᵥ x.2)).smul_const x.1)
  have hq' : HasDerivAt q' (x.1 ⨯₃ x.2) 0 := by
    have := (((tinyU'_deriv n).smul_const x.2).add ((tinyWU'_deriv n).smul_const (x.1 ⨯₃ x.2))).add
      (((tinyWW'_deriv n).mul_const (x.1 ⬝ᵥ x.2)).smul_const x.1)
    refine this.congr_deriv ?_
    simp
  have hexp : ∀ᶠ s in 𝓝 t, SE3.exp (f s • x) = (SO3.exp (f s • x.1), q (f s)) := by
    filter_upwards [htiny] with s hs
    rw [exp_tiny x _ hs, ← hn]
  have q0 : q 0 = 0 := by simp [q, tinyU, tinyWU, tinyWW]
  have q'0 : q' 0 = x.2 := by simp [q', tinyU', tinyWU', tinyWW']
  let vel : ℝ → Twist := fun s => (f' s • x.1, f' s • q' (f s) - f' s • (x.1 ⨯₃ q (f s)))
  refine ⟨vel, ?_, ?_, ?_⟩
  · filter_upwards [h1, hexp.eventually_nhds] with s hs he
    change MHas (fun r => poseMatrix (SE3.exp (f r • x))) _ s
    have hR : MHas (fun r => SO3.exp (f r • x.1)) (SO3.crossMatrix (f' s • x.1) * SO3.exp (f s • x.1)) s := by
      have := mhas_exp_comp (rotHat x.1) hs
      have e : ∀ c : ℝ, c • rotHat x.1 = rotHat (c • x.1) := fun c => (SO3.crossMatrix_smul c x.1).symm
      have e2 : ∀ x : V3, SO3.exp x = NormedSpace.exp (rotHat x) := SO3.exp_eq_matrix_exp
      simp only [e2]
      simp only [e] at this
      exact this
    have hT : HasDerivAt (fun r => q (f r)) (f' s • q' (f s)) s := (hq (f s)).scomp s hs
    have := has_poseMatrix (g := fun r => (SO3.exp (f r • x.1), q (f r))) hR hT
    have h3 := this.congr (K := fun r => poseMatrix (SE3.exp (f r • x))) (he.mono fun r hr => congrArg poseMatrix hr)
    refine h3.congr' ?_
    rw [he.self_of_nhds]
    simp only [twistHat, SE3.twistMatrix_eq, poseMatrix, homogeneous, Matrix.fromBlocks_multiply]
    congr 1
    · simp [vel]
    · rw [Matrix.mul_one, ← replicateCol_mulVec, SO3.crossMatrix_mulVec, ← replicateCol_add]
      congr 1
      simp only [vel, map_smul, LinearMap.smul_apply]
      abel
    · simp
    · simp
  · simp only [vel, h0, q0, q'0]; simp; rfl
  · rw [hasDerivAt_twist]
    refine ⟨h2.smul_const x.1, ?_⟩
    have d1 : HasDerivAt (fun s => q (f s)) (f' t • q' (f t)) t := (hq (f t)).scomp t hf
    have d2 : HasDerivAt (fun s => q' (f s)) (f' t • (x.1 ⨯₃ x.2)) t :=
      HasDerivAt.scomp (g₁ := q') (g₁' := x.1 ⨯₃ x.2) t (by rw [h0]; exact hq') hf
    have d3 : HasDerivAt (fun s => x.1 ⨯₃ q (f s)) (x.1 ⨯₃ (f' t • q' (f t))) t :=
      (LinearMap.toContinuousLinearMap (crossProduct x.1)).hasFDerivAt.comp_hasDerivAt t d1
    refine ((h2.smul d2).sub (h2.smul d3)).congr_deriv ?_
    simp only [h0, q0, q'0, map_smul, map_zero, smul_zero]
    simp

end SE3

end Verif
