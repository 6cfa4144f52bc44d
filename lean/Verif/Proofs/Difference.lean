import Verif.Spec.Tangent
import Verif.Proofs.ExpDiff
import Mathlib.Analysis.SpecialFunctions.Trigonometric.Sinc
import Mathlib.Analysis.SpecialFunctions.Trigonometric.Inverse
import Mathlib.Topology.Instances.Matrix
import Mathlib.Analysis.Calculus.Deriv.Slope
import Mathlib.Analysis.Calculus.Deriv.Shift
import Mathlib.Analysis.Calculus.MeanValue
/-! # The logarithm of a small change of pose -/
namespace Verif
open Matrix Spec Topology

theorem hasDerivAt_smul_of_zero {E : Type} [NormedAddCommGroup E] [NormedSpace ℝ E] {φ : ℝ → ℝ} {f : ℝ → E} {f' : E} {t : ℝ} (hφ : ContinuousAt φ t)
    (hf : HasDerivAt f f' t) (h0 : f t = 0) : HasDerivAt (fun s => φ s • f s) (φ t • f') t := by
  rw [hasDerivAt_iff_tendsto_slope] at *
  have : slope (fun s => φ s • f s) t = fun s => φ s • slope f t s := by
    funext s
    simp only [slope, vsub_eq_sub, h0, smul_zero, sub_zero]
    rw [smul_comm]
  rw [this]
  exact (hφ.tendsto.mono_left nhdsWithin_le_nhds).smul hf

theorem shift_iff {f : ℝ → ℝ} {f' t : ℝ} : HasDerivAt f f' t ↔ HasDerivAt (fun e => f (t + e)) f' 0 := by
  constructor
  · intro h
    exact HasDerivAt.comp_const_add t 0 (by rwa [add_zero])
  · intro h
    have := HasDerivAt.comp_const_add (-t) t (f := fun e => f (t + e)) (f' := f') (by rwa [neg_add_cancel])
    simpa only [add_neg_cancel_left] using this

namespace SO3

/-- The axial vector of the antisymmetric part. -/
noncomputable def vee (R : M3) : V3 := ![(R 2 1 - R 1 2) / 2, (R 0 2 - R 2 0) / 2, (R 1 0 - R 0 1) / 2]

theorem vee_exp (w : V3) : vee (SO3.exp w) = Real.sinc (eucNorm w) • w := by
  by_cases h : w = 0
  · subst h
    rw [exp_zero]
    ext i; fin_cases i <;> simp [vee]
  · rw [exp_eq h, Real.sinc_of_ne_zero (eucNorm_pos h).ne', pow_two (crossMatrix w), crossMatrix_sq]
    generalize Real.sin (eucNorm w) / eucNorm w = a
    generalize (1 - Real.cos (eucNorm w)) / eucNorm w ^ 2 = b
    ext i; fin_cases i <;> simp [vee, crossMatrix, vecMulVec_apply] <;> ring

theorem trace_exp (w : V3) : (SO3.exp w) 0 0 + (SO3.exp w) 1 1 + (SO3.exp w) 2 2 = 1 + 2 * Real.cos (eucNorm w) := by
  by_cases h : w = 0
  · subst h
    rw [exp_zero, eucNorm_zero]; simp; norm_num
  · have hp := eucNorm_pos h
    have hs := eucNorm_sq w
    rw [exp_eq h, pow_two (crossMatrix w), crossMatrix_sq]
    rw [sqNorm_eq] at hs ⊢
    generalize eucNorm w = r at *
    simp [crossMatrix, vecMulVec_apply]
    have : (1 - Real.cos r) / r ^ 2 * (w 0 ^ 2 + w 1 ^ 2 + w 2 ^ 2) = 1 - Real.cos r := by
      rw [← hs]; field_simp
    linear_combination (-2) * this

theorem eucNorm_log {R : M3} (h : IsRotation R) : eucNorm (log R) = Real.arccos ((R 0 0 + R 1 1 + R 2 2 - 1) / 2) := by
  obtain ⟨h1, h2⟩ := exp_log h
  have := trace_exp (log R)
  rw [h1] at this
  rw [this, show (1 + 2 * Real.cos (eucNorm (log R)) - 1) / 2 = Real.cos (eucNorm (log R)) by ring, Real.arccos_cos (eucNorm_nonneg _) h2]

theorem log_one : log (1 : M3) = 0 := by
  have := log_exp (w := 0) (by rw [eucNorm_zero]; exact Real.pi_pos)
  rwa [exp_zero] at this

theorem continuousAt_eucNorm_log {R : ℝ → M3} {t : ℝ} (hr : ∀ s, IsRotation (R s)) (hc : ∀ i, ContinuousAt (fun s => R s i i) t) :
    ContinuousAt (fun s => eucNorm (log (R s))) t := by
  simp only [eucNorm_log (hr _)]
  exact Real.continuous_arccos.continuousAt.comp (((((hc 0).add (hc 1)).add (hc 2)).sub continuousAt_const).div_const 2)

theorem log_has {R : ℝ → M3} {w : V3} {t : ℝ} (hr : ∀ s, IsRotation (R s)) (h1 : R t = 1) :
    MHas R (rotHat w) t ↔ HasDerivAt (fun s => log (R s)) w t := by
  constructor
  · intro h
    have hθ := continuousAt_eucNorm_log hr fun i => (h i i).continuousAt
    have hφ : ContinuousAt (fun s => Real.sinc (eucNorm (log (R s)))) t := Real.continuous_sinc.continuousAt.comp hθ
    have hφt : Real.sinc (eucNorm (log (R t))) = 1 := by rw [h1, log_one, eucNorm_zero, Real.sinc_zero]
    have hv : HasDerivAt (fun s => vee (R s)) w t := by
      rw [hasDerivAt_pi]
      intro i
      fin_cases i
      · refine (((h 2 1).sub (h 1 2)).div_const 2).congr_deriv ?_
        simp [rotHat]
      · refine (((h 0 2).sub (h 2 0)).div_const 2).congr_deriv ?_
        simp [rotHat]
      · refine (((h 1 0).sub (h 0 1)).div_const 2).congr_deriv ?_
        simp [rotHat]
    have hv0 : vee (R t) = 0 := by rw [h1]; ext i; fin_cases i <;> simp [vee]
    have hd := hasDerivAt_smul_of_zero (hφ.inv₀ (by rw [hφt]; exact one_ne_zero)) hv hv0
    simp only [Pi.inv_apply] at hd
    rw [hφt, inv_one, one_smul] at hd
    refine hd.congr_of_eventuallyEq ?_
    filter_upwards [hφ.eventually_ne (by rw [hφt]; exact one_ne_zero)] with s hs
    have : vee (R s) = Real.sinc (eucNorm (log (R s))) • log (R s) := by
      conv_lhs => rw [← (exp_log (hr s)).1]
      exact vee_exp _
    rw [this, smul_smul, inv_mul_cancel₀ hs, one_smul]
  · intro h
    have := exp_deriv_zero h (by rw [h1, log_one])
    have e : (fun s => SO3.exp (log (R s))) = R := funext fun s => (exp_log (hr s)).1
    rwa [e] at this

end SO3

namespace SE3
open SO3 (crossMatrix sqNorm eucNorm crossMatrix_mulVec)

/-- The matrix by which `log` multiplies the translation. -/
noncomputable def logMatrix (w : V3) : M3 := 1 - (0.5 : ℝ) • crossMatrix w + order2Coeff (sqNorm w) • (crossMatrix w * crossMatrix w)

theorem log_eq (g : Pose) : SE3.log g = (SO3.log g.1, logMatrix (SO3.log g.1) *ᵥ g.2) := by
  simp only [SE3.log, logMatrix, add_mulVec, sub_mulVec, smul_mulVec, one_mulVec, ← mulVec_mulVec, crossMatrix_mulVec]

theorem logMatrix_zero : logMatrix 0 = 1 := by simp [logMatrix, SO3.crossMatrix_zero]

theorem continuous_sqNorm : Continuous sqNorm := by
  have : sqNorm = fun w : V3 => w 0 ^ 2 + w 1 ^ 2 + w 2 ^ 2 := funext SO3.sqNorm_eq
  rw [this]; fun_prop

theorem continuous_crossMatrix : Continuous crossMatrix := by
  refine continuous_matrix fun i j => ?_
  fin_cases i <;> fin_cases j <;> simp [crossMatrix] <;> fun_prop

theorem continuousAt_logMatrix : ContinuousAt logMatrix 0 := by
  have hq : ContinuousAt order2Coeff 0 := by
    have : order2Coeff =ᶠ[𝓝 0] fun sq => 1 / 12 + sq * (1 / 720 + sq + 1 / 30240) := by
      have : ∀ᶠ q : ℝ in 𝓝 0, q < SO3.tinySquareAngle := eventually_lt_nhds (by unfold SO3.tinySquareAngle; norm_num)
      filter_upwards [this] with q hq
      simp only [order2Coeff, if_pos hq]
    rw [continuousAt_congr this]
    fun_prop
  have hs := continuous_sqNorm
  have hk := continuous_crossMatrix
  have h0 : sqNorm (0 : V3) = 0 := SO3.sqNorm_eq_zero.mpr rfl
  have hq' : ContinuousAt (fun w : V3 => order2Coeff (sqNorm w)) 0 := ContinuousAt.comp (f := sqNorm) (g := order2Coeff) (x := (0 : V3)) (h0 ▸ hq) hs.continuousAt
  unfold logMatrix
  exact ((continuous_const.sub (hk.const_smul (0.5 : ℝ))).continuousAt).add (hq'.smul (hk.mul hk).continuousAt)

theorem hasDerivAt_mulVec_of_zero {B : ℝ → M3} {f : ℝ → V3} {f' : V3} {t : ℝ} (hB : ContinuousAt B t) (h1 : B t = 1) (hf : HasDerivAt f f' t) (h0 : f t = 0) :
    HasDerivAt (fun s => B s *ᵥ f s) f' t := by
  have hB' : ∀ i j, ContinuousAt (fun s => B s i j) t := fun i j => (continuous_id.matrix_elem i j).continuousAt.comp hB
  have : HasDerivAt (fun s => B s *ᵥ f s) (B t *ᵥ f') t := by
    rw [hasDerivAt_pi] at *
    intro i
    simp only [Matrix.mulVec, dotProduct]
    exact HasDerivAt.fun_sum fun k _ => hasDerivAt_smul_of_zero (hB' i k) (hf k) (congrFun h0 k)
  rwa [h1, one_mulVec] at this

theorem log_has {g : ℝ → Pose} {x : Twist} {t : ℝ} (hr : ∀ s, PoseValid (g s)) (h1 : g t = SE3.one) :
    MHas (fun s => poseMatrix (g s)) (twistHat x) t ↔ HasDerivAt (fun s => SE3.log (g s)) x t := by
  have h11 : (g t).1 = 1 := by rw [h1]; rfl
  have h12 : (g t).2 = 0 := by rw [h1]; rfl
  have e1 : MHas (fun s => poseMatrix (g s)) (twistHat x) t ↔ MHas (fun s => (g s).1) (rotHat x.1) t ∧ HasDerivAt (fun s => (g s).2) x.2 t :=
    ⟨fun h => poseMatrix_has h, fun h => has_poseMatrix h.1 h.2⟩
  rw [e1, SO3.log_has hr h11, hasDerivAt_twist]
  refine and_congr_right fun hw => ?_
  simp only [log_eq]
  have hw0 : SO3.log (g t).1 = 0 := by rw [h11, SO3.log_one]
  have hB : ContinuousAt (fun s => logMatrix (SO3.log (g s).1)) t :=
    ContinuousAt.comp (f := fun s => SO3.log (g s).1) (g := logMatrix) (by simp only [hw0]; exact continuousAt_logMatrix) hw.continuousAt
  have hB1 : logMatrix (SO3.log (g t).1) = 1 := by rw [hw0, logMatrix_zero]
  constructor
  · intro h
    exact hasDerivAt_mulVec_of_zero hB hB1 h h12
  · intro h
    have hd : ContinuousAt (fun s => (logMatrix (SO3.log (g s).1)).det) t :=
      ContinuousAt.comp (f := fun s => logMatrix (SO3.log (g s).1)) (g := Matrix.det) (continuous_id.matrix_det.continuousAt) hB
    have hd1 : (logMatrix (SO3.log (g t).1)).det ≠ 0 := by rw [hB1, det_one]; exact one_ne_zero
    have hadj : ContinuousAt (fun s => (logMatrix (SO3.log (g s).1)).adjugate) t :=
      ContinuousAt.comp (f := fun s => logMatrix (SO3.log (g s).1)) (g := Matrix.adjugate) (continuous_id.matrix_adjugate.continuousAt) hB
    have hinv := (hd.inv₀ hd1).smul hadj
    have := hasDerivAt_mulVec_of_zero (B := fun s => ((logMatrix (SO3.log (g s).1)).det)⁻¹ • (logMatrix (SO3.log (g s).1)).adjugate) hinv
      (by simp only [hB1, det_one, adjugate_one, inv_one, one_smul]) h (by simp only [h12, mulVec_zero])
    refine this.congr_of_eventuallyEq ?_
    filter_upwards [hd.eventually_ne hd1] with s hs
    rw [mulVec_mulVec, smul_mul_assoc, adjugate_mul, smul_smul, inv_mul_cancel₀ hs, one_smul, one_mulVec]

/-- The matrix by which `exp` multiplies the translation. -/
noncomputable def expMatrix (w : V3) : M3 :=
  1 + (SO3.expDiffCoeffs (sqNorm w)).b • crossMatrix w + (SO3.expDiffCoeffs (sqNorm w)).c • (crossMatrix w * crossMatrix w)

theorem continuousAt_expMatrix : ContinuousAt expMatrix 0 := by
  have ht : ∀ᶠ q : ℝ in 𝓝 0, q < SO3.tinySquareAngle := eventually_lt_nhds (by unfold SO3.tinySquareAngle; norm_num)
  have hb : ContinuousAt (fun q => (SO3.expDiffCoeffs q).b) 0 := by
    have : (fun q => (SO3.expDiffCoeffs q).b) =ᶠ[𝓝 0] fun sq => 0.5 - sq * (1 / 24 - sq * (1 / 720)) := by
      filter_upwards [ht] with q hq
      simp only [SO3.expDiffCoeffs, if_pos hq]
    rw [continuousAt_congr this]
    fun_prop
  have hc : ContinuousAt (fun q => (SO3.expDiffCoeffs q).c) 0 := by
    have : (fun q => (SO3.expDiffCoeffs q).c) =ᶠ[𝓝 0] fun sq => 1 / 6 - sq * (1 / 120 - sq * (1 / 5040)) := by
      filter_upwards [ht] with q hq
      simp only [SO3.expDiffCoeffs, if_pos hq]
    rw [continuousAt_congr this]
    fun_prop
  have h0 : sqNorm (0 : V3) = 0 := SO3.sqNorm_eq_zero.mpr rfl
  have hb' : ContinuousAt (fun w : V3 => (SO3.expDiffCoeffs (sqNorm w)).b) 0 :=
    ContinuousAt.comp (f := sqNorm) (g := fun q => (SO3.expDiffCoeffs q).b) (x := (0 : V3)) (h0 ▸ hb) continuous_sqNorm.continuousAt
  have hc' : ContinuousAt (fun w : V3 => (SO3.expDiffCoeffs (sqNorm w)).c) 0 :=
    ContinuousAt.comp (f := sqNorm) (g := fun q => (SO3.expDiffCoeffs q).c) (x := (0 : V3)) (h0 ▸ hc) continuous_sqNorm.continuousAt
  unfold expMatrix
  exact (continuousAt_const.add (hb'.smul continuous_crossMatrix.continuousAt)).add (hc'.smul (continuous_crossMatrix.mul continuous_crossMatrix).continuousAt)

/-- Along a path through the origin of tangent space, `exp` moves with the velocity of the path. -/
theorem exp_has {x : ℝ → Twist} {v : Twist} {t : ℝ} (h : HasDerivAt x v t) (h0 : x t = 0) : MHas (fun s => poseMatrix (SE3.exp (x s))) (twistHat v) t := by
  obtain ⟨h1, h2⟩ := hasDerivAt_twist.mp h
  have h01 : (x t).1 = 0 := by rw [h0]; rfl
  have h02 : (x t).2 = 0 := by rw [h0]; rfl
  refine has_poseMatrix (SO3.exp_deriv_zero h1 h01) ?_
  have e : (fun s => (SE3.exp (x s)).2) = fun s => expMatrix (x s).1 *ᵥ (x s).2 := by
    funext s
    rw [exp_translation, expMatrix, add_mulVec, add_mulVec, one_mulVec, smul_mulVec, smul_mulVec, pow_two]
  rw [e]
  refine hasDerivAt_mulVec_of_zero ?_ ?_ h2 h02
  · exact ContinuousAt.comp (f := fun s => (x s).1) (g := expMatrix) (by simp only [h01]; exact continuousAt_expMatrix) h1.continuousAt
  · simp [h01, expMatrix, SO3.crossMatrix_zero]

end SE3

namespace MatRep
variable {n : Type} [Fintype n] [DecidableEq n] {G A V : Type} [NormedAddCommGroup A] [NormedSpace ℝ A]
  {L : LieOps ℝ G A V} {valid : G → Prop} {M : G → Matrix n n ℝ} {hat : A → Matrix n n ℝ} (P : MatRep L valid M hat)
include P

theorem right_difference {g : ℝ → G} {t : ℝ} {v : A} (hg : ∀ s, valid (g s)) :
    HasRightTangent M hat g t v ↔ MHas (fun e => M (L.mul (L.inv (g t)) (g (t + e)))) (hat v) 0 := by
  have key : HasRightTangent M hat g t v ↔ MHas (fun e => M (g (t + e))) (M (g t) * hat v) 0 := by
    refine forall_congr' fun i => forall_congr' fun j => ?_
    exact shift_iff
  rw [key]
  constructor
  · intro h
    have := (MHas.const (t := 0) (M (L.inv (g t)))).mul h
    simp only [Matrix.zero_mul, zero_add, ← P.M_mul] at this
    refine this.congr' ?_
    rw [← Matrix.mul_assoc, P.M_inv_mul (hg t), Matrix.one_mul]
  · intro h
    have := (MHas.const (t := 0) (M (g t))).mul h
    simp only [Matrix.zero_mul, zero_add, P.M_mul] at this
    refine this.congr (.of_forall fun s => ?_)
    simp only
    rw [← Matrix.mul_assoc, P.M_mul_inv (hg t), Matrix.one_mul]

theorem left_difference {g : ℝ → G} {t : ℝ} {v : A} (hg : ∀ s, valid (g s)) :
    HasLeftTangent M hat g t v ↔ MHas (fun e => M (L.mul (g (t + e)) (L.inv (g t)))) (hat v) 0 := by
  have key : HasLeftTangent M hat g t v ↔ MHas (fun e => M (g (t + e))) (hat v * M (g t)) 0 := by
    refine forall_congr' fun i => forall_congr' fun j => ?_
    exact shift_iff
  rw [key]
  constructor
  · intro h
    have := h.mul (MHas.const (t := 0) (M (L.inv (g t))))
    simp only [Matrix.mul_zero, add_zero, ← P.M_mul] at this
    refine this.congr' ?_
    rw [Matrix.mul_assoc, P.M_mul_inv (hg t), Matrix.mul_one]
  · intro h
    have := h.mul (MHas.const (t := 0) (M (g t)))
    simp only [Matrix.mul_zero, add_zero, P.M_mul] at this
    refine this.congr (.of_forall fun s => ?_)
    simp only
    rw [Matrix.mul_assoc, P.M_inv_mul (hg t), Matrix.mul_one]

theorem left_iff_right {g : ℝ → G} {t : ℝ} {v : A} (hg : ∀ s, valid (g s)) :
    HasRightTangent M hat g t v ↔ HasLeftTangent M hat g t (L.Ad (g t) v) := by
  unfold HasRightTangent HasLeftTangent
  rw [P.hat_Ad (hg t), Matrix.mul_assoc, P.M_inv_mul (hg t), Matrix.mul_one]

/-- The adjoint along a motion. -/
theorem adjoint_along {g : ℝ → G} {t : ℝ} {v : A} (hg : ∀ s, valid (g s)) (h : HasRightTangent M hat g t v) (y : A) :
    HasDerivAt (fun s => L.Ad (g s) y) (L.Ad (g t) (L.ad v y)) t := by
  have := P.Ad_deriv hg ((P.left_iff_right hg).mp h) (hasDerivAt_const t y)
  rw [P.laws.Ad_zero, zero_add, ← P.laws.Ad_ad (hg t)] at this
  exact this

/-- Conjugation by a fixed element of a motion through the identity. -/
theorem conj_has {k : ℝ → G} {g : G} {v : A} {t : ℝ} (hg : valid g) (h : MHas (fun s => M (k s)) (hat v) t) :
    MHas (fun s => M (L.mul (L.mul g (k s)) (L.inv g))) (hat (L.Ad g v)) t := by
  have := ((MHas.const (t := t) (M g)).mul h).mul (MHas.const (t := t) (M (L.inv g)))
  simp only [Matrix.zero_mul, zero_add, Matrix.mul_zero, add_zero] at this
  rw [P.hat_Ad hg]
  simp only [P.M_mul]
  exact this

omit [NormedAddCommGroup A] [NormedSpace ℝ A] P in
/-- A motion of constant velocity is an exponential. -/
theorem constant_velocity {g : ℝ → G} {v : A} (h : ∀ t, HasRightTangent M hat g t v) (t : ℝ) :
    M (g t) = M (g 0) * NormedSpace.exp (t • hat v) := by
  have hd : ∀ s, MHas (fun s => M (g s) * NormedSpace.exp (s • -hat v)) 0 s := by
    intro s
    have h1 : MHas (fun s => M (g s)) (M (g s) * hat v) s := h s
    refine (h1.mul (mhas_exp (-hat v) s)).congr' ?_
    rw [Matrix.neg_mul, Matrix.mul_neg, ← Matrix.mul_assoc]
    exact add_neg_cancel _
  have hc : ∀ s, M (g s) * NormedSpace.exp (s • -hat v) = M (g 0) := by
    intro s
    ext i j
    have := is_const_of_deriv_eq_zero (f := fun s => (M (g s) * NormedSpace.exp (s • -hat v)) i j)
      (fun r => (hd r i j).differentiableAt) (fun r => (hd r i j).deriv) s 0
    simp only [zero_smul, NormedSpace.exp_zero, Matrix.mul_one] at this
    exact this
  rw [← hc t, Matrix.mul_assoc]
  have : NormedSpace.exp (t • -hat v) * NormedSpace.exp (t • hat v) = 1 := by
    rw [← Matrix.exp_add_of_commute, smul_neg, neg_add_cancel, NormedSpace.exp_zero]
    rw [smul_neg]
    exact (Commute.refl _).neg_left
  rw [this, Matrix.mul_one]

end MatRep
end Verif
