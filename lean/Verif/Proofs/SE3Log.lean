import Verif.Proofs.SO3Log
import Mathlib.Analysis.InnerProductSpace.PiL2
import Mathlib.Analysis.Real.Pi.Bounds
/-! # `SE3::exp` after `SE3::log` -/
namespace Verif
open Matrix Spec

namespace SO3

theorem eucNorm_eq_norm (v : V3) : eucNorm v = ‖(WithLp.toLp 2 v : EuclideanSpace ℝ (Fin 3))‖ := by
  rw [EuclideanSpace.norm_eq, eucNorm, sqNorm]
  simp [dotProduct, pow_two]

theorem eucNorm_add_le (v w : V3) : eucNorm (v + w) ≤ eucNorm v + eucNorm w := by
  simp only [eucNorm_eq_norm, WithLp.toLp_add]
  exact norm_add_le _ _

theorem eucNorm_neg (v : V3) : eucNorm (-v) = eucNorm v := by
  rw [← neg_one_smul ℝ v, eucNorm_smul]; simp

theorem eucNorm_cross_le (v w : V3) : eucNorm (v ⨯₃ w) ≤ eucNorm v * eucNorm w := by
  apply (sq_le_sq₀ (eucNorm_nonneg _) (mul_nonneg (eucNorm_nonneg _) (eucNorm_nonneg _))).mp
  · rw [mul_pow, eucNorm_sq, eucNorm_sq, eucNorm_sq]
    have := cross_dot_cross v w v w
    rw [sqNorm, this, sqNorm, sqNorm, dotProduct_comm w v]
    nlinarith [sq_nonneg (v ⬝ᵥ w)]

end SO3

namespace SE3
open SO3

/-- What `exp` makes of the translation part computed by `log`: the translation plus two residual terms. -/
theorem exp_log_translation (g : Pose) :
    (SE3.exp (SE3.log g)).2 = g.2
      + ((expDiffCoeffs (sqNorm (SO3.log g.1))).b - (expDiffCoeffs (sqNorm (SO3.log g.1))).a / 2
          - sqNorm (SO3.log g.1) * (expDiffCoeffs (sqNorm (SO3.log g.1))).b * order2Coeff (sqNorm (SO3.log g.1))) • (SO3.log g.1 ⨯₃ g.2)
      + (order2Coeff (sqNorm (SO3.log g.1)) * (expDiffCoeffs (sqNorm (SO3.log g.1))).a
          - (expDiffCoeffs (sqNorm (SO3.log g.1))).b / 2 + (expDiffCoeffs (sqNorm (SO3.log g.1))).c) • (SO3.log g.1 ⨯₃ (SO3.log g.1 ⨯₃ g.2)) := by
  rw [exp_translation]
  simp only [SE3.log]
  have ha := coeff_a (sqNorm (SO3.log g.1)) (sqNorm_nonneg _)
  generalize SO3.log g.1 = w at *
  generalize g.2 = t at *
  generalize order2Coeff (sqNorm w) = q at *
  have hc := crossMatrix_cube w
  have h3 : ∀ v, crossMatrix w *ᵥ (crossMatrix w *ᵥ (crossMatrix w *ᵥ v)) = (-sqNorm w) • (crossMatrix w *ᵥ v) := by
    intro v
    rw [mulVec_mulVec, mulVec_mulVec, ← pow_three', hc, smul_mulVec]
  rw [ha, pow_two, ← mulVec_mulVec, ← crossMatrix_mulVec w t, ← crossMatrix_mulVec w (crossMatrix w *ᵥ t)]
  simp only [mulVec_add, mulVec_sub, mulVec_smul, h3]
  module

/-- Outside the small-angle region the residuals vanish. -/
theorem residuals_zero {q : ℝ} (h1 : tinySquareAngle ≤ q) (h2 : q ≤ Real.pi ^ 2) :
    (expDiffCoeffs q).b - (expDiffCoeffs q).a / 2 - q * (expDiffCoeffs q).b * order2Coeff q = 0 ∧
    order2Coeff q * (expDiffCoeffs q).a - (expDiffCoeffs q).b / 2 + (expDiffCoeffs q).c = 0 := by
  have hq0 : 0 < q := lt_of_lt_of_le (by unfold tinySquareAngle; norm_num) h1
  have ha := coeff_a q hq0.le
  obtain ⟨hb, hc⟩ := coeff_exact h1
  obtain ⟨t, ht⟩ : ∃ t, t = Real.sqrt q := ⟨_, rfl⟩
  have htq : t ^ 2 = q := by rw [ht]; exact Real.sq_sqrt hq0.le
  have htp : 0 < t := by rw [ht]; exact Real.sqrt_pos.mpr hq0
  have htpi : t ≤ Real.pi := by
    have := Real.pi_pos
    nlinarith
  rw [← ht] at hb hc
  have hne : ¬ q < tinySquareAngle := not_lt.mpr h1
  have ha' : (expDiffCoeffs q).a = Real.sin t / t := by rw [ha, hc, ← htq]; field_simp; ring
  have hrel : (expDiffCoeffs q).b ^ 2 * q + (expDiffCoeffs q).a ^ 2 = 2 * (expDiffCoeffs q).b := by
    rw [hb, ha', ← htq]
    field_simp
    have := Real.sin_sq_add_cos_sq t
    linear_combination this
  have hbpos : 0 < (expDiffCoeffs q).b := by
    rw [hb]
    apply div_pos _ (pow_pos htp 2)
    have : Real.cos t < 1 := by
      rw [← Real.cos_zero]
      exact Real.cos_lt_cos_of_nonneg_of_le_pi le_rfl htpi htp
    linarith
  have hkey : (expDiffCoeffs q).b - (expDiffCoeffs q).a / 2 - q * (expDiffCoeffs q).b * order2Coeff q = 0 ∧
      order2Coeff q * (expDiffCoeffs q).a = (expDiffCoeffs q).b / 2 - (expDiffCoeffs q).c := by
    unfold order2Coeff
    simp only
    rw [if_neg hne]
    generalize (expDiffCoeffs q).b = b at *
    generalize (expDiffCoeffs q).a = a at *
    generalize (expDiffCoeffs q).c = c at *
    split_ifs with h9
    · constructor
      · field_simp; ring
      · have hc' : c = (1 - a) / q := by rw [ha]; field_simp; ring
        rw [hc']
        field_simp
        linear_combination -hrel
    · have hsin : 0 < Real.sin t := by
        apply Real.sin_pos_of_pos_of_lt_pi htp
        have := Real.pi_gt_three
        nlinarith
      have hap : a ≠ 0 := by rw [ha']; positivity
      constructor
      · have hc' : c = (1 - a) / q := by rw [ha]; field_simp; ring
        rw [hc']
        field_simp
        linear_combination -hrel
      · field_simp; ring
  exact ⟨hkey.1, by rw [hkey.2]; ring⟩

theorem exp_log {g : Pose} (h : PoseValid g) (hw : SO3.log g.1 = 0 ∨ tinySquareAngle ≤ sqNorm (SO3.log g.1)) :
    SE3.exp (SE3.log g) = g := by
  obtain ⟨h1, h2⟩ := SO3.exp_log (R := g.1) h
  refine Prod.ext h1 ?_
  rw [exp_log_translation]
  rcases hw with h0 | h0
  · rw [h0]; simp
  · have hpi : sqNorm (SO3.log g.1) ≤ Real.pi ^ 2 := by
      rw [← eucNorm_sq]; exact pow_le_pow_left₀ (eucNorm_nonneg _) h2 2
    obtain ⟨e1, e2⟩ := residuals_zero h0 hpi
    rw [e1, e2]; simp

theorem log_exp_of {x : Twist} (hl : SO3.log (SE3.exp x).1 = x.1) (hw : x.1 = 0 ∨ tinySquareAngle ≤ sqNorm x.1) :
    SE3.log (SE3.exp x) = x := by
  have h : eucNorm x.1 ≤ Real.pi := by rw [← hl]; exact (SO3.exp_log (SO3.isRotation_exp _)).2
  have h1 : (SE3.log (SE3.exp x)).1 = x.1 := hl
  refine Prod.ext h1 ?_
  simp only [SE3.log, hl]
  rcases hw with h0 | h0
  · rw [h0, exp_translation, h0]; simp [crossMatrix_zero]
  · have hpi : sqNorm x.1 ≤ Real.pi ^ 2 := by
      rw [← eucNorm_sq]; exact pow_le_pow_left₀ (eucNorm_nonneg _) h 2
    obtain ⟨e1, e2⟩ := residuals_zero h0 hpi
    have ha := coeff_a (sqNorm x.1) (sqNorm_nonneg _)
    rw [exp_translation, ← crossMatrix_mulVec, ← crossMatrix_mulVec]
    generalize x.1 = w at *
    generalize x.2 = u at *
    have hc := crossMatrix_cube w
    have h3 : ∀ v, crossMatrix w *ᵥ (crossMatrix w *ᵥ (crossMatrix w *ᵥ v)) = (-sqNorm w) • (crossMatrix w *ᵥ v) := by
      intro v
      rw [mulVec_mulVec, mulVec_mulVec, ← pow_three', hc, smul_mulVec]
    rw [pow_two, ← mulVec_mulVec]
    simp only [mulVec_add, mulVec_smul, h3]
    generalize (expDiffCoeffs (sqNorm w)).b = b at *
    generalize (expDiffCoeffs (sqNorm w)).a = a at *
    generalize (expDiffCoeffs (sqNorm w)).c = c at *
    generalize order2Coeff (sqNorm w) = q at *
    generalize crossMatrix w *ᵥ (crossMatrix w *ᵥ u) = k2 at *
    generalize crossMatrix w *ᵥ u = k1 at *
    have z1 : b - 1 / 2 + sqNorm w * c / 2 - sqNorm w * b * q = 0 := by linear_combination e1 + ha / 2
    have z2 : c - b / 2 + q - sqNorm w * c * q = 0 := by linear_combination e2 - q * ha
    have : u + b • k1 + c • k2 - (0.5 : ℝ) • (k1 + b • k2 + c • -sqNorm w • k1) + q • (k2 + b • -sqNorm w • k1 + c • -sqNorm w • k2)
        = u + (b - 1 / 2 + sqNorm w * c / 2 - sqNorm w * b * q) • k1 + (c - b / 2 + q - sqNorm w * c * q) • k2 := by module
    rw [this, z1, z2]
    simp

theorem log_exp {x : Twist} (h : eucNorm x.1 < Real.pi) (hw : x.1 = 0 ∨ tinySquareAngle ≤ sqNorm x.1) :
    SE3.log (SE3.exp x) = x := log_exp_of (SO3.log_exp h) hw

/-- In the small-angle region the residuals are tiny. -/
theorem residuals_small {q : ℝ} (h0 : 0 ≤ q) (h1 : q < tinySquareAngle) :
    |(expDiffCoeffs q).b - (expDiffCoeffs q).a / 2 - q * (expDiffCoeffs q).b * order2Coeff q| ≤ 1e-14 ∧
    |order2Coeff q * (expDiffCoeffs q).a - (expDiffCoeffs q).b / 2 + (expDiffCoeffs q).c| ≤ 2e-10 := by
  unfold order2Coeff
  simp only
  rw [if_pos h1]
  unfold expDiffCoeffs
  rw [if_pos h1]
  simp only
  have h1' : q < 4e-6 := h1
  have q2 : q ^ 2 ≤ 16e-12 := by nlinarith
  have q2' : 0 ≤ q ^ 2 := by positivity
  have q3 : q ^ 3 ≤ 64e-18 := by
    have : q ^ 3 = q ^ 2 * q := by ring
    rw [this]; nlinarith
  have q3' : 0 ≤ q ^ 3 := by positivity
  have q4 : q ^ 4 ≤ 256e-24 := by
    have : q ^ 4 = q ^ 2 * q ^ 2 := by ring
    rw [this]; nlinarith
  have q4' : 0 ≤ q ^ 4 := by positivity
  have q5 : q ^ 5 ≤ 1024e-30 := by
    have : q ^ 5 = q ^ 3 * q ^ 2 := by ring
    rw [this]; nlinarith
  have q5' : 0 ≤ q ^ 5 := by positivity
  constructor
  · rw [abs_le]
    constructor <;> ring_nf <;> linarith
  · rw [abs_le]
    constructor <;> ring_nf <;> linarith

end SE3
end Verif
