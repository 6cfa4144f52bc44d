import Verif.Proofs.OneAxis
import Verif.Proofs.Switch
/-! # The length that the logarithm gives a screw motion -/
namespace Verif
open Matrix SO3

/-- The length of a vector changed by multiples of its cross products with `w`. -/
theorem sqNorm_turned (w v : V3) (N M : ℝ) :
    sqNorm (v + N • (w ⨯₃ v) + M • (w ⨯₃ (w ⨯₃ v))) = sqNorm v + sqNorm (w ⨯₃ v) * (N ^ 2 + sqNorm w * M ^ 2 - 2 * M) := by
  simp only [sqNorm_eq, cross_apply, Pi.add_apply, Pi.smul_apply, smul_eq_mul, cons_val_zero, cons_val_one, cons_val]
  ring

/-- What the logarithm of the code makes of the translation of an exact screw motion. -/
theorem log_of_turned (w v : V3) (b c k : ℝ) :
    (v + b • (w ⨯₃ v) + c • (w ⨯₃ (w ⨯₃ v))) - (0.5 : ℝ) • (w ⨯₃ (v + b • (w ⨯₃ v) + c • (w ⨯₃ (w ⨯₃ v))))
      + k • (w ⨯₃ (w ⨯₃ (v + b • (w ⨯₃ v) + c • (w ⨯₃ (w ⨯₃ v))))) =
    v + (b - (1 - sqNorm w * c) / 2 - k * b * sqNorm w) • (w ⨯₃ v) + (c - b / 2 + k * (1 - sqNorm w * c)) • (w ⨯₃ (w ⨯₃ v)) := by
  have e : w ⨯₃ (w ⨯₃ (w ⨯₃ v)) = (-sqNorm w) • (w ⨯₃ v) := by
    rw [sqNorm_eq]
    simp only [cross_apply, smul_vec3, smul_eq_mul, cons_val_zero, cons_val_one, cons_val]
    congr 1
    · ring
    congr 1
    · ring
    congr 1
    · ring
  simp only [map_add, map_smul, e]
  module

/-- The factor by which small turns come out too short. -/
theorem shrinks {q a b c k : ℝ} (ha : a = 1 - q * c) (hab : a ^ 2 + q * b ^ 2 = 2 * b) :
    q * ((b - (1 - q * c) / 2 - k * b * q) ^ 2 + q * (c - b / 2 + k * (1 - q * c)) ^ 2 - 2 * (c - b / 2 + k * (1 - q * c))) =
      ((1 - k * q) ^ 2 + q / 4) * (2 * b) - 1 := by
  rw [← hab, ha]
  ring

theorem shrinks_neg {q b : ℝ} (h0 : 0 < q) (h1 : q < 4e-6) (hb : b < 1 / 2 - q / 24 + q ^ 2 / 720) :
    ((1 - (1 / 12 + q * (1 / 720 + q + 1 / 30240)) * q) ^ 2 + q / 4) * (2 * b) < 1 := by
  obtain ⟨F, hF⟩ : ∃ F, F = (1 - (1 / 12 + q * (1 / 720 + q + 1 / 30240)) * q) ^ 2 + q / 4 := ⟨_, rfl⟩
  have hF0 : 0 < F := by rw [hF]; positivity
  rw [← hF]
  have h2 : F * (2 * b) < F * (1 - q / 12 + q ^ 2 / 360) := by
    apply mul_lt_mul_of_pos_left _ hF0
    linarith
  refine lt_of_lt_of_le h2 ?_
  rw [hF]
  have q3 : q ^ 3 ≤ 4e-6 * q ^ 2 := by nlinarith [sq_nonneg q]
  have p3 := pow_pos h0 3
  have p2 := pow_pos h0 2
  have p4 : q ^ 4 ≤ 4e-6 * q ^ 3 := by nlinarith
  have p4' := pow_pos h0 4
  have p5 : q ^ 5 ≤ 4e-6 * q ^ 4 := by nlinarith
  have p5' := pow_pos h0 5
  have p6 : q ^ 6 ≤ 4e-6 * q ^ 5 := by nlinarith
  have p6' := pow_pos h0 6
  have p7 : q ^ 7 ≤ 4e-6 * q ^ 6 := by nlinarith
  have p7' := pow_pos h0 7
  have p8 : q ^ 8 ≤ 4e-6 * q ^ 7 := by nlinarith
  have p8' := pow_pos h0 8
  ring_nf
  linarith

/-- The code measures an exact screw motion of a small turn shorter than it is, unless it runs along its axis. -/
theorem SE3.log_short {x : Twist} (h0 : x.1 ≠ 0) (h1 : sqNorm x.1 < tinySquareAngle) (hx : x.1 ⨯₃ x.2 ≠ 0) :
    eucNorm (SE3.log (SE3.xexp x)).2 < eucNorm x.2 := by
  obtain ⟨-, -, ht⟩ := SE3.smallcoeffs h0 h1
  have hp := eucNorm_pos h0
  have hlog : SO3.log (SO3.exp x.1) = x.1 := SO3.log_exp (by linarith [Real.pi_gt_three])
  obtain ⟨t, htt⟩ : ∃ t, t = eucNorm x.1 := ⟨_, rfl⟩
  have hq : sqNorm x.1 = t ^ 2 := by rw [htt, eucNorm_sq]
  obtain ⟨b, hb⟩ : ∃ b, b = (1 - Real.cos t) / t ^ 2 := ⟨_, rfl⟩
  obtain ⟨c, hc⟩ : ∃ c, c = (t - Real.sin t) / t ^ 3 := ⟨_, rfl⟩
  rw [← htt] at hp ht
  have e1 : (SE3.xexp x).2 = x.2 + b • (x.1 ⨯₃ x.2) + c • (x.1 ⨯₃ (x.1 ⨯₃ x.2)) := by
    simp only [SE3.xexp, ← htt, ← hb, ← hc, pow_two (crossMatrix _), ← mulVec_mulVec, crossMatrix_mulVec]
  have e2 : (SE3.log (SE3.xexp x)).2 = (SE3.xexp x).2 - (0.5 : ℝ) • (x.1 ⨯₃ (SE3.xexp x).2) + (SE3.order2Coeff (sqNorm x.1)) • (x.1 ⨯₃ (x.1 ⨯₃ (SE3.xexp x).2)) := by
    have : SO3.log (SE3.xexp x).1 = x.1 := hlog
    simp only [SE3.log, this]
  rw [e1, log_of_turned] at e2
  have hk : SE3.order2Coeff (sqNorm x.1) = 1 / 12 + t ^ 2 * (1 / 720 + t ^ 2 + 1 / 30240) := by
    rw [hq] at h1 ⊢
    simp only [SE3.order2Coeff, if_pos h1]
  have hab : (1 - t ^ 2 * c) ^ 2 + t ^ 2 * b ^ 2 = 2 * b := by
    have := Real.sin_sq_add_cos_sq t
    rw [hc, hb]
    field_simp
    nlinarith
  have hcos := cos_gt hp (by linarith)
  have hb1 : b < 1 / 2 - t ^ 2 / 24 + (t ^ 2) ^ 2 / 720 := by
    rw [hb, div_lt_iff₀ (by positivity)]
    nlinarith
  have h1' : t ^ 2 < 4e-6 := by nlinarith
  have key := shrinks_neg (q := t ^ 2) (b := b) (by positivity) h1' hb1
  have key2 := shrinks (q := t ^ 2) (a := 1 - t ^ 2 * c) (b := b) (c := c) (k := 1 / 12 + t ^ 2 * (1 / 720 + t ^ 2 + 1 / 30240)) rfl hab
  have hs := sqNorm_turned x.1 x.2 (b - (1 - sqNorm x.1 * c) / 2 - SE3.order2Coeff (sqNorm x.1) * b * sqNorm x.1)
    (c - b / 2 + SE3.order2Coeff (sqNorm x.1) * (1 - sqNorm x.1 * c))
  rw [← e2, hk, hq] at hs
  have hn : 0 < sqNorm (x.1 ⨯₃ x.2) := by
    rw [← eucNorm_sq]
    exact pow_pos (eucNorm_pos hx) 2
  have hneg : (b - (1 - t ^ 2 * c) / 2 - (1 / 12 + t ^ 2 * (1 / 720 + t ^ 2 + 1 / 30240)) * b * t ^ 2) ^ 2 +
      t ^ 2 * (c - b / 2 + (1 / 12 + t ^ 2 * (1 / 720 + t ^ 2 + 1 / 30240)) * (1 - t ^ 2 * c)) ^ 2 -
      2 * (c - b / 2 + (1 / 12 + t ^ 2 * (1 / 720 + t ^ 2 + 1 / 30240)) * (1 - t ^ 2 * c)) < 0 := by
    by_contra hcon
    rw [not_lt] at hcon
    have := mul_nonneg (sq_nonneg t) hcon
    rw [key2] at this
    linarith
  have hlt : sqNorm (SE3.log (SE3.xexp x)).2 < sqNorm x.2 := by
    rw [hs]
    have := mul_neg_of_pos_of_neg hn hneg
    linarith
  unfold eucNorm
  exact Real.sqrt_lt_sqrt (by rw [← eucNorm_sq]; positivity) hlt

/-- A screw motion along its axis is measured exactly. -/
theorem SE3.log_along {x : Twist} (hl : SO3.log (SO3.exp x.1) = x.1) (hx : x.1 ⨯₃ x.2 = 0) : SE3.log (SE3.xexp x) = x := by
  have e1 : (SE3.xexp x).2 = x.2 := by
    simp only [SE3.xexp, pow_two (crossMatrix _), ← mulVec_mulVec, crossMatrix_mulVec, hx, smul_zero, add_zero, map_zero]
  have : SO3.log (SE3.xexp x).1 = x.1 := hl
  refine Prod.ext this ?_
  simp only [SE3.log, this, e1, hx, smul_zero, map_zero, add_zero, sub_zero]

end Verif
