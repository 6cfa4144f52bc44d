import Verif.Proofs.TCurveSegment
import Verif.Proofs.Homogeneous
import Verif.Proofs.SE3Log
import Verif.Proofs.TinyAngle
import Mathlib.Algebra.Polynomial.Derivative
import Mathlib.Algebra.Polynomial.Eval.Degree
import Mathlib.Tactic.ComputeDegree
/-! # Curve segments whose data lie on one axis -/
namespace Verif
open Framed Spec Matrix

variable {G A V : Type}

/-- The scalar quintic with value 0 at 0 and the given other end values. -/
noncomputable def quintic (α β γ δ ε u : ℝ) : PolyCoeffs :=
  ⟨(Quintic.d2Dest u).a * ε + ((Quintic.d2Orig u).a * δ + ((Quintic.dDest u).a * γ + ((Quintic.dOrig u).a * β + (Quintic.destFromOrig u).a * α))),
   (Quintic.d2Dest u).da * ε + ((Quintic.d2Orig u).da * δ + ((Quintic.dDest u).da * γ + ((Quintic.dOrig u).da * β + (Quintic.destFromOrig u).da * α))),
   (Quintic.d2Dest u).d2a * ε + ((Quintic.d2Orig u).d2a * δ + ((Quintic.dDest u).d2a * γ + ((Quintic.dOrig u).d2a * β + (Quintic.destFromOrig u).d2a * α)))⟩

/-- A polynomial of degree at most five, by its coefficients. -/
theorem poly5 (q : Polynomial ℝ) (h : q.natDegree ≤ 5) : ∃ c0 c1 c2 c3 c4 c5 : ℝ, ∀ x,
    q.eval x = c0 + c1 * x + c2 * x ^ 2 + c3 * x ^ 3 + c4 * x ^ 4 + c5 * x ^ 5 ∧
    q.derivative.eval x = c1 + 2 * c2 * x + 3 * c3 * x ^ 2 + 4 * c4 * x ^ 3 + 5 * c5 * x ^ 4 ∧
    q.derivative.derivative.eval x = 2 * c2 + 6 * c3 * x + 12 * c4 * x ^ 2 + 20 * c5 * x ^ 3 := by
  refine ⟨q.coeff 0, q.coeff 1, q.coeff 2, q.coeff 3, q.coeff 4, q.coeff 5, fun x => ?_⟩
  have e : q = Polynomial.C (q.coeff 0) + Polynomial.C (q.coeff 1) * Polynomial.X + Polynomial.C (q.coeff 2) * Polynomial.X ^ 2
      + Polynomial.C (q.coeff 3) * Polynomial.X ^ 3 + Polynomial.C (q.coeff 4) * Polynomial.X ^ 4 + Polynomial.C (q.coeff 5) * Polynomial.X ^ 5 := by
    conv_lhs => rw [Polynomial.as_sum_range_C_mul_X_pow' q (Nat.lt_succ_of_le h)]
    simp [Finset.sum_range_succ]
  generalize q.coeff 0 = c0 at *
  generalize q.coeff 1 = c1 at *
  generalize q.coeff 2 = c2 at *
  generalize q.coeff 3 = c3 at *
  generalize q.coeff 4 = c4 at *
  generalize q.coeff 5 = c5 at *
  subst e
  refine ⟨by simp, ?_, ?_⟩
  · simp; ring
  · simp; ring

/-- The quintic with the end data of a polynomial of degree at most five is that polynomial. -/
theorem quintic_eq (q : Polynomial ℝ) (h : q.natDegree ≤ 5) (a dt u : ℝ) :
    quintic (q.eval (a + dt) - q.eval a) (dt * q.derivative.eval a) (dt * q.derivative.eval (a + dt)) (dt ^ 2 * q.derivative.derivative.eval a)
      (dt ^ 2 * q.derivative.derivative.eval (a + dt)) u =
    ⟨q.eval (a + u * dt) - q.eval a, dt * q.derivative.eval (a + u * dt), dt ^ 2 * q.derivative.derivative.eval (a + u * dt)⟩ := by
  obtain ⟨c0, c1, c2, c3, c4, c5, hc⟩ := poly5 q h
  simp only [hc, quintic, Quintic.destFromOrig, Quintic.dOrig, Quintic.dDest, Quintic.d2Orig, Quintic.d2Dest,
    Quintic.coeffs_a, Quintic.coeffs_da, Quintic.coeffs_d2a, Quintic.destOrigTable, Quintic.dOrigTable, Quintic.dDestTable,
    Quintic.d2OrigTable, Quintic.d2DestTable, Matrix.cons_val_zero, Matrix.cons_val_one, Matrix.cons_val]
  congr 1 <;> ring

/-- A one-parameter group with its direction. -/
structure OneParam [AddCommGroup A] [Module ℝ A] (L : LieOps ℝ G A V) (E : ℝ → G) (η : A) : Prop where
  zero : E 0 = L.one
  mul : ∀ s t, L.mul (E s) (E t) = E (s + t)
  Ad : ∀ s, L.Ad (E s) η = η

section
variable [AddCommGroup A] [Module ℝ A] {L : LieOps ℝ G A V} {valid : G → Prop} (H : LieLaws L valid) {E : ℝ → G} {η : A} (P : OneParam L E η)
include H P

theorem vmul_axis (k : PolyCoeffs) (c s p r : ℝ) (he : L.exp ((k.a * c) • η) = E (k.a * c)) :
    vmul L (vinc L k (c • η)) (E s, p • η, r • η) = (E (k.a * c + s), (k.da * c + p) • η, (k.d2a * c + r) • η) := by
  simp only [vmul, vinc, he, P.mul, H.Ad_smul, P.Ad, H.smul_eq, smul_smul, H.ad_smul_left, H.ad_smul_right, H.ad_self, smul_zero, add_zero, add_smul]

/-- A segment whose relative motion and derivatives all lie along `η` moves along `η` by the scalar quintic. -/
theorem vpoint_axis (seg : TSegment G A) (u α β γ δ ε : ℝ)
    (hl : L.log (L.mul seg.dest.g.val (L.inv seg.orig.g.val)) = α • η) (h1 : seg.orig.d = β • η) (h2 : seg.dest.d = γ • η)
    (h3 : seg.orig.d2 = δ • η) (h4 : seg.dest.d2 = ε • η)
    (e0 : L.exp (((Quintic.destFromOrig u).a * α) • η) = E ((Quintic.destFromOrig u).a * α))
    (e1 : L.exp (((Quintic.dOrig u).a * β) • η) = E ((Quintic.dOrig u).a * β))
    (e2 : L.exp (((Quintic.dDest u).a * γ) • η) = E ((Quintic.dDest u).a * γ))
    (e3 : L.exp (((Quintic.d2Orig u).a * δ) • η) = E ((Quintic.d2Orig u).a * δ))
    (e4 : L.exp (((Quintic.d2Dest u).a * ε) • η) = E ((Quintic.d2Dest u).a * ε)) :
    vpoint L seg u = (E (quintic α β γ δ ε u).a, (quintic α β γ δ ε u).da • η, (quintic α β γ δ ε u).d2a • η) := by
  have z : ((L.one, 0, 0) : G × A × A) = (E 0, (0 : ℝ) • η, (0 : ℝ) • η) := by rw [P.zero, zero_smul]
  unfold vpoint
  rw [hl, h1, h2, h3, h4, z, vmul_axis H P _ _ _ _ _ e0, vmul_axis H P _ _ _ _ _ e1, vmul_axis H P _ _ _ _ _ e2, vmul_axis H P _ _ _ _ _ e3,
    vmul_axis H P _ _ _ _ _ e4]
  simp only [add_zero, quintic]

end

/-! ## Rotations -/

theorem SO3.oneParam (w : V3) : OneParam SO3.ops (fun s => SO3.exp (s • w)) w where
  zero := by rw [zero_smul]; exact SO3.exp_zero
  mul s t := by
    change SO3.exp (s • w) * SO3.exp (t • w) = SO3.exp ((s + t) • w)
    rw [SO3.exp_eq_matrix_exp, SO3.exp_eq_matrix_exp, SO3.exp_eq_matrix_exp, crossMatrix_smul, crossMatrix_smul, crossMatrix_smul,
      ← Matrix.exp_add_of_commute, add_smul]
    exact ((Commute.refl _).smul_left _).smul_right _
  Ad s := by
    change SO3.exp (s • w) *ᵥ w = w
    by_cases h : s • w = 0
    · rw [h, SO3.exp_zero, one_mulVec]
    · have hk : crossMatrix (s • w) *ᵥ w = 0 := by rw [crossMatrix_mulVec, map_smul, LinearMap.smul_apply, cross_self, smul_zero]
      rw [SO3.exp_eq h, add_mulVec, add_mulVec, one_mulVec, smul_mulVec, smul_mulVec, hk, pow_two (crossMatrix _), ← mulVec_mulVec, hk]
      simp

/-! ## Screw motions -/

namespace SE3
open SO3

/-- The exact exponential of a twist, at every angle. -/
noncomputable def xexp (x : Twist) : Pose :=
  (SO3.exp x.1, x.2 + ((1 - Real.cos (eucNorm x.1)) / eucNorm x.1 ^ 2) • (crossMatrix x.1 *ᵥ x.2)
    + ((eucNorm x.1 - Real.sin (eucNorm x.1)) / eucNorm x.1 ^ 3) • ((crossMatrix x.1 ^ 2) *ᵥ x.2))

theorem H_xexp (x : Twist) : H (xexp x) = NormedSpace.exp (T x) := by
  obtain ⟨w, u⟩ := x
  by_cases h0 : w = 0
  · subst h0
    have := SE3.exp_eq_matrix_exp 0 u (.inl rfl)
    have e : xexp (0, u) = SE3.exp (0, u) := by
      refine Prod.ext rfl ?_
      rw [exp_translation]
      simp [xexp, crossMatrix_zero]
    rw [e]
    exact this
  · have hp := eucNorm_pos h0
    have h4 := twistMatrix_four w u
    rw [← eucNorm_sq] at h4
    simp only [T, H, xexp]
    rw [matrix_exp_closed_form _ _ hp.ne' h4, twistMatrix_sq, twistMatrix_cube, twistMatrix_eq,
      ← fromBlocks_one, fromBlocks_smul, fromBlocks_smul, fromBlocks_add, fromBlocks_add, fromBlocks_add]
    simp only [homogeneous]
    congr 1
    · rw [SO3.exp_eq_matrix_exp]
      have h4 := crossMatrix_four w
      rw [← eucNorm_sq] at h4
      exact matrix_exp_closed_form (crossMatrix w) (eucNorm w) hp.ne' h4
    · ext i j
      simp
    · simp
    · simp

theorem xexp_eq {x : Twist} (h : x.1 = 0 ∨ tinySquareAngle ≤ sqNorm x.1) : SE3.exp x = xexp x := by
  apply H_injective
  rw [H_xexp]
  exact SE3.exp_eq_matrix_exp x.1 x.2 h

theorem T_smul (s : ℝ) (x : Twist) : T (s • x) = s • T x := by
  simp only [SE3.T, SE3.twistMatrix_eq, fromBlocks_smul, Prod.smul_fst, Prod.smul_snd, crossMatrix_smul]
  congr 1
  · simp
  · simp

theorem xexp_valid (x : Twist) : PoseValid (xexp x) := SO3.isRotation_exp x.1

theorem oneParam (x : Twist) : OneParam SE3.ops (fun s => xexp (s • x)) x where
  zero := by
    apply H_injective
    rw [zero_smul, H_xexp]
    change _ = H one
    rw [H_one, ← zero_smul ℝ (0 : Twist), T_smul, zero_smul, NormedSpace.exp_zero]
  mul s t := by
    apply H_injective
    change H (mul _ _) = _
    rw [H_mul, H_xexp, H_xexp, H_xexp, T_smul, T_smul, T_smul, ← Matrix.exp_add_of_commute, add_smul]
    exact ((Commute.refl _).smul_left _).smul_right _
  Ad s := by
    apply T_injective
    change T (adjointTimes _ _) = _
    rw [T_conj (xexp_valid _)]
    have hc : Commute (H (xexp (s • x))) (T x) := by
      rw [H_xexp, T_smul]
      exact ((Commute.refl _).smul_left _).exp_left
    rw [hc.eq, Matrix.mul_assoc, (H_inv (xexp_valid _)).2, Matrix.mul_one]

theorem xexp_conj {g : Pose} (h : PoseValid g) (x : Twist) : xexp (adjointTimes g x) = mul (mul g (xexp x)) (inv g) := by
  apply H_injective
  have hinv : (H g)⁻¹ = H (inv g) := inv_eq_left_inv (H_inv h).1
  have hu : IsUnit (H g) := IsUnit.of_mul_eq_one _ (H_inv h).2
  rw [H_mul, H_mul, H_xexp, H_xexp, T_conj h, ← hinv, Matrix.exp_conj _ _ hu]

/-- Rotation about an axis through the point `c`. -/
theorem xexp_about (a : ℝ) (w c : V3) : xexp (a • ((w, c ⨯₃ w) : Twist)) = (SO3.exp (a • w), c - SO3.exp (a • w) *ᵥ c) := by
  have e : a • ((w, c ⨯₃ w) : Twist) = adjointTimes (1, c) (a • w, 0) := by
    refine Prod.ext ?_ ?_
    · simp [adjointTimes]
    · simp [adjointTimes]
  have e0 : xexp (a • w, 0) = (SO3.exp (a • w), 0) := by
    refine Prod.ext rfl ?_
    simp [xexp]
  rw [e, xexp_conj (show PoseValid ((1, c) : Pose) from SO3.isRotation_one), e0]
  refine Prod.ext ?_ ?_
  · simp [mul, inv, SO3.mul, SO3.inv]
  · simp [mul, inv, SO3.mul, SO3.inv, SO3.act, mulVec_neg]
    abel

theorem smallcoeffs {w : V3} (h0 : w ≠ 0) (h1 : sqNorm w < tinySquareAngle) :
    |(expDiffCoeffs (sqNorm w)).b - (1 - Real.cos (eucNorm w)) / eucNorm w ^ 2| ≤ 1e-16 ∧
    |(expDiffCoeffs (sqNorm w)).c - (eucNorm w - Real.sin (eucNorm w)) / eucNorm w ^ 3| ≤ 1e-16 ∧ eucNorm w < 0.002 := by
  have hp := eucNorm_pos h0
  rw [← eucNorm_sq] at h1 ⊢
  generalize eucNorm w = t at *
  have ht : t < 0.002 := by
    unfold tinySquareAngle at h1
    by_contra hcon
    rw [not_lt] at hcon
    nlinarith
  obtain ⟨hc, hs⟩ := taylor8 t (by rw [abs_of_pos hp]; linarith)
  rw [abs_of_pos hp] at hc hs
  have ht4 : t ^ 4 ≤ 16e-12 := by
    have : t ^ 2 ≤ 4e-6 := by nlinarith
    nlinarith [sq_nonneg t]
  have ht5 : t ^ 5 ≤ 32e-15 := by
    have : t ^ 5 = t ^ 4 * t := by ring
    rw [this]; nlinarith [pow_pos hp 4]
  have ht6 : t ^ 6 ≤ 64e-18 := by
    have : t ^ 6 = t ^ 5 * t := by ring
    rw [this]; nlinarith [pow_pos hp 5]
  obtain ⟨rc, hrc⟩ : ∃ r, r = Real.cos t - (1 - t ^ 2 / 2 + t ^ 4 / 24 - t ^ 6 / 720) := ⟨_, rfl⟩
  obtain ⟨rs, hrs⟩ : ∃ r, r = Real.sin t - (t - t ^ 3 / 6 + t ^ 5 / 120 - t ^ 7 / 5040) := ⟨_, rfl⟩
  rw [← hrc] at hc
  rw [← hrs] at hs
  have eb : (1 - Real.cos t) / t ^ 2 = (1 / 2 - t ^ 2 / 24 + t ^ 4 / 720) - rc / t ^ 2 := by
    rw [hrc]; field_simp; ring
  have ec : (t - Real.sin t) / t ^ 3 = (1 / 6 - t ^ 2 / 120 + t ^ 4 / 5040) - rs / t ^ 3 := by
    rw [hrs]; field_simp; ring
  have bb : |rc / t ^ 2| ≤ t ^ 6 / 35000 := by
    rw [abs_div, abs_of_pos (pow_pos hp 2), div_le_iff₀ (pow_pos hp 2)]
    exact hc.trans (le_of_eq (by ring))
  have bc : |rs / t ^ 3| ≤ t ^ 5 / 35000 := by
    rw [abs_div, abs_of_pos (pow_pos hp 3), div_le_iff₀ (pow_pos hp 3)]
    exact hs.trans (le_of_eq (by ring))
  unfold expDiffCoeffs
  rw [if_pos h1]
  simp only
  rw [eb, ec]
  refine ⟨?_, ?_, ht⟩
  · have : 0.5 - t ^ 2 * (1 / 24 - t ^ 2 * (1 / 720)) - (1 / 2 - t ^ 2 / 24 + t ^ 4 / 720 - rc / t ^ 2) = rc / t ^ 2 := by ring
    rw [this]
    exact bb.trans (by norm_num at ht6 ⊢; linarith)
  · have : 1 / 6 - t ^ 2 * (1 / 120 - t ^ 2 * (1 / 5040)) - (1 / 6 - t ^ 2 / 120 + t ^ 4 / 5040 - rs / t ^ 3) = rs / t ^ 3 := by ring
    rw [this]
    exact bc.trans (by norm_num at ht5 ⊢; linarith)

/-- The code's exponential differs from the exact one only in the translation, by a tiny part of the twist's translation part. -/
theorem exp_near (x : Twist) : (SE3.exp x).1 = (xexp x).1 ∧ eucNorm ((SE3.exp x).2 - (xexp x).2) ≤ 1e-18 * eucNorm x.2 := by
  refine ⟨rfl, ?_⟩
  by_cases h : x.1 = 0 ∨ tinySquareAngle ≤ sqNorm x.1
  · rw [xexp_eq h, sub_self, eucNorm_zero]
    exact mul_nonneg (by norm_num) (eucNorm_nonneg _)
  · rw [not_or, not_le] at h
    obtain ⟨hb, hc, ht⟩ := smallcoeffs h.1 h.2
    rw [exp_translation]
    simp only [xexp]
    generalize (expDiffCoeffs (sqNorm x.1)).b = b at *
    generalize (expDiffCoeffs (sqNorm x.1)).c = c at *
    generalize (1 - Real.cos (eucNorm x.1)) / eucNorm x.1 ^ 2 = b' at *
    generalize (eucNorm x.1 - Real.sin (eucNorm x.1)) / eucNorm x.1 ^ 3 = c' at *
    have e : x.2 + b • (crossMatrix x.1 *ᵥ x.2) + c • ((crossMatrix x.1 ^ 2) *ᵥ x.2)
        - (x.2 + b' • (crossMatrix x.1 *ᵥ x.2) + c' • ((crossMatrix x.1 ^ 2) *ᵥ x.2))
        = (b - b') • (x.1 ⨯₃ x.2) + (c - c') • (x.1 ⨯₃ (x.1 ⨯₃ x.2)) := by
      rw [pow_two, ← mulVec_mulVec, crossMatrix_mulVec, crossMatrix_mulVec]
      module
    rw [e]
    have n1 := eucNorm_cross_le x.1 x.2
    have n2 := eucNorm_cross_le x.1 (x.1 ⨯₃ x.2)
    have n3 := eucNorm_nonneg x.2
    have n4 := eucNorm_nonneg x.1
    have n5 := eucNorm_nonneg (x.1 ⨯₃ x.2)
    have n6 := eucNorm_nonneg (x.1 ⨯₃ (x.1 ⨯₃ x.2))
    refine (eucNorm_add_le _ _).trans ?_
    rw [eucNorm_smul, eucNorm_smul]
    have k1 : eucNorm (x.1 ⨯₃ x.2) ≤ 0.002 * eucNorm x.2 := n1.trans (by nlinarith)
    have k2 : eucNorm (x.1 ⨯₃ (x.1 ⨯₃ x.2)) ≤ 0.002 * eucNorm x.2 := n2.trans (by nlinarith)
    have l1 := mul_le_mul hb k1 n5 (by norm_num)
    have l2 := mul_le_mul hc k2 n6 (by norm_num)
    nlinarith

/-- The translation part of the code's logarithm is linear in the translation, and close to it for small angles. -/
theorem log_sub (R : M3) (t t' : V3) : (SE3.log (R, t)).2 - (SE3.log (R, t')).2 =
    (t - t') - (0.5 : ℝ) • (SO3.log R ⨯₃ (t - t')) + order2Coeff (sqNorm (SO3.log R)) • (SO3.log R ⨯₃ (SO3.log R ⨯₃ (t - t'))) := by
  simp only [SE3.log, map_sub]
  module

theorem order2Coeff_small {q : ℝ} (h0 : 0 ≤ q) (h1 : q < tinySquareAngle) : |order2Coeff q| ≤ 1 := by
  unfold order2Coeff
  simp only
  rw [if_pos h1]
  unfold tinySquareAngle at h1
  rw [abs_le]
  constructor <;> nlinarith

theorem eucNorm_sub_le (v w : V3) : eucNorm (v - w) ≤ eucNorm v + eucNorm w := by
  rw [sub_eq_add_neg, ← eucNorm_neg w]
  exact eucNorm_add_le _ _

/-- The code's logarithm of an exact screw displacement whose rotation the logarithm of rotations gives back: the rotation is exact, the translation part
is off by at most 1e-15 of itself, and exact outside the small-angle region. -/
theorem log_near_of {x : Twist} (hl : SO3.log (SO3.exp x.1) = x.1) : (SE3.log (xexp x)).1 = x.1 ∧
    (x.1 = 0 ∨ tinySquareAngle ≤ sqNorm x.1 → SE3.log (xexp x) = x) ∧
    eucNorm ((SE3.log (xexp x)).2 - x.2) ≤ 1e-15 * eucNorm x.2 := by
  have hl : SO3.log (xexp x).1 = x.1 := hl
  have hgood : x.1 = 0 ∨ tinySquareAngle ≤ sqNorm x.1 → SE3.log (xexp x) = x := fun hg => by rw [← xexp_eq hg, SE3.log_exp_of hl hg]
  refine ⟨hl, hgood, ?_⟩
  by_cases hg : x.1 = 0 ∨ tinySquareAngle ≤ sqNorm x.1
  · rw [hgood hg, sub_self, eucNorm_zero]
    exact mul_nonneg (by norm_num) (eucNorm_nonneg _)
  · rw [not_or, not_le] at hg
    obtain ⟨-, -, ht⟩ := smallcoeffs hg.1 hg.2
    obtain ⟨r1, r2⟩ := residuals_small (sqNorm_nonneg x.1) hg.2
    have hx := (exp_near x).2
    have ho := order2Coeff_small (sqNorm_nonneg x.1) hg.2
    -- the logarithm of the code's exponential
    have hA : (SE3.log (SE3.exp x)).2 - x.2 =
        ((expDiffCoeffs (sqNorm x.1)).b - (expDiffCoeffs (sqNorm x.1)).a / 2
          - sqNorm x.1 * (expDiffCoeffs (sqNorm x.1)).b * order2Coeff (sqNorm x.1)) • (x.1 ⨯₃ x.2)
        + (order2Coeff (sqNorm x.1) * (expDiffCoeffs (sqNorm x.1)).a
          - (expDiffCoeffs (sqNorm x.1)).b / 2 + (expDiffCoeffs (sqNorm x.1)).c) • (x.1 ⨯₃ (x.1 ⨯₃ x.2)) := by
      have hl' : SO3.log (SE3.exp x).1 = x.1 := hl
      simp only [SE3.log, hl']
      have ha := coeff_a (sqNorm x.1) (sqNorm_nonneg _)
      rw [exp_translation, ← crossMatrix_mulVec, ← crossMatrix_mulVec, ← crossMatrix_mulVec, ← crossMatrix_mulVec]
      generalize x.1 = w at *
      generalize x.2 = u at *
      have hc := crossMatrix_cube w
      have h3 : ∀ v, crossMatrix w *ᵥ (crossMatrix w *ᵥ (crossMatrix w *ᵥ v)) = (-sqNorm w) • (crossMatrix w *ᵥ v) := by
        intro v
        rw [mulVec_mulVec, mulVec_mulVec, ← pow_three', hc, smul_mulVec]
      rw [pow_two, ← mulVec_mulVec]
      simp only [mulVec_add, mulVec_smul, h3, ha]
      module
    have hB := log_sub (xexp x).1 (xexp x).2 (SE3.exp x).2
    have hrot : (xexp x).1 = (SE3.exp x).1 := rfl
    rw [hl] at hB
    generalize hd : (xexp x).2 - (SE3.exp x).2 = d at hB
    have hdn : eucNorm d ≤ 1e-18 * eucNorm x.2 := by
      rw [← hd, ← eucNorm_neg, neg_sub]; exact hx
    have hB' : (SE3.log (xexp x)).2 - (SE3.log (SE3.exp x)).2 = d - (0.5 : ℝ) • (x.1 ⨯₃ d) + order2Coeff (sqNorm x.1) • (x.1 ⨯₃ (x.1 ⨯₃ d)) := hB
    have e : (SE3.log (xexp x)).2 - x.2 = ((SE3.log (xexp x)).2 - (SE3.log (SE3.exp x)).2) + ((SE3.log (SE3.exp x)).2 - x.2) := by abel
    have nc : ∀ v, eucNorm (x.1 ⨯₃ v) ≤ 0.002 * eucNorm v := fun v =>
      (eucNorm_cross_le x.1 v).trans (mul_le_mul_of_nonneg_right ht.le (eucNorm_nonneg _))
    have ncc : ∀ v, eucNorm (x.1 ⨯₃ (x.1 ⨯₃ v)) ≤ 0.000004 * eucNorm v := fun v => (nc _).trans (by have := nc v; linarith)
    rw [e, hB', hA]
    refine (eucNorm_add_le _ _).trans ?_
    have b1 : eucNorm (d - (0.5 : ℝ) • (x.1 ⨯₃ d) + order2Coeff (sqNorm x.1) • (x.1 ⨯₃ (x.1 ⨯₃ d))) ≤ 2e-18 * eucNorm x.2 := by
      refine (eucNorm_add_le _ _).trans ?_
      have := eucNorm_sub_le d ((0.5 : ℝ) • (x.1 ⨯₃ d))
      rw [eucNorm_smul, abs_of_nonneg (by norm_num)] at this
      rw [eucNorm_smul]
      have k1 := nc d
      have k2 := ncc d
      have k3 := mul_le_mul ho k2 (eucNorm_nonneg _) (by norm_num)
      have k4 := eucNorm_nonneg d
      nlinarith
    have b2 : eucNorm (((expDiffCoeffs (sqNorm x.1)).b - (expDiffCoeffs (sqNorm x.1)).a / 2
          - sqNorm x.1 * (expDiffCoeffs (sqNorm x.1)).b * order2Coeff (sqNorm x.1)) • (x.1 ⨯₃ x.2)
        + (order2Coeff (sqNorm x.1) * (expDiffCoeffs (sqNorm x.1)).a
          - (expDiffCoeffs (sqNorm x.1)).b / 2 + (expDiffCoeffs (sqNorm x.1)).c) • (x.1 ⨯₃ (x.1 ⨯₃ x.2))) ≤ 9e-16 * eucNorm x.2 := by
      refine (eucNorm_add_le _ _).trans ?_
      rw [eucNorm_smul, eucNorm_smul]
      have k1 := mul_le_mul r1 (nc x.2) (eucNorm_nonneg _) (by norm_num)
      have k2 := mul_le_mul r2 (ncc x.2) (eucNorm_nonneg _) (by norm_num)
      have k4 := eucNorm_nonneg x.2
      nlinarith
    have k4 := eucNorm_nonneg x.2
    nlinarith

/-- The same for less than half a turn. -/
theorem log_near {x : Twist} (h : eucNorm x.1 < Real.pi) : (SE3.log (xexp x)).1 = x.1 ∧
    (x.1 = 0 ∨ tinySquareAngle ≤ sqNorm x.1 → SE3.log (xexp x) = x) ∧
    eucNorm ((SE3.log (xexp x)).2 - x.2) ≤ 1e-15 * eucNorm x.2 := log_near_of (SO3.log_exp h)

/-- The code's exponential of two twists with the same small rotation part. -/
theorem exp_sub_le {w : V3} (hw : eucNorm w < 0.002) (u u' : V3) :
    eucNorm ((SE3.exp (w, u)).2 - (SE3.exp (w, u')).2) ≤ 1.1 * eucNorm (u - u') := by
  have h1 : sqNorm w < tinySquareAngle := by
    rw [← eucNorm_sq]
    unfold tinySquareAngle
    nlinarith [eucNorm_nonneg w]
  have hb : |(expDiffCoeffs (sqNorm w)).b| ≤ 1 ∧ |(expDiffCoeffs (sqNorm w)).c| ≤ 1 := by
    have h0 := sqNorm_nonneg w
    unfold expDiffCoeffs
    rw [if_pos h1]
    unfold tinySquareAngle at h1
    simp only
    rw [abs_le, abs_le]
    refine ⟨⟨?_, ?_⟩, ?_, ?_⟩ <;> nlinarith
  rw [exp_translation, exp_translation]
  have e : (u + (expDiffCoeffs (sqNorm w)).b • (crossMatrix w *ᵥ u) + (expDiffCoeffs (sqNorm w)).c • ((crossMatrix w ^ 2) *ᵥ u))
      - (u' + (expDiffCoeffs (sqNorm w)).b • (crossMatrix w *ᵥ u') + (expDiffCoeffs (sqNorm w)).c • ((crossMatrix w ^ 2) *ᵥ u'))
      = (u - u') + (expDiffCoeffs (sqNorm w)).b • (w ⨯₃ (u - u')) + (expDiffCoeffs (sqNorm w)).c • (w ⨯₃ (w ⨯₃ (u - u'))) := by
    rw [pow_two, ← mulVec_mulVec, ← mulVec_mulVec, crossMatrix_mulVec, crossMatrix_mulVec, crossMatrix_mulVec, crossMatrix_mulVec]
    simp only [map_sub]
    module
  simp only at e ⊢
  rw [e]
  generalize u - u' = d
  have nc : ∀ v, eucNorm (w ⨯₃ v) ≤ 0.002 * eucNorm v := fun v =>
    (eucNorm_cross_le w v).trans (mul_le_mul_of_nonneg_right hw.le (eucNorm_nonneg _))
  refine (eucNorm_add_le _ _).trans ?_
  have := eucNorm_add_le d ((expDiffCoeffs (sqNorm w)).b • (w ⨯₃ d))
  rw [eucNorm_smul] at this ⊢
  have k1 := mul_le_mul hb.1 (nc d) (eucNorm_nonneg _) (by norm_num)
  have k2 := mul_le_mul hb.2 (nc (w ⨯₃ d)) (eucNorm_nonneg _) (by norm_num)
  have k3 := nc d
  have k4 := eucNorm_nonneg d
  nlinarith

/-- Two poses with the same rotation and translations at most `e` apart. -/
def Near (a b : Pose) (e : ℝ) : Prop := a.1 = b.1 ∧ eucNorm (a.2 - b.2) ≤ e

theorem Near.mul {a a' b b' : Pose} {e f : ℝ} (hv : PoseValid a) (h1 : Near a a' e) (h2 : Near b b' f) :
    Near (SE3.mul a b) (SE3.mul a' b') (f + e) := by
  obtain ⟨e1, e2⟩ := h1
  obtain ⟨f1, f2⟩ := h2
  refine ⟨?_, ?_⟩
  · simp only [SE3.mul, e1, f1]
  · have : (SE3.mul a b).2 - (SE3.mul a' b').2 = a.1 *ᵥ (b.2 - b'.2) + (a.2 - a'.2) := by
      simp only [SE3.mul, SO3.act, e1, mulVec_sub]
      abel
    rw [this]
    refine (eucNorm_add_le _ _).trans ?_
    rw [eucNorm_mulVec hv]
    exact add_le_add f2 e2

/-- One term of the segment formula against the exact screw. -/
theorem near_term (a c : ℝ) (x : Twist) (ha : |a| ≤ 1) : Near (SE3.exp (a • c • x)) (xexp ((a * c) • x)) (1e-18 * (|c| * eucNorm x.2)) := by
  rw [smul_smul]
  refine ⟨(exp_near _).1, (exp_near _).2.trans ?_⟩
  have e : eucNorm ((a * c) • x).2 = |a| * (|c| * eucNorm x.2) := by
    rw [Prod.smul_snd, eucNorm_smul, abs_mul, mul_assoc]
  rw [e]
  refine mul_le_mul_of_nonneg_left ?_ (by norm_num)
  have : 0 ≤ |c| * eucNorm x.2 := mul_nonneg (abs_nonneg _) (eucNorm_nonneg _)
  nlinarith

/-- The first term, with the logarithm computed by the code. -/
theorem near_first (a c : ℝ) (x : Twist) (ha : |a| ≤ 1) (hc : SO3.log (SO3.exp (c • x.1)) = c • x.1) :
    Near (SE3.exp (a • SE3.log (xexp (c • x)))) (xexp ((a * c) • x)) (1.2e-15 * (|c| * eucNorm x.2)) := by
  obtain ⟨h1, h2, h3⟩ := log_near_of (x := c • x) hc
  have hnn : 0 ≤ |c| * eucNorm x.2 := mul_nonneg (abs_nonneg _) (eucNorm_nonneg _)
  by_cases hg : (c • x).1 = 0 ∨ tinySquareAngle ≤ sqNorm (c • x).1
  · rw [h2 hg]
    obtain ⟨n1, n2⟩ := near_term a c x ha
    exact ⟨n1, n2.trans (by nlinarith)⟩
  · rw [not_or, not_le] at hg
    obtain ⟨-, -, ht⟩ := smallcoeffs hg.1 hg.2
    obtain ⟨n1, n2⟩ := near_term a c x ha
    have hw : eucNorm (a • (c • x).1) < 0.002 := by
      rw [eucNorm_smul]
      have := eucNorm_nonneg (c • x).1
      nlinarith
    have hsub := exp_sub_le hw (a • (SE3.log (xexp (c • x))).2) (a • (c • x).2)
    have e1 : a • SE3.log (xexp (c • x)) = (a • (c • x).1, a • (SE3.log (xexp (c • x))).2) := by
      rw [← h1]; rfl
    have e2 : a • c • x = (a • (c • x).1, a • (c • x).2) := rfl
    rw [← e1, ← e2, ← smul_sub, eucNorm_smul] at hsub
    have hcx : eucNorm (c • x).2 = |c| * eucNorm x.2 := by rw [Prod.smul_snd, eucNorm_smul]
    rw [hcx] at h3
    refine ⟨?_, ?_⟩
    · rw [← n1, e1, e2]; rfl
    · have : (SE3.exp (a • SE3.log (xexp (c • x)))).2 - (xexp ((a * c) • x)).2 =
          ((SE3.exp (a • SE3.log (xexp (c • x)))).2 - (SE3.exp (a • c • x)).2) + ((SE3.exp (a • c • x)).2 - (xexp ((a * c) • x)).2) := by abel
      rw [this]
      refine (eucNorm_add_le _ _).trans ?_
      have k : |a| * eucNorm ((SE3.log (xexp (c • x))).2 - (c • x).2) ≤ 1e-15 * (|c| * eucNorm x.2) := by
        have := eucNorm_nonneg ((SE3.log (xexp (c • x))).2 - (c • x).2)
        nlinarith
      nlinarith

end SE3

/-- On the unit interval the five coefficients are at most one in size. -/
theorem Quintic.abs_le_one {u : ℝ} (h0 : 0 ≤ u) (h1 : u ≤ 1) : |(Quintic.destFromOrig u).a| ≤ 1 ∧ |(Quintic.dOrig u).a| ≤ 1 ∧
    |(Quintic.dDest u).a| ≤ 1 ∧ |(Quintic.d2Orig u).a| ≤ 1 ∧ |(Quintic.d2Dest u).a| ≤ 1 := by
  simp only [Quintic.destFromOrig, Quintic.dOrig, Quintic.dDest, Quintic.d2Orig, Quintic.d2Dest,
    Quintic.coeffs_a, Quintic.destOrigTable, Quintic.dOrigTable, Quintic.dDestTable,
    Quintic.d2OrigTable, Quintic.d2DestTable, Matrix.cons_val_zero, Matrix.cons_val_one, Matrix.cons_val]
  obtain ⟨v, hv⟩ : ∃ v, v = 1 - u := ⟨_, rfl⟩
  have v0 : 0 ≤ v := by linarith
  have v1 : v ≤ 1 := by linarith
  have u2 : u ^ 2 ≤ 1 := pow_le_one₀ h0 h1
  have u3 : u ^ 3 ≤ 1 := pow_le_one₀ h0 h1
  have w2 : v ^ 2 ≤ 1 := pow_le_one₀ v0 v1
  have w3 : v ^ 3 ≤ 1 := pow_le_one₀ v0 v1
  have hu2 : 0 ≤ u ^ 2 := pow_nonneg h0 2
  have hu3 : 0 ≤ u ^ 3 := pow_nonneg h0 3
  have hv2 : 0 ≤ v ^ 2 := pow_nonneg v0 2
  have hv3 : 0 ≤ v ^ 3 := pow_nonneg v0 3
  refine ⟨?_, ?_, ?_, ?_, ?_⟩
  · have e1 : 0 ≤ u ^ 3 * (1 + 3 * v + 6 * v ^ 2) := by positivity
    have e2 : 0 ≤ v ^ 3 * (1 + 3 * u + 6 * u ^ 2) := by positivity
    rw [hv] at e1 e2
    rw [abs_le]
    constructor <;> linarith
  · have e1 : 0 ≤ u * v ^ 3 * (1 + 3 * u) := by positivity
    have e2 : 0 ≤ v + u * (u ^ 2 * (6 - 8 * u + 3 * u ^ 2)) := by
      have : 0 ≤ 6 - 8 * u + 3 * u ^ 2 := by nlinarith
      positivity
    rw [hv] at e1 e2
    rw [abs_le]
    constructor <;> linarith
  · have e1 : 0 ≤ u ^ 3 * v * (1 + 3 * v) := by positivity
    have e2 : u ^ 3 * v * (1 + 3 * v) ≤ 1 := by
      have a1 : u * v ≤ 1 / 4 := by rw [hv]; nlinarith [sq_nonneg (u - 1 / 2)]
      have a0 : 0 ≤ u * v := mul_nonneg h0 v0
      have a2 : (1 + 3 * v) ≤ 4 := by linarith
      have a3 : u * v * (1 + 3 * v) ≤ 1 := by nlinarith
      have a4 : u ^ 3 * v * (1 + 3 * v) = u ^ 2 * (u * v * (1 + 3 * v)) := by ring
      rw [a4]
      have : 0 ≤ u * v * (1 + 3 * v) := by positivity
      nlinarith
    rw [hv] at e1 e2
    rw [abs_le]
    constructor <;> linarith
  · have e1 : 0 ≤ u ^ 2 * v ^ 3 := by positivity
    have e2 : u ^ 2 * v ^ 3 ≤ 1 := by nlinarith
    rw [hv] at e1 e2
    rw [abs_le]
    constructor <;> linarith
  · have e1 : 0 ≤ u ^ 3 * v ^ 2 := by positivity
    have e2 : u ^ 3 * v ^ 2 ≤ 1 := by nlinarith
    rw [hv] at e1 e2
    rw [abs_le]
    constructor <;> linarith

/-- A segment along one screw, for all angles: the pose relative to the start is the exact screw displacement up to a tiny translation. -/
theorem SE3.vpoint_near (seg : TSegment Pose Twist) (x : Twist) (u α β γ δ ε : ℝ) (h0 : 0 ≤ u) (h1 : u ≤ 1)
    (hα : SO3.log (SO3.exp (α • x.1)) = α • x.1)
    (hl : SE3.ops.mul seg.dest.g.val (SE3.ops.inv seg.orig.g.val) = SE3.xexp (α • x)) (e1 : seg.orig.d = β • x) (e2 : seg.dest.d = γ • x)
    (e3 : seg.orig.d2 = δ • x) (e4 : seg.dest.d2 = ε • x) :
    SE3.Near (vpoint SE3.ops seg u).1 (SE3.xexp ((quintic α β γ δ ε u).a • x))
      (2e-15 * (SO3.eucNorm x.2 * (|α| + |β| + |γ| + |δ| + |ε|))) := by
  obtain ⟨a0, a1, a2, a3, a4⟩ := Quintic.abs_le_one h0 h1
  have P := SE3.oneParam x
  have m := P.mul
  have t0 := SE3.near_first (Quintic.destFromOrig u).a α x a0 hα
  have t1 := SE3.near_term (Quintic.dOrig u).a β x a1
  have t2 := SE3.near_term (Quintic.dDest u).a γ x a2
  have t3 := SE3.near_term (Quintic.d2Orig u).a δ x a3
  have t4 := SE3.near_term (Quintic.d2Dest u).a ε x a4
  have v : ∀ y, PoseValid (SE3.exp y) := fun y => SO3.isRotation_exp y.1
  have n0 : SE3.Near SE3.one (SE3.xexp ((0 : ℝ) • x)) 0 := by
    have z : SE3.xexp ((0 : ℝ) • x) = SE3.one := P.zero
    rw [z]
    exact ⟨rfl, by rw [sub_self, SO3.eucNorm_zero]⟩
  have k := (t4.mul (v _) (t3.mul (v _) (t2.mul (v _) (t1.mul (v _) (t0.mul (v _) n0)))))
  have m' : ∀ s t : ℝ, SE3.mul (SE3.xexp (s • x)) (SE3.xexp (t • x)) = SE3.xexp ((s + t) • x) := m
  rw [m', m', m', m', m', add_zero] at k
  have hv : (vpoint SE3.ops seg u).1 = SE3.mul (SE3.exp ((Quintic.d2Dest u).a • ε • x)) (SE3.mul (SE3.exp ((Quintic.d2Orig u).a • δ • x))
      (SE3.mul (SE3.exp ((Quintic.dDest u).a • γ • x)) (SE3.mul (SE3.exp ((Quintic.dOrig u).a • β • x))
        (SE3.mul (SE3.exp ((Quintic.destFromOrig u).a • SE3.log (SE3.xexp (α • x)))) SE3.one)))) := by
    simp only [vpoint, vmul, vinc, hl, e1, e2, e3, e4]
    rfl
  rw [hv]
  refine ⟨k.1, k.2.trans ?_⟩
  have := SO3.eucNorm_nonneg x.2
  have := mul_nonneg (abs_nonneg α) this
  have := mul_nonneg (abs_nonneg β) (SO3.eucNorm_nonneg x.2)
  have := mul_nonneg (abs_nonneg γ) (SO3.eucNorm_nonneg x.2)
  have := mul_nonneg (abs_nonneg δ) (SO3.eucNorm_nonneg x.2)
  have := mul_nonneg (abs_nonneg ε) (SO3.eucNorm_nonneg x.2)
  nlinarith

end Verif
