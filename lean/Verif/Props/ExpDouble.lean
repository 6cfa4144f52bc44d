import Verif.Spec.ExpDouble
import Verif.Proofs.ExpDoubleTrans
import Verif.Proofs.Between
import Verif.Props.TransformDouble
/-! # C109: rounding errors of the exponential maps -/
namespace Verif.Props
open Verif.Spec Verif.TransformDouble Verif.ExpDouble Matrix SO3

/-- C109, rotations: whatever a compiler makes of the sums, the matrix computed for a tangent vector turns every vector like the matrix exponential up to
`100 (1 + |w|)` units of `2⁻⁵³`. -/
theorem c109_rotation {w : Fin 3 → ℚ} {m : Matrix (Fin 3) (Fin 3) ℚ} (h : ExpSO3 w m) :
    TurnsAlike (100 * (1 + eucNorm (realVec w)) * 2 ^ (-53 : ℤ)) (realRot m) (NormedSpace.exp (rotHat (realVec w))) := by
  rw [show NormedSpace.exp (rotHat (realVec w)) = SO3.exp (realVec w) from (SO3.exp_eq_matrix_exp _).symm]
  exact expSO3_error h

/-- C109, coefficients: those of the vector, of the cross product and of the dot product, times the powers of the angle they are used with. -/
theorem c109_coefficients {w : Fin 3 → ℚ} {q a b c : ℚ} (h0 : w ≠ 0) (hw : eucNorm (realVec w) ≤ 2 ^ (500 : ℤ)) (hq : SquaredNorm w q)
    (h : ExpDiffCoeffs q a b c) :
    |(a : ℝ) - Real.sin (eucNorm (realVec w)) / eucNorm (realVec w)| ≤ 10 * 2 ^ (-53 : ℤ) ∧
    eucNorm (realVec w) * |(b : ℝ) - (1 - Real.cos (eucNorm (realVec w))) / eucNorm (realVec w) ^ 2| ≤ 2290 * 2 ^ (-53 : ℤ) ∧
    eucNorm (realVec w) ^ 2 * |(c : ℝ) - (eucNorm (realVec w) - Real.sin (eucNorm (realVec w))) / eucNorm (realVec w) ^ 3| ≤ 40 * 2 ^ (-53 : ℤ) := by
  have h1 : realVec w ≠ 0 := fun e => h0 (by ext i; have := congrFun e i; simpa [realVec] using this)
  have hp := eucNorm_pos h1
  have hN := near_coeffs hw hq h ⟨fun e => absurd e hp.ne', fun _ => ⟨rfl, rfl, rfl⟩⟩
  exact ⟨hN.ha, hN.hb, hN.hc⟩

/-- C109, rigid motions: rotation and translation computed for a tangent vector against the exponential of its matrix.  The translation is within 5000 units
of `2⁻⁵³` of the length of the translation part, and `2⁻¹⁰⁷⁵` stands for results that underflow. -/
theorem c109_motion {w v : Fin 3 → ℚ} {g : Stored} (h : ExpSE3 w v g) (hw : eucNorm (realVec w) ≤ 2 ^ (500 : ℤ)) :
    ∃ x : Pose, poseMatrix x = NormedSpace.exp (twistHat (realVec w, realVec v)) ∧
      TurnsAlike (100 * (1 + eucNorm (realVec w)) * 2 ^ (-53 : ℤ)) (realRot g.rot) x.1 ∧
      eucNorm (realVec g.trans - x.2) ≤ 5000 * 2 ^ (-53 : ℤ) * eucNorm (realVec v) + 100 * (1 + eucNorm (realVec w)) * 2 ^ (-1075 : ℤ) :=
  ⟨SE3.xexp (realVec w, realVec v), SE3.H_xexp _, expSO3_error h.1, expSE3_error h hw⟩

/-- C109, differential: the computed one is within 8000 units of `2⁻⁵³` of the differential of the matrix exponential. -/
theorem c109_differential {w : Fin 3 → ℚ} {m : Matrix (Fin 3) (Fin 3) ℚ} (h : ExpDiffSO3 w m) (hw : eucNorm (realVec w) ≤ 2 ^ (500 : ℤ)) :
    ∃ d : M3, IsDifferential (realVec w) d ∧ TurnsAlike (8000 * 2 ^ (-53 : ℤ)) (realRot m) d := by
  obtain ⟨A, B, C, hE⟩ := exact_some (eucNorm (realVec w))
  refine ⟨exactDiff (realVec w) A B C, ?_, expDiff_error h hw hE⟩
  intro x v t hx hv i j
  have e : ∀ y, NormedSpace.exp (rotHat y) = SO3.exp y := fun y => (SO3.exp_eq_matrix_exp y).symm
  simp only [e]
  rw [exactDiff_mulVec]
  by_cases h0 : realVec w = 0
  · rw [h0] at hx hE ⊢
    obtain ⟨rfl, -, -⟩ := hE.zero eucNorm_zero
    have := exp_deriv_zero hv hx i j
    simpa [exp_zero] using this
  · obtain ⟨rfl, rfl, rfl⟩ := hE.pos (eucNorm_pos h0)
    have := exp_deriv hv (by rw [hx]; exact h0) i j
    rw [hx] at this
    exact this

/-- C109, expressions: composing and inverting transforms that were made by the exponential map. -/
theorem c109_expression {Θ B : ℝ} (hΘ : Θ ≤ 2 ^ (500 : ℤ)) (hB : 2 ^ (-1000 : ℤ) ≤ B) {x : Expr Stored} {x' : Expr Pose} (h : SameTwists Θ B x x')
    {c : Stored} (hc : Computes x c) :
    TurnsAlike (growth (5100 * (1 + Θ) * 2 ^ (-53 : ℤ)) (count x') - 1) (realRot c.rot) (exactly x').1 ∧
    eucNorm (realVec c.trans - (exactly x').2) ≤ count x' * B * (growth (5100 * (1 + Θ) * 2 ^ (-53 : ℤ)) (errors x') - 1) := by
  have hU := U_pos; have hH0 := H_pos
  have hB0 : 0 < B := lt_of_lt_of_le (by positivity) hB
  have hHB := H_small hB
  have key : 0 ≤ Θ ∧ SameExpr (5100 * (1 + Θ) * 2 ^ (-53 : ℤ)) B x x' := by
    clear hc
    induction h with
    | @given w v a g h1 h2 h3 h4 =>
      have hθ := eucNorm_nonneg (realVec w)
      refine ⟨hθ.trans h1, .given ?_⟩
      have hg : g = SE3.xexp (realVec w, realVec v) := by
        have e : poseMatrix g = poseMatrix (SE3.xexp (realVec w, realVec v)) := h4.trans (SE3.H_xexp _).symm
        exact SE3.H_injective e
      subst hg
      refine ⟨isRotation_exp _, fun u => (expSO3_error h3.1 u).trans (mul_le_mul_of_nonneg_right ?_ (eucNorm_nonneg u)),
        (SE3.xexp_norm _).trans h2, (expSE3_error h3 (h1.trans hΘ)).trans ?_⟩
      · change 100 * (1 + eucNorm (realVec w)) * U ≤ 5100 * (1 + Θ) * U
        exact mul_le_mul_of_nonneg_right (by linarith) hU.le
      · change _ ≤ 5100 * (1 + Θ) * U * B
        have a1 := mul_le_mul_of_nonneg_left h2 hU.le
        have a2 : (1 + eucNorm (realVec w)) * H ≤ (1 + Θ) * H := mul_le_mul_of_nonneg_right (by linarith) hH0.le
        have a3 := mul_le_mul_of_nonneg_left hHB (by linarith : 0 ≤ 1 + Θ)
        have a4 : 0 ≤ Θ * (U * B) := mul_nonneg (hθ.trans h1) (by positivity)
        have a5 : 0 < U * B := by positivity
        nlinarith
    | mul _ _ ih1 ih2 => exact ⟨ih1.1, .mul ih1.2 ih2.2⟩
    | inv _ ih => exact ⟨ih.1, .inv ih.2⟩
  have hδ : (0 : ℝ) ≤ 5100 * (1 + Θ) * 2 ^ (-53 : ℤ) := by have := key.1; positivity
  exact (c88_expression hδ hB key.2 hc).2.2

/-- C109, the relations are not empty: every tangent vector has computed exponentials and a computed differential. -/
theorem c109_computed (w v : Fin 3 → ℚ) : (∃ g, ExpSE3 w v g) ∧ (∃ m, ExpSO3 w m) ∧ ∃ m, ExpDiffSO3 w m :=
  ⟨expSE3_some w v, expSO3_some w, expDiffSO3_some w⟩

/-- A turn by five about an axis in the plane, moving by two: the hypotheses of the theorems above, and what they give. -/
example : ∃ (g : Stored) (x : Pose), ExpSE3 ![3, 4, 0] ![0, 0, 2] g ∧ poseMatrix x = NormedSpace.exp (twistHat (![3, 4, 0], ![0, 0, 2])) ∧
    TurnsAlike 1e-13 (realRot g.rot) x.1 ∧ eucNorm (realVec g.trans - x.2) ≤ 2e-12 := by
  have e1 : realVec ![3, 4, 0] = ![3, 4, 0] := by ext i; fin_cases i <;> simp [realVec]
  have e2 : realVec ![0, 0, 2] = ![0, 0, 2] := by ext i; fin_cases i <;> simp [realVec]
  have n1 : eucNorm (realVec ![3, 4, 0]) = 5 := by
    rw [e1, eucNorm, sqNorm_eq]; simp; rw [show (3 : ℝ) ^ 2 + 4 ^ 2 = 5 ^ 2 by norm_num]; exact Real.sqrt_sq (by norm_num)
  have n2 : eucNorm (realVec ![0, 0, 2]) = 2 := by rw [e2, eucNorm, sqNorm_eq]; simp
  obtain ⟨g, hg⟩ := (c109_computed ![3, 4, 0] ![0, 0, 2]).1
  have h5 : (5 : ℝ) ≤ 2 ^ (500 : ℤ) := le_trans (by norm_num : (5 : ℝ) ≤ 2 ^ (3 : ℤ)) (zpow_le_zpow_right₀ (by norm_num) (by norm_num))
  obtain ⟨x, hx, hr, ht⟩ := c109_motion hg (by rw [n1]; exact h5)
  rw [n1] at hr ht
  rw [n2] at ht
  rw [e1, e2] at hx
  have hU := U_tiny.1; have hH := tiny_numbers.2
  unfold U at hU
  unfold TransformDouble.H at hH
  refine ⟨g, x, hg, hx, fun v => (hr v).trans (mul_le_mul_of_nonneg_right ?_ (eucNorm_nonneg v)), ht.trans ?_⟩
  · linarith
  · linarith

/-- A turn by 1/128, its differential and its coefficients. -/
example : ∃ m q a b c, ExpDiffSO3 ![0, 0, 1 / 128] m ∧ SquaredNorm ![0, 0, 1 / 128] q ∧ ExpDiffCoeffs q a b c ∧
    |(a : ℝ) - 128 * Real.sin (1 / 128)| ≤ 2e-15 := by
  have e1 : realVec ![0, 0, 1 / 128] = ![0, 0, 1 / 128] := by ext i; fin_cases i <;> simp [realVec]
  have n1 : eucNorm (realVec ![0, 0, 1 / 128]) = 1 / 128 := by
    rw [e1, eucNorm, sqNorm_eq]; simp
  obtain ⟨m, hm⟩ := (c109_computed ![0, 0, 1 / 128] 0).2.2
  obtain ⟨q, a, b, c, hq, hc, ht⟩ := id hm
  have h5 : (1 / 128 : ℝ) ≤ 2 ^ (500 : ℤ) := le_trans (by norm_num : (1 / 128 : ℝ) ≤ 2 ^ (3 : ℤ)) (zpow_le_zpow_right₀ (by norm_num) (by norm_num))
  have h0 : (![0, 0, 1 / 128] : Fin 3 → ℚ) ≠ 0 := fun e => by have := congrFun e 2; simp at this
  have := (c109_coefficients h0 (by rw [n1]; exact h5) hq hc).1
  rw [n1] at this
  have hU := U_tiny.1
  unfold U at hU
  refine ⟨m, q, a, b, c, hm, hq, hc, ?_⟩
  rw [show Real.sin (1 / 128) / (1 / 128) = 128 * Real.sin (1 / 128) by ring] at this
  linarith

/-- Ten transforms with turns up to a half turn and a bit, composed: within 2.5e-11 of the exact product. -/
example : growth (5100 * (1 + 4) * 2 ^ (-53 : ℤ)) 10 - 1 ≤ 3e-11 := by
  refine (c88_linear (by positivity) 10 (by norm_num)).trans ?_
  norm_num

/-- The hypotheses of the theorem on expressions. -/
example : ∃ (x : Expr Stored) (x' : Expr Pose) (c : Stored), SameTwists 5 2 (.mul x (.inv x)) x' ∧ Computes (.mul x (.inv x)) c := by
  have e1 : realVec ![3, 4, 0] = ![3, 4, 0] := by ext i; fin_cases i <;> simp [realVec]
  have n1 : eucNorm (realVec ![3, 4, 0]) = 5 := by
    rw [e1, eucNorm, sqNorm_eq]; simp; rw [show (3 : ℝ) ^ 2 + 4 ^ 2 = 5 ^ 2 by norm_num]; exact Real.sqrt_sq (by norm_num)
  have e2 : realVec ![0, 0, 2] = ![0, 0, 2] := by ext i; fin_cases i <;> simp [realVec]
  have n2 : eucNorm (realVec ![0, 0, 2]) = 2 := by rw [e2, eucNorm, sqNorm_eq]; simp
  obtain ⟨g, hg⟩ := (c109_computed ![3, 4, 0] ![0, 0, 2]).1
  obtain ⟨c, hc⟩ := c88_computed (.mul (.given g) (.inv (.given g)))
  have hs : SameTwists 5 2 (.given g) (.given (SE3.xexp (realVec ![3, 4, 0], realVec ![0, 0, 2]))) := .given n1.le n2.le hg (SE3.H_xexp _)
  exact ⟨_, _, c, .mul hs (.inv hs), hc⟩

/-! ## Instances of the theorems above -/

/-- `c109_rotation` and `c109_differential` on a turn by 5. -/
example : ∃ m d, ExpSO3 ![3, 4, 0] m ∧ ExpDiffSO3 ![3, 4, 0] d ∧
    TurnsAlike (100 * (1 + eucNorm (realVec ![3, 4, 0])) * 2 ^ (-53 : ℤ)) (realRot m) (NormedSpace.exp (rotHat (realVec ![3, 4, 0]))) ∧
    ∃ e : M3, IsDifferential (realVec ![3, 4, 0]) e ∧ TurnsAlike (8000 * 2 ^ (-53 : ℤ)) (realRot d) e := by
  obtain ⟨-, ⟨m, hm⟩, d, hd⟩ := c109_computed ![3, 4, 0] 0
  have h5 : eucNorm (realVec ![3, 4, 0]) ≤ 2 ^ (500 : ℤ) := by
    have : eucNorm (realVec ![3, 4, 0]) = 5 := by
      rw [eucNorm, show sqNorm (realVec ![3, 4, 0]) = 5 ^ 2 by simp [sqNorm, realVec, dotProduct, Fin.sum_univ_three]; norm_num]
      exact Real.sqrt_sq (by norm_num)
    rw [this]
    exact le_trans (by norm_num) (zpow_le_zpow_right₀ (by norm_num) (by norm_num : (3 : ℤ) ≤ 500) : (2 : ℝ) ^ (3 : ℤ) ≤ _)
  exact ⟨m, d, hm, hd, c109_rotation hm, c109_differential hd h5⟩

end Verif.Props
