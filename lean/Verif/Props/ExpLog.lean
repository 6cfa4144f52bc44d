import Verif.Proofs.SE3Log
import Verif.Proofs.HalfTurn
import Verif.Props.Transform
/-! # Properties C29-C32: logarithm, interpolation and distance of SO3 and SE3 in exact real arithmetic -/
namespace Verif.Props
open Matrix Spec Verif.Framed SO3

/-! ## C29 -/

/-- C29.  `exp` inverts `log` on every rotation, and the logarithm has length at most pi. -/
theorem c29_exp_log (R : M3) (h : IsRotation R) : SO3.ops.exp (SO3.ops.log R) = R ∧ eucNorm (SO3.ops.log R) ≤ Real.pi :=
  SO3.exp_log h

/-- C29.  `log` inverts `exp` on every vector shorter than pi. -/
theorem c29_log_exp (w : V3) (h : eucNorm w < Real.pi) : SO3.ops.log (SO3.ops.exp w) = w := SO3.log_exp h

/-- C29.  Which vectors `log` gives back after `exp`: exactly those shorter than pi, and those of length pi whose largest component (the first of them
if there are several) is positive. -/
theorem c29_log_exp_iff (w : V3) : SO3.ops.log (SO3.ops.exp w) = w ↔ WithinReach w := SO3.log_exp_iff w

/-- C29.  At exactly half a turn `log` gives back the vector or its opposite. -/
theorem c29_half_turn (w : V3) (h : eucNorm w = Real.pi) : (LeadsUp w → SO3.ops.log (SO3.ops.exp w) = w) ∧
    (LeadsUp (-w) → SO3.ops.log (SO3.ops.exp w) = -w) ∧ (LeadsUp w ∨ LeadsUp (-w)) := by
  obtain ⟨h1, h2, h3⟩ := SO3.log_exp_half h
  refine ⟨h1, fun hu => h2 ?_, h3⟩
  rintro ⟨i, i1, i2, i3⟩
  obtain ⟨j, j1, j2, j3⟩ := hu
  simp only [Pi.neg_apply, abs_neg] at j1 j2 j3
  have a1 := i2 j
  have a2 := j2 i
  rw [abs_of_pos i1] at a2
  rw [abs_of_neg (by linarith)] at a1
  rcases lt_trichotomy i j with hij | hij | hij
  · have := j3 i hij
    rw [abs_of_pos i1] at this
    linarith
  · subst hij; linarith
  · have := i3 j hij
    rw [abs_of_neg (by linarith)] at this
    linarith

/-- Half a turn about a diagonal of the floor; the first of the two largest components is positive. -/
example : eucNorm (Real.pi • ![Real.sqrt 2 / 2, -(Real.sqrt 2 / 2), 0]) = Real.pi ∧ LeadsUp (Real.pi • ![Real.sqrt 2 / 2, -(Real.sqrt 2 / 2), 0]) := by
  have hpi := Real.pi_pos
  have h2 : Real.sqrt 2 ^ 2 = 2 := Real.sq_sqrt (by norm_num)
  have hs : 0 < Real.sqrt 2 := Real.sqrt_pos.mpr (by norm_num)
  constructor
  · rw [eucNorm_smul, abs_of_pos hpi, eucNorm, sqNorm_eq]
    simp only [Matrix.cons_val_zero, Matrix.cons_val_one, Matrix.cons_val]
    rw [show (Real.sqrt 2 / 2) ^ 2 + (-(Real.sqrt 2 / 2)) ^ 2 + 0 ^ 2 = 1 by linear_combination (1 / 2) * h2, Real.sqrt_one, mul_one]
  · rw [SO3.leadsUp_smul hpi]
    refine ⟨0, by simp, ?_, ?_⟩
    · have := abs_of_pos (half_pos hs)
      intro j; fin_cases j <;> simp [this, (half_pos hs).le]
    · intro j hj; simp at hj

/-- A half turn about the x axis: the trace is -1, the branch of the conversion that random tests miss. -/
def halfTurn : M3 := !![1, 0, 0; 0, -1, 0; 0, 0, -1]

theorem exHalfTurn_isRotation : IsRotation halfTurn := by
  constructor
  · ext i j; fin_cases i <;> fin_cases j <;> simp [halfTurn, Matrix.mul_apply, Fin.sum_univ_three]
  · rw [det_fin_three]; simp [halfTurn]
example : eucNorm ![3, 0, 0] < Real.pi := by
  rw [eucNorm, sqNorm_eq]
  simp only [Matrix.cons_val_zero, Matrix.cons_val_one, Matrix.cons_val]
  rw [show (3 : ℝ) ^ 2 + 0 ^ 2 + 0 ^ 2 = 3 ^ 2 by norm_num, Real.sqrt_sq (by norm_num)]
  exact Real.pi_gt_three

/-! ## C30 -/

/-- C30, for poses whose rotation angle is zero or at least 0.002.  Missing: angles strictly between, where it is false
(`c30_small_angle_fails`) but nearly true (`c30_small_angle_close_partial`). -/
theorem c30_exp_log_partial (g : Pose) (h : IsRotation g.1) (hw : SO3.log g.1 = 0 ∨ 0.002 ≤ eucNorm (SO3.log g.1)) :
    SE3.ops.exp (SE3.ops.log g) = g := by
  apply SE3.exp_log h
  rcases hw with hw | hw
  · exact .inl hw
  · right
    rw [← eucNorm_sq]
    unfold tinySquareAngle
    nlinarith

/-- C30, the other direction: `log` inverts `exp` for angles that are zero or between 0.002 and pi. -/
theorem c30_log_exp_partial (x : Twist) (h : eucNorm x.1 < Real.pi) (hw : x.1 = 0 ∨ 0.002 ≤ eucNorm x.1) :
    SE3.ops.log (SE3.ops.exp x) = x := by
  apply SE3.log_exp h
  rcases hw with hw | hw
  · exact .inl hw
  · right
    rw [← eucNorm_sq]
    unfold tinySquareAngle
    nlinarith

/-- C30 in the small-angle region: the rotation is exact and the translation is reproduced up to 1e-15 of its length. -/
theorem c30_small_angle_close_partial (g : Pose) (h : IsRotation g.1) (hw : eucNorm (SO3.log g.1) < 0.002) :
    (SE3.ops.exp (SE3.ops.log g)).1 = g.1 ∧
    eucNorm ((SE3.ops.exp (SE3.ops.log g)).2 - g.2) ≤ 1e-15 * eucNorm g.2 := by
  refine ⟨(SO3.exp_log h).1, ?_⟩
  have e : (SE3.ops.exp (SE3.ops.log g)).2 = (SE3.exp (SE3.log g)).2 := rfl
  rw [e, SE3.exp_log_translation]
  have hn := eucNorm_nonneg (SO3.log g.1)
  have hq : sqNorm (SO3.log g.1) < tinySquareAngle := by
    rw [← eucNorm_sq]; unfold tinySquareAngle; nlinarith
  obtain ⟨h1, h2⟩ := SE3.residuals_small (sqNorm_nonneg _) hq
  generalize (expDiffCoeffs (sqNorm (SO3.log g.1))).b - (expDiffCoeffs (sqNorm (SO3.log g.1))).a / 2
    - sqNorm (SO3.log g.1) * (expDiffCoeffs (sqNorm (SO3.log g.1))).b * SE3.order2Coeff (sqNorm (SO3.log g.1)) = r1 at *
  generalize SE3.order2Coeff (sqNorm (SO3.log g.1)) * (expDiffCoeffs (sqNorm (SO3.log g.1))).a
    - (expDiffCoeffs (sqNorm (SO3.log g.1))).b / 2 + (expDiffCoeffs (sqNorm (SO3.log g.1))).c = r2 at *
  generalize SO3.log g.1 = w at *
  generalize g.2 = t at *
  have e2 : t + r1 • (w ⨯₃ t) + r2 • (w ⨯₃ (w ⨯₃ t)) - t = r1 • (w ⨯₃ t) + r2 • (w ⨯₃ (w ⨯₃ t)) := by abel
  rw [e2]
  have t0 := eucNorm_nonneg t
  have c1 := eucNorm_cross_le w t
  have c2 := eucNorm_cross_le w (w ⨯₃ t)
  have c0 := eucNorm_nonneg (w ⨯₃ t)
  have c3 := eucNorm_nonneg (w ⨯₃ (w ⨯₃ t))
  have d1 : eucNorm (w ⨯₃ t) ≤ 0.002 * eucNorm t := c1.trans (mul_le_mul_of_nonneg_right hw.le t0)
  have d2 : eucNorm (w ⨯₃ (w ⨯₃ t)) ≤ 0.002 * (0.002 * eucNorm t) :=
    c2.trans (mul_le_mul hw.le d1 c0 (by norm_num))
  calc eucNorm (r1 • (w ⨯₃ t) + r2 • (w ⨯₃ (w ⨯₃ t))) ≤ |r1| * eucNorm (w ⨯₃ t) + |r2| * eucNorm (w ⨯₃ (w ⨯₃ t)) := by
        refine (eucNorm_add_le _ _).trans ?_
        rw [eucNorm_smul, eucNorm_smul]
    _ ≤ 1e-14 * (0.002 * eucNorm t) + 2e-10 * (0.002 * (0.002 * eucNorm t)) :=
        add_le_add (mul_le_mul h1 d1 c0 (by norm_num)) (mul_le_mul h2 d2 c3 (by norm_num))
    _ ≤ 1e-15 * eucNorm t := by nlinarith

/-- C30 is false in the small-angle region: one series coefficient of `log` is added where it should be multiplied. -/
theorem c30_small_angle_fails : ∃ g : Pose, IsRotation g.1 ∧ SE3.ops.exp (SE3.ops.log g) ≠ g := by
  obtain ⟨w, hw⟩ : ∃ w : V3, w = ![0.001, 0, 0] := ⟨_, rfl⟩
  refine ⟨(SO3.exp w, ![0, 1, 0]), SO3.isRotation_exp w, ?_⟩
  intro e
  have hsq : sqNorm w = 1e-6 := by
    rw [hw, sqNorm_eq]
    simp only [Matrix.cons_val_zero, Matrix.cons_val_one, Matrix.cons_val]
    norm_num
  have hlog : SO3.log (SO3.exp w) = w := by
    apply SO3.log_exp
    rw [eucNorm, hsq, show (1e-6 : ℝ) = 0.001 ^ 2 by norm_num, Real.sqrt_sq (by norm_num)]
    linarith [Real.pi_gt_three]
  have h2 := congrArg Prod.snd e
  have e' : (SE3.ops.exp (SE3.ops.log (SO3.exp w, ![0, 1, 0]))).2 = (SE3.exp (SE3.log (SO3.exp w, ![0, 1, 0]))).2 := rfl
  rw [e', SE3.exp_log_translation] at h2
  simp only [hlog, hsq] at h2
  have h3 := congrFun h2 1
  rw [hw] at h3
  have hlt : (1e-6 : ℝ) < tinySquareAngle := by unfold tinySquareAngle; norm_num
  simp only [SE3.order2Coeff, expDiffCoeffs, if_pos hlt] at h3
  simp [crossProduct] at h3
  norm_num at h3

example : (0.002 : ℝ) ≤ eucNorm ![1, 0, 0] := by
  rw [eucNorm, sqNorm_eq]
  refine Real.le_sqrt_of_sq_le ?_
  simp only [Matrix.cons_val_zero, Matrix.cons_val_one, Matrix.cons_val]
  norm_num

/-! ## C31 -/

theorem so3_exp_add (s t : ℝ) (w : V3) : SO3.exp (s • w) * SO3.exp (t • w) = SO3.exp ((s + t) • w) := by
  rw [SO3.exp_eq_matrix_exp, SO3.exp_eq_matrix_exp, SO3.exp_eq_matrix_exp, crossMatrix_smul, crossMatrix_smul, crossMatrix_smul,
    ← Matrix.exp_add_of_commute, add_smul]
  exact ((Commute.refl _).smul_left _).smul_right _

/-- C31 for SO3: `interp` always succeeds, keeps the frames, runs from the identity to the transform, and adds fractions. -/
theorem c31_so3_interp (g : Framed M3) (hv : IsRotation g.val) (hf : g.into = Frame.null ↔ g.src = Frame.null) :
    interp SO3.ops g 0 = .ok ⟨1, g.into, g.src⟩ ∧ interp SO3.ops g 1 = .ok g ∧
    (∀ s : ℝ, ∃ a, interp SO3.ops g s = .ok a ∧ a.into = g.into ∧ a.src = g.src) ∧
    (∀ s t : ℝ, ∀ a b c, interp SO3.ops g s = .ok a → interp SO3.ops g t = .ok b → interp SO3.ops g (s + t) = .ok c →
      a.val * b.val = c.val) := by
  have hi : ∀ s : ℝ, interp SO3.ops g s = .ok ⟨SO3.exp (s • SO3.log g.val), g.into, g.src⟩ := fun s => mk'_ok hf
  refine ⟨?_, ?_, fun s => ⟨_, hi s, rfl, rfl⟩, ?_⟩
  · rw [hi, zero_smul, SO3.exp_zero]
  · rw [hi, one_smul, (SO3.exp_log hv).1]
  · intro s t a b c ha hb hc
    rw [hi, Outcome.ok.injEq] at ha hb hc
    subst ha hb hc
    exact so3_exp_add s t _

/-- An angle for which SE3's exponential is exact. -/
def GoodAngle (w : V3) : Prop := w = 0 ∨ 0.002 ≤ eucNorm w

theorem goodAngle_iff {w : V3} (h : GoodAngle w) : w = 0 ∨ tinySquareAngle ≤ sqNorm w := by
  rcases h with h | h
  · exact .inl h
  · right; rw [← eucNorm_sq]; unfold tinySquareAngle; nlinarith

theorem se3_exp_add (s t : ℝ) (x : Twist) (hs : GoodAngle (s • x.1)) (ht : GoodAngle (t • x.1)) (hst : GoodAngle ((s + t) • x.1)) :
    SE3.mul (SE3.exp (s • x)) (SE3.exp (t • x)) = SE3.exp ((s + t) • x) := by
  have key : ∀ r : ℝ, GoodAngle (r • x.1) → SE3.H (SE3.exp (r • x)) = NormedSpace.exp (r • SE3.T x) := by
    intro r hr
    have : r • SE3.T x = SE3.T (r • x) := by
      simp only [SE3.T, SE3.twistMatrix_eq, fromBlocks_smul, Prod.smul_fst, Prod.smul_snd, crossMatrix_smul]
      congr 1
      · simp
      · simp
    rw [this]
    exact SE3.exp_eq_matrix_exp _ _ (goodAngle_iff hr)
  apply SE3.H_injective
  rw [SE3.H_mul, key s hs, key t ht, key (s + t) hst, ← Matrix.exp_add_of_commute, add_smul]
  exact ((Commute.refl _).smul_left _).smul_right _

/-- C31 for SE3.  `interp` always succeeds, keeps the frames and starts at the identity.  Reaching the transform and adding fractions is
exact outside the small-angle region; inside it exp and log are series (C28, C30), which is what is missing. -/
theorem c31_se3_interp_partial (g : Framed Pose) (hv : IsRotation g.val.1) (hf : g.into = Frame.null ↔ g.src = Frame.null) :
    interp SE3.ops g 0 = .ok ⟨(1, 0), g.into, g.src⟩ ∧
    (GoodAngle (SO3.log g.val.1) → interp SE3.ops g 1 = .ok g) ∧
    (∀ s : ℝ, ∃ a, interp SE3.ops g s = .ok a ∧ a.into = g.into ∧ a.src = g.src) ∧
    (∀ s t : ℝ, GoodAngle (s • SO3.log g.val.1) → GoodAngle (t • SO3.log g.val.1) → GoodAngle ((s + t) • SO3.log g.val.1) →
      ∀ a b c, interp SE3.ops g s = .ok a → interp SE3.ops g t = .ok b → interp SE3.ops g (s + t) = .ok c →
      SE3.ops.mul a.val b.val = c.val) := by
  have hi : ∀ s : ℝ, interp SE3.ops g s = .ok ⟨SE3.exp (s • SE3.log g.val), g.into, g.src⟩ := fun s => mk'_ok hf
  refine ⟨?_, ?_, fun s => ⟨_, hi s, rfl, rfl⟩, ?_⟩
  · rw [hi, zero_smul]
    congr 2
    refine Prod.ext SO3.exp_zero ?_
    rw [SE3.exp_translation]; simp
  · intro h
    rw [hi, one_smul, SE3.exp_log hv (goodAngle_iff h)]
  · intro s t hs ht hst a b c ha hb hc
    rw [hi, Outcome.ok.injEq] at ha hb hc
    subst ha hb hc
    exact se3_exp_add s t _ hs ht hst

/-- C31.  The two-argument form throws exactly for unframed transforms or a null frame; otherwise it is the one-argument form with the new
from frame. -/
theorem c31_interp_new_from {G A V : Type} (L : LieOps ℝ G A V) (g : Framed G) (s : ℝ) (f : Frame)
    (hf : g.into = Frame.null ↔ g.src = Frame.null) :
    ((interpNewFrom L g s f).IsThrow ↔ g.into = Frame.null ∨ f = Frame.null) ∧
    (∀ b, interpNewFrom L g s f = .ok b → b.into = g.into ∧ b.src = f ∧
      ∃ a, interp L g s = .ok a ∧ a.val = b.val) ∧
    ¬ (interpNewFrom L g s f).IsUB := by
  unfold interpNewFrom interp Framed.exp
  by_cases h1 : g.into = Frame.null
  · rw [if_neg (by simpa using h1)]
    simp [h1]
  · rw [if_pos (by simpa using h1)]
    by_cases h2 : f = Frame.null
    · rw [mk'_throw (by simp [h1, h2])]
      simp [h2]
    · rw [mk'_ok (by simp [h1, h2])]
      refine ⟨by simp [h1, h2], ?_, by simp⟩
      intro b hb
      rw [Outcome.ok.injEq] at hb
      subst hb
      exact ⟨rfl, rfl, _, mk'_ok hf, rfl⟩

example : GoodAngle ((2 : ℝ) • ![1, 0, 0]) := by
  right; rw [eucNorm, sqNorm_eq]
  refine Real.le_sqrt_of_sq_le ?_
  simp only [Pi.smul_apply, smul_eq_mul, Matrix.cons_val_zero, Matrix.cons_val_one, Matrix.cons_val]
  norm_num

/-! ## C32 -/

/-- C32 for `se3_inverse_distance`: it is the length of the translation of the relative pose, symmetric, with the triangle inequality, and
throws exactly if the reference frames differ. -/
theorem c32_inverse_distance (a b c : Framed Pose) (ha : IsRotation a.val.1) :
    ((SE3.inverseDistance a b).IsThrow ↔ a.into ≠ b.into) ∧ ¬ (SE3.inverseDistance a b).IsUB ∧
    (a.into = b.into → SE3.inverseDistance a b = .ok (eucNorm (SE3.ops.mul (SE3.ops.inv a.val) b.val).2)) ∧
    (∀ d, SE3.inverseDistance a b = .ok d → 0 ≤ d) ∧
    (∀ d e, SE3.inverseDistance a b = .ok d → SE3.inverseDistance b a = .ok e → d = e) ∧
    (∀ d e f, SE3.inverseDistance a b = .ok d → SE3.inverseDistance b c = .ok e → SE3.inverseDistance a c = .ok f → f ≤ d + e) := by
  have hval : ∀ a b : Framed Pose, ∀ d, SE3.inverseDistance a b = .ok d → d = eucNorm (a.val.2 - b.val.2) := by
    intro a b d h
    unfold SE3.inverseDistance at h
    split_ifs at h
    simpa using h.symm
  refine ⟨?_, ?_, ?_, ?_, ?_, ?_⟩
  · unfold SE3.inverseDistance
    split_ifs with h
    · simpa using h
    · simpa using h
  · unfold SE3.inverseDistance
    split_ifs <;> simp
  · intro h
    unfold SE3.inverseDistance
    rw [if_pos ((Frame.eq_iff _ _).mpr h)]
    congr 1
    have : (SE3.ops.mul (SE3.ops.inv a.val) b.val).2 = a.val.1.transpose *ᵥ (-(a.val.2 - b.val.2)) := by
      simp [SE3.ops, SE3.mul, SE3.inv, SO3.act, SO3.inv, mulVec_neg, mulVec_sub]
      abel
    rw [this, eucNorm_mulVec (SO3.isRotation_transpose ha), eucNorm_neg]
  · intro d h; rw [hval _ _ _ h]; exact eucNorm_nonneg _
  · intro d e h1 h2
    rw [hval _ _ _ h1, hval _ _ _ h2, ← eucNorm_neg, neg_sub]
  · intro d e f h1 h2 h3
    rw [hval _ _ _ h1, hval _ _ _ h2, hval _ _ _ h3]
    have := eucNorm_add_le (a.val.2 - b.val.2) (b.val.2 - c.val.2)
    simpa using this

/-- C32 for `se3_distance`, only for poses with the same rotation.  Missing: different rotations, where it is false
(`c32_distance_fails`). -/
theorem c32_distance_partial (a b : Framed Pose) (ha : IsRotation a.val.1) (h : a.val.1 = b.val.1) :
    ((SE3.distance a b).IsThrow ↔ a.src ≠ b.src) ∧
    (a.src = b.src → SE3.distance a b = .ok (eucNorm (SE3.ops.mul a.val (SE3.ops.inv b.val)).2)) := by
  constructor
  · unfold SE3.distance
    split_ifs with h
    · simpa using h
    · simpa using h
  · intro h'
    unfold SE3.distance
    rw [if_pos ((Frame.eq_iff _ _).mpr h')]
    congr 2
    have hr := SO3.IsRotation_orth' ha
    simp [SE3.ops, SE3.mul, SE3.inv, SO3.act, SO3.inv, mulVec_neg, ← h, hr]
    abel

/-- C32.  `se3_distance` is non-negative, symmetric and satisfies the triangle inequality, for all poses. -/
theorem c32_distance_metric (a b c : Framed Pose) :
    ((SE3.distance a b).IsThrow ↔ a.src ≠ b.src) ∧
    (∀ d, SE3.distance a b = .ok d → 0 ≤ d) ∧
    (∀ d e, SE3.distance a b = .ok d → SE3.distance b a = .ok e → d = e) ∧
    (∀ d e f, SE3.distance a b = .ok d → SE3.distance b c = .ok e → SE3.distance a c = .ok f → f ≤ d + e) := by
  have hval : ∀ a b : Framed Pose, ∀ d, SE3.distance a b = .ok d → d = eucNorm (a.val.2 - b.val.2) := by
    intro a b d h
    unfold SE3.distance at h
    split_ifs at h
    simpa using h.symm
  refine ⟨?_, ?_, ?_, ?_⟩
  · unfold SE3.distance
    split_ifs with h
    · simpa using h
    · simpa using h
  · intro d h; rw [hval _ _ _ h]; exact eucNorm_nonneg _
  · intro d e h1 h2
    rw [hval _ _ _ h1, hval _ _ _ h2, ← eucNorm_neg, neg_sub]
  · intro d e f h1 h2 h3
    rw [hval _ _ _ h1, hval _ _ _ h2, hval _ _ _ h3]
    have := eucNorm_add_le (a.val.2 - b.val.2) (b.val.2 - c.val.2)
    simpa using this

/-- C32 is false for `se3_distance`: two poses at different places get distance zero. -/
theorem c32_distance_fails : ∃ a b : Framed Pose, IsRotation a.val.1 ∧ IsRotation b.val.1 ∧ a.src = b.src ∧
    SE3.distance a b = .ok 0 ∧ eucNorm (SE3.ops.mul a.val (SE3.ops.inv b.val)).2 ≠ 0 := by
  refine ⟨⟨(1, ![1, 0, 0]), exFrame 1, exFrame 3⟩, ⟨(quarterTurn, ![1, 0, 0]), exFrame 2, exFrame 3⟩, SO3.isRotation_one,
    quarterTurn_isRotation, rfl, ?_, ?_⟩
  · unfold SE3.distance
    rw [if_pos (by rfl)]
    simp [eucNorm_zero]
  · intro h
    have h' := congrFun (eucNorm_eq_zero.mp h) 1
    have e : quarterTurn.transpose *ᵥ ![(-1 : ℝ), 0, 0] = ![0, 1, 0] := by
      ext i; fin_cases i <;> simp [quarterTurn, mulVec, dotProduct, Fin.sum_univ_three]
    simp [SE3.ops, SE3.mul, SE3.inv, SO3.act, SO3.inv] at h'
    rw [e] at h'
    simp at h'

/-! ## Instances of the theorems above -/

theorem exThree_lt_pi : eucNorm ![3, 0, 0] < Real.pi := by
  have : eucNorm (![3, 0, 0] : V3) = 3 := by
    rw [eucNorm, show sqNorm (![3, 0, 0] : V3) = 3 ^ 2 by simp [sqNorm, dotProduct, Fin.sum_univ_three]; norm_num]
    exact Real.sqrt_sq (by norm_num)
  rw [this]
  exact Real.pi_gt_three

/-- `c29_exp_log` at a half turn, where the logarithm is not continuous, and `c29_log_exp` near one. -/
example : SO3.ops.exp (SO3.ops.log halfTurn) = halfTurn ∧ SO3.ops.log (SO3.ops.exp ![3, 0, 0]) = ![3, 0, 0] :=
  ⟨(c29_exp_log _ exHalfTurn_isRotation).1, c29_log_exp _ exThree_lt_pi⟩

/-- `c30_log_exp_partial` and `c30_exp_log_partial` on a twist that turns by 3 and moves across the axis. -/
example : SE3.ops.log (SE3.ops.exp (![3, 0, 0], ![1, 2, 0])) = (![3, 0, 0], ![1, 2, 0]) ∧
    SE3.ops.exp (SE3.ops.log (SO3.exp ![3, 0, 0], ![1, 2, 0])) = (SO3.exp ![3, 0, 0], ![1, 2, 0]) := by
  have h3 : eucNorm (![3, 0, 0] : V3) = 3 := by
    rw [eucNorm, show sqNorm (![3, 0, 0] : V3) = 3 ^ 2 by simp [sqNorm, dotProduct, Fin.sum_univ_three]; norm_num]
    exact Real.sqrt_sq (by norm_num)
  have hl : SO3.log (SO3.exp ![3, 0, 0]) = ![3, 0, 0] := c29_log_exp _ exThree_lt_pi
  exact ⟨c30_log_exp_partial _ exThree_lt_pi (.inr (by rw [h3]; norm_num)),
    c30_exp_log_partial _ (isRotation_exp _) (.inr (by rw [hl, h3]; norm_num))⟩

/-- `c31_so3_interp` and `c31_se3_interp_partial` with frames. -/
example : interp SO3.ops ⟨halfTurn, exFrame 1, exFrame 2⟩ 1 = .ok ⟨halfTurn, exFrame 1, exFrame 2⟩ ∧
    interp SE3.ops ⟨(SO3.exp ![3, 0, 0], ![1, 2, 0]), exFrame 1, exFrame 2⟩ 0 = .ok ⟨(1, 0), exFrame 1, exFrame 2⟩ :=
  ⟨(c31_so3_interp ⟨halfTurn, exFrame 1, exFrame 2⟩ exHalfTurn_isRotation (by simp only; decide)).2.1,
    (c31_se3_interp_partial ⟨(SO3.exp ![3, 0, 0], ![1, 2, 0]), exFrame 1, exFrame 2⟩ (isRotation_exp _) (by simp only; decide)).1⟩

/-- `c32_inverse_distance`, `c32_distance_partial` and `c32_distance_metric` on two poses of bodies in one frame, and of frames of one body. -/
example : SE3.inverseDistance ⟨(halfTurn, ![1, 2, 0]), exFrame 1, exFrame 2⟩ ⟨(1, ![4, 6, 0]), exFrame 1, exFrame 3⟩ =
      .ok (eucNorm (SE3.ops.mul (SE3.ops.inv (halfTurn, ![1, 2, 0])) (1, ![4, 6, 0])).2) ∧
    SE3.distance ⟨(halfTurn, ![1, 2, 0]), exFrame 1, exFrame 2⟩ ⟨(halfTurn, ![4, 6, 0]), exFrame 3, exFrame 2⟩ =
      .ok (eucNorm (SE3.ops.mul (halfTurn, ![1, 2, 0]) (SE3.ops.inv (halfTurn, ![4, 6, 0]))).2) ∧
    (SE3.distance ⟨(halfTurn, ![1, 2, 0]), exFrame 1, exFrame 2⟩ ⟨(halfTurn, ![4, 6, 0]), exFrame 1, exFrame 3⟩).IsThrow :=
  ⟨(c32_inverse_distance ⟨(halfTurn, ![1, 2, 0]), exFrame 1, exFrame 2⟩ ⟨(1, ![4, 6, 0]), exFrame 1, exFrame 3⟩
      ⟨(1, ![4, 6, 0]), exFrame 1, exFrame 3⟩ exHalfTurn_isRotation).2.2.1 rfl,
    (c32_distance_partial ⟨(halfTurn, ![1, 2, 0]), exFrame 1, exFrame 2⟩ ⟨(halfTurn, ![4, 6, 0]), exFrame 3, exFrame 2⟩ exHalfTurn_isRotation rfl).2 rfl,
    (c32_distance_metric ⟨(halfTurn, ![1, 2, 0]), exFrame 1, exFrame 2⟩ ⟨(halfTurn, ![4, 6, 0]), exFrame 1, exFrame 3⟩
      ⟨(halfTurn, ![4, 6, 0]), exFrame 1, exFrame 3⟩).1.mpr (by simp only; decide)⟩

end Verif.Props
