import Verif.Props.Between
import Verif.Props.Approx
import Verif.Proofs.Euler
/-! # C93: the assertions of the Lie group guide -/
namespace Verif.Props
open Verif.Framed Verif.Spec Verif.LieGuide SO3 Matrix

/-- The assertion of the guide, `not euler.is_approx(exp({phi, theta, psi}))`. -/
def GuideAssertion (phi theta psi : ℝ) : Prop := ∀ r, eulerAngles phi theta psi = .ok r → ¬ Approx.so3 r (expOfAngles phi theta psi)

theorem so3_self (r : Framed M3) : Approx.so3 r r := ⟨mat_refl _, (verifyFrames_iff _ _).mpr ⟨rfl, rfl⟩⟩

theorem vec_of_small {a b : V3} (h : eucNorm (b - a) ≤ 1e-13 * eucNorm a) : Approx.vec 1e-12 a b := by
  have q : ∀ v : V3, SO3.sqNorm v = eucNorm v ^ 2 := fun v => (Real.sq_sqrt (SO3.sqNorm_nonneg v)).symm
  have na := eucNorm_nonneg a
  have hb : 0.5 * eucNorm a ≤ eucNorm b := by
    have := eucNorm_add_le b (-(b - a))
    rw [show b + -(b - a) = a by abel, eucNorm_neg] at this
    linarith
  have hd := eucNorm_nonneg (b - a)
  rw [Approx.vec, sqNorm_sub_comm, q, q, q, mul_min_of_nonneg _ _ (by norm_num), le_min_iff]
  exact ⟨by nlinarith, by nlinarith⟩

theorem twist_of_small {a b : Twist} (h1 : b.1 = a.1) (h : eucNorm (b.2 - a.2) ≤ 1e-13 * eucNorm a.2) : Approx.twist a b := by
  have v := vec_of_small h
  rw [Approx.vec] at v
  have e : Approx.twistSq (a - b) = SO3.sqNorm (a.2 - b.2) := by
    rw [Approx.twistSq, Prod.fst_sub, Prod.snd_sub, h1, sub_self]
    simp [SO3.sqNorm]
  rw [Approx.twist, e]
  refine v.trans (mul_le_mul_of_nonneg_left (min_le_min ?_ ?_) (by norm_num))
  · exact le_add_of_nonneg_left (SO3.sqNorm_nonneg _)
  · exact le_add_of_nonneg_left (SO3.sqNorm_nonneg _)

theorem eulerAngles_ok (phi theta psi : ℝ) : eulerAngles phi theta psi =
    .ok (unframed (angleAxisMatrix phi ![1, 0, 0] * angleAxisMatrix theta ![0, 1, 0] * angleAxisMatrix psi ![0, 0, 1])) := by
  unfold eulerAngles
  rw [mul_unframed SO3.ops (.inl rfl), Outcome.ok_bind]
  exact mul_unframed SO3.ops (.inl rfl)

theorem unit_axes : (![1, 0, 0] : V3) ⬝ᵥ ![1, 0, 0] = 1 ∧ (![0, 1, 0] : V3) ⬝ᵥ ![0, 1, 0] = 1 ∧ (![0, 0, 1] : V3) ⬝ᵥ ![0, 0, 1] = 1 := by
  refine ⟨?_, ?_, ?_⟩ <;> simp [dotProduct, Fin.sum_univ_three]

/-- The axis entries of a rotation matrix. -/
theorem exp_axis (w : V3) : ∃ k : ℝ, |k| ≤ 1 ∧ SO3.exp w 2 1 - SO3.exp w 1 2 = 2 * k * w 0 ∧ SO3.exp w 0 2 - SO3.exp w 2 0 = 2 * k * w 1 ∧
    SO3.exp w 1 0 - SO3.exp w 0 1 = 2 * k * w 2 := by
  by_cases h : w = 0
  · subst h
    refine ⟨1, by simp, ?_⟩
    rw [exp_zero]
    simp
  · refine ⟨Real.sin (eucNorm w) / eucNorm w, ?_, ?_⟩
    · have hp := eucNorm_pos h
      rw [abs_div, abs_of_pos hp, div_le_one hp]
      exact (Real.abs_sin_le_abs).trans (abs_of_pos hp).le
    · have hk : (normalized w) = (eucNorm w)⁻¹ • w := normalized_of_ne h
      simp only [SO3.exp, angleAxisMatrix, hk, of_apply, cons_val_zero, cons_val_one, cons_val, Pi.smul_apply, smul_eq_mul]
      refine ⟨?_, ?_, ?_⟩ <;> ring

/-- The axis entries of a product of rotations about x, y and z. -/
theorem euler_axis (f t s : ℝ) : ∀ m, m = angleAxisMatrix f ![1, 0, 0] * angleAxisMatrix t ![0, 1, 0] * angleAxisMatrix s ![0, 0, 1] →
    m 2 1 - m 1 2 = Real.cos f * Real.sin t * Real.sin s + Real.sin f * (Real.cos s + Real.cos t) ∧
    m 0 2 - m 2 0 = Real.sin t + Real.cos f * Real.sin t * Real.cos s - Real.sin f * Real.sin s ∧
    m 1 0 - m 0 1 = Real.sin s * (Real.cos f + Real.cos t) + Real.sin f * Real.sin t * Real.cos s := by
  rintro m rfl
  simp only [angleAxisMatrix, mul_apply, Fin.sum_univ_three, of_apply, cons_val_zero, cons_val_one, cons_val, Pi.smul_apply, smul_eq_mul]
  refine ⟨?_, ?_, ?_⟩ <;> ring

/-- C93.  If two of the angles are zero the two rotations are the same, so the guide's assertion fails. -/
theorem c93_degenerate (phi theta psi : ℝ) (h : phi = 0 ∧ theta = 0 ∨ phi = 0 ∧ psi = 0 ∨ theta = 0 ∧ psi = 0) :
    eulerAngles phi theta psi = .ok (expOfAngles phi theta psi) ∧ ¬ GuideAssertion phi theta psi := by
  have e : eulerAngles phi theta psi = .ok (expOfAngles phi theta psi) := by
    rw [eulerAngles_ok]
    have z : ∀ n, angleAxisMatrix 0 n = 1 := fun n => angleAxisMatrix_of_cos Real.cos_zero n
    obtain ⟨u1, u2, u3⟩ := unit_axes
    change _ = Outcome.ok (unframed (SO3.exp ![phi, theta, psi]))
    congr 2
    rcases h with ⟨rfl, rfl⟩ | ⟨rfl, rfl⟩ | ⟨rfl, rfl⟩
    · rw [z, z, Matrix.one_mul, Matrix.one_mul, angleAxis_exp _ u3]
      congr 1
      simp
    · rw [z, z, Matrix.one_mul, Matrix.mul_one, angleAxis_exp _ u2]
      congr 1
      simp
    · rw [z, z, Matrix.mul_one, Matrix.mul_one, angleAxis_exp _ u1]
      congr 1
      simp
  refine ⟨e, fun hg => hg _ e ?_⟩
  exact so3_self _

/-- C93.  The guide says that the assertion fails only if two of the angles are zero.  That is not so: here none is zero, yet both rotations are the identity. -/
theorem c93_comment_false : ∃ phi theta psi : ℝ, phi ≠ 0 ∧ theta ≠ 0 ∧ psi ≠ 0 ∧ ¬ GuideAssertion phi theta psi := by
  have hp := Real.pi_pos
  refine ⟨2 * Real.pi, 4 * Real.pi, 4 * Real.pi, by positivity, by positivity, by positivity, fun hg => ?_⟩
  have c2 : Real.cos (2 * Real.pi) = 1 := Real.cos_two_pi
  have c4 : Real.cos (4 * Real.pi) = 1 := by
    have := Real.cos_nat_mul_two_pi 2
    rwa [show ((2 : ℕ) : ℝ) * (2 * Real.pi) = 4 * Real.pi by push_cast; ring] at this
  have n6 : eucNorm ![2 * Real.pi, 4 * Real.pi, 4 * Real.pi] = 6 * Real.pi := by
    have : SO3.sqNorm ![2 * Real.pi, 4 * Real.pi, 4 * Real.pi] = (6 * Real.pi) ^ 2 := by
      simp only [SO3.sqNorm, dotProduct, Fin.sum_univ_three, cons_val_zero, cons_val_one, cons_val]
      ring
    rw [eucNorm, this, Real.sqrt_sq (by positivity)]
  have c6 : Real.cos (6 * Real.pi) = 1 := by
    have := Real.cos_nat_mul_two_pi 3
    rwa [show ((3 : ℕ) : ℝ) * (2 * Real.pi) = 6 * Real.pi by push_cast; ring] at this
  have e : eulerAngles (2 * Real.pi) (4 * Real.pi) (4 * Real.pi) = .ok (expOfAngles (2 * Real.pi) (4 * Real.pi) (4 * Real.pi)) := by
    rw [eulerAngles_ok, angleAxisMatrix_of_cos c2, angleAxisMatrix_of_cos c4, angleAxisMatrix_of_cos c4]
    change _ = Outcome.ok (unframed (SO3.exp _))
    rw [SO3.exp, n6, angleAxisMatrix_of_cos c6, Matrix.mul_one, Matrix.mul_one]
  exact hg _ e (so3_self _)

/-- C93.  Nor is it so for small angles: if the three add up to at most 5e-13 the two rotations are equal within the tolerance of the comparison. -/
theorem c93_small (phi theta psi : ℝ) (h : |phi| + |theta| + |psi| ≤ 5e-13) : ¬ GuideAssertion phi theta psi := by
  intro hg
  refine hg _ (eulerAngles_ok _ _ _) ⟨?_, (verifyFrames_iff _ _).mpr ⟨rfl, rfl⟩⟩
  obtain ⟨u1, u2, u3⟩ := unit_axes
  have n : ∀ (t : ℝ) (n : V3), n ⬝ᵥ n = 1 → eucNorm (t • n) = |t| := fun t n hn => by
    rw [eucNorm_smul, eucNorm, show SO3.sqNorm n = 1 from hn, Real.sqrt_one, mul_one]
  have r1 := isRotation_angleAxis phi u1
  have r2 := isRotation_angleAxis theta u2
  have r3 := isRotation_angleAxis psi u3
  have e1 := angleAxis_exp phi u1
  have e2 := angleAxis_exp theta u2
  have e3 := angleAxis_exp psi u3
  have m1 := n phi _ u1
  have m2 := n theta _ u2
  have m3 := n psi _ u3
  have hw : eucNorm ![phi, theta, psi] ≤ |phi| + |theta| + |psi| := by
    rw [← m1, ← m2, ← m3, show ![phi, theta, psi] = phi • ![1, 0, 0] + theta • ![0, 1, 0] + psi • (![0, 0, 1] : V3) by simp]
    exact (eucNorm_add_le _ _).trans (add_le_add_left (eucNorm_add_le _ _) _)
  change Approx.mat (angleAxisMatrix phi ![1, 0, 0] * angleAxisMatrix theta ![0, 1, 0] * angleAxisMatrix psi ![0, 0, 1]) (SO3.exp ![phi, theta, psi])
  generalize angleAxisMatrix phi ![1, 0, 0] = x at *
  generalize angleAxisMatrix theta ![0, 1, 0] = y at *
  generalize angleAxisMatrix psi ![0, 0, 1] = z at *
  generalize ![phi, theta, psi] = w at *
  have rw' := isRotation_exp w
  have r12 := isRotation_mul r1 r2
  have r := isRotation_mul r12 r3
  rw [mat_rotation_iff r rw', Approx.matSq_sub_angle r rw', ← turnBetween_log r rw']
  have t0 := turnBetween_triangle r isRotation_one rw'
  have t1 := turnBetween_triangle r r12 isRotation_one
  have t2 := turnBetween_triangle r12 r1 isRotation_one
  have l0 : turnBetween 1 (SO3.exp w) ≤ eucNorm w := turnBetween_le (by rw [transpose_one, Matrix.one_mul])
  have l1 : turnBetween (x * y * z) (x * y) ≤ |psi| := by
    rw [← m3, ← eucNorm_neg]
    refine turnBetween_le ?_
    rw [exp_neg, ← e3, transpose_mul, Matrix.mul_assoc, r12.orth, Matrix.mul_one]
  have l2 : turnBetween (x * y) x ≤ |theta| := by
    rw [← m2, ← eucNorm_neg]
    refine turnBetween_le ?_
    rw [exp_neg, ← e2, transpose_mul, Matrix.mul_assoc, r1.orth, Matrix.mul_one]
  have l3 : turnBetween x 1 ≤ |phi| := by
    rw [← m1, ← eucNorm_neg]
    refine turnBetween_le ?_
    rw [exp_neg, ← e1, Matrix.mul_one]
  have b : turnBetween (x * y * z) (SO3.exp w) ≤ 1e-12 := by linarith
  have b0 : 0 ≤ turnBetween (x * y * z) (SO3.exp w) := Real.arccos_nonneg _
  generalize turnBetween (x * y * z) (SO3.exp w) = t at *
  have s1 : |Real.sin (t / 2)| ≤ |t / 2| := Real.abs_sin_le_abs
  have s2 : Real.sin (t / 2) ^ 2 ≤ (t / 2) ^ 2 := sq_le_sq.mpr s1
  nlinarith

/-- If just one of the angles is zero and the other two are less than half a turn, the rotations differ. -/
theorem guide_one_zero (phi theta psi : ℝ) (h1 : |phi| < Real.pi) (h2 : |theta| < Real.pi) (h3 : |psi| < Real.pi)
    (h : phi = 0 ∧ theta ≠ 0 ∧ psi ≠ 0 ∨ theta = 0 ∧ phi ≠ 0 ∧ psi ≠ 0 ∨ psi = 0 ∧ phi ≠ 0 ∧ theta ≠ 0) (r : Framed M3) (hr : eulerAngles phi theta psi = .ok r) :
    r.val ≠ (expOfAngles phi theta psi).val := by
  rw [eulerAngles_ok, Outcome.ok.injEq] at hr
  subst hr
  intro e
  change _ = SO3.exp ![phi, theta, psi] at e
  obtain ⟨a1, a2, a3⟩ := euler_axis phi theta psi _ rfl
  obtain ⟨k, -, b1, b2, b3⟩ := exp_axis ![phi, theta, psi]
  change (unframed (angleAxisMatrix phi ![1, 0, 0] * angleAxisMatrix theta ![0, 1, 0] * angleAxisMatrix psi ![0, 0, 1])).val = _ at e
  have e' : angleAxisMatrix phi ![1, 0, 0] * angleAxisMatrix theta ![0, 1, 0] * angleAxisMatrix psi ![0, 0, 1] = SO3.exp ![phi, theta, psi] := e
  rw [e', b1] at a1
  rw [e', b2] at a2
  rw [e', b3] at a3
  have sin0 : ∀ x : ℝ, |x| < Real.pi → x ≠ 0 → Real.sin x ≠ 0 := by
    intro x hx h0 hs
    exact h0 ((Real.sin_eq_zero_iff_of_lt_of_lt (abs_lt.mp hx).1 (abs_lt.mp hx).2).mp hs)
  rcases h with ⟨rfl, n1, n2⟩ | ⟨rfl, n1, n2⟩ | ⟨rfl, n1, n2⟩
  · have := mul_ne_zero (sin0 _ h2 n1) (sin0 _ h3 n2)
    simp at a1
    tauto
  · have := mul_ne_zero (sin0 _ h1 n1) (sin0 _ h3 n2)
    simp at a2
    tauto
  · have := mul_ne_zero (sin0 _ h1 n1) (sin0 _ h2 n2)
    simp at a3
    tauto

/-- C93.  For angles of less than half a turn, of any size, the two rotations are equal exactly if two of the angles are zero. -/
theorem c93_equal_iff (phi theta psi : ℝ) (h1 : |phi| < Real.pi) (h2 : |theta| < Real.pi) (h3 : |psi| < Real.pi) (r : Framed M3)
    (hr : eulerAngles phi theta psi = .ok r) :
    r.val = (expOfAngles phi theta psi).val ↔ phi = 0 ∧ theta = 0 ∨ phi = 0 ∧ psi = 0 ∨ theta = 0 ∧ psi = 0 := by
  constructor
  · intro e
    have n := fun h => guide_one_zero phi theta psi h1 h2 h3 h r hr e
    rw [eulerAngles_ok, Outcome.ok.injEq] at hr
    subst hr
    have z := Euler.zero_of_eq h1 h2 h3 e
    tauto
  · intro h
    rw [(c93_degenerate phi theta psi h).1, Outcome.ok.injEq] at hr
    rw [hr]

/-- C93.  With the angles of the guide the assertion holds. -/
theorem c93_guide_angles : GuideAssertion 0.1 0.5 (Real.pi / 4) := by
  intro r hr ha
  rw [eulerAngles_ok, Outcome.ok.injEq] at hr
  subst hr
  obtain ⟨u1, u2, u3⟩ := unit_axes
  have rot := isRotation_mul (isRotation_mul (isRotation_angleAxis 0.1 u1) (isRotation_angleAxis 0.5 u2)) (isRotation_angleAxis (Real.pi / 4) u3)
  obtain ⟨a1, -, -⟩ := euler_axis 0.1 0.5 (Real.pi / 4) _ rfl
  obtain ⟨k, hk, b1, -, -⟩ := exp_axis ![0.1, 0.5, Real.pi / 4]
  have hm : Approx.mat (angleAxisMatrix 0.1 ![1, 0, 0] * angleAxisMatrix 0.5 ![0, 1, 0] * angleAxisMatrix (Real.pi / 4) ![0, 0, 1]) (SO3.exp ![0.1, 0.5, Real.pi / 4]) := ha.1
  generalize angleAxisMatrix 0.1 ![1, 0, 0] * angleAxisMatrix 0.5 ![0, 1, 0] * angleAxisMatrix (Real.pi / 4) ![0, 0, 1] = m at *
  rw [mat_rotation_iff rot (isRotation_exp _)] at hm
  generalize SO3.exp ![0.1, 0.5, Real.pi / 4] = x at *
  simp only [Approx.matSq, Fin.sum_univ_three, Matrix.sub_apply] at hm
  have d1 : (m 2 1 - x 2 1) ^ 2 ≤ 0.0001 := by
    nlinarith [mul_self_nonneg (m 0 0 - x 0 0), mul_self_nonneg (m 0 1 - x 0 1), mul_self_nonneg (m 0 2 - x 0 2), mul_self_nonneg (m 1 0 - x 1 0),
      mul_self_nonneg (m 1 1 - x 1 1), mul_self_nonneg (m 1 2 - x 1 2), mul_self_nonneg (m 2 0 - x 2 0), mul_self_nonneg (m 2 2 - x 2 2)]
  have d2 : (m 1 2 - x 1 2) ^ 2 ≤ 0.0001 := by
    nlinarith [mul_self_nonneg (m 0 0 - x 0 0), mul_self_nonneg (m 0 1 - x 0 1), mul_self_nonneg (m 0 2 - x 0 2), mul_self_nonneg (m 1 0 - x 1 0),
      mul_self_nonneg (m 1 1 - x 1 1), mul_self_nonneg (m 2 1 - x 2 1), mul_self_nonneg (m 2 0 - x 2 0), mul_self_nonneg (m 2 2 - x 2 2)]
  have f1 := abs_le_of_sq_le_sq' (show (m 2 1 - x 2 1) ^ 2 ≤ (0.01 : ℝ) ^ 2 by norm_num at d1 ⊢; exact d1) (by norm_num)
  have f2 := abs_le_of_sq_le_sq' (show (m 1 2 - x 1 2) ^ 2 ≤ (0.01 : ℝ) ^ 2 by norm_num at d2 ⊢; exact d2) (by norm_num)
  have kl := abs_le.mp hk
  simp only [cons_val_zero] at b1
  have c1 : (0.99 : ℝ) ≤ Real.cos 0.1 := by
    have := Real.one_sub_sq_div_two_le_cos (x := 0.1)
    norm_num at this ⊢
    linarith
  have s5 : (0.47 : ℝ) ≤ Real.sin 0.5 := by
    have := Real.sin_gt_sub_cube (x := 0.5) (by norm_num)
    norm_num at this ⊢
    linarith
  have s4 : (0.7 : ℝ) ≤ Real.sin (Real.pi / 4) := by
    rw [Real.sin_pi_div_four]
    have : (1.4 : ℝ) ≤ √2 := Real.le_sqrt_of_sq_le (by norm_num)
    linarith
  have s1 : 0 ≤ Real.sin 0.1 := Real.sin_nonneg_of_nonneg_of_le_pi (by norm_num) (by linarith [Real.pi_gt_three])
  have cc : 0 ≤ Real.cos (Real.pi / 4) + Real.cos 0.5 := by
    have h1 : 0 ≤ Real.cos (Real.pi / 4) := by
      rw [Real.cos_pi_div_four]
      positivity
    have h2 : 0 ≤ Real.cos 0.5 := Real.cos_nonneg_of_neg_pi_div_two_le_of_le (by linarith [Real.pi_gt_three]) (by linarith [Real.pi_gt_three])
    linarith
  have p1 : (0.99 : ℝ) * 0.47 ≤ Real.cos 0.1 * Real.sin 0.5 := mul_le_mul c1 s5 (by norm_num) (by linarith)
  have p2 : (0.99 : ℝ) * 0.47 * 0.7 ≤ Real.cos 0.1 * Real.sin 0.5 * Real.sin (Real.pi / 4) := mul_le_mul p1 s4 (by norm_num) (by linarith)
  have p3 := mul_nonneg s1 cc
  norm_num at *
  linarith

/-- C93.  Interpolating by a fraction and by the rest and composing gives the transform back, by the comparison of the guide, for every transform without
frames. -/
theorem c93_parts (g : Framed Pose) (hv : IsRotation g.val.1) (hi : g.into = Frame.null) (hs : g.src = Frame.null) (s : ℝ) (h0 : 0 ≤ s) (h1 : s ≤ 1) :
    ∃ a b c, interp SE3.ops g s = .ok a ∧ interp SE3.ops g (1 - s) = .ok b ∧ mul SE3.ops a b = .ok c ∧ Approx.se3 g c := by
  have hf : g.into = Frame.null ↔ g.src = Frame.null := by rw [hi, hs]
  have ha : interp SE3.ops g s = .ok ⟨SE3.exp (s • SE3.log g.val), g.into, g.src⟩ := mk'_ok hf
  have hb : interp SE3.ops g (1 - s) = .ok ⟨SE3.exp ((1 - s) • SE3.log g.val), g.into, g.src⟩ := mk'_ok hf
  have n1 := SE3.interp_near (g := g.val) hv s
  have n2 := SE3.interp_near (g := g.val) hv (1 - s)
  obtain ⟨m1, m2⟩ := SE3.Near.mul (show PoseValid (SE3.exp (s • SE3.log g.val)) from SO3.isRotation_exp _) n1 n2
  have P := (SE3.oneParam (SE3.xlog g.val)).mul s (1 - s)
  change SE3.mul _ _ = SE3.xexp _ at P
  have P' : SE3.mul (SE3.xexp (s • SE3.xlog g.val)) (SE3.xexp ((1 - s) • SE3.xlog g.val)) = g.val := by
    refine P.trans ?_
    rw [show s + (1 - s) = 1 by ring]
    refine Eq.trans ?_ (SE3.xexp_xlog (g := g.val) hv)
    exact congrArg _ (one_smul _ _)
  rw [P'] at m1 m2
  refine ⟨_, _, _, ha, hb, mul_unframed SE3.ops (.inl hi), ⟨?_, ?_⟩, ?_⟩
  · change Approx.mat g.val.1 (SE3.mul _ _).1
    rw [m1]
    exact mat_refl _
  · refine vec_of_small (m2.trans ?_)
    have hx := SE3.xlog_le (g := g.val) hv
    have hn := eucNorm_nonneg g.val.2
    rw [abs_of_nonneg h0, abs_of_nonneg (by linarith : (0 : ℝ) ≤ 1 - s)]
    nlinarith
  · rw [verifyFrames_iff]
    exact ⟨hi, hs⟩

/-- C93.  Every tangent vector of less than half a turn is the logarithm of its exponential, by the comparison of the guide. -/
theorem c93_exp_log (x : Twist) (h : eucNorm x.1 < Real.pi) : Approx.twist x (SE3.log (SE3.exp x)) := by
  have hl := SO3.log_exp h
  obtain ⟨l1, -, l2⟩ := SE3.log_near h
  refine twist_of_small hl ?_
  by_cases hg : x.1 = 0 ∨ tinySquareAngle ≤ SO3.sqNorm x.1
  · rw [SE3.log_exp_of hl hg, sub_self, eucNorm_zero]
    exact mul_nonneg (by norm_num) (eucNorm_nonneg _)
  · rw [not_or, not_le] at hg
    obtain ⟨-, -, ht⟩ := SE3.smallcoeffs hg.1 hg.2
    have ho := SE3.order2Coeff_small (SO3.sqNorm_nonneg x.1) hg.2
    have hx := (SE3.exp_near x).2
    have hB := SE3.log_sub (SE3.exp x).1 (SE3.exp x).2 (SE3.xexp x).2
    have hl' : SO3.log (SE3.exp x).1 = x.1 := hl
    rw [hl'] at hB
    have hB' : (SE3.log (SE3.exp x)).2 - (SE3.log (SE3.xexp x)).2 = _ := hB
    generalize (SE3.exp x).2 - (SE3.xexp x).2 = d at *
    have nc : ∀ v, eucNorm (x.1 ⨯₃ v) ≤ 0.002 * eucNorm v := fun v =>
      (eucNorm_cross_le x.1 v).trans (mul_le_mul_of_nonneg_right ht.le (eucNorm_nonneg _))
    have ncc : ∀ v, eucNorm (x.1 ⨯₃ (x.1 ⨯₃ v)) ≤ 0.000004 * eucNorm v := fun v => (nc _).trans (by have := nc v; linarith)
    have e : (SE3.log (SE3.exp x)).2 - x.2 = ((SE3.log (SE3.exp x)).2 - (SE3.log (SE3.xexp x)).2) + ((SE3.log (SE3.xexp x)).2 - x.2) := by abel
    rw [e, hB']
    refine (eucNorm_add_le _ _).trans ?_
    have b1 : eucNorm (d - (0.5 : ℝ) • (x.1 ⨯₃ d) + SE3.order2Coeff (SO3.sqNorm x.1) • (x.1 ⨯₃ (x.1 ⨯₃ d))) ≤ 2e-18 * eucNorm x.2 := by
      refine (eucNorm_add_le _ _).trans ?_
      have := SE3.eucNorm_sub_le d ((0.5 : ℝ) • (x.1 ⨯₃ d))
      rw [eucNorm_smul, abs_of_nonneg (by norm_num)] at this
      rw [eucNorm_smul]
      have k1 := nc d
      have k2 := ncc d
      have k3 := mul_le_mul ho k2 (eucNorm_nonneg _) (by norm_num)
      have k4 := eucNorm_nonneg d
      nlinarith
    have k4 := eucNorm_nonneg x.2
    nlinarith

/-- C93.  The frames of the guide, for any poses: the sensor's pose in the world has those frames; composing it with the sensor's pose on the robot throws; with the
inverse of that it is the robot's pose in the world (the guide calls the result `robot_from_world`). -/
theorem c93_frames (w r : Pose) (hr : IsRotation r.1) (world robot sensor : Frame) (n1 : world ≠ Frame.null) (n2 : robot ≠ Frame.null)
    (n3 : sensor ≠ Frame.null) (hne : sensor ≠ robot) :
    ∃ a b i, mk' w world robot = .ok a ∧ mk' r robot sensor = .ok b ∧ inverse SE3.ops b = .ok i ∧
      ∃ c, mul SE3.ops a b = .ok c ∧ c.isFramed = true ∧ c.into = world ∧ c.src = sensor ∧ (mul SE3.ops c b).IsThrow ∧ mul SE3.ops c i = .ok a := by
  refine ⟨⟨w, world, robot⟩, ⟨r, robot, sensor⟩, ⟨SE3.ops.inv r, sensor, robot⟩, mk'_ok (by simp [n1, n2]), mk'_ok (by simp [n2, n3]), mk'_ok (by simp [n2, n3]),
    ⟨SE3.ops.mul w r, world, sensor⟩, mul_framed SE3.ops n1 n2 n3 rfl, by simp [isFramed, n1], rfl, rfl, ?_, ?_⟩
  · rw [mul_mismatch SE3.ops (a := ⟨SE3.ops.mul w r, world, sensor⟩) (b := ⟨r, robot, sensor⟩) n1 n2 hne]
    exact ⟨_, rfl⟩
  · rw [mul_framed SE3.ops (a := ⟨SE3.ops.mul w r, world, sensor⟩) (b := ⟨SE3.ops.inv r, sensor, robot⟩) n1 n3 n2 rfl]
    change Outcome.ok (⟨SE3.ops.mul (SE3.ops.mul w r) (SE3.ops.inv r), world, robot⟩ : Framed Pose) = _
    rw [se3Laws.mul_assoc, se3Laws.mul_inv hr, se3Laws.mul_one]

/-- `c93_degenerate`, `c93_equal_iff`: a turn about y alone, turns about x and z, and turns about all three axes. -/
example : eulerAngles 0 2 0 = .ok (expOfAngles 0 2 0) ∧ (∃ r, eulerAngles 1 0 (-2) = .ok r ∧ r.val ≠ (expOfAngles 1 0 (-2)).val) ∧
    ∃ r, eulerAngles 1 3 (-2) = .ok r ∧ r.val ≠ (expOfAngles 1 3 (-2)).val := by
  have p := Real.pi_gt_three
  have a1 : |(1 : ℝ)| < Real.pi := by rw [abs_one]; linarith
  have a0 : |(0 : ℝ)| < Real.pi := by rw [abs_zero]; linarith
  have a3 : |(3 : ℝ)| < Real.pi := by rw [abs_of_pos (by norm_num)]; linarith
  have a2 : |(-2 : ℝ)| < Real.pi := by rw [abs_neg, abs_two]; linarith
  refine ⟨(c93_degenerate 0 2 0 (.inr (.inl ⟨rfl, rfl⟩))).1, ⟨_, eulerAngles_ok _ _ _, ?_⟩, ⟨_, eulerAngles_ok _ _ _, ?_⟩⟩
  · rw [Ne, c93_equal_iff 1 0 (-2) a1 a0 a2 _ (eulerAngles_ok _ _ _)]
    norm_num
  · rw [Ne, c93_equal_iff 1 3 (-2) a1 a3 a2 _ (eulerAngles_ok _ _ _)]
    norm_num

/-- `c93_small`: three angles of a tenth of a picoradian. -/
example : ¬ GuideAssertion 1e-13 1e-13 (-1e-13) := c93_small _ _ _ (by rw [abs_neg, abs_of_pos] <;> norm_num)

/-- `c93_guide_angles`: the guide's angles give a rotation to which it applies. -/
example : ∃ r, eulerAngles 0.1 0.5 (Real.pi / 4) = .ok r ∧ ¬ Approx.so3 r (expOfAngles 0.1 0.5 (Real.pi / 4)) :=
  ⟨_, eulerAngles_ok _ _ _, c93_guide_angles _ (eulerAngles_ok _ _ _)⟩

/-- `c93_parts`, `c93_exp_log`: a quarter turn at (1, 2, 3) in halves, and a twist with all entries one, as large as the guide's random ones get. -/
example : (∃ a c, interp SE3.ops (unframed (quarterTurn, ![1, 2, 3])) 0.5 = .ok a ∧ mul SE3.ops a a = .ok c ∧ Approx.se3 (unframed (quarterTurn, ![1, 2, 3])) c) ∧
    Approx.twist (![1, 1, 1], ![1, 1, 1]) (SE3.log (SE3.exp (![1, 1, 1], ![1, 1, 1]))) := by
  constructor
  · obtain ⟨a, b, c, h1, h2, h3, h4⟩ := c93_parts (unframed (quarterTurn, ![1, 2, 3])) quarterTurn_isRotation rfl rfl 0.5 (by norm_num) (by norm_num)
    rw [show (1 : ℝ) - 0.5 = 0.5 by norm_num, h1, Outcome.ok.injEq] at h2
    subst h2
    exact ⟨a, c, h1, h3, h4⟩
  · apply c93_exp_log
    have : SO3.sqNorm ![1, 1, 1] = 3 := by
      simp [SO3.sqNorm, dotProduct, Fin.sum_univ_three]
      norm_num
    rw [eucNorm, this, Real.sqrt_lt (by norm_num) Real.pi_pos.le]
    nlinarith [Real.pi_gt_three]

/-- `c93_frames`: a robot and a sensor at some poses. -/
example : ∃ a b, mk' ((1 : M3), ![5, 0, 0]) (exFrame 1) (exFrame 2) = .ok a ∧ mk' (quarterTurn, ![1, 2, 3]) (exFrame 2) (exFrame 3) = .ok b ∧
    ∃ c, mul SE3.ops a b = .ok c ∧ (mul SE3.ops c b).IsThrow := by
  obtain ⟨a, b, -, h1, h2, -, c, h3, -, -, -, h4, -⟩ := c93_frames ((1 : M3), ![5, 0, 0]) (quarterTurn, ![1, 2, 3]) quarterTurn_isRotation
    (exFrame 1) (exFrame 2) (exFrame 3) (by decide) (by decide) (by decide) (by decide)
  exact ⟨a, b, h1, h2, c, h3, h4⟩

end Verif.Props
