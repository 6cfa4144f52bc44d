import Verif.Props.MountedExamples
/-! # C104: the circles of the library's test helpers -/
namespace Verif.Props
open Matrix Verif.Framed Verif.Spec SO3 CurveExamples

/-- Where the body on the unit circle is after the angle `t`: heading along the circle, its x axis forward. -/
noncomputable def onCircle (t : ℝ) : Pose := (angleAxisMatrix (Real.pi / 2 + t) zAxis, ![Real.cos t, Real.sin t, 0])

theorem onCircle_rotation (t : ℝ) : IsRotation (onCircle t).1 := by
  unfold onCircle
  rw [SO3.angleAxis_exp _ zAxis_sq]
  exact SO3.isRotation_exp _

/-- The inverse of that pose, as the curve stores it. -/
theorem onCircle_inv (t : ℝ) : SE3.ops.inv (onCircle t) = (SO3.exp (-(Real.pi / 2 + t) • zAxis), ![0, 1, 0]) := by
  unfold onCircle
  rw [SO3.angleAxis_exp _ zAxis_sq]
  have hc : Real.cos (Real.pi / 2 + t) = -Real.sin t := by rw [add_comm, Real.cos_add_pi_div_two]
  have hs : Real.sin (Real.pi / 2 + t) = Real.cos t := by rw [add_comm, Real.sin_add_pi_div_two]
  have h1 := Real.sin_sq_add_cos_sq t
  refine Prod.ext ?_ ?_
  · change (SO3.exp _).transpose = SO3.exp _
    rw [exp_z, exp_z, Real.cos_neg, Real.sin_neg]
    ext i j
    fin_cases i <;> fin_cases j <;> simp
  · change (SO3.exp _).transpose *ᵥ (-![Real.cos t, Real.sin t, 0]) = ![0, 1, 0]
    rw [exp_z, hc, hs]
    funext i
    fin_cases i <;> simp [Matrix.mulVec, dotProduct, Fin.sum_univ_three] <;> nlinarith

theorem circleVelocity_eq : circleVelocity = (-zAxis, ![0, 1, 0] ⨯₃ (-zAxis)) := by
  unfold circleVelocity zAxis
  refine Prod.ext ?_ ?_
  · funext i; fin_cases i <;> simp
  · funext i; fin_cases i <;> simp [cross_apply]

/-- The circle as a motion along one axis. -/
theorem circle_axis (t : ℝ) : SE3.ops.mul (SE3.xexp (t • circleVelocity)) (SE3.ops.inv (onCircle 0)) = SE3.ops.inv (onCircle t) := by
  rw [onCircle_inv, onCircle_inv, circleVelocity_eq, SE3.xexp_about]
  have e : t • (-zAxis) = (-t) • zAxis := by rw [smul_neg, neg_smul]
  have e2 : -(Real.pi / 2 + t) = -t - Real.pi / 2 := by ring
  rw [e, add_zero, e2]
  refine Prod.ext ?_ ?_
  · change SO3.exp _ * SO3.exp _ = SO3.exp _
    rw [exp_z, exp_z, exp_z, Real.cos_sub_pi_div_two, Real.sin_sub_pi_div_two, Real.cos_neg (Real.pi / 2), Real.sin_neg (Real.pi / 2), Real.cos_pi_div_two, Real.sin_pi_div_two]
    ext i j
    fin_cases i <;> fin_cases j <;> simp [Matrix.mul_apply, Fin.sum_univ_three]
  · change SO3.exp _ *ᵥ _ + (_ - SO3.exp _ *ᵥ _) = _
    abel

theorem circle_neighbours {a b : ℝ} {pre post : List ℝ} (h : circleTimes = pre ++ a :: b :: post) : b - a = Real.pi / 2 := by
  have hl : pre.length + 1 < circleTimes.length := by rw [h]; simp
  have := circle_step pre.length hl
  simp only [h, List.getElem_append_right (le_refl _), List.getElem_append_right (Nat.le_succ _)] at this
  simpa using this

theorem circle_controls {world curve : Frame} {c : TCurve Pose Twist} (h : c.controls = circleTimes.map (circleControl curve world)) :
    times c = circleTimes ∧
    ∀ p ∈ c.controls, OnAxis poseMatrix twistHat circleVelocity (SE3.ops.inv (onCircle 0)) Polynomial.X p.time p.point.g.val p.point.d p.point.d2 := by
  constructor
  · unfold times
    rw [h, List.map_map]
    exact List.map_id _
  · intro p hp
    rw [h, List.mem_map] at hp
    obtain ⟨t, -, rfl⟩ := hp
    refine ⟨onAxis_pose.mpr ?_, ?_, ?_⟩
    · rw [Polynomial.eval_X, circleControl_time, circle_axis, onCircle_inv]
      rfl
    · simp [circleControl]
    · simp [circleControl]

theorem circleVelocity_norms : eucNorm circleVelocity.1 = 1 ∧ eucNorm circleVelocity.2 = 1 := by
  constructor <;> simp [circleVelocity, eucNorm, sqNorm_eq]

theorem circle_turns {c : TCurve Pose Twist} (h : times c = circleTimes) : TurnsWithin (times c) Polynomial.X circleVelocity.1 := by
  intro a b pre post e
  rw [h] at e
  apply within_of_lt
  rw [Polynomial.eval_X, Polynomial.eval_X, circle_neighbours e, eucNorm_smul, circleVelocity_norms.1, mul_one, abs_of_pos Real.pi_div_two_pos]
  linarith [Real.pi_pos]

/-- C104 for the time curve: `make_circle_curve` succeeds and starts at time 0 and ends at 2π.  At every time in between, and at no other, it has a point, and there
the body is on the unit circle at the angle that is the time, heading along the circle: exactly its orientation, and its place within 1e-14. -/
theorem c104_time_circle (world curve : Frame) (hw : world ≠ Frame.null) (hc : curve ≠ Frame.null) :
    ∃ c, makeCircleCurve curve world = .ok c ∧ TCurve.startTime c = .ok 0 ∧ TCurve.endTime c = .ok (2 * Real.pi) ∧
      TCurve.referenceFrame c = .ok world ∧ TCurve.pointFrame c = .ok curve ∧
      (∀ t, 0 ≤ t → t ≤ 2 * Real.pi → ∃ p, TCurve.pointAt SE3.ops c t = .ok p ∧ Spec.Within 1e-14 (SE3.ops.inv p.g.val) (onCircle t)) ∧
      ∀ t, t < 0 ∨ 2 * Real.pi < t → (TCurve.pointAt SE3.ops c t).IsThrow := by
  obtain ⟨c, c1, c2, c3, c4⟩ := circle_make world curve hw hc circleTimes circle_times
  have hlen : c.controls.length = 5 := by rw [c4, List.length_map]; rfl
  have hstart : TCurve.startTime c = .ok 0 := by unfold TCurve.startTime; rw [c4]; rfl
  have hend : TCurve.endTime c = .ok (2 * Real.pi) := by unfold TCurve.endTime; rw [c4]; rfl
  obtain ⟨ht, hon⟩ := circle_controls c4
  refine ⟨c, c1, hstart, hend, by unfold TCurve.referenceFrame; rw [c4]; rfl, by unfold TCurve.pointFrame; rw [c4]; rfl, fun t t0 t1 => ?_, fun t ht' => ?_⟩
  · obtain ⟨p, hp⟩ := (c41_domain SE3.ops c c2 c3 t).1.mpr ⟨by rw [hlen]; decide, _, _, hstart, hend, t0, t1⟩
    refine ⟨p, hp, ?_⟩
    obtain ⟨g, g1, g2, g3⟩ := c82_se3_close_partial c c2 c3 circleVelocity (SE3.ops.inv (onCircle 0)) (isRotation_transpose (onCircle_rotation 0)) Polynomial.X
      (by rw [Polynomial.natDegree_X]; norm_num) hon (circle_turns ht) t 5 (by
        intro a b pre post e _ _
        rw [ht] at e
        have hs := circle_neighbours e
        simp only [Polynomial.eval_X, Polynomial.derivative_X, Polynomial.eval_one, Polynomial.derivative_one, Polynomial.eval_zero, hs, abs_one, abs_zero]
        rw [abs_of_pos Real.pi_div_two_pos]
        linarith [Real.pi_lt_d2]) p hp
    rw [onAxis_pose, Polynomial.eval_X, circle_axis] at g1
    rw [circleVelocity_norms.2] at g3
    have hn : SE3.Near p.g.val (SE3.ops.inv (onCircle t)) 1e-14 := by
      rw [← g1]
      exact ⟨g2, g3.trans (by norm_num)⟩
    have := near_inv (isRotation_transpose (onCircle_rotation t)) hn
    rw [se3Laws.inv_inv (valid := PoseValid) (onCircle_rotation t)] at this
    exact this
  · refine (c41_domain SE3.ops c c2 c3 t).2.mpr fun hp => ?_
    obtain ⟨-, s, e, hs, he, h0, h1⟩ := (c41_domain SE3.ops c c2 c3 t).1.mp hp
    rw [hstart] at hs
    rw [hend] at he
    have := Outcome.ok.inj hs
    have := Outcome.ok.inj he
    rcases ht' with h | h <;> linarith

theorem quarter_log : SO3.log !![0, 1, 0; -1, 0, 0; 0, 0, 1] = (-(Real.pi / 2)) • zAxis := by
  have e : SO3.exp ((-(Real.pi / 2)) • zAxis) = !![0, 1, 0; -1, 0, 0; 0, 0, 1] := by
    rw [exp_z]
    simp
  rw [← e]
  apply SO3.log_exp
  rw [eucNorm_smul, zAxis_norm, mul_one, abs_neg, abs_of_pos Real.pi_div_two_pos]
  linarith [Real.pi_pos]

/-- C104 for the time curve, with its derivatives: at the five times of its controls, and at every time at which no term of the formula is in the small-angle
region, the pose is exactly that on the circle, the body moves forward at speed one and turns left at one radian per second (the curve holds the inverse of
the pose, so that the signs are reversed), and the acceleration is zero. -/
theorem c104_time_circle_exact (world curve : Frame) (hw : world ≠ Frame.null) (hc : curve ≠ Frame.null) (c : TCurve Pose Twist)
    (h : makeCircleCurve curve world = .ok c) (t : ℝ) (t0 : 0 ≤ t) (t1 : t ≤ 2 * Real.pi) (ht : t ∈ circleTimes ∨ ExactQuery c t) :
    ∃ p, TCurve.pointAt SE3.ops c t = .ok p ∧ SE3.ops.inv p.g.val = onCircle t ∧ p.d = (-![0, 0, 1], -![1, 0, 0]) ∧ p.d2 = 0 := by
  obtain ⟨c', c1, c2, c3, c4⟩ := circle_make world curve hw hc circleTimes circle_times
  obtain rfl : c = c' := Outcome.ok.inj (h.symm.trans c1)
  have hlen : c.controls.length = 5 := by rw [c4, List.length_map]; rfl
  have hstart : TCurve.startTime c = .ok 0 := by unfold TCurve.startTime; rw [c4]; rfl
  have hend : TCurve.endTime c = .ok (2 * Real.pi) := by unfold TCurve.endTime; rw [c4]; rfl
  have hv : circleVelocity = (-![0, 0, 1], -![1, 0, 0]) := by
    unfold circleVelocity
    refine Prod.ext ?_ ?_ <;> (funext i; fin_cases i <;> simp)
  have hi : ∀ t, SE3.ops.inv (SO3.exp (-(Real.pi / 2 + t) • zAxis), ![0, 1, 0]) = onCircle t := by
    intro t
    rw [← onCircle_inv]
    exact se3Laws.inv_inv (valid := PoseValid) (onCircle_rotation t)
  rw [← hv]
  rcases ht with ht | ht
  · have hl : c.controls.length = circleTimes.length := hlen
    have hr : WellRotated c := by
      intro i hi
      right
      have g : ∀ (i : Nat) (hi : i < c.controls.length), c.controls[i] = circleControl curve world (circleTimes[i]'(hl ▸ hi)) := by
        intro i hi
        simp only [c4, List.getElem_map]
      rw [g i (by omega), g (i + 1) hi]
      unfold relativeRotation
      change 0.002 < eucNorm (SO3.log (SO3.exp (-(Real.pi / 2 + _) • zAxis) * (SO3.exp (-(Real.pi / 2 + _) • zAxis)).transpose))
      rw [circle_relative _ _ (circle_step i (hl ▸ hi)), quarter_log, eucNorm_smul, zAxis_norm, mul_one, abs_neg, abs_of_pos Real.pi_div_two_pos]
      linarith [Real.pi_gt_three]
    have := (c39_se3_partial c c2 c3 (by rw [hlen]; decide) (by
      intro p hp
      rw [c4, List.mem_map] at hp
      obtain ⟨t, -, rfl⟩ := hp
      exact SO3.isRotation_exp _) hr).1 (circleControl curve world t) (by rw [c4]; exact List.mem_map_of_mem ht)
    exact ⟨_, this, hi t, rfl, rfl⟩
  · obtain ⟨p, hp⟩ := (c41_domain SE3.ops c c2 c3 t).1.mpr ⟨by rw [hlen]; decide, _, _, hstart, hend, t0, t1⟩
    obtain ⟨e, hon⟩ := circle_controls c4
    obtain ⟨p1, p2, p3⟩ := c82_se3_partial c c2 c3 circleVelocity (SE3.ops.inv (onCircle 0)) (isRotation_transpose (onCircle_rotation 0)) Polynomial.X
      (by rw [Polynomial.natDegree_X]; norm_num) hon (circle_turns e) (by
        intro a b pre post e'
        rw [e] at e'
        right
        rw [Polynomial.eval_X, Polynomial.eval_X, circle_neighbours e', eucNorm_smul, circleVelocity_norms.1, mul_one, abs_of_pos Real.pi_div_two_pos]
        linarith [Real.pi_gt_three]) t ht p hp
    rw [onAxis_pose, Polynomial.eval_X, circle_axis] at p1
    refine ⟨p, hp, ?_, ?_, ?_⟩
    · rw [p1]
      exact se3Laws.inv_inv (valid := PoseValid) (onCircle_rotation t)
    · rw [p2]; simp
    · rw [p3]; simp

theorem circle_split {world curve : Frame} {c : TCurve Pose Twist} (c4 : c.controls = circleTimes.map (circleControl curve world))
    {a b : TControl Pose Twist} {pre post : List (TControl Pose Twist)} (e : c.controls = pre ++ a :: b :: post) :
    ∃ i : Nat, i < 4 ∧ a = circleControl curve world (i * (Real.pi / 2)) ∧ b = circleControl curve world ((i + 1) * (Real.pi / 2)) := by
  have hl : c.controls.length = circleTimes.length := by rw [c4, List.length_map]
  have h4 : pre.length + 1 < circleTimes.length := by rw [← hl, e]; simp
  have ha : a = circleControl curve world (circleTimes[pre.length]'(by omega)) := by
    have : c.controls[pre.length]'(by omega) = a := by simp only [e, List.getElem_append_right (le_refl _), Nat.sub_self, List.getElem_cons_zero]
    rw [← this]
    simp only [c4, List.getElem_map]
  have hb : b = circleControl curve world (circleTimes[pre.length + 1]'h4) := by
    have : c.controls[pre.length + 1]'(by omega) = b := by
      simp only [e, List.getElem_append_right (Nat.le_succ _)]
      simp
    rw [← this]
    simp only [c4, List.getElem_map]
  have ht : ∀ (j : Nat) (hj : j < circleTimes.length), circleTimes[j] = j * (Real.pi / 2) := by
    intro j hj
    have h5 : j < 5 := hj
    interval_cases j <;> simp [circleTimes] <;> ring
  refine ⟨pre.length, by have : circleTimes.length = 5 := rfl; omega, ?_, ?_⟩
  · rw [ha, ht]
  · rw [hb, ht]
    push_cast
    rfl

theorem circle_terms {u : ℝ} (h0 : 0.08 ≤ u) (h1 : u ≤ 0.92) : 0.00128 < |(Quintic.destFromOrig u).a| ∧ 0.00128 < |(Quintic.dOrig u).a| ∧
    0.00128 < |(Quintic.dDest u).a| := by
  have e1 : (Quintic.destFromOrig u).a = u ^ 3 * (10 - 15 * u + 6 * u ^ 2) := by
    simp [Quintic.destFromOrig, Quintic.coeffs_a, Quintic.destOrigTable]; ring
  have e2 : (Quintic.dOrig u).a = u * ((1 - u) ^ 3 * (1 + 3 * u)) := by
    simp [Quintic.dOrig, Quintic.coeffs_a, Quintic.dOrigTable]; ring
  have e3 : (Quintic.dDest u).a = -((1 - u) * (u ^ 3 * (4 - 3 * u))) := by
    simp [Quintic.dDest, Quintic.coeffs_a, Quintic.dDestTable]; ring
  have key : ∀ v : ℝ, 0.08 ≤ v → v ≤ 0.92 → 0.00128 < v * ((1 - v) ^ 3 * (1 + 3 * v)) := by
    intro v v0 v1
    have hw : 0.08 ≤ 1 - v := by linarith
    rcases le_or_gt v 0.5 with h | h
    · have a1 : (0.5 : ℝ) ^ 3 ≤ (1 - v) ^ 3 := pow_le_pow_left₀ (by norm_num) (by linarith) 3
      have a2 : (0.5 : ℝ) ^ 3 * 1.24 ≤ (1 - v) ^ 3 * (1 + 3 * v) := mul_le_mul a1 (by linarith) (by norm_num) (by positivity)
      have a3 : 0.08 * ((0.5 : ℝ) ^ 3 * 1.24) ≤ v * ((1 - v) ^ 3 * (1 + 3 * v)) := mul_le_mul v0 a2 (by norm_num) (by linarith)
      norm_num at a3 ⊢
      linarith
    · rcases le_or_gt v 0.8 with h' | h'
      · have a1 : (0.2 : ℝ) ^ 3 ≤ (1 - v) ^ 3 := pow_le_pow_left₀ (by norm_num) (by linarith) 3
        have a2 : (0.2 : ℝ) ^ 3 * 2.5 ≤ (1 - v) ^ 3 * (1 + 3 * v) := mul_le_mul a1 (by linarith) (by norm_num) (by positivity)
        have a3 : 0.5 * ((0.2 : ℝ) ^ 3 * 2.5) ≤ v * ((1 - v) ^ 3 * (1 + 3 * v)) := mul_le_mul h.le a2 (by norm_num) (by linarith)
        norm_num at a3 ⊢
        linarith
      · have a1 : (0.08 : ℝ) ^ 3 ≤ (1 - v) ^ 3 := pow_le_pow_left₀ (by norm_num) hw 3
        have a2 : (0.08 : ℝ) ^ 3 * 3.4 ≤ (1 - v) ^ 3 * (1 + 3 * v) := mul_le_mul a1 (by linarith) (by norm_num) (by positivity)
        have a3 : 0.8 * ((0.08 : ℝ) ^ 3 * 3.4) ≤ v * ((1 - v) ^ 3 * (1 + 3 * v)) := mul_le_mul h'.le a2 (by norm_num) (by linarith)
        norm_num at a3 ⊢
        linarith
  refine ⟨?_, ?_, ?_⟩
  · rw [e1]
    refine lt_of_lt_of_le ?_ (le_abs_self _)
    rcases le_or_gt u 0.5 with h | h
    · have a1 : (0.08 : ℝ) ^ 3 ≤ u ^ 3 := pow_le_pow_left₀ (by norm_num) h0 3
      have a2 : (0.08 : ℝ) ^ 3 * 4 ≤ u ^ 3 * (10 - 15 * u + 6 * u ^ 2) := mul_le_mul a1 (by nlinarith) (by norm_num) (by positivity)
      norm_num at a2 ⊢
      linarith
    · have a1 : (0.5 : ℝ) ^ 3 ≤ u ^ 3 := pow_le_pow_left₀ (by norm_num) h.le 3
      have a2 : (0.5 : ℝ) ^ 3 * 0.5 ≤ u ^ 3 * (10 - 15 * u + 6 * u ^ 2) := mul_le_mul a1 (by nlinarith) (by norm_num) (by positivity)
      norm_num at a2 ⊢
      linarith
  · rw [e2]
    exact lt_of_lt_of_le (key u h0 h1) (le_abs_self _)
  · rw [e3, abs_neg]
    have := key (1 - u) (by linarith) (by linarith)
    refine lt_of_lt_of_le ?_ (le_abs_self _)
    have e : (1 - u) * ((1 - (1 - u)) ^ 3 * (1 + 3 * (1 - u))) = (1 - u) * (u ^ 3 * (4 - 3 * u)) := by ring
    rwa [e] at this

/-- The condition of `c104_time_circle_exact` holds on more than four fifths of the circle: from 0.08 to 0.92 of every quarter. -/
theorem c104_exact_times (world curve : Frame) (hw : world ≠ Frame.null) (hc : curve ≠ Frame.null) (c : TCurve Pose Twist)
    (h : makeCircleCurve curve world = .ok c) (k : Nat) (u : ℝ) (h0 : 0.08 ≤ u) (h1 : u ≤ 0.92) : ExactQuery c ((k + u) * (Real.pi / 2)) := by
  obtain ⟨c', c1, c2, c3, c4⟩ := circle_make world curve hw hc circleTimes circle_times
  obtain rfl : c = c' := Outcome.ok.inj (h.symm.trans c1)
  have hp := Real.pi_gt_d2
  intro a b pre post e ha hb
  obtain ⟨i, -, ea, eb⟩ := circle_split c4 e
  subst ea eb
  rw [circleControl_time] at ha hb
  have ha' := le_of_mul_le_mul_right ha Real.pi_div_two_pos
  have hb' := le_of_mul_le_mul_right hb Real.pi_div_two_pos
  obtain rfl : i = k := by
    have l1 : (i : ℝ) < k + 1 := by linarith
    have l2 : (k : ℝ) < i + 1 := by linarith
    have l1' : i < k + 1 := by exact_mod_cast l1
    have l2' : k < i + 1 := by exact_mod_cast l2
    omega
  rw [circleControl_time, circleControl_time]
  have hd : ((i : ℝ) + 1) * (Real.pi / 2) - i * (Real.pi / 2) = Real.pi / 2 := by ring
  have hu : (((i : ℝ) + u) * (Real.pi / 2) - i * (Real.pi / 2)) / (((i : ℝ) + 1) * (Real.pi / 2) - i * (Real.pi / 2)) = u := by
    rw [hd]
    field_simp
    ring
  rw [hu]
  obtain ⟨q1, q2, q3⟩ := circle_terms h0 h1
  have big : ∀ (r : ℝ) (v : V3), eucNorm v = Real.pi / 2 → 0.00128 < |r| → 0.002 < eucNorm (r • v) := by
    intro r v hv hr
    rw [eucNorm_smul, hv]
    nlinarith [abs_nonneg r]
  have hn : eucNorm ((Real.pi / 2) • circleVelocity.1) = Real.pi / 2 := by
    rw [eucNorm_smul, circleVelocity_norms.1, mul_one, abs_of_pos Real.pi_div_two_pos]
  refine ⟨.inr (.inr (big _ _ ?_ q1)), .inr (.inr (big _ _ ?_ q2)), .inr (.inr (big _ _ ?_ q3)), .inl ?_, .inl ?_⟩
  · unfold relativeRotation between
    change eucNorm (SO3.log (SO3.exp (-(Real.pi / 2 + _) • zAxis) * (SO3.exp (-(Real.pi / 2 + _) • zAxis)).transpose)) = _
    rw [circle_relative _ _ hd, quarter_log, eucNorm_smul, zAxis_norm, mul_one, abs_neg, abs_of_pos Real.pi_div_two_pos]
  · simp only [between, circleControl_time, hd]
    exact hn
  · simp only [between, circleControl_time, hd]
    exact hn
  · simp [between, circleControl]
  · simp [between, circleControl]

/-- A time of the kind that `c104_time_circle_exact` asks for, in the middle of the third quarter. -/
example : ∃ c, makeCircleCurve (exFrame 2) (exFrame 1) = .ok c ∧ ExactQuery c (5 * Real.pi / 4) := by
  obtain ⟨c, hc, -⟩ := c104_time_circle (exFrame 1) (exFrame 2) (by decide) (by decide)
  refine ⟨c, hc, ?_⟩
  have := c104_exact_times (exFrame 1) (exFrame 2) (by decide) (by decide) c hc 2 0.5 (by norm_num) (by norm_num)
  rwa [show ((2 : ℕ) + 0.5) * (Real.pi / 2) = 5 * Real.pi / 4 by push_cast; ring] at this

/-! ## The distance curve -/

theorem threeQuarters_eq : threeQuarters = (unitCircle 0 1).take 4 := by
  unfold threeQuarters unitCircle
  simp only [List.take, List.cons.injEq, Prod.mk.injEq, true_and, and_true]
  refine ⟨?_, ?_, ?_, ?_⟩ <;> (funext i; fin_cases i <;> simp)

/-- C104 for the distance curve: through the four poses of `DCurveCircle` goes a curve of length 3π/2.  At every distance up to that, and at no other, it has a
point, and that is the point of the unit circle at that distance, turned along the circle: exactly its orientation, and its place within 1e-17. -/
theorem c104_distance_circle (ref pnt : Frame) (h0 : ref ≠ Frame.null) (h1 : pnt ≠ Frame.null) :
    ∃ c, DCurve.make SE3.ops SE3.arcLength (threeQuarters.map fun v => ⟨v, ref, pnt⟩) = .ok c ∧ DCurve.curveLength c = 3 * Real.pi / 2 ∧
      DCurve.referenceFrame c = .ok ref ∧ DCurve.pointFrame c = .ok pnt ∧ c.controls.map (·.arcLength) = [0, Real.pi / 2, Real.pi, 3 * Real.pi / 2] ∧
      (∀ s, 0 ≤ s → s ≤ 3 * Real.pi / 2 → ∃ g, DCurve.pointAt SE3.ops c s = .ok g ∧
        Spec.Within 1e-17 g.val (angleAxisMatrix s zAxis, ![Real.cos s, Real.sin s, 0])) ∧
      ∀ s, s < 0 ∨ 3 * Real.pi / 2 < s → (DCurve.pointAt SE3.ops c s).IsThrow := by
  obtain ⟨c, c1, c2, c3⟩ := framed_make ref pnt h0 h1 threeQuarters
  have hlen : c.controls.length = 4 := by
    have := congrArg List.length c3
    rw [List.length_map] at this
    exact this
  obtain ⟨x, hx⟩ : ∃ x : Twist, x = (zAxis, ![-1, 0, 0] ⨯₃ zAxis) := ⟨_, rfl⟩
  have hcr : ![-1, 0, 0] ⨯₃ zAxis = ![0, 1, 0] := by rw [zAxis, cross_apply]; simp
  have hn : eucNorm x.2 = 1 := by
    rw [hx, hcr, eucNorm, sqNorm_eq]
    simp
  have hp := Real.pi_gt_three
  have hat : ∀ a : ℝ, SE3.ops.mul (1, ![1, 0, 0]) (SE3.xexp (a • x)) = (SO3.exp (a • zAxis), ![Real.cos a, Real.sin a, 0]) := by
    intro a
    have := circle_at 0 1 a
    simp only [Pi.zero_apply, add_zero, one_mul, mul_zero] at this
    rw [hx]
    exact this
  have hon : ∀ (i : Nat) (hi : i < c.controls.length), OnScrew x (1, ![1, 0, 0]) (i * (Real.pi / 2)) c.controls[i].pose.val := by
    intro i hi
    rw [onScrew_pose, hat]
    have hg : c.controls[i].pose.val = threeQuarters[i]'(by rw [← c3, List.length_map]; exact hi) := by
      simp only [← c3, List.getElem_map]
    rw [hg]
    have h3 : 3 * (Real.pi / 2) = Real.pi + Real.pi / 2 := by ring
    have h3' : 3 * Real.pi / 2 = Real.pi + Real.pi / 2 := by ring
    have h2 : 2 * (Real.pi / 2) = Real.pi := by ring
    have h4 : i < 4 := by omega
    interval_cases i
    · simp [threeQuarters, SO3.exp_zero]
    · simp [threeQuarters, SO3.angleAxis_exp _ zAxis_sq]
    · simp [threeQuarters, SO3.angleAxis_exp _ zAxis_sq, h2]
    · simp [threeQuarters, SO3.angleAxis_exp _ zAxis_sq, h3, h3', Real.cos_add, Real.sin_add]
  obtain ⟨k1, k2⟩ := c89_helix_partial c c2 x (1, ![1, 0, 0]) isRotation_one (fun i => i * (Real.pi / 2)) hon (by
    intro i _
    have e : ((i + 1 : ℕ) : ℝ) * (Real.pi / 2) - i * (Real.pi / 2) = Real.pi / 2 := by push_cast; ring
    have hq : eucNorm ((Real.pi / 2) • x.1) = Real.pi / 2 := by rw [hx, eucNorm_smul, zAxis_norm, mul_one, abs_of_pos Real.pi_div_two_pos]
    simp only [e]
    refine ⟨?_, by rw [hq]; linarith, .inr (by rw [hq]; linarith)⟩
    linarith)
  simp only [hn, Nat.cast_zero, zero_mul, zero_add, sub_zero, mul_one, div_one] at k1 k2
  have hl : DCurve.curveLength c = 3 * Real.pi / 2 := by
    unfold DCurve.curveLength
    rw [List.getLast?_eq_getElem?, hlen, List.getElem?_eq_getElem (by omega)]
    simp only
    rw [k1 3 (by omega)]
    push_cast
    ring
  obtain ⟨b, b1⟩ : ∃ b, c.controls.head? = some b := by
    rw [List.head?_eq_getElem?, List.getElem?_eq_getElem (by omega)]
    exact ⟨_, rfl⟩
  have hb : b.pose.into = ref ∧ b.pose.src = pnt := by
    have hm : b.pose ∈ c.controls.map (·.pose) := List.mem_map_of_mem (List.mem_of_mem_head? b1)
    rw [((c42_construct SE3.ops SE3.arcLength _ (by
      intro p hp
      obtain ⟨v, -, rfl⟩ := List.mem_map.mp hp
      exact ⟨fun e => absurd e h0, fun e => absurd e h1⟩)).1 c c1).2] at hm
    obtain ⟨v, -, e⟩ := List.mem_map.mp hm
    rw [← e]
    exact ⟨rfl, rfl⟩
  refine ⟨c, c1, hl, ?_, ?_, ?_, fun s s0 s1 => ?_, fun s hs => ?_⟩
  · rw [((c46_reported c).1 b b1).1, hb.1]
  · rw [((c46_reported c).1 b b1).2.1, hb.2]
  · apply List.ext_getElem
    · simp [hlen]
    · intro i hi hi'
      simp only [List.length_map] at hi
      rw [List.getElem_map, k1 i hi]
      have h4 : i < 4 := by omega
      interval_cases i <;> simp <;> ring
  · obtain ⟨g, hg⟩ := dcurve_answers c2 (by omega) (by
      intro i hi
      rw [k1 i (by omega), k1 (i + 1) hi]
      push_cast
      linarith) s0 (by rw [hl]; exact s1)
    refine ⟨g, hg, ?_⟩
    obtain ⟨p, p1, p2⟩ := k2 s g hg
    rw [onScrew_pose, hat] at p1
    rw [SO3.angleAxis_exp _ zAxis_sq, ← p1]
    refine ⟨p2.1, p2.2.trans ?_⟩
    linarith [Real.pi_lt_d2]
  · refine (c45_domain_partial SE3.ops SE3.arcLength (fun _ => eucNorm_nonneg _) c c2 s).2.mpr ?_
    rw [hl]
    exact .inr hs

/-- A world and a body frame, as the statements ask for. -/
example : exFrame 1 ≠ Frame.null ∧ exFrame 2 ≠ Frame.null := by decide

end Verif.Props
