import Verif.Spec.Bend
import Verif.Model.DroneExample
import Verif.Props.SmoothTrajectory
import Verif.Proofs.Approx
/-! # C105: what the drone trajectory of the visualization examples does -/
namespace Verif.Props
open Verif.Framed Verif.Spec SO3 Matrix Binary64 CurveExamples DroneExample

/-! ## How sharply a body turns, from its state -/

/-- C105.  The curvature of the path of a body, from its state alone: with `v`, `a` the body's linear velocity and acceleration and `ω` its angular velocity,
the path of every motion that has this state at time `t` bends there with curvature `|v × (a + ω × v)| / |v|³`. -/
theorem c105_bends (s : RBState) (g : ℝ → Pose) (t : ℝ) (hr : IsRotation s.refFromBody.val.1) (hg : g t = s.refFromBody.val)
    (h : BodyKinematics g t s.linearVelocity s.angularVelocity s.linearAcceleration s.angularAcceleration) (hv : s.linearVelocity ≠ 0) :
    Bends (fun r => (g r).2) t (s.refFromBody.val.1 *ᵥ (s.linearAcceleration + s.angularVelocity ⨯₃ s.linearVelocity))
      (eucNorm (s.linearVelocity ⨯₃ (s.linearAcceleration + s.angularVelocity ⨯₃ s.linearVelocity)) / eucNorm s.linearVelocity ^ 3) := by
  obtain ⟨p', h1, h2, h3⟩ := c48_position_acceleration s g t hg h
  refine ⟨p', h1, h3, ?_, ?_⟩
  · rw [h2]
    intro e
    have := congrArg (s.refFromBody.val.1.transpose *ᵥ ·) e
    simp only [mulVec_mulVec, hr.orth, one_mulVec, mulVec_zero] at this
    exact hv this
  · rw [h2, ← SO3.mulVec_cross hr]
    change _ = eucNorm (s.refFromBody.val.1 *ᵥ _) / eucNorm (s.refFromBody.val.1 *ᵥ _) ^ 3
    rw [eucNorm_mulVec hr, eucNorm_mulVec hr]

/-- On a circle of radius `ρ`, run through at rate `ω`, the curvature is one over the radius. -/
theorem circle_bends (ρ ω t : ℝ) (hρ : 0 < ρ) (hω : ω ≠ 0) :
    Bends (fun r => ![ρ * Real.cos (ω * r), ρ * Real.sin (ω * r), 0]) t
      ![-(ρ * ω ^ 2 * Real.cos (ω * t)), -(ρ * ω ^ 2 * Real.sin (ω * t)), 0] (1 / ρ) := by
  have lin : ∀ r : ℝ, HasDerivAt (fun r => ω * r) ω r := fun r => by simpa using (hasDerivAt_id r).const_mul ω
  refine ⟨fun r => ![-(ρ * ω * Real.sin (ω * r)), ρ * ω * Real.cos (ω * r), 0], Filter.Eventually.of_forall fun r => ?_, ?_, ?_, ?_⟩
  · rw [hasDerivAt_pi]
    intro i
    fin_cases i
    · exact (((lin r).cos).const_mul ρ).congr_deriv (by change ρ * (-Real.sin (ω * r) * ω) = -(ρ * ω * Real.sin (ω * r)); ring)
    · exact (((lin r).sin).const_mul ρ).congr_deriv (by change ρ * (Real.cos (ω * r) * ω) = ρ * ω * Real.cos (ω * r); ring)
    · exact hasDerivAt_const r (0 : ℝ)
  · rw [hasDerivAt_pi]
    intro i
    fin_cases i
    · exact (((lin t).sin).const_mul (ρ * ω)).neg.congr_deriv (by
        change -(ρ * ω * (Real.cos (ω * t) * ω)) = -(ρ * ω ^ 2 * Real.cos (ω * t)); ring)
    · exact (((lin t).cos).const_mul (ρ * ω)).congr_deriv (by
        change ρ * ω * (-Real.sin (ω * t) * ω) = -(ρ * ω ^ 2 * Real.sin (ω * t)); ring)
    · exact hasDerivAt_const t (0 : ℝ)
  · intro e
    have e0 := congrFun e 0
    have e1 := congrFun e 1
    simp [hρ.ne', hω] at e0 e1
    have := Real.sin_sq_add_cos_sq (ω * t)
    rw [e0, e1] at this
    norm_num at this
  · have cs := Real.sin_sq_add_cos_sq (ω * t)
    have q0 : 0 < ρ * |ω| := mul_pos hρ (abs_pos.mpr hω)
    have k1 : (![-(ρ * ω * Real.sin (ω * t)), ρ * ω * Real.cos (ω * t), 0] : V3) ⬝ᵥ ![-(ρ * ω * Real.sin (ω * t)), ρ * ω * Real.cos (ω * t), 0] =
        (ρ * |ω|) ^ 2 := by
      simp only [dotProduct, Fin.sum_univ_three, Matrix.cons_val_zero, Matrix.cons_val_one, Matrix.cons_val, mul_pow, sq_abs]
      linear_combination (ρ ^ 2 * ω ^ 2) * cs
    have k2 : (![-(ρ * ω * Real.sin (ω * t)), ρ * ω * Real.cos (ω * t), 0] : V3) ⨯₃
        ![-(ρ * ω ^ 2 * Real.cos (ω * t)), -(ρ * ω ^ 2 * Real.sin (ω * t)), 0] = ![0, 0, ρ ^ 2 * ω ^ 3] := by
      rw [cross_apply]
      funext i
      fin_cases i
      · simp
      · simp
      · change -(ρ * ω * Real.sin (ω * t)) * -(ρ * ω ^ 2 * Real.sin (ω * t)) - ρ * ω * Real.cos (ω * t) * -(ρ * ω ^ 2 * Real.cos (ω * t)) =
          ρ ^ 2 * ω ^ 3
        linear_combination (ρ ^ 2 * ω ^ 3) * cs
    have k3 : (![0, 0, ρ ^ 2 * ω ^ 3] : V3) ⬝ᵥ ![0, 0, ρ ^ 2 * ω ^ 3] = (ρ ^ 2 * |ω| ^ 3) ^ 2 := by
      simp only [dotProduct, Fin.sum_univ_three, Matrix.cons_val_zero, Matrix.cons_val_one, Matrix.cons_val]
      rw [show (ρ ^ 2 * |ω| ^ 3) ^ 2 = ρ ^ 4 * (|ω| ^ 2) ^ 3 by ring, sq_abs]
      ring
    rw [k1, k2, k3, Real.sqrt_sq q0.le, Real.sqrt_sq (by positivity)]
    have : |ω| ≠ 0 := abs_ne_zero.mpr hω
    field_simp

/-! ## The example -/

theorem drone_times : timestamps = .ok [0, 16500000000, 33000000000] := by
  have t : ∀ m : ℤ, |m| ≤ 2 ^ 53 → 0 ≤ m → asDuration (m / 1000000000 : ℚ) = i64 m := by
    intro m hm h0
    unfold asDuration
    rw [div_mul_cancel₀ _ (by norm_num), fl_representable (representable_int hm), trunc, if_pos (by exact_mod_cast h0), Int.floor_intCast]
  have t0 := t 0 (by norm_num) (by norm_num)
  have t1 := t 16500000000 (by norm_num) (by norm_num)
  have t2 := t 33000000000 (by norm_num) (by norm_num)
  norm_num at t0 t1 t2
  simp only [timestamps, defaultTimes, List.mapM_cons, List.mapM_nil, t0, t1, t2]
  decide

/-- The orientation at the middle waypoint: forwards is along y, upwards against x. -/
theorem drone_bank : SO3.exp ((Real.pi / 2) • zAxis) * SO3.exp (-(Real.pi / 2) • xAxis) = !![0, 0, -1; 1, 0, 0; 0, -1, 0] := by
  have hx : sqNorm xAxis = 1 := by rw [sqNorm_eq]; simp [xAxis]
  rw [exp_z, ← SO3.angleAxis_exp _ hx, Real.cos_pi_div_two, Real.sin_pi_div_two]
  have : angleAxisMatrix (-(Real.pi / 2)) xAxis = !![1, 0, 0; 0, 0, 1; 0, -1, 0] := by
    ext i j
    fin_cases i <;> fin_cases j <;> simp [angleAxisMatrix, xAxis]
  rw [this]
  ext i j
  fin_cases i <;> fin_cases j <;> simp [Matrix.mul_apply, Fin.sum_univ_three]

theorem drone_half : SO3.exp (Real.pi • zAxis) = !![-1, 0, 0; 0, -1, 0; 0, 0, 1] := by
  rw [exp_z]
  simp

/-- The three states of the example, spelled out. -/
noncomputable def droneStart (ref body : Frame) : RBState := ⟨⟨⟨(1, ![0, -3, 0]), ref, body⟩, (0, ![5, 0, 0]), 0⟩⟩
noncomputable def droneTurn (ref body : Frame) : RBState :=
  ⟨⟨⟨(!![0, 0, -1; 1, 0, 0; 0, -1, 0], ![8, 0, 0]), ref, body⟩, (![0, -Real.sqrt (7 / 150), 0], ![7, 0, 0]), 0⟩⟩
noncomputable def droneEnd (ref body : Frame) : RBState :=
  ⟨⟨⟨(!![-1, 0, 0; 0, -1, 0; 0, 0, 1], ![0, 3, 0]), ref, body⟩, (0, ![5, 0, 0]), 0⟩⟩

noncomputable def droneControls (ref body : Frame) : List TrajControl :=
  [⟨0, droneStart ref body⟩, ⟨16500000000, droneTurn ref body⟩, ⟨33000000000, droneEnd ref body⟩]

theorem drone_make (ref body : Frame) (h : ref = .null ↔ body = .null) : outAndBackBanked ref body = Trajectory.make (droneControls ref body) := by
  have mk : ∀ p : Pose, Framed.mk' p ref body = .ok ⟨p, ref, body⟩ := fun p => mk'_eq_ok_iff.mpr ⟨h, rfl⟩
  simp only [outAndBackBanked, state0, state1, state2, mk, drone_times, drone_bank, drone_half]
  rfl

theorem drone_rotations (ref body : Frame) : ∀ p ∈ droneControls ref body, IsRotation p.state.refFromBody.val.1 := by
  intro p hp
  simp only [droneControls, List.mem_cons, List.not_mem_nil, or_false] at hp
  rcases hp with rfl | rfl | rfl
  · exact se3Laws.valid_one
  · change IsRotation !![0, 0, -1; 1, 0, 0; 0, -1, 0]
    rw [← drone_bank]
    exact isRotation_mul (SO3.isRotation_exp _) (SO3.isRotation_exp _)
  · change IsRotation !![-1, 0, 0; 0, -1, 0; 0, 0, 1]
    rw [← drone_half]
    exact SO3.isRotation_exp _

theorem far_of_trace {R : M3} (h : IsRotation R) (ht : R.trace = 0) : 0.002 < eucNorm (SO3.log R) := by
  have := Approx.trace_exp (SO3.log R)
  rw [(SO3.exp_log h).1, ht] at this
  have c := Real.one_sub_sq_div_two_le_cos (x := eucNorm (SO3.log R))
  have := eucNorm_nonneg (SO3.log R)
  nlinarith

theorem drone_turns (ref body : Frame) : TurnsClearly (droneControls ref body) := by
  have hr := drone_rotations ref body
  have h1 := hr ⟨0, droneStart ref body⟩ (by simp [droneControls])
  have h2 := hr ⟨16500000000, droneTurn ref body⟩ (by simp [droneControls])
  have h3 := hr ⟨33000000000, droneEnd ref body⟩ (by simp [droneControls])
  intro i hi
  right
  match i, hi with
  | 0, _ =>
    refine far_of_trace (isRotation_mul (isRotation_transpose h2) h1) ?_
    change trace ((!![0, 0, -1; 1, 0, 0; 0, -1, 0] : M3).transpose * 1) = 0
    simp [trace, Fin.sum_univ_three]
  | 1, _ =>
    refine far_of_trace (isRotation_mul (isRotation_transpose h3) h2) ?_
    change trace ((!![-1, 0, 0; 0, -1, 0; 0, 0, 1] : M3).transpose * !![0, 0, -1; 1, 0, 0; 0, -1, 0]) = 0
    simp [trace, Fin.sum_univ_three, Matrix.mul_apply]
  | n + 2, hi => exact absurd hi (by simp [droneControls])

theorem drone_reached (ref body : Frame) (h : ref = .null ↔ body = .null) :
    ∃ T, outAndBackBanked ref body = .ok T ∧ Reached T (droneControls ref body) := by
  have hw : ∀ p ∈ droneControls ref body, Whole p.state.refFromBody := by
    intro p hp
    simp only [droneControls, List.mem_cons, List.not_mem_nil, or_false] at hp
    rcases hp with rfl | rfl | rfl <;> exact h
  have hi : ∀ p ∈ droneControls ref body, InI64 p.atTime := by
    intro p hp
    simp only [droneControls, List.mem_cons, List.not_mem_nil, or_false] at hp
    rcases hp with rfl | rfl | rfl <;> simp only [InI64, I64MAX, I64MIN] <;> norm_num
  obtain ⟨T, hT⟩ := (c50_construct_iff (droneControls ref body) hw hi (by
    intro p hp q hq
    simp only [droneControls, List.mem_cons, List.not_mem_nil, or_false] at hp hq
    rcases hp with rfl | rfl | rfl <;> rcases hq with rfl | rfl | rfl <;> norm_num)).1.mpr (by
    simp only [droneControls, List.pairwise_cons, List.mem_cons, List.not_mem_nil, or_false, List.Pairwise.nil, and_true, forall_eq_or_imp, forall_eq]
    refine ⟨⟨⟨rfl, rfl, by norm_num⟩, rfl, rfl, by norm_num⟩, ⟨rfl, rfl, by norm_num⟩, fun _ h => h.elim⟩)
  exact ⟨T, (drone_make ref body h).trans hT, (c50_construct _ hw hi).1 T hT⟩

/-- C105.  The drone trajectory exists, runs from 0 s to 33 s, has the frames of the example, passes through its three waypoints at 0 s, 16.5 s and 33 s in
exactly the states set there, answers at every nanosecond in between and throws outside. -/
theorem c105_built (ref body : Frame) (h : ref = .null ↔ body = .null) : ∃ T, outAndBackBanked ref body = .ok T ∧
    T.startTime = 0 ∧ Trajectory.endTime T = .ok 33000000000 ∧ Trajectory.referenceFrame T = .ok ref ∧ Trajectory.bodyFrame T = .ok body ∧
    Trajectory.pointAt T 0 = .ok (droneStart ref body) ∧ Trajectory.pointAt T 16500000000 = .ok (droneTurn ref body) ∧
    Trajectory.pointAt T 33000000000 = .ok (droneEnd ref body) ∧
    (∀ t, 0 ≤ t → t ≤ 33000000000 → (Trajectory.pointAt T t).IsOk) ∧
    ∀ t, |t| ≤ 2 ^ 52 → t < 0 ∨ 33000000000 < t → (Trajectory.pointAt T t).IsThrow := by
  obtain ⟨T, hT, hr⟩ := drone_reached ref body h
  have hc := c51_control_partial T _ hr (by simp [droneControls]) (drone_rotations ref body) (drone_turns ref body)
  have hf := (c50_invariant T _ hr).2.1 ⟨0, droneStart ref body⟩ (by simp [droneControls])
  refine ⟨T, hT, c50_start_time T _ _ hr, c52_whole_seconds T _ _ _ hr rfl rfl 33 (by norm_num) (by norm_num), hf.2, hf.1,
    (hc ⟨0, droneStart ref body⟩ (by simp [droneControls])).1, (hc ⟨16500000000, droneTurn ref body⟩ (by simp [droneControls])).1,
    (hc ⟨33000000000, droneEnd ref body⟩ (by simp [droneControls])).1, ?_, ?_⟩
  · intro t h0 h1
    obtain ⟨s, hs, -⟩ := c51_inside T ⟨0, droneStart ref body⟩ ⟨33000000000, droneEnd ref body⟩ [⟨16500000000, droneTurn ref body⟩] hr t h0 h1
    exact ⟨s, hs⟩
  · intro t ht ho
    exact (c51_outside T ⟨0, droneStart ref body⟩ ⟨33000000000, droneEnd ref body⟩ [⟨16500000000, droneTurn ref body⟩] hr t (by norm_num)
      (by simpa using ht) ho).1

/-- C105.  The comment of the example says that the drone "returns to its start location" (example_04_actor_trajectory.cc:93-94).  It does not: it ends six
metres from where it starts, heading the other way. -/
theorem c105_not_back (ref body : Frame) (h : ref = .null ↔ body = .null) : ∃ T a b, outAndBackBanked ref body = .ok T ∧
    Trajectory.pointAt T T.startTime = .ok a ∧ (Trajectory.endTime T).bind (Trajectory.pointAt T) = .ok b ∧
    eucNorm (b.refFromBody.val.2 - a.refFromBody.val.2) = 6 ∧
    b.refFromBody.val.1 *ᵥ b.linearVelocity = -(a.refFromBody.val.1 *ᵥ a.linearVelocity) := by
  obtain ⟨T, hT, h1, h2, -, -, h3, -, h4, -⟩ := c105_built ref body h
  refine ⟨T, _, _, hT, by rw [h1]; exact h3, by rw [h2]; exact h4, ?_, ?_⟩
  · change eucNorm ((![0, 3, 0] : V3) - ![0, -3, 0]) = 6
    have : sqNorm ((![0, 3, 0] : V3) - ![0, -3, 0]) = 6 ^ 2 := by rw [sqNorm_eq]; simp; norm_num
    rw [eucNorm, this, Real.sqrt_sq (by norm_num)]
  · change (!![-1, 0, 0; 0, -1, 0; 0, 0, 1] : M3) *ᵥ ![5, 0, 0] = -((1 : M3) *ᵥ ![5, 0, 0])
    funext i
    fin_cases i <;> simp [mulVec, dotProduct, Fin.sum_univ_three]

theorem drone_seconds : (asSeconds 16500000000 : ℝ) = 16.5 ∧ (asSeconds 33000000000 : ℝ) = 33 := by
  constructor
  · rw [asSeconds_small (by norm_num), fl_representable ⟨33, -1, by norm_num, by norm_num⟩]
    norm_num
  · rw [asSeconds_small (by norm_num), fl_representable ⟨33, 0, by norm_num, by norm_num⟩]
    norm_num

/-- C105.  The turn at the middle waypoint.  The positions of the trajectory follow one twice differentiable path to within a picometre.  At the middle waypoint
this path accelerates straight along the upward direction of the banked body, and turns on a radius of `sqrt (1050)`, about 32.4 metres; not on the 150 metres
of `TURN_R_M` (example_04_actor_trajectory.cc:73), because the rate is set to the square root of speed over radius (:74). -/
theorem c105_turn (ref body : Frame) (h : ref = .null ↔ body = .null) : ∃ (T : Trajectory) (path : ℝ → V3), outAndBackBanked ref body = .ok T ∧
    (∀ t : Int, 0 ≤ t → t ≤ 33000000000 → ∃ s, Trajectory.pointAt T t = .ok s ∧ eucNorm (s.refFromBody.val.2 - path (asSeconds t)) ≤ 1e-12) ∧
    (∀ τ : ℝ, 0 < τ → τ < 33 → ∃ (vel : ℝ → V3) (acc : V3), (∀ᶠ r in nhds τ, HasDerivAt path (vel r) r) ∧ HasDerivAt vel acc τ) ∧
    (∃ b, 0 < b ∧ Bends path 16.5 ((droneTurn ref body).refFromBody.val.1 *ᵥ ![0, 0, b]) (1 / Real.sqrt 1050)) ∧
    Real.sqrt 1050 < 33 ∧ turnRadius = 150 := by
  obtain ⟨T, hT, hr⟩ := drone_reached ref body h
  obtain ⟨γ, g1, g2, g3⟩ := c90_smooth T _ ⟨0, droneStart ref body⟩ ⟨33000000000, droneEnd ref body⟩ [⟨16500000000, droneTurn ref body⟩] rfl hr
    (drone_rotations ref body)
  simp only [sub_zero] at g1 g2 g3
  obtain ⟨m1, m2⟩ := drone_seconds
  rw [m2] at g2
  refine ⟨T, fun r => (γ r).1.2, hT, ?_, ?_, ?_, ?_, rfl⟩
  · intro t h0 h1
    obtain ⟨i, hi, s, -, -, hs, hcl⟩ := g3 t h0 h1
    refine ⟨s, hs, hcl.2.1.trans ?_⟩
    have n5 : eucNorm (![5, 0, 0] : V3) = 5 := by rw [eucNorm, sqNorm_eq]; simp
    have n7 : eucNorm (![7, 0, 0] : V3) = 7 := by rw [eucNorm, sqNorm_eq]; simp
    have far : ∀ x y : V3, sqNorm (x - y) = 73 → eucNorm (x - y) ≤ 9 := by
      intro x y e
      rw [eucNorm, e, Real.sqrt_le_iff]
      norm_num
    match i, hi with
    | 0, _ =>
      change 2e-15 * stateTranslation ((asSeconds 16500000000 : ℝ) - (asSeconds 0 : ℝ)) (droneStart ref body) (droneTurn ref body) ≤ _
      have d := far ![8, 0, 0] ![0, -3, 0] (by rw [sqNorm_eq]; simp; norm_num)
      rw [m1, zero_seconds]
      change 2e-15 * (2 * eucNorm ((![8, 0, 0] : V3) - ![0, -3, 0]) + _ * (eucNorm ![5, 0, 0] + eucNorm ![7, 0, 0]) + _ * (eucNorm 0 + eucNorm 0)) ≤ _
      rw [n5, n7, eucNorm_zero]
      generalize eucNorm _ = x at d ⊢
      norm_num
      linarith
    | 1, _ =>
      change 2e-15 * stateTranslation ((asSeconds 33000000000 : ℝ) - (asSeconds 16500000000 : ℝ)) (droneTurn ref body) (droneEnd ref body) ≤ _
      have d := far ![0, 3, 0] ![8, 0, 0] (by rw [sqNorm_eq]; simp; norm_num)
      rw [m1, m2]
      change 2e-15 * (2 * eucNorm ((![0, 3, 0] : V3) - ![8, 0, 0]) + _ * (eucNorm ![7, 0, 0] + eucNorm ![5, 0, 0]) + _ * (eucNorm 0 + eucNorm 0)) ≤ _
      rw [n5, n7, eucNorm_zero]
      generalize eucNorm _ = x at d ⊢
      norm_num
      linarith
    | n + 2, hi => exact absurd hi (by simp)
  · intro τ t0 t1
    obtain ⟨p', q1, -, q2⟩ := c48_position_acceleration ⟨⟨⟨(γ τ).1, ref, body⟩, (γ τ).2.1, (γ τ).2.2⟩⟩ (fun r => (γ r).1) τ rfl
      ((c48_body_kinematics ⟨⟨⟨(γ τ).1, ref, body⟩, (γ τ).2.1, (γ τ).2.2⟩⟩ _ τ).mp (g2 τ t0 t1))
    exact ⟨p', _, q1, q2⟩
  · have e := g1 ⟨16500000000, droneTurn ref body⟩ (by simp)
    simp only [m1] at e
    have jet := g2 16.5 (by norm_num) (by norm_num)
    rw [e] at jet
    have b := c105_bends (droneTurn ref body) (fun r => (γ r).1) 16.5 (drone_rotations ref body ⟨16500000000, droneTurn ref body⟩ (by simp [droneControls]))
      (by simp only [e]) ((c48_body_kinematics _ _ _).mp jet) (by
        intro e0
        have := congrFun e0 0
        change (7 : ℝ) = 0 at this
        norm_num at this)
    obtain ⟨w, hw⟩ : ∃ w, w = Real.sqrt (7 / 150) := ⟨_, rfl⟩
    have hw0 : 0 < w := by rw [hw]; positivity
    have hw2 : w ^ 2 = 7 / 150 := by rw [hw, Real.sq_sqrt (by norm_num)]
    have ea : (droneTurn ref body).linearAcceleration + (droneTurn ref body).angularVelocity ⨯₃ (droneTurn ref body).linearVelocity = ![0, 0, 7 * w] := by
      change (0 : V3) + ![0, -Real.sqrt (7 / 150), 0] ⨯₃ ![7, 0, 0] = _
      rw [← hw, cross_apply]
      funext i
      fin_cases i <;> simp
      ring
    rw [ea] at b
    refine ⟨7 * w, by positivity, ?_⟩
    convert b using 1
    have n1 : eucNorm (droneTurn ref body).linearVelocity = 7 := by
      change eucNorm ![7, 0, 0] = 7
      rw [eucNorm, sqNorm_eq]
      simp
    have n2 : eucNorm ((droneTurn ref body).linearVelocity ⨯₃ ![0, 0, 7 * w]) = 49 * w := by
      change eucNorm (![7, 0, 0] ⨯₃ ![0, 0, 7 * w]) = 49 * w
      have : sqNorm (![7, 0, 0] ⨯₃ ![0, 0, 7 * w]) = (49 * w) ^ 2 := by rw [sqNorm_eq, cross_apply]; simp; ring
      rw [eucNorm, this, Real.sqrt_sq (by positivity)]
    rw [n1, n2, div_eq_div_iff (by positivity) (by norm_num), one_mul]
    have : 49 * w * Real.sqrt 1050 = Real.sqrt ((49 * w) ^ 2 * 1050) := by rw [Real.sqrt_mul (by positivity), Real.sqrt_sq (by positivity)]
    rw [this, mul_pow, hw2]
    rw [show (49 : ℝ) ^ 2 * (7 / 150) * 1050 = (7 ^ 3) ^ 2 by norm_num, Real.sqrt_sq (by norm_num)]
  · rw [Real.sqrt_lt' (by norm_num)]
    norm_num

/-- The hypotheses of `c105_bends` hold at the middle waypoint of the example, where the body moves and turns. -/
example : ∃ (s : RBState) (g : ℝ → Pose), IsRotation s.refFromBody.val.1 ∧ g 16.5 = s.refFromBody.val ∧
    BodyKinematics g 16.5 s.linearVelocity s.angularVelocity s.linearAcceleration s.angularAcceleration ∧ s.linearVelocity ≠ 0 ∧ s.angularVelocity ≠ 0 := by
  obtain ⟨T, hT, hr⟩ := drone_reached (exFrame 1) (exFrame 2) (by decide)
  obtain ⟨γ, g1, g2, -⟩ := c90_smooth T _ ⟨0, droneStart (exFrame 1) (exFrame 2)⟩ ⟨33000000000, droneEnd (exFrame 1) (exFrame 2)⟩
    [⟨16500000000, droneTurn (exFrame 1) (exFrame 2)⟩] rfl hr (drone_rotations _ _)
  simp only [sub_zero] at g1 g2
  rw [drone_seconds.2] at g2
  have e := g1 ⟨16500000000, droneTurn (exFrame 1) (exFrame 2)⟩ (by simp)
  simp only [drone_seconds.1] at e
  have jet := g2 16.5 (by norm_num) (by norm_num)
  rw [e] at jet
  refine ⟨droneTurn (exFrame 1) (exFrame 2), fun r => (γ r).1, drone_rotations (exFrame 1) (exFrame 2) ⟨16500000000, droneTurn _ _⟩ (by simp [droneControls]),
    by simp only [e], (c48_body_kinematics _ _ _).mp jet, fun e0 => ?_, fun e0 => ?_⟩
  · have := congrFun e0 0
    change (7 : ℝ) = 0 at this
    norm_num at this
  · have := congrFun e0 1
    change -Real.sqrt (7 / 150) = 0 at this
    have : 0 < Real.sqrt (7 / 150) := by positivity
    linarith

/-- Frames as in the example, one for the world and one for the body. -/
example : exFrame 1 = .null ↔ exFrame 2 = .null := by decide

end Verif.Props
