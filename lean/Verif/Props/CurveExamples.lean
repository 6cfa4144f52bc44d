import Verif.Model.CurveExamples
import Verif.Props.OneCircle
import Verif.Proofs.SO3Construct
import Verif.Proofs.TransformDouble
/-! # C89 on the curves of the shipped examples -/
namespace Verif.Props
open Matrix Verif.Framed Verif.Spec SO3 CurveExamples

theorem zAxis_sq : sqNorm zAxis = 1 := by rw [sqNorm_eq]; simp [zAxis]
theorem zAxis_norm : eucNorm zAxis = 1 := by rw [eucNorm, zAxis_sq, Real.sqrt_one]

theorem exp_z (a : ℝ) : SO3.exp (a • zAxis) = !![Real.cos a, -Real.sin a, 0; Real.sin a, Real.cos a, 0; 0, 0, 1] := by
  rw [← SO3.angleAxis_exp a zAxis_sq]
  ext i j
  fin_cases i <;> fin_cases j <;> simp [angleAxisMatrix, zAxis]

/-- The logarithm of the half turn about the z axis is the positive one. -/
theorem log_half_z : SO3.log (SO3.exp (Real.pi • zAxis)) = Real.pi • zAxis := by
  have he := exp_z Real.pi
  rw [Real.cos_pi, Real.sin_pi] at he
  generalize SO3.exp (Real.pi • zAxis) = m at *
  have m00 : m 0 0 = -1 := by rw [he]; rfl
  have m01 : m 0 1 = 0 := by rw [he]; simp
  have m02 : m 0 2 = 0 := by rw [he]; rfl
  have m10 : m 1 0 = 0 := by rw [he]; rfl
  have m11 : m 1 1 = -1 := by rw [he]; rfl
  have m12 : m 1 2 = 0 := by rw [he]; rfl
  have m20 : m 2 0 = 0 := by rw [he]; rfl
  have m21 : m 2 1 = 0 := by rw [he]; rfl
  have m22 : m 2 2 = 1 := by rw [he]; rfl
  have hl : largestDiag m = 2 := by
    simp only [largestDiag, m00, m11, m22]
    norm_num [m00]
  have hq : quatOfMatrix m = ⟨0, ![0, 0, 1]⟩ := by
    unfold quatOfMatrix
    simp only [hl]
    have e1 : (2 : Fin 3) + 1 = 0 := rfl
    have e2 : (0 : Fin 3) + 1 = 1 := rfl
    have h4 : Real.sqrt 4 = 2 := by rw [show (4 : ℝ) = 2 ^ 2 by norm_num]; exact Real.sqrt_sq (by norm_num)
    simp only [e1, e2, m00, m01, m02, m10, m11, m12, m20, m21, m22]
    norm_num
    rw [h4]
    funext l
    fin_cases l <;> simp
  have hn : eucNorm ![0, 0, 1] = 1 := zAxis_norm
  unfold SO3.log
  rw [hq]
  unfold angleAxisOfQuat
  simp only [hn]
  have : Complex.arg ⟨|0|, 1⟩ = Real.pi / 2 := by
    rw [abs_zero]
    exact Complex.arg_I
  rw [this]
  simp [zAxis]
  ring

/-- What a successful query of a trajectory evaluates. -/
theorem traj_query (T : Trajectory) (first : TrajControl) (rest : List TrajControl) (h : Reached T (first :: rest)) (t : Int) (s : RBState)
    (hs : Trajectory.pointAt T t = .ok s) :
    ∃ j, TCurve.pointAt SE3.ops T.curve (Binary64.asSeconds (t - first.atTime) : ℝ) = .ok j ∧ s.refFromBody.val = SE3.ops.inv j.g.val := by
  have hst := c50_start_time T first rest h
  unfold Trajectory.pointAt at hs
  obtain ⟨d, hd, hs1⟩ := bind_ok hs
  obtain ⟨j, hj, hs2⟩ := bind_ok hs1
  obtain ⟨r, hr, hs3⟩ := bind_ok hs2
  have hd' : d = t - first.atTime := by
    unfold i64 at hd
    split_ifs at hd
    rw [← hst]
    exact (Outcome.ok.inj hd).symm
  subst hd'
  unfold TwoJetL.right at hr
  obtain ⟨i, hi, hr⟩ := bind_ok hr
  rw [Framed.inverse, mk'_eq_ok_iff] at hi
  refine ⟨j, hj, ?_⟩
  rw [← Outcome.ok.inj hs3]
  change r.g.val = _
  rw [← Outcome.ok.inj hr, hi.2]

/-- The start of the orbit: the body at distance one from the origin, facing along the circle. -/
noncomputable def orbitPose : Pose := (angleAxisMatrix (Real.pi / 2) zAxis, ![1, 0, 0])

/-- The point of the body that stays at the origin. -/
def orbitCentre : V3 := ![0, 1, 0]

theorem orbit_cross : orbitCentre ⨯₃ zAxis = ![1, 0, 0] := by
  rw [orbitCentre, zAxis, cross_apply]; simp

theorem orbitPose_rotation : IsRotation orbitPose.1 := by
  unfold orbitPose
  rw [SO3.angleAxis_exp _ zAxis_sq]
  exact SO3.isRotation_exp _

theorem orbit_at (a : ℝ) : SE3.ops.mul orbitPose (SE3.xexp (a • ((zAxis, orbitCentre ⨯₃ zAxis) : Twist))) =
    (angleAxisMatrix (a + Real.pi / 2) zAxis, ![Real.cos a, Real.sin a, 0]) := by
  rw [SE3.xexp_about]
  unfold orbitPose
  rw [SO3.angleAxis_exp _ zAxis_sq, SO3.angleAxis_exp _ zAxis_sq]
  refine Prod.ext ?_ ?_
  · change SO3.exp _ * SO3.exp _ = _
    rw [exp_z, exp_z, exp_z, Real.cos_add, Real.sin_add, Real.cos_pi_div_two, Real.sin_pi_div_two]
    ext i j
    fin_cases i <;> fin_cases j <;> simp [Matrix.mul_apply, Fin.sum_univ_three]
  · change SO3.exp _ *ᵥ (_ - _ *ᵥ _) + _ = _
    rw [exp_z, exp_z, Real.cos_pi_div_two, Real.sin_pi_div_two]
    funext i
    fin_cases i <;> simp [orbitCentre, vecHead, vecTail]

theorem near_inv {p g : Pose} {e : ℝ} (hg : IsRotation g.1) (h : SE3.Near p g e) : SE3.Near (SE3.ops.inv p) (SE3.ops.inv g) e := by
  obtain ⟨g2, g3⟩ := h
  have e' : (SE3.ops.inv p).2 - (SE3.ops.inv g).2 = g.1.transpose *ᵥ (-(p.2 - g.2)) := by
    change p.1.transpose *ᵥ (-p.2) - g.1.transpose *ᵥ (-g.2) = _
    rw [g2, ← Matrix.mulVec_sub]
    congr 1
    abel
  refine ⟨?_, ?_⟩
  · change p.1.transpose = g.1.transpose
    rw [g2]
  · rw [e', eucNorm_mulVec (isRotation_transpose hg), eucNorm_neg]
    exact g3

/-- The three controls of the shipped trajectory, resim/examples/trajectory.cc:92-98, in nanoseconds after the start; the two controls between them are
commented out there. -/
noncomputable def orbitControls : List TrajControl :=
  [⟨0, orbitStart (exFrame 1) (exFrame 2)⟩, ⟨3141592653, orbitHalf (exFrame 1) (exFrame 2)⟩, ⟨6283185307, orbitStart (exFrame 1) (exFrame 2)⟩]

/-- The times are those the example computes: `as_duration` of twice and four times the double nearest to a quarter turn (resim/examples/trajectory.cc:62,77,86). -/
theorem orbit_times : Binary64.asDuration (884279719003555 / 2 ^ 48) = .ok 3141592653 ∧ Binary64.asDuration (884279719003555 / 2 ^ 47) = .ok 6283185307 := by
  have h1 := abs_le.mp (Binary64.fl_error (884279719003555 / 2 ^ 48 * 1000000000))
  have h2 := abs_le.mp (Binary64.fl_error (884279719003555 / 2 ^ 47 * 1000000000))
  unfold Binary64.asDuration
  have t1 : Binary64.trunc (Binary64.fl (884279719003555 / 2 ^ 48 * 1000000000)) = 3141592653 := by
    generalize Binary64.fl _ = y at h1
    norm_num at h1
    unfold Binary64.trunc
    rw [if_pos (by linarith), Int.floor_eq_iff]
    push_cast
    constructor <;> linarith
  have t2 : Binary64.trunc (Binary64.fl (884279719003555 / 2 ^ 47 * 1000000000)) = 6283185307 := by
    generalize Binary64.fl _ = y at h2
    norm_num at h2
    unfold Binary64.trunc
    rw [if_pos (by linarith), Int.floor_eq_iff]
    push_cast
    constructor <;> linarith
  rw [t1, t2]
  decide

theorem orbitStart_eq : orbitStart (exFrame 1) (exFrame 2) =
    ⟨⟨⟨SE3.ops.mul orbitPose (SE3.xexp ((0 : ℝ) • ((zAxis, orbitCentre ⨯₃ zAxis) : Twist))), exFrame 1, exFrame 2⟩, (zAxis, orbitCentre ⨯₃ zAxis), 0⟩⟩ := by
  rw [orbit_at, orbit_cross]
  simp [orbitStart, RBState.ofDerivatives, SE3.fromParts, orbitDerivatives, zAxis]

theorem orbitHalf_eq : orbitHalf (exFrame 1) (exFrame 2) =
    ⟨⟨⟨SE3.ops.mul orbitPose (SE3.xexp (Real.pi • ((zAxis, orbitCentre ⨯₃ zAxis) : Twist))), exFrame 1, exFrame 2⟩, (zAxis, orbitCentre ⨯₃ zAxis), 0⟩⟩ := by
  rw [orbit_at, orbit_cross]
  have : angleAxisMatrix (-(Real.pi / 2)) zAxis = angleAxisMatrix (Real.pi + Real.pi / 2) zAxis := by
    rw [SO3.angleAxis_exp _ zAxis_sq, SO3.angleAxis_exp _ zAxis_sq, exp_z, exp_z, Real.cos_add, Real.sin_add]
    simp
  simp [orbitHalf, RBState.ofDerivatives, SE3.fromParts, orbitDerivatives, zAxis] at this ⊢
  exact this

theorem orbit_reached : ∃ T, Reached T orbitControls := by
  obtain ⟨T, hT⟩ := exReached (fun t => if t = 3141592653 then orbitHalf (exFrame 1) (exFrame 2) else orbitStart (exFrame 1) (exFrame 2)) (fun t => by
      have hw : exFrame 1 = Frame.null ↔ exFrame 2 = Frame.null := by decide
      rw [orbitHalf_eq, orbitStart_eq]
      split_ifs
      · exact ⟨hw, rfl, rfl⟩
      · exact ⟨hw, rfl, rfl⟩) 0 (by decide)
    [3141592653, 6283185307] (by decide) (by decide) (by decide)
  refine ⟨T, ?_⟩
  have : orbitControls = ([0, 3141592653, 6283185307] : List Int).map (fun t =>
      (⟨t, if t = 3141592653 then orbitHalf (exFrame 1) (exFrame 2) else orbitStart (exFrame 1) (exFrame 2)⟩ : TrajControl)) := by
    simp [orbitControls]
  rw [this]
  exact hT

theorem seconds_near (d : ℤ) (h : |d| ≤ 2 ^ 53) : |(Binary64.asSeconds d : ℝ) - d / 1000000000| ≤ |(d : ℝ) / 1000000000| / 2 ^ 53 := by
  have := Binary64.fl_error ((d : ℚ) / 1000000000)
  rw [asSeconds_small h]
  exact_mod_cast this

theorem orbit_seconds : (Binary64.asSeconds 0 : ℝ) = 0 ∧ |(Binary64.asSeconds 3141592653 : ℝ) - 3.141592653| ≤ 1e-12 ∧
    |(Binary64.asSeconds 6283185307 : ℝ) - 6.283185307| ≤ 1e-12 := by
  refine ⟨by rw [zero_seconds]; norm_num, ?_, ?_⟩
  · have := seconds_near 3141592653 (by norm_num)
    norm_num [abs_le] at this ⊢
    constructor <;> linarith [this.1, this.2]
  · have := seconds_near 6283185307 (by norm_num)
    norm_num [abs_le] at this ⊢
    constructor <;> linarith [this.1, this.2]

/-- C89 on the shipped trajectory (resim/examples/trajectory.cc): at every timestamp for which it answers it is one unit from the origin, to within the
tolerance that the example checks. -/
theorem c89_orbit (T : Trajectory) (h : Reached T orbitControls) (t : Int) (s : RBState) (hs : Trajectory.pointAt T t = .ok s) :
    |eucNorm s.refFromBody.val.2 - 1| < 1e-12 := by
  have hx : eucNorm (orbitCentre ⨯₃ zAxis) = 1 := by rw [orbit_cross, eucNorm, sqNorm_eq]; simp
  have hcn : eucNorm orbitCentre = 1 := by rw [orbitCentre, eucNorm, sqNorm_eq]; simp
  have hg : orbitPose.1 *ᵥ orbitCentre + orbitPose.2 = 0 := by
    unfold orbitPose
    rw [SO3.angleAxis_exp _ zAxis_sq, exp_z, Real.cos_pi_div_two, Real.sin_pi_div_two]
    funext i
    fin_cases i <;> simp [orbitCentre]
  have hst : ∀ p ∈ orbitControls, p.state.twoJet.d = (zAxis, orbitCentre ⨯₃ zAxis) ∧ p.state.twoJet.d2 = 0 := by
    intro p hp
    simp only [orbitControls, orbitStart_eq, orbitHalf_eq, List.mem_cons, List.not_mem_nil, or_false] at hp
    rcases hp with rfl | rfl | rfl <;> exact ⟨rfl, rfl⟩
  obtain ⟨s0, s1, s2⟩ := orbit_seconds
  have key := (c89_trajectory_circle T _ _ h zAxis orbitCentre orbitPose orbitPose_rotation (by
      intro p hp
      refine ⟨?_, ⟨1, by rw [one_smul]; exact (hst p hp).1⟩, 0, by rw [zero_smul]; exact (hst p hp).2⟩
      change p ∈ orbitControls at hp
      simp only [orbitControls, orbitStart_eq, orbitHalf_eq, List.mem_cons, List.not_mem_nil, or_false] at hp
      rcases hp with rfl | rfl | rfl
      · exact ⟨0, onScrew_pose.mpr rfl⟩
      · exact ⟨Real.pi, onScrew_pose.mpr rfl⟩
      · exact ⟨0, onScrew_pose.mpr rfl⟩) t 8 (by
      intro a b pre post e _ _
      change orbitControls = _ at e
      obtain ⟨ea, ea'⟩ := hst a (by rw [e]; simp)
      obtain ⟨eb, eb'⟩ := hst b (by rw [e]; simp)
      rw [ea, ea', eb, eb', hx, Prod.snd_zero, eucNorm_zero, sub_zero, sub_zero]
      have hab : (Binary64.asSeconds b.atTime : ℝ) - Binary64.asSeconds a.atTime ≤ 4 := by
        have : (a.atTime = 0 ∧ b.atTime = 3141592653) ∨ (a.atTime = 3141592653 ∧ b.atTime = 6283185307) := by
          unfold orbitControls at e
          rcases pre with _ | ⟨p, _ | ⟨q, pre⟩⟩
          · simp only [List.nil_append, List.cons.injEq] at e
            left; rw [← e.1, ← e.2.1]; exact ⟨rfl, rfl⟩
          · simp only [List.cons_append, List.nil_append, List.cons.injEq] at e
            right; rw [← e.2.1, ← e.2.2.1]; exact ⟨rfl, rfl⟩
          · have := congrArg List.length e
            simp at this
            omega
        rw [abs_le] at s1 s2
        rcases this with ⟨e1, e2⟩ | ⟨e1, e2⟩
        · rw [e1, e2, s0]
          linarith [s1.2]
        · rw [e1, e2]
          linarith [s1.1, s2.2]
      linarith) s hs).2
  rw [hg, sub_zero, hcn] at key
  refine lt_of_le_of_lt key (by norm_num)

/-- The trajectory of the example exists. -/
example : ∃ T, Reached T orbitControls := orbit_reached

theorem orbit_poly (u : ℝ) (u1 : 0.4774 ≤ u) (u2 : u ≤ 0.4775) :
    0.456 ≤ 10 * u ^ 3 - 15 * u ^ 4 + 6 * u ^ 5 ∧ 10 * u ^ 3 - 15 * u ^ 4 + 6 * u ^ 5 ≤ 0.46 := by
  have q2 : 0.2279 ≤ u ^ 2 ∧ u ^ 2 ≤ 0.22801 := ⟨by nlinarith, by nlinarith⟩
  have q3 : 0.10879 ≤ u ^ 3 ∧ u ^ 3 ≤ 0.10888 := by
    rw [show u ^ 3 = u ^ 2 * u by ring]
    exact ⟨by nlinarith [q2.1], by nlinarith [q2.2]⟩
  have q4 : 0.05193 ≤ u ^ 4 ∧ u ^ 4 ≤ 0.05199 := by
    rw [show u ^ 4 = u ^ 3 * u by ring]
    exact ⟨by nlinarith [q3.1], by nlinarith [q3.2]⟩
  have q5 : 0.02479 ≤ u ^ 5 ∧ u ^ 5 ≤ 0.02483 := by
    rw [show u ^ 5 = u ^ 4 * u by ring]
    exact ⟨by nlinarith [q4.1], by nlinarith [q4.2]⟩
  constructor <;> linarith [q3.1, q3.2, q4.1, q4.2, q5.1, q5.2]

theorem quintic_steady (α β u : ℝ) : (quintic α β β 0 0 u).a =
    α * (10 * u ^ 3 - 15 * u ^ 4 + 6 * u ^ 5) + β * (u - (10 * u ^ 3 - 15 * u ^ 4 + 6 * u ^ 5)) := by
  simp only [quintic, Quintic.destFromOrig, Quintic.dOrig, Quintic.dDest, Quintic.d2Orig, Quintic.d2Dest,
    Quintic.coeffs_a, Quintic.destOrigTable, Quintic.dOrigTable, Quintic.dDestTable,
    Quintic.d2OrigTable, Quintic.d2DestTable, Matrix.cons_val_zero, Matrix.cons_val_one, Matrix.cons_val]
  ring

theorem orbit_sin (S : ℝ) (hS : 3.14159 ≤ S ∧ S ≤ 3.1416) :
    0.95 < Real.sin (quintic Real.pi (S * -1) (S * -1) (S ^ 2 * 0) (S ^ 2 * 0) (1.5 / S)).a := by
  have hSp : 0 < S := by linarith [hS.1]
  rw [mul_zero, quintic_steady]
  obtain ⟨u, hu'⟩ : ∃ u, u = 1.5 / S := ⟨_, rfl⟩
  have hSu : S * u = 1.5 := by rw [hu']; field_simp
  have hu : 0.4774 ≤ u ∧ u ≤ 0.4775 := by
    rw [hu', le_div_iff₀ hSp, div_le_iff₀ hSp]
    constructor <;> linarith [hS.1, hS.2]
  rw [← hu']
  have hA := orbit_poly u hu.1 hu.2
  generalize 10 * u ^ 3 - 15 * u ^ 4 + 6 * u ^ 5 = A at *
  have e : Real.pi * A + S * -1 * (u - A) = A * (Real.pi + S) - 1.5 := by rw [← hSu]; ring
  rw [e]
  have p1 := Real.pi_gt_d2
  have p2 := Real.pi_lt_d2
  have d1 : 0 ≤ Real.pi / 2 - (A * (Real.pi + S) - 1.5) := by nlinarith [hA.1, hA.2]
  have d2 : Real.pi / 2 - (A * (Real.pi + S) - 1.5) ≤ 0.25 := by nlinarith [hA.1, hA.2]
  have hc := Real.one_sub_sq_div_two_le_cos (x := Real.pi / 2 - (A * (Real.pi + S) - 1.5))
  rw [Real.cos_pi_div_two_sub] at hc
  generalize Real.pi / 2 - (A * (Real.pi + S) - 1.5) = d at *
  nlinarith

/-- What the check of the example cannot see: its controls are half a turn apart, the logarithm of half a turn can be taken either way round, and the way
taken is the wrong one.  A body that starts at `(1, 0, 0)` and circles to the left has its second coordinate near 1 after 1.5 s (the time of one of the
samples of the example); the trajectory returns one below -0.9. -/
theorem c89_orbit_wrong_side (T : Trajectory) (h : Reached T orbitControls) (s : RBState) (hs : Trajectory.pointAt T 1500000000 = .ok s) :
    s.refFromBody.val.2 1 < -0.9 := by
  obtain ⟨s0, s1, s2⟩ := orbit_seconds
  have hI := inv_of_reached h
  obtain ⟨j, hj, hval⟩ := traj_query T _ _ h _ s hs
  have hq : (Binary64.asSeconds (1500000000 - 0) : ℝ) = 1.5 := by
    rw [sub_zero, asSeconds_small (by norm_num), Binary64.fl_representable ⟨3, -1, by norm_num, by norm_num⟩]
    norm_num
  have hj' : TCurve.pointAt SE3.ops T.curve 1.5 = .ok j := by rw [← hq]; exact hj
  obtain ⟨x, hx⟩ : ∃ x : Twist, x = (zAxis, orbitCentre ⨯₃ zAxis) := ⟨_, rfl⟩
  have hx1 : x.1 = zAxis := by rw [hx]
  have hx2 : eucNorm x.2 = 1 := by rw [hx]; simp only; rw [orbit_cross, eucNorm, sqNorm_eq]; simp
  have hst := c50_start_time T _ _ h
  simp only at hst
  obtain ⟨S, hS⟩ : ∃ S : ℝ, S = Binary64.asSeconds 3141592653 := ⟨_, rfl⟩
  obtain ⟨S2, hS2⟩ : ∃ S2 : ℝ, S2 = Binary64.asSeconds 6283185307 := ⟨_, rfl⟩
  rw [← hS, abs_le] at s1
  rw [← hS2, abs_le] at s2
  have hinvP : ∀ r : ℝ, SE3.ops.inv (SE3.ops.mul orbitPose (SE3.xexp (r • x))) = SE3.ops.mul (SE3.xexp ((-r) • x)) (SE3.ops.inv orbitPose) := by
    intro r
    rw [se3Laws.inv_mul_rev (valid := PoseValid) orbitPose_rotation (SE3.xexp_valid _), xexp_inv]
  have hctl : ∃ p q r : TControl Pose Twist, T.curve.controls = [p, q, r] ∧ p.time = 0 ∧ q.time = S ∧ r.time = S2 ∧
      (∀ c ∈ T.curve.controls, c.point.d = (-1 : ℝ) • x ∧ c.point.d2 = (0 : ℝ) • x) ∧
      p.point.g.val = SE3.ops.mul (SE3.xexp ((-0 : ℝ) • x)) (SE3.ops.inv orbitPose) ∧
      q.point.g.val = SE3.ops.mul (SE3.xexp ((-Real.pi) • x)) (SE3.ops.inv orbitPose) ∧
      r.point.g.val = SE3.ops.mul (SE3.xexp ((-0 : ℝ) • x)) (SE3.ops.inv orbitPose) := by
    have e := hI.controls
    rw [hst] at e
    simp only [orbitControls, orbitStart_eq, orbitHalf_eq, List.map_cons, List.map_nil, Trajectory.toControl, ← hx, sub_zero] at e
    refine ⟨_, _, _, e, s0, hS.symm, hS2.symm, ?_, hinvP _, hinvP _, hinvP _⟩
    intro c hc
    rw [e] at hc
    simp only [List.mem_cons, List.not_mem_nil, or_false] at hc
    rcases hc with rfl | rfl | rfl
    all_goals
      constructor
      · change -x = _
        rw [neg_one_smul]
      · change -(0 : Twist) = _
        rw [zero_smul, neg_zero]
  obtain ⟨p, q, r, hpqr, tp, tq, tr, hd, gp, gq, gr⟩ := hctl
  have hSp : 0 < S := by linarith [s1.1]
  obtain ⟨a, b, pre, post, hab, ha, hb, hlt, seg, hseg, k1, k2, k3, k4, k5, m1, -, -⟩ := axis_query_of se3Laws (SE3.oneParam x) (fun s => SE3.xexp_valid _)
    (se3Laws.valid_inv (valid := PoseValid) orbitPose_rotation) (fun c => if c.time = S then -Real.pi else -0) (fun _ => -1) (fun _ => 0) T.curve hI.built
    (whole_curve hI) (by
      intro c hc
      refine ⟨?_, (hd c hc).1, (hd c hc).2⟩
      rw [hpqr] at hc
      simp only [List.mem_cons, List.not_mem_nil, or_false] at hc
      rcases hc with rfl | rfl | rfl
      · rw [if_neg (by rw [tp]; exact hSp.ne)]; exact gp
      · rw [if_pos tq]; exact gq
      · rw [if_neg (by rw [tr]; intro e; linarith [s1.2, s2.1])]; exact gr) _ j hj'
  have hpq : a = p ∧ b = q := by
    rw [hpqr] at hab
    rcases pre with _ | ⟨p', _ | ⟨q', pre⟩⟩
    · simp only [List.nil_append, List.cons.injEq] at hab
      exact ⟨hab.1.symm, hab.2.1.symm⟩
    · simp only [List.cons_append, List.nil_append, List.cons.injEq] at hab
      rw [← hab.2.1, tq] at ha
      linarith [s1.1]
    · have := congrArg List.length hab
      simp at this
      omega
  obtain ⟨rfl, rfl⟩ := hpq
  simp only [tp, tq, if_neg hSp.ne, if_pos, sub_zero, neg_zero] at k1 k2 k3 k4 k5 m1
  have hlog := log_half_z
  have hwrap : SE3.xexp ((-Real.pi) • x) = SE3.xexp (Real.pi • x) := by
    rw [hx, SE3.xexp_about, SE3.xexp_about, exp_z, exp_z]
    simp
  have hn := SE3.vpoint_near seg x (1.5 / S) Real.pi _ _ _ _ (by positivity) ((div_le_one hSp).mpr (by linarith [s1.1])) (by rw [hx1]; exact hlog)
    (k1.trans hwrap) k2 k3 k4 k5
  obtain ⟨σ, hσ⟩ : ∃ σ, σ = (quintic Real.pi (S * -1) (S * -1) (S ^ 2 * 0) (S ^ 2 * 0) (1.5 / S)).a := ⟨_, rfl⟩
  rw [← hσ] at hn
  have hv : PoseValid (vpoint SE3.ops seg (1.5 / S)).1 := by
    change IsRotation _
    rw [hn.1]
    exact SE3.xexp_valid _
  have hz : SE3.xexp ((0 : ℝ) • x) = SE3.ops.one := (SE3.oneParam x).zero
  rw [hz, se3Laws.one_mul] at m1
  have key : SE3.Near (SE3.ops.mul _ _) (SE3.ops.mul _ _) _ := SE3.Near.mul hv hn (b := SE3.ops.inv orbitPose) (b' := SE3.ops.inv orbitPose) (f := 0) ⟨rfl, by rw [sub_self, eucNorm_zero]⟩
  rw [← m1, zero_add] at key
  have key2 := near_inv (se3Laws.valid_mul (valid := PoseValid) (SE3.xexp_valid _) (se3Laws.valid_inv (valid := PoseValid) orbitPose_rotation)) key
  have hm : SE3.ops.inv (SE3.ops.mul (SE3.xexp (σ • x)) (SE3.ops.inv orbitPose)) = SE3.ops.mul orbitPose (SE3.xexp ((-σ) • x)) := by
    rw [se3Laws.inv_mul_rev (valid := PoseValid) (SE3.xexp_valid _) (se3Laws.valid_inv (valid := PoseValid) orbitPose_rotation),
      se3Laws.inv_inv (valid := PoseValid) orbitPose_rotation, xexp_inv]
  rw [hm, hx, orbit_at, ← hval] at key2
  have hy := key2.2
  have hcomp : |s.refFromBody.val.2 1 - (-Real.sin σ)| ≤ 1e-13 := by
    have c := TransformDouble.abs_entry_le (s.refFromBody.val.2 - ![Real.cos (-σ), Real.sin (-σ), 0]) 1
    simp only [Pi.sub_apply, Matrix.cons_val_one, Matrix.cons_val_zero] at c
    rw [← Real.sin_neg]
    refine c.trans (hy.trans ?_)
    rw [← hx, hx2]
    rw [abs_of_pos Real.pi_pos, abs_mul, abs_of_pos hSp]
    norm_num
    linarith [Real.pi_lt_four, s1.2]
  have hsin := orbit_sin S ⟨by linarith [s1.1], by linarith [s1.2]⟩
  rw [← hσ] at hsin
  have hb := (abs_le.mp hcomp).2
  linarith

/-- The trajectory of the example answers at that time. -/
example : ∃ T s, Reached T orbitControls ∧ Trajectory.pointAt T 1500000000 = .ok s := by
  obtain ⟨T, hT⟩ := orbit_reached
  obtain ⟨s, hs, -⟩ := c51_inside T ⟨0, orbitStart (exFrame 1) (exFrame 2)⟩ ⟨6283185307, orbitStart (exFrame 1) (exFrame 2)⟩
    [⟨3141592653, orbitHalf (exFrame 1) (exFrame 2)⟩] hT 1500000000 (by norm_num) (by norm_num)
  exact ⟨T, s, hT, hs⟩

/-! ## The distance curve of resim/examples/curves.cc -/

theorem xexp_line (v : V3) : SE3.xexp (0, v) = (1, v) := by
  simp [SE3.xexp, SO3.exp_zero, crossMatrix_zero]

theorem line_step (g : Pose) (v : V3) : OnScrew (0, v) g 1 (g.1, g.1 *ᵥ v + g.2) := by
  rw [onScrew_pose, one_smul, xexp_line]
  change _ = (g.1 * 1, g.1 *ᵥ v + g.2)
  rw [mul_one]

theorem turn_step (g : Pose) (a : ℝ) (w c : V3) :
    OnScrew (a • (w, c ⨯₃ w)) g 1 (g.1 * SO3.exp (a • w), g.1 *ᵥ (c - SO3.exp (a • w) *ᵥ c) + g.2) := by
  rw [onScrew_pose, one_smul, SE3.xexp_about]
  rfl

/-- C89 on the distance curve of the shipped example (straight on for one unit, left through a quarter turn of a unit circle, straight on for one unit,
right through a quarter turn): the lengths are those of that path, and halfway along the third edge the curve returns exactly the pose the example checks. -/
theorem c89_shipped_curve (c : DCurve Pose) (h : DBuilt SE3.ops SE3.arcLength c) (hc : c.controls.map (·.pose.val) = leftRight) :
    c.controls.map (·.arcLength) = [0, 1, 1 + Real.pi / 2, 2 + Real.pi / 2, 2 + Real.pi] ∧
    ∃ g, DCurve.pointAt SE3.ops c queryArcLength = .ok g ∧ g.val = (angleAxisMatrix (Real.pi / 2) zAxis, ![2, 1.5, 0]) := by
  have hI := dInv_of_built h
  obtain ⟨a, b, d, e, f, hl, pa, pb, pd, pe, pf⟩ : ∃ a b d e f, c.controls = [a, b, d, e, f] ∧ a.pose.val = (1, ![0, 0, 0]) ∧ b.pose.val = (1, ![1, 0, 0]) ∧
      d.pose.val = (SO3.exp ((Real.pi / 2) • zAxis), ![2, 1, 0]) ∧ e.pose.val = (SO3.exp ((Real.pi / 2) • zAxis), ![2, 2, 0]) ∧
      f.pose.val = (1, ![3, 3, 0]) := by
    simp only [leftRight, SO3.angleAxis_exp _ zAxis_sq] at hc
    simp only [List.map_eq_cons_iff, List.map_eq_nil_iff] at hc
    obtain ⟨a, _, e1, p1, b, _, rfl, p2, d, _, rfl, p3, e, _, rfl, p4, f, _, rfl, p5, rfl⟩ := hc
    exact ⟨a, b, d, e, f, e1, p1, p2, p3, p4, p5⟩
  have hlen : c.controls.length = 5 := by rw [hl]; rfl
  have c0 : c.controls[0] = a := by simp only [hl]; rfl
  have c1 : c.controls[1] = b := by simp only [hl]; rfl
  have c2 : c.controls[2] = d := by simp only [hl]; rfl
  have c3 : c.controls[3] = e := by simp only [hl]; rfl
  have c4 : c.controls[4] = f := by simp only [hl]; rfl
  have hn1 : eucNorm (![1, 0, 0] : V3) = 1 := by rw [eucNorm, sqNorm_eq]; simp
  have hz0 : eucNorm ((0 : V3)) < Real.pi := by rw [eucNorm_zero]; exact Real.pi_pos
  have hq : eucNorm ((Real.pi / 2) • zAxis) = Real.pi / 2 := by rw [eucNorm_smul, zAxis_norm, mul_one, abs_of_pos Real.pi_div_two_pos]
  have hq' : eucNorm ((Real.pi / 2) • -zAxis) = Real.pi / 2 := by rw [smul_neg, eucNorm_neg, hq]
  have hp3 := Real.pi_gt_three
  have s0 := c89_piece_partial c h 0 (by omega) (by rw [c0, pa]; exact isRotation_one) (0, ![1, 0, 0]) (by
      rw [c0, c1, pa, pb]
      have := line_step (1, ![0, 0, 0]) ![1, 0, 0]
      simpa using this) hz0 (.inl rfl)
  have s1 := c89_piece_partial c h 1 (by omega) (by rw [c1, pb]; exact isRotation_one) ((Real.pi / 2) • (zAxis, ![0, 1, 0] ⨯₃ zAxis)) (by
      rw [c1, c2, pb, pd]
      have := turn_step (1, ![1, 0, 0]) (Real.pi / 2) zAxis ![0, 1, 0]
      convert this using 1
      refine Prod.ext (by simp) ?_
      rw [exp_z]
      funext i
      fin_cases i <;> (simp [vecHead, vecTail]; try norm_num)) (by
      change eucNorm ((Real.pi / 2) • zAxis) < _
      rw [hq]; linarith) (.inr (by
      change _ ≤ eucNorm ((Real.pi / 2) • zAxis)
      rw [hq]; linarith))
  have s2 := c89_piece_partial c h 2 (by omega) (by rw [c2, pd]; exact SO3.isRotation_exp _) (0, ![1, 0, 0]) (by
      rw [c2, c3, pd, pe]
      have := line_step (SO3.exp ((Real.pi / 2) • zAxis), ![2, 1, 0]) ![1, 0, 0]
      convert this using 2
      rw [exp_z]
      funext i
      fin_cases i <;> (simp [vecHead]; try norm_num)) hz0 (.inl rfl)
  have s3 := c89_piece_partial c h 3 (by omega) (by rw [c3, pe]; exact SO3.isRotation_exp _) ((Real.pi / 2) • (-zAxis, ![0, -1, 0] ⨯₃ (-zAxis))) (by
      rw [c3, c4, pe, pf]
      have := turn_step (SO3.exp ((Real.pi / 2) • zAxis), ![2, 2, 0]) (Real.pi / 2) (-zAxis) ![0, -1, 0]
      convert this using 1
      rw [smul_neg, ← neg_smul, exp_z, exp_z]
      refine Prod.ext ?_ ?_
      · ext i j
        fin_cases i <;> fin_cases j <;> simp [Matrix.mul_apply, Fin.sum_univ_three]
      · funext i
        fin_cases i <;> simp [vecHead, vecTail] <;> norm_num) (by
      change eucNorm ((Real.pi / 2) • -zAxis) < _
      rw [hq']; linarith) (.inr (by
      change _ ≤ eucNorm ((Real.pi / 2) • -zAxis)
      rw [hq']; linarith))
  have n1 : eucNorm ((Real.pi / 2) • (zAxis, ![0, 1, 0] ⨯₃ zAxis) : Twist).2 = Real.pi / 2 := by
    change eucNorm ((Real.pi / 2) • (orbitCentre ⨯₃ zAxis)) = _
    rw [orbit_cross, eucNorm_smul, hn1, mul_one, abs_of_pos Real.pi_div_two_pos]
  have n3 : eucNorm ((Real.pi / 2) • (-zAxis, ![0, -1, 0] ⨯₃ (-zAxis)) : Twist).2 = Real.pi / 2 := by
    have : ![0, -1, 0] ⨯₃ (-zAxis) = ![1, 0, 0] := by rw [zAxis, cross_apply]; simp
    change eucNorm ((Real.pi / 2) • (![0, -1, 0] ⨯₃ (-zAxis))) = _
    rw [this, eucNorm_smul, hn1, mul_one, abs_of_pos Real.pi_div_two_pos]
  have l0 : a.arcLength = 0 := by rw [← c0]; exact hI.zero SE3.ops SE3.arcLength (by omega)
  have l1 : b.arcLength = 1 := by
    have := s0.1
    rw [hn1, c0, l0] at this
    rw [← c1]; linarith
  have l2 : d.arcLength = 1 + Real.pi / 2 := by
    have := s1.1
    rw [n1, c1, l1] at this
    rw [← c2]; exact this
  have l3 : e.arcLength = 2 + Real.pi / 2 := by
    have := s2.1
    rw [hn1, c2, l2] at this
    rw [← c3]; linarith
  have l4 : f.arcLength = 2 + Real.pi := by
    have := s3.1
    rw [n3, c3, l3] at this
    rw [← c4]; linarith
  refine ⟨by rw [hl]; simp [l0, l1, l2, l3, l4], ?_⟩
  obtain ⟨g, hg⟩ := ((c45_domain_partial SE3.ops SE3.arcLength (fun _ => eucNorm_nonneg _) c h queryArcLength).1).mpr ⟨by omega, by
      unfold queryArcLength; positivity, by
      unfold DCurve.curveLength
      rw [hl]
      simp only [List.getLast?_cons_cons, List.getLast?_singleton]
      rw [l4]
      unfold queryArcLength
      linarith, by
      rintro ⟨e0, -⟩
      unfold queryArcLength at e0
      have : 0 < 1 + Real.pi / 2 + 0.5 := by positivity
      linarith⟩
  refine ⟨g, hg, ?_⟩
  have hn2 : eucNorm ((0, ![1, 0, 0]) : Twist).2 = 1 := hn1
  rw [hn2, c2, pd, l2] at s2
  obtain ⟨p, p1, -, p3⟩ := s2.2 0.5 g (by norm_num) (by norm_num) hg
  rw [p3 (.inl (smul_zero _)), onScrew_pose.mp p1, SO3.angleAxis_exp _ zAxis_sq,
    show ((0.5 / 1 : ℝ) • ((0, ![1, 0, 0]) : Twist)) = (0, ![0.5, 0, 0]) from Prod.ext (smul_zero _) (by funext i; fin_cases i <;> simp), xexp_line]
  change (_ * (1 : M3), _ *ᵥ _ + _) = _
  rw [mul_one, exp_z]
  congr 1
  funext i
  fin_cases i <;> simp
  norm_num

/-- The curve of the example can be built. -/
example : ∃ c, DBuilt SE3.ops SE3.arcLength c ∧ c.controls.map (·.pose.val) = leftRight := by
  obtain ⟨c, h1, h2⟩ := framed_built leftRight
  refine ⟨c, h1, ?_⟩
  have := congrArg (List.map Framed.val) h2
  rw [List.map_map, List.map_map] at this
  have e : (Framed.val ∘ fun v : Pose => (⟨v, exFrame 1, exFrame 2⟩ : Framed Pose)) = id := rfl
  rw [e, List.map_id] at this
  exact this

/-! ## The circle of the second visualization example -/

theorem circle_at (t : V3) (k a : ℝ) :
    SE3.ops.mul (1, ![k * (1 + t 0), k * t 1, k * t 2]) (SE3.xexp (a • ((zAxis, ![-k, 0, 0] ⨯₃ zAxis) : Twist))) =
    (SO3.exp (a • zAxis), ![k * (Real.cos a + t 0), k * (Real.sin a + t 1), k * t 2]) := by
  rw [SE3.xexp_about]
  refine Prod.ext ?_ ?_
  · change 1 * _ = _
    rw [one_mul]
  · change (1 : M3) *ᵥ (_ - _ *ᵥ _) + _ = _
    rw [one_mulVec, exp_z]
    funext i
    fin_cases i <;> (simp [vecHead, vecTail]; try ring)

theorem unitCircle_on (t : V3) (k : ℝ) (c : DCurve Pose) (hc : c.controls.map (·.pose.val) = unitCircle t k) (i : Nat) (hi : i < c.controls.length) :
    OnScrew (zAxis, ![-k, 0, 0] ⨯₃ zAxis) (1, ![k * (1 + t 0), k * t 1, k * t 2]) (i * (Real.pi / 2)) c.controls[i].pose.val := by
  have hlen : c.controls.length = 5 := by
    have := congrArg List.length hc
    rw [List.length_map] at this
    exact this
  rw [onScrew_pose, circle_at]
  have hg : c.controls[i].pose.val = (unitCircle t k)[i]'(by rw [← hc, List.length_map]; exact hi) := by
    simp only [← hc, List.getElem_map]
  rw [hg]
  have h5 : i < 5 := by omega
  have h3 : 3 * (Real.pi / 2) = Real.pi + Real.pi / 2 := by ring
  have h3' : 3 * Real.pi / 2 = Real.pi + Real.pi / 2 := by ring
  have h4 : 4 * (Real.pi / 2) = 2 * Real.pi := by ring
  have h2 : 2 * (Real.pi / 2) = Real.pi := by ring
  interval_cases i
  · simp [unitCircle, SO3.exp_zero]
  · simp [unitCircle, SO3.angleAxis_exp _ zAxis_sq]
  · simp [unitCircle, SO3.angleAxis_exp _ zAxis_sq, h2]
  · simp [unitCircle, SO3.angleAxis_exp _ zAxis_sq, h3, h3', Real.cos_add, Real.sin_add]
  · simp only [unitCircle]
    rw [exp_z]
    simp [h4]
    exact Matrix.one_fin_three

/-- C89 on `unit_circle` of the second visualization example, for every translation `t` and every scale `k > 0`: the curve is as long as the circle, and
at the distance `r` it returns the point of the circle at that distance from the first control, turned along the circle. -/
theorem c89_unit_circle (t : V3) (k : ℝ) (hk : 0 < k) (c : DCurve Pose) (h : DBuilt SE3.ops SE3.arcLength c)
    (hc : c.controls.map (·.pose.val) = unitCircle t k) :
    DCurve.curveLength c = 2 * Real.pi * k ∧
    ∀ (r : ℝ) (g : Framed Pose), DCurve.pointAt SE3.ops c r = .ok g →
      Within (1e-18 * r) g.val (angleAxisMatrix (r / k) zAxis, ![k * (Real.cos (r / k) + t 0), k * (Real.sin (r / k) + t 1), k * t 2]) := by
  have hlen : c.controls.length = 5 := by
    have := congrArg List.length hc
    rw [List.length_map] at this
    exact this
  have hcr : ![-k, 0, 0] ⨯₃ zAxis = ![0, k, 0] := by rw [zAxis, cross_apply]; simp
  have hn : eucNorm (![-k, 0, 0] ⨯₃ zAxis) = k := by
    rw [hcr, eucNorm, sqNorm_eq]
    simp [Real.sqrt_sq hk.le]
  have hp := Real.pi_gt_three
  have hon := unitCircle_on t k c hc
  obtain ⟨k1, k2⟩ := c89_helix_partial c h (zAxis, ![-k, 0, 0] ⨯₃ zAxis) (1, ![k * (1 + t 0), k * t 1, k * t 2]) isRotation_one
    (fun i => i * (Real.pi / 2)) hon (by
      intro i _
      have e : ((i + 1 : ℕ) : ℝ) * (Real.pi / 2) - i * (Real.pi / 2) = Real.pi / 2 := by push_cast; ring
      have hq : eucNorm ((Real.pi / 2) • zAxis) = Real.pi / 2 := by rw [eucNorm_smul, zAxis_norm, mul_one, abs_of_pos Real.pi_div_two_pos]
      simp only [e]
      refine ⟨?_, by rw [hq]; linarith, .inr (by rw [hq]; linarith)⟩
      linarith)
  constructor
  · have := k1 4 (by omega)
    unfold DCurve.curveLength
    rw [List.getLast?_eq_getElem?, hlen, List.getElem?_eq_getElem (by omega)]
    simp only
    rw [this, hn]
    push_cast
    ring
  · intro r g hg
    obtain ⟨p, p1, p2⟩ := k2 r g hg
    rw [onScrew_pose, circle_at] at p1
    simp only [hn, Nat.cast_zero, zero_mul, zero_add] at p1
    rw [SO3.angleAxis_exp _ zAxis_sq, ← p1]
    exact p2

/-- The circle also meets the hypotheses of `c89_dcurve_circle`, which says of it that no point is further than 1e-14 of the radius from the circle. -/
example (t : V3) (k : ℝ) (c : DCurve Pose) (h : DBuilt SE3.ops SE3.arcLength c) (hc : c.controls.map (·.pose.val) = unitCircle t k) (r : ℝ) (g : Framed Pose)
    (hg : DCurve.pointAt SE3.ops c r = .ok g) :
    ∃ a p, OnScrew (zAxis, ![-k, 0, 0] ⨯₃ zAxis) (1, ![k * (1 + t 0), k * t 1, k * t 2]) a p ∧ Within (1e-14 * eucNorm ![-k, 0, 0]) g.val p :=
  c89_dcurve_circle c h zAxis ![-k, 0, 0] (1, ![k * (1 + t 0), k * t 1, k * t 2]) isRotation_one (fun p hp => by
    obtain ⟨i, hi, rfl⟩ := List.mem_iff_getElem.mp hp
    exact ⟨_, unitCircle_on t k c hc i hi⟩) r g hg

/-- The circle of the example, moved by `(1, 2, 3)` and three times as large, can be built. -/
example : ∃ c, DBuilt SE3.ops SE3.arcLength c ∧ c.controls.map (·.pose.val) = unitCircle ![1, 2, 3] 3 := by
  obtain ⟨c, h1, h2⟩ := framed_built (unitCircle ![1, 2, 3] 3)
  refine ⟨c, h1, ?_⟩
  have := congrArg (List.map Framed.val) h2
  rw [List.map_map, List.map_map] at this
  have e : (Framed.val ∘ fun v : Pose => (⟨v, exFrame 1, exFrame 2⟩ : Framed Pose)) = id := rfl
  rw [e, List.map_id] at this
  exact this

end Verif.Props
