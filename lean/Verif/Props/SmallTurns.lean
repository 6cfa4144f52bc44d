import Verif.Props.Trajectory
import Verif.Props.DCurve
import Verif.Proofs.Homogeneous
/-! # C31, C39, C43 and C51 for small turns

Where two neighbouring poses differ by an angle below 0.002 the exponential of the logarithm is not exact (C30).  These theorems have no condition
on the angle: everything but the translation is exact, and the translation is off by at most 1e-15 of the distance moved. -/
namespace Verif.Props
open Matrix Verif.Framed Verif.Spec SO3

theorem exp_log_close (g : Pose) (h : IsRotation g.1) :
    (SE3.ops.exp (SE3.ops.log g)).1 = g.1 ∧ eucNorm ((SE3.ops.exp (SE3.ops.log g)).2 - g.2) ≤ 1e-15 * eucNorm g.2 := by
  by_cases ha : GoodAngle (SO3.log g.1)
  · have : SE3.ops.exp (SE3.ops.log g) = g := SE3.exp_log h (goodAngle_iff ha)
    rw [this, sub_self, eucNorm_zero]
    exact ⟨rfl, mul_nonneg (by norm_num) (eucNorm_nonneg _)⟩
  · refine c30_small_angle_close_partial g h ?_
    unfold GoodAngle at ha
    rw [not_or, not_le] at ha
    exact ha.2

/-- C31 for SE3 at the end, for every angle: frames and rotation are exact, the translation is off by at most 1e-15 of its length. -/
theorem c31_se3_close_partial (g : Framed Pose) (hv : IsRotation g.val.1) (hf : g.into = Frame.null ↔ g.src = Frame.null) :
    ∃ a, interp SE3.ops g 1 = .ok a ∧ a.into = g.into ∧ a.src = g.src ∧ a.val.1 = g.val.1 ∧
      eucNorm (a.val.2 - g.val.2) ≤ 1e-15 * eucNorm g.val.2 := by
  have hi : interp SE3.ops g 1 = .ok ⟨SE3.exp ((1 : ℝ) • SE3.log g.val), g.into, g.src⟩ := mk'_ok hf
  rw [one_smul] at hi
  exact ⟨_, hi, rfl, rfl, exp_log_close g.val hv⟩

/-- C39 for SE3 for all angles: the first control exactly; every other control with exact derivatives, frames and rotation and a translation off by at
most 1e-15 of the distance to the control before (seen from the moving frame). -/
theorem c39_se3_close_partial (c : TCurve Pose Twist) (h : Built c) (hw : WholeFrames c) (h2 : 2 ≤ c.controls.length)
    (hv : ∀ p ∈ c.controls, IsRotation p.point.g.val.1) :
    TCurve.pointAt SE3.ops c c.controls[0].time = .ok c.controls[0].point ∧
    ∀ (i : Nat) (hi : i + 1 < c.controls.length), ∃ p, TCurve.pointAt SE3.ops c c.controls[i + 1].time = .ok p ∧
      p.d = c.controls[i + 1].point.d ∧ p.d2 = c.controls[i + 1].point.d2 ∧
      p.g.into = c.controls[i + 1].point.g.into ∧ p.g.src = c.controls[i + 1].point.g.src ∧ p.g.val.1 = c.controls[i + 1].point.g.val.1 ∧
      eucNorm (p.g.val.2 - c.controls[i + 1].point.g.val.2) ≤ 1e-15 * eucNorm (c.controls[i + 1].point.g.val.2 -
        (c.controls[i + 1].point.g.val.1 * c.controls[i].point.g.val.1.transpose) *ᵥ c.controls[i].point.g.val.2) := by
  have hc := inv_of_built h
  constructor
  · obtain ⟨j, hj, e0, e1, e2, e3⟩ := TCurve.pointAt_inside SE3.ops hc h2 c.controls[0].time (le_refl _) (hc.time_le (by omega) (by omega))
    obtain rfl : j = 0 := by
      by_contra hne
      exact absurd (hc.time_lt (i := 0) (j := j) (by omega) (by omega)) (not_lt.mpr e1)
    rw [e3]
    exact TCurve.onPiece_left se3Laws SE3.exp_zero (hc.time_lt hj (by omega)) (TCurve.good_piece hc hw hj)
  · intro i hi
    obtain ⟨j, hj, e0, e1, e2, e3⟩ := TCurve.pointAt_inside SE3.ops hc h2 c.controls[i + 1].time (hc.time_le (by omega) (by omega))
      (hc.time_le (by omega) (by omega))
    obtain rfl : j = i := by
      by_contra hne
      rcases Nat.lt_or_gt_of_ne hne with hlt | hgt
      · exact absurd (hc.time_lt (i := j + 1) (j := i + 1) (by omega) (by omega)) (not_lt.mpr e2)
      · rcases e0 with rfl | e0
        · omega
        · exact absurd (hc.time_le (i := i + 1) (j := j) (by omega) (by omega)) (not_le.mpr e0)
    rw [e3]
    have hlt := hc.time_lt hj (show j < j + 1 by omega)
    have hg := TCurve.good_piece hc hw hj
    have hm : TSegment.make (TCurve.piece c.controls[j] c.controls[j + 1]).curve.orig (TCurve.piece c.controls[j] c.controls[j + 1]).curve.dest =
        .ok (TCurve.piece c.controls[j] c.controls[j + 1]).curve :=
      TSegment.make_ok_iff.mpr ⟨rfl, hg.into.symm, hg.src.symm⟩
    obtain ⟨p, h1, h2, h3, h4, h5, h6, h7⟩ := c37_se3_close_partial _ _ _ hm hg.whole (hv _ (List.getElem_mem (by omega))) (hv _ (List.getElem_mem hj))
    unfold TCurve.onPiece
    have hne := sub_ne_zero.mpr hlt.ne'
    rw [one_div_mul_cancel hne, h1, Outcome.ok_bind]
    refine ⟨_, rfl, ?_, ?_, h4, h5, h6, h7⟩
    · simp only [TCurve.unnormalize, h2]
      simp [TCurve.piece, TCurve.scaled, smul_smul, hne]
    · simp only [TCurve.unnormalize, h3]
      simp [TCurve.piece, TCurve.scaled, smul_smul, hne]

/-- C43 for all angles, with equal frames and steps of positive length: the first control exactly; every other control with exact frames and rotation
and a translation off by at most 1e-15 of the length of the step to it. -/
theorem c43_close_partial (c : DCurve Pose) (h : DBuilt SE3.ops SE3.arcLength c) (h2 : 2 ≤ c.controls.length)
    (hu : ∀ p ∈ c.controls, ∀ q ∈ c.controls, p.pose.into = q.pose.into ∧ p.pose.src = q.pose.src)
    (hv : ∀ p ∈ c.controls, IsRotation p.pose.val.1) (hp : PositiveSteps c) :
    DCurve.pointAt SE3.ops c c.controls[0].arcLength = .ok c.controls[0].pose ∧
    ∀ (i : Nat) (hi : i + 1 < c.controls.length), ∃ p, DCurve.pointAt SE3.ops c c.controls[i + 1].arcLength = .ok p ∧
      p.into = c.controls[i + 1].pose.into ∧ p.src = c.controls[i + 1].pose.src ∧ p.val.1 = c.controls[i + 1].pose.val.1 ∧
      eucNorm (p.val.2 - c.controls[i + 1].pose.val.2) ≤ 1e-15 * eucNorm (c.controls[i + 1].pose.val.2 - c.controls[i].pose.val.2) := by
  have hc := dInv_of_built h
  have hle : ∀ {i j : Nat} (hj : j < c.controls.length) (_ : i ≤ j), c.controls[i].arcLength ≤ c.controls[j].arcLength := by
    intro i j hj hij
    exact hc.le SE3.ops SE3.arcLength (fun _ => eucNorm_nonneg _) hj hij
  have hlt : ∀ {i j : Nat} (hj : j < c.controls.length) (_ : i < j), c.controls[i].arcLength < c.controls[j].arcLength := by
    intro i j hj hij
    exact (hp i (by omega)).trans_le (hle hj hij)
  have hlen : DCurve.curveLength c = c.controls[c.controls.length - 1].arcLength := DCurve.curveLength_eq (List.length_pos_iff.mp (by omega))
  have hz := hc.zero SE3.ops SE3.arcLength (show 0 < c.controls.length by omega)
  have key : ∀ (k : Nat) (hk : k < c.controls.length) (i : Nat) (hi : i + 1 < c.controls.length), (k = i + 1 ∨ k = 0 ∧ i = 0) →
      DCurve.pointAt SE3.ops c c.controls[k].arcLength =
        .ok ⟨DCurve.valueOn SE3.ops c.controls[i] c.controls[i + 1] c.controls[k].arcLength, c.controls[i].pose.into, c.controls[i].pose.src⟩ := by
    intro k hk i hi hki
    obtain ⟨j, hj, j0, j1, j2, j3, -⟩ := DCurve.pointAt_inside SE3.ops SE3.arcLength hc h2 (s := c.controls[k].arcLength)
      (by rw [← hz]; exact hle hk (Nat.zero_le _)) (by rw [hlen]; exact hle (by omega) (by omega))
    have hji : j = i := by
      by_contra hne
      have a1 : k ≤ j + 1 := by
        by_contra hcon
        exact absurd (hlt (i := j + 1) (j := k) hk (by omega)) (not_lt.mpr j1)
      have a2 : j = 0 ∨ j < k := by
        rcases j2 with j2 | j2
        · exact .inl j2
        · right
          by_contra hcon
          exact absurd (hle (i := k) (j := j) (by omega) (by omega)) (not_le.mpr j2)
      omega
    subst hji
    rw [j3 (hp j hj), DCurve.onPiece_value (hc.whole _ (List.getElem_mem _)) (hc.whole _ (List.getElem_mem _))
      (hu _ (List.getElem_mem _) _ (List.getElem_mem _)).1 (hu _ (List.getElem_mem _) _ (List.getElem_mem _)).2]
  constructor
  · rw [key 0 (by omega) 0 (by omega) (.inr ⟨rfl, rfl⟩), DCurve.valueOn_orig se3Laws SE3.exp_zero]
  · intro i hi
    have hf := hu _ (List.getElem_mem (show i < c.controls.length by omega)) _ (List.getElem_mem hi)
    refine ⟨_, key (i + 1) hi i hi (.inl rfl), hf.1, hf.2, ?_⟩
    have ha := hv _ (List.getElem_mem (show i < c.controls.length by omega))
    have hb := hv _ (List.getElem_mem hi)
    have hpi := hp i hi
    generalize c.controls[i] = a at *
    generalize c.controls[i + 1] = b at *
    have hval : DCurve.valueOn SE3.ops a b b.arcLength =
        SE3.mul a.pose.val (SE3.ops.exp (SE3.ops.log (SE3.ops.mul (SE3.ops.inv a.pose.val) b.pose.val))) := by
      unfold DCurve.valueOn
      rw [div_self (sub_ne_zero.mpr hpi.ne'), se3Laws.smul_eq, one_smul]
      rfl
    have hrv := se3Laws.valid_mul (se3Laws.valid_inv ha) hb
    have hback : SE3.mul a.pose.val (SE3.ops.mul (SE3.ops.inv a.pose.val) b.pose.val) = b.pose.val := by
      have : SE3.ops.mul a.pose.val (SE3.ops.mul (SE3.ops.inv a.pose.val) b.pose.val) = b.pose.val := by
        rw [← se3Laws.mul_assoc, se3Laws.mul_inv ha, se3Laws.one_mul]
      exact this
    obtain ⟨k1, k2⟩ := exp_log_close _ hrv
    have hn : eucNorm (SE3.ops.mul (SE3.ops.inv a.pose.val) b.pose.val).2 = eucNorm (b.pose.val.2 - a.pose.val.2) := by
      rw [← eucNorm_mulVec ha]
      congr 1
      have := congrArg Prod.snd hback
      simp only [SE3.mul] at this
      rw [← this]
      abel
    rw [hval, ← hn]
    generalize hr : SE3.ops.mul (SE3.ops.inv a.pose.val) b.pose.val = rel at *
    rw [← hback]
    constructor
    · change a.pose.val.1 * _ = a.pose.val.1 * _
      rw [k1]
    · refine le_trans (le_of_eq ?_) k2
      rw [← eucNorm_mulVec ha (Prod.snd (SE3.ops.exp (SE3.ops.log rel)) - rel.2)]
      congr 1
      simp only [SE3.mul, act, Matrix.mulVec_sub]
      abel

/-- C51 at control timestamps for all angles: the first control exactly; every other control with exact derivatives, frames and rotation and a position off
by at most 1e-15 of the distance from the control before. -/
theorem c51_close_partial (T : Trajectory) (acc : List TrajControl) (h : Reached T acc) (h2 : 2 ≤ acc.length)
    (hv : ∀ p ∈ acc, IsRotation p.state.refFromBody.val.1) :
    Trajectory.pointAt T acc[0].atTime = .ok acc[0].state ∧
    ∀ (i : Nat) (hi : i + 1 < acc.length), ∃ s, Trajectory.pointAt T acc[i + 1].atTime = .ok s ∧
      s.twoJet.d = acc[i + 1].state.twoJet.d ∧ s.twoJet.d2 = acc[i + 1].state.twoJet.d2 ∧
      s.refFromBody.into = acc[i + 1].state.refFromBody.into ∧ s.refFromBody.src = acc[i + 1].state.refFromBody.src ∧
      s.refFromBody.val.1 = acc[i + 1].state.refFromBody.val.1 ∧
      eucNorm (s.refFromBody.val.2 - acc[i + 1].state.refFromBody.val.2) ≤
        1e-15 * eucNorm (acc[i + 1].state.refFromBody.val.2 - acc[i].state.refFromBody.val.2) := by
  have hI := inv_of_reached h
  have hc := hI.controls
  have hlen : 2 ≤ T.curve.controls.length := by rw [hc, List.length_map]; exact h2
  have hv' : ∀ q ∈ T.curve.controls, IsRotation q.point.g.val.1 := by
    intro q hq
    rw [hc, List.mem_map] at hq
    obtain ⟨r, hr, rfl⟩ := hq
    exact se3Laws.valid_inv (hv r hr)
  have hget : ∀ (i : Nat) (hi : i < acc.length), T.curve.controls[i]'(by rw [hc, List.length_map]; exact hi) = Trajectory.toControl T.startTime acc[i] := by
    intro i hi
    simp [hc]
  obtain ⟨k0, k1⟩ := c39_se3_close_partial T.curve hI.built (whole_curve hI) hlen hv'
  constructor
  · rw [hget 0 (by omega)] at k0
    have hm : acc[0] ∈ acc := List.getElem_mem _
    have hback := c34_se3.2.1 acc[0].state.twoJet (hv _ hm) (hI.whole _ hm)
    rw [Trajectory.left_eq (hI.whole _ hm), Outcome.ok_bind] at hback
    unfold Trajectory.pointAt
    rw [i64_ok (hI.fits _ hm), Outcome.ok_bind]
    simp only [Trajectory.toControl] at k0
    rw [k0, Outcome.ok_bind, hback]
    rfl
  · intro i hi
    have hm : acc[i + 1] ∈ acc := List.getElem_mem _
    have hm0 : acc[i] ∈ acc := List.getElem_mem _
    obtain ⟨p, p1, p2, p3, p4, p5, p6, p7⟩ := k1 i (by rw [hc, List.length_map]; exact hi)
    rw [hget (i + 1) hi] at p1 p2 p3 p4 p5 p6 p7
    rw [hget i (by omega)] at p7
    have hvm := hv _ hm
    have hvm0 := hv _ hm0
    have hwm := hI.whole _ hm
    have hfit := hI.fits _ hm
    generalize acc[i + 1] = b at *
    generalize acc[i] = a at *
    simp only [Trajectory.toControl] at p1 p2 p3 p4 p5 p6 p7
    have hpw : Whole p.g := by
      unfold Whole at hwm ⊢
      rw [p4, p5]
      exact hwm.symm
    refine ⟨⟨⟨⟨SE3.ops.inv p.g.val, p.g.src, p.g.into⟩, -p.d, -p.d2⟩⟩, ?_, ?_, ?_, p5, p4, ?_, ?_⟩
    · unfold Trajectory.pointAt
      rw [i64_ok hfit, Outcome.ok_bind, p1, Outcome.ok_bind, TwoJetL.right_whole SE3.ops hpw]
      rfl
    · exact (congrArg Neg.neg p2).trans (neg_neg _)
    · exact (congrArg Neg.neg p3).trans (neg_neg _)
    · change p.g.val.1.transpose = _
      rw [p6]
      exact Matrix.transpose_transpose _
    · have e1 : (SE3.ops.inv b.state.refFromBody.val).1 = b.state.refFromBody.val.1.transpose := rfl
      have e2 : (SE3.ops.inv b.state.refFromBody.val).2 = b.state.refFromBody.val.1.transpose *ᵥ -b.state.refFromBody.val.2 := rfl
      have e3 : (SE3.ops.inv a.state.refFromBody.val).1 = a.state.refFromBody.val.1.transpose := rfl
      have e4 : (SE3.ops.inv a.state.refFromBody.val).2 = a.state.refFromBody.val.1.transpose *ᵥ -a.state.refFromBody.val.2 := rfl
      change eucNorm (p.g.val.1.transpose *ᵥ -p.g.val.2 - _) ≤ _
      rw [p6, e1, Matrix.transpose_transpose]
      rw [e1, e2, e3, e4] at p7
      have o1 : b.state.refFromBody.val.1 * b.state.refFromBody.val.1.transpose = 1 := mul_eq_one_comm.mp hvm.orth
      have o2 : a.state.refFromBody.val.1 * a.state.refFromBody.val.1.transpose = 1 := mul_eq_one_comm.mp hvm0.orth
      have hvt : IsRotation b.state.refFromBody.val.1.transpose := so3Laws.valid_inv hvm
      generalize b.state.refFromBody.val.1 = R at *
      generalize a.state.refFromBody.val.1 = S at *
      generalize b.state.refFromBody.val.2 = x at *
      generalize a.state.refFromBody.val.2 = y at *
      generalize p.g.val.2 = z at *
      have e5 : R.transpose *ᵥ -x - (R.transpose * S.transpose.transpose) *ᵥ S.transpose *ᵥ -y = R.transpose *ᵥ -(x - y) := by
        rw [Matrix.transpose_transpose, Matrix.mulVec_mulVec, Matrix.mul_assoc, o2, Matrix.mul_one, ← Matrix.mulVec_sub]
        congr 1
        abel
      rw [e5, eucNorm_mulVec hvt, eucNorm_neg] at p7
      refine le_trans (le_of_eq ?_) p7
      rw [← eucNorm_mulVec hvm (z - _), ← eucNorm_neg]
      congr 1
      rw [Matrix.mulVec_sub, Matrix.mulVec_mulVec, o1, Matrix.one_mulVec, Matrix.mulVec_neg]
      abel

/-- Poses with a small turn: a framed one for C31, and a trajectory whose body turns by a ten-thousandth per control for C51. -/
example : (IsRotation (SO3.exp ![0.0001, 0, 0]) ∧ eucNorm (SO3.log (SO3.exp ![0.0001, 0, 0])) = 0.0001) ∧
    ∃ T acc, Reached T acc ∧ 2 ≤ acc.length ∧ (∀ p ∈ acc, IsRotation p.state.refFromBody.val.1) := by
  have hn : eucNorm (![0.0001, 0, 0] : V3) = 0.0001 := by
    have : sqNorm (![0.0001, 0, 0] : V3) = 0.0001 ^ 2 := by rw [sqNorm_eq]; simp
    rw [eucNorm, this, Real.sqrt_sq (by norm_num)]
  refine ⟨⟨SO3.isRotation_exp _, ?_⟩, ?_⟩
  · rw [SO3.log_exp (by rw [hn]; linarith [Real.pi_gt_three]), hn]
  · obtain ⟨T, hT⟩ := exReached (fun t => exAt (SO3.exp ![0.0001 * (t : ℝ), 0, 0]) ![(t : ℝ), 2, 3]) (fun _ => ⟨exAt_whole _ _, rfl, rfl⟩) 100 (by decide)
      [101, 102] (by decide) (by decide) (by decide)
    refine ⟨T, _, hT, by simp, ?_⟩
    intro p hp
    rw [List.mem_map] at hp
    obtain ⟨t, -, rfl⟩ := hp
    exact SO3.isRotation_exp _

/-! ## The conditions on the angle are needed

Each witness meets the conditions of the theorem above it and misses its last control. -/

theorem moved_of_exp_log_ne {g : Pose} (h : IsRotation g.1) (hne : SE3.ops.exp (SE3.ops.log g) ≠ g) : 0 < eucNorm g.2 := by
  refine (eucNorm_nonneg _).lt_of_ne' fun h0 => hne ?_
  obtain ⟨h1, h2⟩ := exp_log_close g h
  rw [h0, mul_zero] at h2
  exact Prod.ext h1 (sub_eq_zero.mp (eucNorm_eq_zero.mp (le_antisymm h2 (eucNorm_nonneg _))))

/-- C39 is false for SE3 at some small angle: a curve that does not reach its last control. -/
theorem c39_se3_small_angle_fails : ∃ c : TCurve Pose Twist, Built c ∧ WholeFrames c ∧ (∀ p ∈ c.controls, IsRotation p.point.g.val.1) ∧
    ∃ h : 1 < c.controls.length, TCurve.pointAt SE3.ops c c.controls[1].time ≠ .ok c.controls[1].point := by
  obtain ⟨g, hg, hne⟩ := c30_small_angle_fails
  obtain ⟨l, hl⟩ : ∃ l : List (TControl Pose Twist), l = [⟨0, ⟨⟨SE3.one, exFrame 1, exFrame 2⟩, 0, 0⟩⟩, ⟨1, ⟨⟨g, exFrame 1, exFrame 2⟩, 0, 0⟩⟩] := ⟨_, rfl⟩
  obtain ⟨c, hc⟩ : ∃ c, TCurve.make l = .ok c := by
    rw [(c40_construct l).1]
    intro i hi q hq
    rw [hl] at hi
    simp only [List.length_cons, List.length_nil] at hi
    obtain rfl | rfl : i = 0 ∨ i = 1 := by omega
    · simp at hq
    · simp only [hl, List.take_succ_cons, List.take_zero, List.mem_singleton] at hq; subst hq
      simp [hl]
  obtain ⟨hb, he⟩ := (c40_construct l).2.1 c hc
  rw [hl] at he
  have hw : WholeFrames c := by
    intro p hp
    rw [he] at hp
    simp only [List.mem_cons, List.not_mem_nil, or_false] at hp
    rcases hp with rfl | rfl <;> exact iff_of_false (show ¬ exFrame 1 = Frame.null by decide) (show ¬ exFrame 2 = Frame.null by decide)
  have hv : ∀ p ∈ c.controls, IsRotation p.point.g.val.1 := by
    intro p hp
    rw [he] at hp
    simp only [List.mem_cons, List.not_mem_nil, or_false] at hp
    rcases hp with rfl | rfl
    · exact so3Laws.valid_one
    · exact hg
  have hlen : c.controls.length = 2 := by rw [he]; rfl
  refine ⟨c, hb, hw, hv, by omega, ?_⟩
  have hI := inv_of_built hb
  obtain ⟨j, hj, e0, e1, e2, e3⟩ := TCurve.pointAt_inside SE3.ops hI (by omega) c.controls[1].time (hI.time_le (by omega) (by omega))
      (hI.time_le (by omega) (by omega))
  obtain rfl : j = 0 := by omega
  rw [e3, onPiece_formula SE3.ops (TCurve.good_piece hI hw hj), Ne, Outcome.ok.injEq]
  intro e
  have e4 := congrArg (fun q => q.g.val) e
  simp only [pieceFormula, TCurve.unnormalize] at e4
  rw [one_div_mul_cancel (sub_ne_zero.mpr (hI.time_lt hj (by omega)).ne'), vpoint_one se3Laws SE3.exp_zero] at e4
  simp only [he, TCurve.piece, TCurve.scaled, List.getElem_cons_zero, List.getElem_cons_succ] at e4
  have hone : SE3.ops.inv SE3.one = SE3.ops.one := by
    have := se3Laws.inv_mul (g := SE3.ops.one) se3Laws.valid_one
    rwa [se3Laws.mul_one] at this
  have e5 : SE3.ops.mul (SE3.ops.exp (SE3.ops.log (SE3.ops.mul g (SE3.ops.inv SE3.one)))) SE3.ops.one = g := e4
  rw [hone, se3Laws.mul_one, se3Laws.mul_one] at e5
  exact hne e5

/-- C43 is false at some small angle: a curve that does not reach its last control. -/
theorem c43_small_angle_fails : ∃ c : DCurve Pose, DBuilt SE3.ops SE3.arcLength c ∧ PositiveSteps c ∧
    (∀ p ∈ c.controls, ∀ q ∈ c.controls, p.pose.into = q.pose.into ∧ p.pose.src = q.pose.src) ∧
    (∀ p ∈ c.controls, IsRotation p.pose.val.1) ∧
    ∃ h : 1 < c.controls.length, DCurve.pointAt SE3.ops c c.controls[1].arcLength ≠ .ok c.controls[1].pose := by
  obtain ⟨g, hg, hne⟩ := c30_small_angle_fails
  have hpos := moved_of_exp_log_ne hg hne
  obtain ⟨c, hb, hl⟩ := framed_built [SE3.one, g]
  have hlen : c.controls.length = 2 := by simpa using congrArg List.length hl
  obtain ⟨a, b, hab⟩ := List.length_eq_two.mp hlen
  rw [hab] at hl
  simp only [List.map_cons, List.map_nil, List.cons.injEq, and_true] at hl
  obtain ⟨hap, hbp⟩ := hl
  have hinv : SE3.ops.mul (SE3.ops.inv SE3.one) g = g := by
    have h1 := se3Laws.inv_mul (g := SE3.ops.one) se3Laws.valid_one
    rw [se3Laws.mul_one] at h1
    have h2 := se3Laws.one_mul g
    rwa [← h1] at h2
  have hlog : 0 < eucNorm (SE3.log g).2 := by
    refine (eucNorm_nonneg _).lt_of_ne' fun h0 => ?_
    obtain ⟨-, k⟩ := exp_log_close g hg
    have e : (SE3.ops.exp (SE3.ops.log g)).2 = 0 := by
      have e0 : (SE3.log g).2 = 0 := eucNorm_eq_zero.mp h0
      change (SE3.exp (SE3.log g)).2 = 0
      rw [SE3.exp_translation, e0]
      simp
    rw [e, zero_sub, eucNorm_neg] at k
    linarith
  have hstep : b.arcLength = a.arcLength + eucNorm (SE3.log g).2 := by
    have := (c42_se3_arc_lengths c hb).2 a b [] [] hab
    rw [hap, hbp] at this
    rw [this]
    congr 3
    exact congrArg SE3.log hinv
  have hp : PositiveSteps c := by
    intro i hi
    obtain rfl : i = 0 := by omega
    simp only [hab, List.getElem_cons_zero, List.getElem_cons_succ]
    linarith
  have hu : ∀ p ∈ c.controls, ∀ q ∈ c.controls, p.pose.into = q.pose.into ∧ p.pose.src = q.pose.src := by
    intro p hp q hq
    rw [hab] at hp hq
    simp only [List.mem_cons, List.not_mem_nil, or_false] at hp hq
    rcases hp with rfl | rfl <;> rcases hq with rfl | rfl <;> simp [hap, hbp]
  have hv : ∀ p ∈ c.controls, IsRotation p.pose.val.1 := by
    intro p hp
    rw [hab] at hp
    simp only [List.mem_cons, List.not_mem_nil, or_false] at hp
    rcases hp with rfl | rfl
    · rw [hap]; exact so3Laws.valid_one
    · rw [hbp]; exact hg
  refine ⟨c, hb, hp, hu, hv, by omega, ?_⟩
  have hc := dInv_of_built hb
  obtain ⟨j, hj, -, -, -, j3, -⟩ := DCurve.pointAt_inside SE3.ops SE3.arcLength hc (by omega) (s := c.controls[1].arcLength)
    (by rw [← hc.zero SE3.ops SE3.arcLength (show 0 < c.controls.length by omega)]; exact (hp 0 (by omega)).le)
    (by rw [DCurve.curveLength_eq (List.length_pos_iff.mp (by omega))]; simp [hlen])
  obtain rfl : j = 0 := by omega
  rw [j3 (hp 0 (by omega)), DCurve.onPiece_value (hc.whole _ (List.getElem_mem _)) (hc.whole _ (List.getElem_mem _))
    (hu _ (List.getElem_mem _) _ (List.getElem_mem _)).1 (hu _ (List.getElem_mem _) _ (List.getElem_mem _)).2, Ne, Outcome.ok.injEq]
  intro e
  have e4 := congrArg Framed.val e
  simp only [DCurve.valueOn] at e4
  rw [div_self (sub_ne_zero.mpr (hp 0 (by omega)).ne'), se3Laws.smul_eq, one_smul] at e4
  simp only [hab, List.getElem_cons_zero, List.getElem_cons_succ, hap, hbp] at e4
  rw [hinv] at e4
  exact hne ((se3Laws.one_mul _).symm.trans e4)

end Verif.Props
