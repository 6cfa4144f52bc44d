import Verif.Proofs.TCurveDoubleSteps
import Verif.Spec.TCurveDouble
import Verif.Props.ExactMotion
/-! # Time curves in doubles: lemmas -/
namespace Verif.TCurveDouble
open Verif.Spec Verif.TransformDouble Verif.ExpDouble Verif.LogDouble Verif.SampleIntervalDouble Verif.Props Verif.DCurveDouble Matrix SO3

/-- The transform that leads from one pose to the next, from the left. -/
theorem rel_left {δ B : ℝ} (hδ : δ ≤ 1e-5) (hB : 2 ^ (-1000 : ℤ) ≤ B) {p p' c r : Stored} {G G' : Pose} {x : Twist}
    (h : StoresPose δ B p G) (h' : StoresPose δ B p' G') (hx : poseMatrix G' = NormedSpace.exp (twistHat x) * poseMatrix G)
    (hc : Inverse p c) (hr : Mul p' c r) :
    SE3.mul G' (SE3.inv G) = SE3.xexp x ∧ G' = SE3.mul (SE3.xexp x) G ∧
    TurnsAlike (2.04 * δ + 20.4 * U) (realRot r.rot) (SO3.exp x.1) ∧
    eucNorm (realVec r.trans - (SE3.xexp x).2) ≤ 6.12 * (δ + 10 * U) * B := by
  have hU := U_pos
  have hU1 := U_tiny.1
  have hδ0 : 0 ≤ δ := turnsAlike_nonneg h.rot
  have hB0 : 0 < B := lt_of_lt_of_le (by positivity) hB
  have he : SameExpr δ B (.mul (.given p') (.inv (.given p))) (.mul (.given G') (.inv (.given G))) := .mul (.given h') (.inv (.given h))
  obtain ⟨-, -, h3, h4⟩ := c88_expression hδ0 hB he (.mul (.given p') (.inv (.given p) hc) hr)
  have l2 := c88_linear hδ0 2 (by unfold U at hU1; norm_num at hU1 hδ ⊢; linarith)
  have l3 := c88_linear hδ0 3 (by unfold U at hU1; norm_num at hU1 hδ ⊢; linarith)
  have eG : G' = SE3.mul (SE3.xexp x) G := SE3.H_injective (by
    rw [SE3.H_mul, SE3.H_xexp]; exact hx)
  have ei : SE3.mul G' (SE3.inv G) = SE3.xexp x := by
    rw [eG]
    have hv : PoseValid G := h.rotation
    have l1 : SE3.mul (SE3.mul (SE3.xexp x) G) (SE3.inv G) = SE3.mul (SE3.xexp x) (SE3.mul G (SE3.inv G)) := se3Laws.mul_assoc _ _ _
    have l2 : SE3.mul G (SE3.inv G) = SE3.one := se3Laws.mul_inv hv
    have l3 : SE3.mul (SE3.xexp x) SE3.one = SE3.xexp x := se3Laws.mul_one _
    rw [l1, l2, l3]
  have ex : (exactly (.mul (.given G') (.inv (.given G)))) = SE3.xexp x := by
    have : exactly (.mul (.given G') (.inv (.given G))) = SE3.mul G' (SE3.inv G) := by
      simp [exactly, SE3.mul, SE3.inv, SO3.mul, SO3.inv, SO3.act, mulVec_neg]
    rw [this, ei]
  rw [ex] at h3 h4
  have hc2 : count (Expr.mul (.given G') (.inv (.given G))) = 2 := rfl
  have he3 : errors (Expr.mul (.given G') (.inv (.given G))) = 3 := rfl
  rw [hc2] at h3
  rw [hc2, he3] at h4
  refine ⟨ei, eG, turnsAlike_mono h3 (by unfold U; linarith), h4.trans ?_⟩
  have : (2 : ℝ) * B * (growth δ 3 - 1) ≤ 2 * B * (1.02 * (3 * (δ + 10 * 2 ^ (-53 : ℤ)))) := mul_le_mul_of_nonneg_left (by exact_mod_cast l3) (by linarith)
  unfold U
  push_cast
  linarith

theorem ctx {δ B : ℝ} (h0 : 0 ≤ δ) (h1 : δ ≤ 1e-10) (hB : 2 ^ (-1000 : ℤ) ≤ B) : Ctx (δ + 10 * U) B := by
  have hU := U_pos
  have hU1 := U_tiny.1
  exact ⟨by linarith, by norm_num at h1 hU1 ⊢; linarith, by linarith, lt_of_lt_of_le (by positivity) hB, H_small hB⟩

/-- The logarithm that the segment computes. -/
theorem log_near {δ B : ℝ} (hδ : δ ≤ 1e-10) (hB : 2 ^ (-1000 : ℤ) ≤ B) {p p' c r : Stored} {G G' : Pose} {x : Twist}
    (h : StoresPose δ B p G) (h' : StoresPose δ B p' G') (hx : LeadsTo δ B x G G') (hc : Inverse p c) (hr : Mul p' c r) {y : Tangent}
    (hy : LogSE3 r y.1 y.2) : TNear (δ + 10 * U) B 428 3052 3.2 1 y x := by
  have hU := U_pos
  have hU1 := U_tiny.1
  have hδ0 : 0 ≤ δ := turnsAlike_nonneg h.rot
  have C := ctx hδ0 hδ hB
  have hB0 := C.bpos
  have hH := C.hH
  obtain ⟨W, V⟩ := x
  obtain ⟨-, -, r1, r2⟩ := rel_left (hδ.trans (by norm_num)) hB h h' hx.leads hc hr
  have hW : eucNorm W ≤ Real.pi - (330 * δ + 4300 * U) := hx.turn
  have hV : eucNorm V ≤ B := hx.bound
  obtain ⟨l1, l2⟩ := logSE3_forward (W := W) (V := V) r1 (by norm_num at hδ ⊢; linarith) r2 (by linarith) hy
  refine ⟨?_, ?_, ?_, ?_, by norm_num, by norm_num⟩
  · exact l1.trans (by linarith)
  · refine l2.trans ?_
    have h1 : (960 * (2.04 * δ + 20.4 * U) + 10561 * U) * eucNorm V ≤ (960 * (2.04 * δ + 20.4 * U) + 10561 * U) * B :=
      mul_le_mul_of_nonneg_left hV (by linarith)
    have p2 := mul_nonneg hδ0 hB0.le
    have p4 := mul_nonneg hU.le hB0.le
    linarith only [h1, hH.2.2, p2, p4]
  · change eucNorm W ≤ _
    have := Real.pi_lt_d4
    linarith
  · change eucNorm V ≤ _
    linarith

/-- The exact segment. -/
noncomputable def seg (J J' : Pose × Twist × Twist) : TSegment Pose Twist :=
  ⟨⟨⟨J.1, Frame.null, Frame.null⟩, J.2.1, J.2.2⟩, ⟨⟨J'.1, Frame.null, Frame.null⟩, J'.2.1, J'.2.2⟩⟩

/-- The exact motion. -/
noncomputable def motion (J J' : Pose × Twist × Twist) (u : ℝ) : Pose × Twist × Twist :=
  (SE3.mul (vpoint SE3.xops (seg J J') u).1 J.1, (vpoint SE3.xops (seg J J') u).2)

theorem motion_log {J J' : Pose × Twist × Twist} {x : Twist} (hJ : IsRotation J.1.1) (hx : poseMatrix J'.1 = NormedSpace.exp (twistHat x) * poseMatrix J.1)
    (hW : eucNorm x.1 < Real.pi) : SE3.xops.log (SE3.xops.mul (seg J J').dest.g.val (SE3.xops.inv (seg J J').orig.g.val)) = x ∧ J'.1 = SE3.mul (SE3.xexp x) J.1 := by
  have eG : J'.1 = SE3.mul (SE3.xexp x) J.1 := SE3.H_injective (by
    rw [SE3.H_mul, SE3.H_xexp]; exact hx)
  refine ⟨?_, eG⟩
  change SE3.xlog (SE3.mul J'.1 (SE3.inv J.1)) = x
  have hv : PoseValid J.1 := hJ
  have l1 : SE3.mul (SE3.mul (SE3.xexp x) J.1) (SE3.inv J.1) = SE3.mul (SE3.xexp x) (SE3.mul J.1 (SE3.inv J.1)) := se3Laws.mul_assoc _ _ _
  have l2 : SE3.mul J.1 (SE3.inv J.1) = SE3.one := se3Laws.mul_inv hv
  have l3 : SE3.mul (SE3.xexp x) SE3.one = SE3.xexp x := se3Laws.mul_one _
  rw [eG, l1, l2, l3]
  exact SE3.xlog_xexp (SO3.log_exp hW)

/-- The exact motion is the one that a user expects. -/
theorem motion_quintic {J J' : Pose × Twist × Twist} {x : Twist} (hJ : IsRotation J.1.1)
    (hx : poseMatrix J'.1 = NormedSpace.exp (twistHat x) * poseMatrix J.1) (hW : eucNorm x.1 < Real.pi) :
    IsQuinticMotion x J J' (motion J J') := by
  obtain ⟨hl, eG⟩ := motion_log hJ hx hW
  refine ⟨fun u => ?_, fun u => vpoint_jet SE3.xrep (fun x => SO3.isRotation_exp x.1) (seg J J') u (SE3.xtermsJet _ u), ?_, ?_⟩
  · have hexp : ∀ (c : ℝ) (y : Twist), SE3.H (SE3.xexp (SE3.xops.smul c y)) = NormedSpace.exp (c • twistHat y) := by
      intro c y
      rw [SE3.H_xexp]
      congr 1
      exact se3Rep.hat_smul c y
    change SE3.H (SE3.mul (vpoint SE3.xops (seg J J') u).1 J.1) = _
    unfold vpoint
    rw [hl]
    simp only [vmul, vinc]
    change SE3.H (SE3.mul (SE3.mul _ (SE3.mul _ (SE3.mul _ (SE3.mul _ (SE3.mul _ SE3.one))))) J.1) = _
    rw [SE3.H_mul, SE3.H_mul, SE3.H_mul, SE3.H_mul, SE3.H_mul, SE3.H_mul, SE3.H_one, mul_one]
    change SE3.H (SE3.xexp _) * (SE3.H (SE3.xexp _) * (SE3.H (SE3.xexp _) * (SE3.H (SE3.xexp _) * SE3.H (SE3.xexp _)))) * _ = _
    rw [hexp, hexp, hexp, hexp, hexp]
    unfold quinticMotion
    simp only [← mul_assoc]
    have e1 : (Quintic.d2Dest u).a = 1 / 2 * u ^ 3 - u ^ 4 + 1 / 2 * u ^ 5 := by
      rw [Quintic.d2Dest, Quintic.coeffs_a]; simp [Quintic.d2DestTable]; ring
    have e2 : (Quintic.d2Orig u).a = 1 / 2 * u ^ 2 - 3 / 2 * u ^ 3 + 3 / 2 * u ^ 4 - 1 / 2 * u ^ 5 := by
      rw [Quintic.d2Orig, Quintic.coeffs_a]; simp [Quintic.d2OrigTable]; ring
    have e3 : (Quintic.dDest u).a = -4 * u ^ 3 + 7 * u ^ 4 - 3 * u ^ 5 := by
      rw [Quintic.dDest, Quintic.coeffs_a]; simp [Quintic.dDestTable]; ring
    have e4 : (Quintic.dOrig u).a = u - 6 * u ^ 3 + 8 * u ^ 4 - 3 * u ^ 5 := by
      rw [Quintic.dOrig, Quintic.coeffs_a]; simp [Quintic.dOrigTable]; ring
    have e5 : (Quintic.destFromOrig u).a = 10 * u ^ 3 - 15 * u ^ 4 + 6 * u ^ 5 := by
      rw [Quintic.destFromOrig, Quintic.coeffs_a]; simp [Quintic.destOrigTable]; ring
    rw [e1, e2, e3, e4, e5]
    rfl
  · simp only [motion, vpoint_zero SE3.xlaws xexp_zero]
    rw [show SE3.mul SE3.xops.one J.1 = J.1 from SE3.xlaws.one_mul _]
    rfl
  · simp only [motion, vpoint_one SE3.xlaws xexp_zero]
    rw [hl]
    change (SE3.mul (SE3.xexp x) J.1, J'.2.1, J'.2.2) = J'
    rw [← eG]

/-- The answer of a segment. -/
theorem segment_answer {δ B : ℝ} (hδ : δ ≤ 1e-10) (hB : 2 ^ (-1000 : ℤ) ≤ B) {o d out : Jet} {J J' : Pose × Twist × Twist} {x : Twist} {t : ℚ}
    (ho : StoresJet δ B o J) (hd : StoresJet δ B d J') (hx : LeadsTo δ B x J.1 J'.1) (h0 : 0 ≤ t) (h1 : t ≤ 1) (h : SegmentPointAt o d t out) :
    JNear (δ + 10 * U) B 1210 6600 2.7 11000 19900 32.1 14.1 263000 550000 508 344 out (motion J J' t) := by
  have hU := U_pos
  have hδ0 : 0 ≤ δ := turnsAlike_nonneg ho.pose.rot
  have C := ctx hδ0 hδ hB
  have hB0 := C.bpos
  have hW : eucNorm x.1 < Real.pi := by
    have h1 : eucNorm x.1 ≤ Real.pi - (330 * δ + 4300 * U) := hx.turn
    linarith
  have tw : ∀ {y : Tangent} {X : Twist}, StoresTwist δ B y X → TNear (δ + 10 * U) B 1 1 10 1 y X := by
    intro y X h
    refine ⟨h.rot.trans (by linarith), h.trans.trans ?_, h.turn, by linarith [h.bound], by norm_num, by norm_num⟩
    rw [one_mul]
    exact mul_le_mul_of_nonneg_right (by linarith) hB0.le
  have po : PNear (δ + 10 * U) B 1 1 1 o.g J.1 := by
    refine ⟨ho.pose.rotation, turnsAlike_mono ho.pose.rot (by linarith), ho.pose.trans.trans ?_, by linarith [ho.pose.bound], by norm_num, by norm_num⟩
    rw [one_mul]
    exact mul_le_mul_of_nonneg_right (by linarith) hB0.le
  obtain ⟨i, r, y, p1, p2, p3, p4, p5, hi, hr, hy, a1, a2, a3, a4, a5, hg, e1, e2⟩ := h
  have hl := log_near hδ hB ho.pose hd.pose hx hi hr hy
  have s1 := step1 C h0 h1 hl start_near a1
  have s2 := step2 C h0 h1 (tw ho.velocity) s1 a2
  have s3 := step3 C h0 h1 (tw hd.velocity) s2 a3
  have s4 := step4 C h0 h1 (tw ho.acceleration) s3 a4
  have s5 := step5 C h0 h1 (tw hd.acceleration) s4 a5
  have ev : vmul SE3.xops (vinc SE3.xops (Quintic.d2Dest t) J'.2.2) (vmul SE3.xops (vinc SE3.xops (Quintic.d2Orig t) J.2.2)
      (vmul SE3.xops (vinc SE3.xops (Quintic.dDest t) J'.2.1) (vmul SE3.xops (vinc SE3.xops (Quintic.dOrig t) J.2.1)
      (vmul SE3.xops (vinc SE3.xops (Quintic.destFromOrig t) x) (SE3.xops.one, 0, 0))))) = vpoint SE3.xops (seg J J') t := by
    unfold vpoint
    rw [(motion_log ho.pose.rotation hx.leads hW).1]
    rfl
  rw [ev] at s5
  refine ⟨?_, e1 ▸ s5.d, e2 ▸ s5.d2⟩
  exact (pmul_near C s5.g po hg (e' := 1210) (f' := 6600) (by norm_num) (by norm_num) (by norm_num) (by norm_num)).mono C le_rfl le_rfl (by norm_num)
    (by norm_num) (by norm_num)

theorem JNear.within {ε B E F T e1 f1 p1 q1 e2 f2 p2 q2 : ℝ} {j : Jet} {J : Pose × Twist × Twist} (h : JNear ε B E F T e1 f1 p1 q1 e2 f2 p2 q2 j J) :
    JetWithin (E * ε) (F * ε * B) (e1 * ε) (f1 * ε * B) (e2 * ε) (f2 * ε * B) j J :=
  ⟨h.g.r, h.g.t, h.d.r, h.d.t, h.d2.r, h.d2.t⟩

end Verif.TCurveDouble
