import Verif.Props.Mounted
import Verif.Props.CurveExamples
/-! # C91: distance curves of something mounted, and the shipped recipes -/
namespace Verif.Props
open Verif.Framed Verif.Spec SO3 Matrix Binary64

theorem dcurve_on {c : DCurve Pose} (h : DBuilt SE3.ops SE3.arcLength c) (i : Nat) (hi : i + 1 < c.controls.length)
    (hl : c.controls[i].arcLength < c.controls[i + 1].arcLength) {u : ℝ} (u0 : 0 < u) (u1 : u ≤ 1) :
    ∃ p, DCurve.pointAt SE3.ops c (c.controls[i].arcLength + u * (c.controls[i + 1].arcLength - c.controls[i].arcLength)) = .ok p ∧
      p.val = SE3.mul c.controls[i].pose.val (SE3.exp (u • SE3.log (SE3.mul (SE3.inv c.controls[i].pose.val) c.controls[i + 1].pose.val))) := by
  have hc := dInv_of_built h
  have harc : ∀ g, 0 ≤ SE3.arcLength g := fun g => eucNorm_nonneg _
  have hd := sub_pos.mpr hl
  set s := c.controls[i].arcLength + u * (c.controls[i + 1].arcLength - c.controls[i].arcLength) with hs
  have l1 : c.controls[i].arcLength < s := by rw [hs]; nlinarith
  have l2 : s ≤ c.controls[i + 1].arcLength := by rw [hs]; nlinarith
  have n0 : 0 ≤ s := by
    have := hc.le _ _ harc (show i < c.controls.length by omega) (show 0 ≤ i by omega)
    rw [hc.zero _ _ (by omega)] at this
    linarith
  have n1 : s ≤ DCurve.curveLength c := by
    rw [DCurve.curveLength_eq (List.ne_nil_of_length_pos (by omega))]
    exact l2.trans (hc.le _ _ harc (by omega) (by omega))
  obtain ⟨j, hj, e1, e2, e3, e4, -⟩ := DCurve.pointAt_inside _ _ hc (by omega) n0 n1
  have hij : j = i := by
    rcases lt_trichotomy j i with hlt | he | hgt
    · have := hc.le _ _ harc (show i < c.controls.length by omega) (show j + 1 ≤ i by omega)
      linarith
    · exact he
    · have := hc.le _ _ harc (show j < c.controls.length by omega) (show i + 1 ≤ j by omega)
      rcases e3 with e3 | e3
      · omega
      · linarith
  subst hij
  obtain ⟨f1, f2, k1, -⟩ := DCurve.onPiece_eq SE3.ops (hc.whole _ (List.getElem_mem (show j < c.controls.length by omega))) (hc.whole _ (List.getElem_mem hj)) s
  rw [e4 hl]
  refine ⟨_, k1, ?_⟩
  have : (s - c.controls[j].arcLength) / (c.controls[j + 1].arcLength - c.controls[j].arcLength) = u := by
    rw [hs]
    field_simp
    ring
  rw [this]
  rfl

theorem seg_mounted {a b m : Pose} (ha : PoseValid a) (hb : PoseValid b) (hm : PoseValid m) (ht : LessThanHalfTurn a.1 b.1) {u : ℝ} (u0 : 0 < u) (u1 : u ≤ 1)
    {p p' : Pose} (hp : p = SE3.mul a (SE3.exp (u • SE3.log (SE3.mul (SE3.inv a) b))))
    (hp' : p' = SE3.mul (SE3.mul a m) (SE3.exp (u • SE3.log (SE3.mul (SE3.inv (SE3.mul a m)) (SE3.mul b m))))) :
    p'.1 = p.1 * m.1 ∧ eucNorm (p'.2 - (p.1 *ᵥ m.2 + p.2)) ≤ 4e-15 * (eucNorm (b.2 - a.2) + eucNorm ((SE3.mul b m).2 - (SE3.mul a m).2)) := by
  have hau : |u| ≤ 1 := by rw [abs_of_pos u0]; exact u1
  have hmi : PoseValid (SE3.inv m) := se3Laws.valid_inv (valid := PoseValid) hm
  have vg : PoseValid (SE3.mul (SE3.inv a) b) := se3Laws.valid_mul (valid := PoseValid) (se3Laws.valid_inv (valid := PoseValid) ha) hb
  have vam : PoseValid (SE3.mul a m) := se3Laws.valid_mul (valid := PoseValid) ha hm
  have vbm : PoseValid (SE3.mul b m) := se3Laws.valid_mul (valid := PoseValid) hb hm
  have vg' : PoseValid (SE3.mul (SE3.inv (SE3.mul a m)) (SE3.mul b m)) :=
    se3Laws.valid_mul (valid := PoseValid) (se3Laws.valid_inv (valid := PoseValid) vam) vbm
  have n := (SE3.first_near (a := u) (da := 0) (d2a := 0) vg hau (by norm_num) (by norm_num)).pose
  have n' := (SE3.first_near (a := u) (da := 0) (d2a := 0) vg' hau (by norm_num) (by norm_num)).pose
  have size : ∀ {a b : Pose} (_ : PoseValid a) (_ : PoseValid b), eucNorm (SE3.xlog (SE3.mul (SE3.inv a) b)).2 ≤ 2 * eucNorm (b.2 - a.2) := by
    intro a b ha hb
    refine (SE3.xlog_le (se3Laws.valid_mul (valid := PoseValid) (se3Laws.valid_inv (valid := PoseValid) ha) hb)).trans (le_of_eq ?_)
    congr 1
    change eucNorm (a.1.transpose *ᵥ b.2 + a.1.transpose *ᵥ (-a.2)) = _
    rw [← mulVec_add, ← sub_eq_add_neg, eucNorm_mulVec (isRotation_transpose ha)]
  have s1 := size ha hb
  have s2 := size vam vbm
  -- the exact motion of the mounted thing
  have hl : eucNorm (SO3.log (SE3.mul (SE3.inv a) b).1) < Real.pi := by
    obtain ⟨h1, h2⟩ := SO3.exp_log (R := (SE3.mul (SE3.inv a) b).1) vg
    refine h2.lt_of_ne fun e => ?_
    have ht' : -1 < (SE3.mul (SE3.inv a) b).1.trace := by
      change -1 < (a.1.transpose * b.1).trace
      rw [trace_mul_comm]
      exact ht
    rw [← h1, Approx.trace_exp, e, Real.cos_pi] at ht'
    norm_num at ht'
  have erel : SE3.mul (SE3.inv (SE3.mul a m)) (SE3.mul b m) = SE3.mul (SE3.mul (SE3.inv m) (SE3.mul (SE3.inv a) b)) (SE3.inv (SE3.inv m)) := by
    have i1 := se3Laws.inv_mul_rev (valid := PoseValid) ha hm
    have i2 := se3Laws.inv_inv (valid := PoseValid) hm
    have as := se3Laws.mul_assoc (valid := PoseValid)
    change SE3.ops.mul (SE3.ops.inv (SE3.ops.mul a m)) (SE3.ops.mul b m) =
      SE3.ops.mul (SE3.ops.mul (SE3.ops.inv m) (SE3.ops.mul (SE3.ops.inv a) b)) (SE3.ops.inv (SE3.ops.inv m))
    rw [i1, i2, as, as, as]
  have ex : SE3.mul (SE3.mul a m) (SE3.xexp (u • SE3.xlog (SE3.mul (SE3.inv (SE3.mul a m)) (SE3.mul b m)))) =
      SE3.mul (SE3.mul a (SE3.xexp (u • SE3.xlog (SE3.mul (SE3.inv a) b)))) m := by
    rw [erel, SE3.xlog_conj hmi vg hl]
    have e1 : u • SE3.adjointTimes (SE3.inv m) (SE3.xlog (SE3.mul (SE3.inv a) b)) = SE3.adjointTimes (SE3.inv m) (u • SE3.xlog (SE3.mul (SE3.inv a) b)) :=
      (se3Laws.Ad_smul (valid := PoseValid) (SE3.inv m) u _).symm
    rw [e1, SE3.xexp_conj hmi]
    generalize SE3.xexp (u • SE3.xlog (SE3.mul (SE3.inv a) b)) = X
    have i2 := se3Laws.inv_inv (valid := PoseValid) hm
    have as := se3Laws.mul_assoc (valid := PoseValid)
    have mi := se3Laws.mul_inv (valid := PoseValid) hm
    have om := se3Laws.one_mul (valid := PoseValid)
    change SE3.ops.mul (SE3.ops.mul a m) (SE3.ops.mul (SE3.ops.mul (SE3.ops.inv m) X) (SE3.ops.inv (SE3.ops.inv m))) = SE3.ops.mul (SE3.ops.mul a X) m
    rw [i2, as, ← as m, ← as m, mi, om, ← as]
  change SE3.Near (SE3.exp (u • SE3.log (SE3.mul (SE3.inv a) b))) (SE3.xexp (u • SE3.xlog (SE3.mul (SE3.inv a) b))) _ at n
  change SE3.Near (SE3.exp (u • SE3.log (SE3.mul (SE3.inv (SE3.mul a m)) (SE3.mul b m))))
    (SE3.xexp (u • SE3.xlog (SE3.mul (SE3.inv (SE3.mul a m)) (SE3.mul b m)))) _ at n'
  generalize eucNorm (SE3.xlog (SE3.mul (SE3.inv a) b)).2 = z at *
  generalize eucNorm (SE3.xlog (SE3.mul (SE3.inv (SE3.mul a m)) (SE3.mul b m))).2 = z' at *
  generalize SE3.exp (u • SE3.log (SE3.mul (SE3.inv a) b)) = Y at *
  generalize SE3.exp (u • SE3.log (SE3.mul (SE3.inv (SE3.mul a m)) (SE3.mul b m))) = Y' at *
  generalize SE3.xexp (u • SE3.xlog (SE3.mul (SE3.inv a) b)) = X at *
  generalize SE3.xexp (u • SE3.xlog (SE3.mul (SE3.inv (SE3.mul a m)) (SE3.mul b m))) = X' at *
  obtain ⟨n1, n2⟩ := n
  obtain ⟨n1', n2'⟩ := n'
  have ex1 : a.1 * m.1 * X'.1 = a.1 * X.1 * m.1 := congrArg Prod.fst ex
  have ex2 : (a.1 * m.1) *ᵥ X'.2 + (SE3.mul a m).2 = (a.1 * X.1) *ᵥ m.2 + (a.1 *ᵥ X.2 + a.2) := congrArg Prod.snd ex
  subst hp hp'
  constructor
  · change a.1 * m.1 * Y'.1 = a.1 * Y.1 * m.1
    rw [n1, n1', ex1]
  · have e : (SE3.mul (SE3.mul a m) Y').2 - ((SE3.mul a Y).1 *ᵥ m.2 + (SE3.mul a Y).2) = (a.1 * m.1) *ᵥ (Y'.2 - X'.2) - a.1 *ᵥ (Y.2 - X.2) := by
      change (a.1 * m.1) *ᵥ Y'.2 + (SE3.mul a m).2 - ((a.1 * Y.1) *ᵥ m.2 + (a.1 *ᵥ Y.2 + a.2)) = _
      rw [n1, mulVec_sub, mulVec_sub, show (a.1 * X.1) *ᵥ m.2 = (a.1 * m.1) *ᵥ X'.2 + (SE3.mul a m).2 - (a.1 *ᵥ X.2 + a.2) by rw [ex2]; abel]
      abel
    rw [e, sub_eq_add_neg]
    refine (eucNorm_add_le _ _).trans ?_
    rw [eucNorm_neg, eucNorm_mulVec ha, eucNorm_mulVec (show IsRotation (a.1 * m.1) from vam)]
    linarith

/-- C91 for distance curves.  Through the poses of something mounted on the body by `m` (`body_from_mount`) goes the motion of that thing on the body: at the same
fraction of the same segment its pose is the body's pose times `m`; the orientations are equal and the places are within rounding-sized distances.  The arc
lengths of the two curves differ, as their segments have different lengths. -/
theorem c91_distance (c c' : DCurve Pose) (h : DBuilt SE3.ops SE3.arcLength c) (h' : DBuilt SE3.ops SE3.arcLength c')
    (hv : ∀ p ∈ c.controls, IsRotation p.pose.val.1) (m : Pose) (hm : IsRotation m.1)
    (hR : List.Forall₂ (fun p p' : DControl Pose => poseMatrix p'.pose.val = poseMatrix p.pose.val * poseMatrix m) c.controls c'.controls)
    (i : Nat) (hi : i + 1 < c.controls.length) (hi' : i + 1 < c'.controls.length)
    (hturn : LessThanHalfTurn c.controls[i].pose.val.1 c.controls[i + 1].pose.val.1)
    (hl : c.controls[i].arcLength < c.controls[i + 1].arcLength) (hl' : c'.controls[i].arcLength < c'.controls[i + 1].arcLength)
    (u : ℝ) (u0 : 0 < u) (u1 : u ≤ 1) :
    ∃ p p' : Framed Pose, DCurve.pointAt SE3.ops c (c.controls[i].arcLength + u * (c.controls[i + 1].arcLength - c.controls[i].arcLength)) = .ok p ∧
      DCurve.pointAt SE3.ops c' (c'.controls[i].arcLength + u * (c'.controls[i + 1].arcLength - c'.controls[i].arcLength)) = .ok p' ∧
      p'.val.1 = p.val.1 * m.1 ∧ eucNorm (p'.val.2 - (p.val.1 *ᵥ m.2 + p.val.2)) ≤
        4e-15 * (eucNorm (c.controls[i + 1].pose.val.2 - c.controls[i].pose.val.2) + eucNorm (c'.controls[i + 1].pose.val.2 - c'.controls[i].pose.val.2)) := by
  obtain ⟨p, p1, p2⟩ := dcurve_on h i hi hl u0 u1
  obtain ⟨p', p1', p2'⟩ := dcurve_on h' i hi' hl' u0 u1
  refine ⟨p, p', p1, p1', ?_⟩
  have ra := forall2_get hR (show i < c.controls.length by omega)
  have rb := forall2_get hR hi
  have ea : c'.controls[i].pose.val = SE3.mul c.controls[i].pose.val m := se3Rep.M_inj (ra.trans (se3Rep.M_mul _ _).symm)
  have eb : c'.controls[i + 1].pose.val = SE3.mul c.controls[i + 1].pose.val m := se3Rep.M_inj (rb.trans (se3Rep.M_mul _ _).symm)
  rw [ea, eb] at p2' ⊢
  exact seg_mounted (hv _ (List.getElem_mem (show i < c.controls.length by omega))) (hv _ (List.getElem_mem hi)) hm hturn u0 u1 p2 p2'

/-- Half a turn about the x axis. -/
def halfX : M3 := !![1, 0, 0; 0, -1, 0; 0, 0, -1]

/-- Half a turn about the z axis. -/
def halfZ : M3 := !![-1, 0, 0; 0, -1, 0; 0, 0, 1]

theorem halfX_isRotation : IsRotation halfX := by
  constructor
  · ext i j
    fin_cases i <;> fin_cases j <;> simp [halfX, Matrix.mul_apply, Fin.sum_univ_three]
  · simp [halfX, Matrix.det_fin_three]

theorem halfZ_isRotation : IsRotation halfZ := by
  constructor
  · ext i j
    fin_cases i <;> fin_cases j <;> simp [halfZ, Matrix.mul_apply, Fin.sum_univ_three]
  · simp [halfZ, Matrix.det_fin_three]

theorem half_commute : halfZ * halfX * halfZ.transpose = halfX := by
  ext i j
  fin_cases i <;> fin_cases j <;> simp [halfX, halfZ, Matrix.mul_apply, Fin.sum_univ_three]

theorem middle_at_rest (a b : TControl M3 V3) (h0 : a.time = 0) (h1 : b.time = 1) (a1 : a.point.d = 0) (a2 : a.point.d2 = 0) (b1 : b.point.d = 0)
    (b2 : b.point.d2 = 0) : (pieceFormula SO3.ops a b (1 / 2)).g.val =
      SO3.exp ((1 / 2 : ℝ) • SO3.log (b.point.g.val * a.point.g.val.transpose)) * a.point.g.val := by
  have hq : (Quintic.destFromOrig (1 / 2)).a = 1 / 2 := by
    simp [Quintic.destFromOrig, Quintic.coeffs, Quintic.singleCoeff, Quintic.destOrigTable, Quintic.multA]
    norm_num
  have he : SO3.exp 0 = 1 := SO3.exp_zero
  have e : 1 / (b.time - a.time) * (1 / 2 - a.time) = 1 / 2 := by rw [h0, h1]; norm_num
  simp only [pieceFormula, e]
  change (vpoint SO3.ops (TCurve.piece a b).curve (1 / 2)).1 * a.point.g.val = _
  congr 1
  unfold vpoint
  change SO3.exp (_ • (_ • _ • b.point.d2)) * (SO3.exp (_ • (_ • _ • a.point.d2)) * (SO3.exp (_ • (_ • b.point.d)) * (SO3.exp (_ • (_ • a.point.d)) *
    (SO3.exp ((Quintic.destFromOrig (1 / 2)).a • SO3.log (b.point.g.val * a.point.g.val.transpose)) * 1)))) = _
  simp only [a1, a2, b1, b2, smul_zero, he, hq, Matrix.mul_one, Matrix.one_mul]

/-- C91: half a turn between neighbouring controls is excluded for good reason.  A body turns by half a turn about its x axis and a camera is mounted on it turned
by half a turn about the z axis.  Halfway through, the camera's curve has turned to the other side of where it is on the body. -/
theorem c91_half_turn : ∃ (c c' : TCurve M3 V3) (k : M3) (p p' : TwoJetL M3 V3), Built c ∧ Built c' ∧ WholeFrames c ∧ WholeFrames c' ∧
    (∀ p ∈ c.controls, IsRotation p.point.g.val) ∧ IsRotation k ∧ MountedControls (fun R : M3 => R) rotHat k c c' ∧
    TCurve.pointAt SO3.ops c (1 / 2) = .ok p ∧ TCurve.pointAt SO3.ops c' (1 / 2) = .ok p' ∧ p'.g.val ≠ k * p.g.val := by
  obtain ⟨c, h1, h2, h3⟩ := sampled (fun t => ((if t = 0 then 1 else halfX, 0, 0) : M3 × V3 × V3)) [0, 1] (by simp)
  obtain ⟨c', h1', h2', h3'⟩ := sampled (fun t => ((if t = 0 then halfZ else halfZ * halfX, 0, 0) : M3 × V3 × V3)) [0, 1] (by simp)
  simp only [List.map_cons, List.map_nil, if_true, one_ne_zero, if_false] at h3 h3'
  have value : ∀ (c : TCurve M3 V3), Built c → WholeFrames c → ∀ A B : M3,
      c.controls = [⟨0, ⟨A, exFrame 1, exFrame 2⟩, 0, 0⟩, ⟨1, ⟨B, exFrame 1, exFrame 2⟩, 0, 0⟩] →
      ∃ p, TCurve.pointAt SO3.ops c (1 / 2) = .ok p ∧ p.g.val = SO3.exp ((1 / 2 : ℝ) • SO3.log (B * A.transpose)) * A := by
    intro c hb hw A B hc
    have hi : 0 + 1 < c.controls.length := by simp [hc]
    have g0 : c.controls[0] = ⟨0, ⟨A, exFrame 1, exFrame 2⟩, 0, 0⟩ := by simp [hc]
    have g1 : c.controls[0 + 1] = ⟨1, ⟨B, exFrame 1, exFrame 2⟩, 0, 0⟩ := by simp [hc]
    obtain ⟨j, hj, -, -, -, e⟩ := TCurve.pointAt_inside SO3.ops (inv_of_built hb) (by omega) (1 / 2) (by simp only [hc]; norm_num) (by simp only [hc]; norm_num)
    obtain rfl : j = 0 := by simp only [hc, List.length_cons, List.length_nil] at hj; omega
    refine ⟨_, e.trans (onPiece_formula SO3.ops (TCurve.good_piece (inv_of_built hb) hw hi) (1 / 2)), ?_⟩
    rw [middle_at_rest _ _ (by rw [g0]) (by rw [g1]) (by rw [g0]) (by rw [g0]) (by rw [g1]) (by rw [g1]), g0, g1]
  obtain ⟨p, p1, p2⟩ := value c h1 h2 _ _ h3
  obtain ⟨p', p1', p2'⟩ := value c' h1' h2' _ _ h3'
  refine ⟨c, c', halfZ, p, p', h1, h1', h2, h2', ?_, halfZ_isRotation, ?_, p1, p1', fun hne => ?_⟩
  · intro q hq
    rw [h3] at hq
    rcases List.mem_pair.mp hq with rfl | rfl
    · exact isRotation_one
    · exact halfX_isRotation
  · unfold MountedControls
    rw [h3, h3']
    have z : rotHat 0 = 0 := by simpa using so3Rep.hat_smul 0 0
    refine .cons ⟨rfl, ?_, ?_, ?_⟩ (.cons ⟨rfl, rfl, ?_, ?_⟩ .nil) <;> simp [z]
  · rw [p2, p2', half_commute, transpose_one, Matrix.mul_one, Matrix.mul_one] at hne
    have hP : SO3.exp ((1 / 2 : ℝ) • SO3.log halfX) * SO3.exp ((1 / 2 : ℝ) • SO3.log halfX) = halfX := by
      have := (SO3.oneParam (SO3.log halfX)).mul (1 / 2) (1 / 2)
      change SO3.exp _ * SO3.exp _ = SO3.exp _ at this
      rw [this, show (1 / 2 + 1 / 2 : ℝ) = 1 by norm_num, one_smul, (SO3.exp_log halfX_isRotation).1]
    generalize SO3.exp ((1 / 2 : ℝ) • SO3.log halfX) = P at *
    have q1 := congrFun (congrFun hne 0) 2
    have q2 := congrFun (congrFun hne 1) 2
    have q3 := congrFun (congrFun hP 2) 2
    simp [halfZ, halfX, Matrix.mul_apply, Fin.sum_univ_three] at q1 q2 q3
    have r1 : P 0 2 = 0 := by linarith
    have r2 : P 1 2 = 0 := by linarith
    rw [r1, r2] at q3
    nlinarith [mul_self_nonneg (P 2 2)]

open CurveExamples

/-- A control of the curve made by `translate_t_curve`. -/
noncomputable def recipeControl (k : Framed Pose) (p : TControl Pose Twist) : TControl Pose Twist :=
  ⟨p.time, ⟨⟨SE3.mul k.val p.point.g.val, k.into, p.point.g.src⟩, p.point.d, p.point.d2⟩⟩

theorem translateControls_eq {k : Framed Pose} (h1 : k.into ≠ Frame.null) (h2 : k.src ≠ Frame.null) (ps : List (TControl Pose Twist))
    (hf : ∀ p ∈ ps, p.point.g.into = k.src ∧ p.point.g.src ≠ Frame.null) : translateControls k ps = .ok (ps.map (recipeControl k)) := by
  induction ps with
  | nil => rfl
  | cons p ps ih =>
    obtain ⟨f1, f2⟩ := hf p (by simp)
    have hm : Framed.mul SE3.ops k p.point.g = .ok ⟨SE3.mul k.val p.point.g.val, k.into, p.point.g.src⟩ :=
      mul_framed SE3.ops h1 (by rw [f1]; exact h2) f2 f1.symm
    unfold translateControls
    rw [hm, Outcome.ok_bind, ih fun q hq => hf q (by simp [hq])]
    rfl

/-- What `translate_t_curve` makes of a framed curve: the same times, poses moved to the sensor, and the velocities and accelerations of the body as they were. -/
theorem recipe_built {c : TCurve Pose Twist} (h : Built c) {k : Framed Pose} (h1 : k.into ≠ Frame.null) (h2 : k.src ≠ Frame.null)
    (hf : ∀ p ∈ c.controls, p.point.g.into = k.src ∧ p.point.g.src ≠ Frame.null) :
    ∃ c', translateTCurve c k = .ok c' ∧ Built c' ∧ WholeFrames c' ∧ c'.controls = c.controls.map (recipeControl k) := by
  have hI := inv_of_built h
  obtain ⟨k1, k2, -⟩ := c40_construct (c.controls.map (recipeControl k))
  obtain ⟨c', hc'⟩ := k1.mpr (by
    intro i hi q hq
    rw [List.length_map] at hi
    rw [← List.map_take, List.mem_map] at hq
    obtain ⟨p, hp, rfl⟩ := hq
    obtain ⟨j, hj, rfl⟩ := List.mem_iff_getElem.mp hp
    rw [List.length_take] at hj
    rw [List.getElem_take, List.getElem_map]
    refine ⟨hI.time_lt hi (by omega), rfl, (hI.frames _ (List.getElem_mem _) _ (List.getElem_mem _)).2⟩)
  obtain ⟨k3, k4⟩ := k2 c' hc'
  refine ⟨c', ?_, k3, ?_, k4⟩
  · unfold translateTCurve
    rw [translateControls_eq h1 h2 _ hf, Outcome.ok_bind, hc']
  · intro q hq
    rw [k4, List.mem_map] at hq
    obtain ⟨p, hp, rfl⟩ := hq
    exact ⟨fun e => absurd e h1, fun e => absurd e (hf p hp).2⟩

/-- A velocity (or acceleration) of a body that is the same at the sensor, each in its own frame. -/
def SameAtSensor (k : Pose) (x : Twist) : Prop := k.1 *ᵥ x.1 = x.1 ∧ k.2 ⨯₃ x.1 + k.1 *ᵥ x.2 = x.2

theorem pointAt_start {L : LieOps ℝ G A V} [AddCommGroup A] [Module ℝ A] {valid : G → Prop} (H : LieLaws L valid) (hexp : L.exp 0 = L.one) {c : TCurve G A}
    (h : Built c) (hw : WholeFrames c) (h2 : 2 ≤ c.controls.length) : TCurve.pointAt L c c.controls[0].time = .ok c.controls[0].point := by
  have hc := inv_of_built h
  obtain ⟨i, hi, e1, -, -, e⟩ := TCurve.pointAt_inside L hc h2 _ (le_refl _) (hc.time_le (by omega) (by omega))
  obtain rfl : i = 0 := by
    rcases e1 with e1 | e1
    · exact e1
    · exact absurd (hc.time_le (show i < c.controls.length by omega) (Nat.zero_le i)) (not_le.mpr e1)
  rw [e]
  exact TCurve.onPiece_left H hexp (hc.time_lt hi (by omega)) (TCurve.good_piece hc hw hi)

/-- C91: the recipe `translate_t_curve`.  For a framed curve it gives a curve from the same times; the controls of that curve are those of the sensor (so that
`c91_se3` applies) exactly if every velocity and acceleration of the body is the same at the sensor.  At its start the new curve reports the velocity and
acceleration of the body. -/
theorem c91_recipe (c : TCurve Pose Twist) (h : Built c) (hw : WholeFrames c) (k : Framed Pose) (hk : IsRotation k.val.1) (h1 : k.into ≠ Frame.null)
    (h2 : k.src ≠ Frame.null) (hf : ∀ p ∈ c.controls, p.point.g.into = k.src ∧ p.point.g.src ≠ Frame.null) :
    ∃ c', translateTCurve c k = .ok c' ∧ Built c' ∧ WholeFrames c' ∧
      (MountedControls poseMatrix twistHat k.val c c' ↔ ∀ p ∈ c.controls, SameAtSensor k.val p.point.d ∧ SameAtSensor k.val p.point.d2) ∧
      (2 ≤ c.controls.length → ∃ t p p', TCurve.startTime c = .ok t ∧ TCurve.pointAt SE3.ops c t = .ok p ∧ TCurve.pointAt SE3.ops c' t = .ok p' ∧
        poseMatrix p'.g.val = poseMatrix k.val * poseMatrix p.g.val ∧ p'.g.into = k.into ∧ p'.g.src = p.g.src ∧ p'.d = p.d ∧ p'.d2 = p.d2) := by
  obtain ⟨c', t1, t2, t3, t4⟩ := recipe_built h h1 h2 hf
  refine ⟨c', t1, t2, t3, ?_, fun hn => ?_⟩
  · have key := seenFrom_iff se3Rep twistHat_inj (k := k.val) hk
    have e : ∀ x : Twist, x = SE3.ops.Ad k.val x ↔ SameAtSensor k.val x := by
      intro x
      rw [eq_comm, Prod.ext_iff]
      change k.val.1 *ᵥ x.1 = x.1 ∧ k.val.2 ⨯₃ (k.val.1 *ᵥ x.1) + k.val.1 *ᵥ x.2 = x.2 ↔ _
      exact and_congr_right fun a => by rw [a]
    unfold MountedControls
    rw [t4, List.forall₂_map_right_iff]
    simp only [key, recipeControl]
    generalize c.controls = l
    induction l with
    | nil => simp
    | cons p l ih =>
      rw [List.forall₂_cons, List.forall_mem_cons]
      refine and_congr ?_ ih
      exact ⟨fun a => ⟨(e _).mp a.2.2.1, (e _).mp a.2.2.2⟩, fun a => ⟨rfl, rfl, (e _).mpr a.1, (e _).mpr a.2⟩⟩
  · have hn' : 2 ≤ c'.controls.length := by rw [t4, List.length_map]; exact hn
    have s1 := pointAt_start (valid := PoseValid) se3Laws SE3.exp_zero h hw hn
    have s2 := pointAt_start (valid := PoseValid) se3Laws SE3.exp_zero t2 t3 hn'
    have e0 : c'.controls[0] = recipeControl k c.controls[0] := by simp [t4]
    rw [e0] at s2
    refine ⟨_, _, _, ?_, s1, s2, se3Rep.M_mul _ _, rfl, rfl, rfl, rfl⟩
    unfold TCurve.startTime
    rw [List.head?_eq_getElem?, List.getElem?_eq_getElem (by omega)]

theorem circle_isRotation (a : ℝ) : IsRotation (SO3.exp (a • zAxis)) := SO3.isRotation_exp _

theorem circleControl_into (curve world : Frame) (t : ℝ) : (circleControl curve world t).point.g.into = curve := rfl
theorem circleControl_src (curve world : Frame) (t : ℝ) : (circleControl curve world t).point.g.src = world := rfl
theorem circleControl_time (curve world : Frame) (t : ℝ) : (circleControl curve world t).time = t := rfl

theorem whole_circle (world curve : Frame) (hw : curve = Frame.null ↔ world = Frame.null) (ts : List ℝ) (hp : ts.Pairwise (· < ·)) :
    ∃ c, TCurve.make (ts.map (circleControl curve world)) = .ok c ∧ Built c ∧ WholeFrames c ∧ c.controls = ts.map (circleControl curve world) := by
  obtain ⟨k1, k2, -⟩ := c40_construct (ts.map (circleControl curve world))
  obtain ⟨c, e⟩ := k1.mpr (by
    intro i hi q hq
    rw [List.length_map] at hi
    rw [← List.map_take, List.mem_map] at hq
    obtain ⟨p, hp', rfl⟩ := hq
    obtain ⟨j, hj, rfl⟩ := List.mem_iff_getElem.mp hp'
    rw [List.length_take] at hj
    rw [List.getElem_take, List.getElem_map]
    simp only [circleControl_into, circleControl_src, circleControl_time, and_self, and_true]
    exact List.pairwise_iff_getElem.mp hp j i (by omega) hi (by omega))
  obtain ⟨k3, k4⟩ := k2 c e
  refine ⟨c, e, k3, ?_, k4⟩
  intro p hp
  rw [k4, List.mem_map] at hp
  obtain ⟨t, -, rfl⟩ := hp
  exact hw

theorem circle_make (world curve : Frame) (hw : world ≠ Frame.null) (hc : curve ≠ Frame.null) (ts : List ℝ) (hp : ts.Pairwise (· < ·)) :
    ∃ c, TCurve.make (ts.map (circleControl curve world)) = .ok c ∧ Built c ∧ WholeFrames c ∧ c.controls = ts.map (circleControl curve world) :=
  whole_circle world curve ⟨fun e => absurd e hc, fun e => absurd e hw⟩ ts hp

/-- The times of the circle's controls. -/
noncomputable def circleTimes : List ℝ := [0, Real.pi / 2, Real.pi, 3 * (Real.pi / 2), 2 * Real.pi]

theorem circle_times : circleTimes.Pairwise (· < ·) := by
  unfold circleTimes
  have hpi := Real.pi_pos
  simp only [List.pairwise_cons, List.mem_cons, forall_eq_or_imp, List.not_mem_nil, false_implies, implies_true, and_true, List.Pairwise.nil]
  refine ⟨⟨?_, ?_, ?_, ?_⟩, ⟨?_, ?_, ?_⟩, ⟨?_, ?_⟩, ?_⟩ <;> linarith

theorem circle_step (i : Nat) (hi : i + 1 < circleTimes.length) : circleTimes[i + 1] - circleTimes[i] = Real.pi / 2 := by
  match i, hi with
  | 0, _ => change Real.pi / 2 - 0 = _; ring
  | 1, _ => change Real.pi - Real.pi / 2 = _; ring
  | 2, _ => change 3 * (Real.pi / 2) - Real.pi = _; ring
  | 3, _ => change 2 * Real.pi - 3 * (Real.pi / 2) = _; ring

theorem circle_relative (s t : ℝ) (h : t - s = Real.pi / 2) :
    SO3.exp (-(Real.pi / 2 + t) • zAxis) * (SO3.exp (-(Real.pi / 2 + s) • zAxis)).transpose = !![0, 1, 0; -1, 0, 0; 0, 0, 1] := by
  obtain rfl : t = s + Real.pi / 2 := by linarith
  have e : -(Real.pi / 2 + (s + Real.pi / 2)) = -(Real.pi / 2 + s) - Real.pi / 2 := by ring
  rw [e, exp_z, exp_z, Real.cos_sub_pi_div_two, Real.sin_sub_pi_div_two]
  generalize -(Real.pi / 2 + s) = a
  have := Real.sin_sq_add_cos_sq a
  ext i j
  fin_cases i <;> fin_cases j <;> simp [Matrix.mul_apply, Fin.sum_univ_three] <;> nlinarith

theorem circle_translation (curve world : Frame) (s t z : ℝ) (h : t - s = Real.pi / 2) (a b : TwoJetL Pose Twist)
    (ha : a = ⟨⟨(SO3.exp (-(Real.pi / 2 + s) • zAxis), ![0, 1, z]), curve, world⟩, circleVelocity, 0⟩)
    (hb : b = ⟨⟨(SO3.exp (-(Real.pi / 2 + t) • zAxis), ![0, 1, z]), curve, world⟩, circleVelocity, 0⟩) : translationSize (t - s) a b ≤ 7 := by
  subst ha hb
  have e1 : eucNorm (![-1, 1, 0] : V3) ≤ 1.5 := by
    rw [eucNorm, Real.sqrt_le_left (by norm_num)]
    simp [sqNorm, dotProduct, Fin.sum_univ_three]
    norm_num
  have e2 : eucNorm (![-1, 0, 0] : V3) = 1 := by
    rw [eucNorm]
    simp [sqNorm, dotProduct, Fin.sum_univ_three]
  have e3 : relativeTranslation (SO3.exp (-(Real.pi / 2 + s) • zAxis), ![0, 1, z]) (SO3.exp (-(Real.pi / 2 + t) • zAxis), ![0, 1, z]) = ![-1, 1, 0] := by
    unfold relativeTranslation
    simp only [circle_relative s t h]
    funext i
    fin_cases i <;> simp [vecHead, vecTail]
  simp only [translationSize, dataSize, circleVelocity, e3, e2, h, Prod.snd_zero, eucNorm_zero]
  have := Real.pi_lt_d2
  linarith

/-- C91: the shipped example with the time curve.  With the sensor above or below the body, on the axis of its turning, the curve made by `translate_t_curve` is the
path of the sensor at all times of the circle: same orientation, and the sensor's place within 3e-14. -/
theorem c91_example03 (world curve sensor : Frame) (hw : world ≠ Frame.null) (hc : curve ≠ Frame.null) (hs : sensor ≠ Frame.null) (z : ℝ) :
    ∃ c c', makeCircleCurve curve world = .ok c ∧ translateTCurve c ⟨(1, ![0, 0, z]), sensor, curve⟩ = .ok c' ∧
      ∀ t, 0 ≤ t → t ≤ 2 * Real.pi → ∃ p p', TCurve.pointAt SE3.ops c t = .ok p ∧ TCurve.pointAt SE3.ops c' t = .ok p' ∧
        p'.g.val.1 = p.g.val.1 ∧ eucNorm (p'.g.val.2 - (p.g.val.2 + ![0, 0, z])) ≤ 3e-14 ∧ p'.d.1 = p.d.1 := by
  obtain ⟨c, c1, c2, c3, c4⟩ := circle_make world curve hw hc circleTimes circle_times
  have hmem : ∀ p ∈ c.controls, ∃ t, p = circleControl curve world t := by
    intro p hp
    rw [c4, List.mem_map] at hp
    obtain ⟨t, -, rfl⟩ := hp
    exact ⟨t, rfl⟩
  have hk : IsRotation (1 : M3) := isRotation_one
  have hf : ∀ p ∈ c.controls, p.point.g.into = curve ∧ p.point.g.src ≠ Frame.null := by
    intro p hp
    obtain ⟨t, rfl⟩ := hmem p hp
    exact ⟨rfl, hw⟩
  obtain ⟨c', r1, r2, r3, r4⟩ := recipe_built (k := ⟨(1, ![0, 0, z]), sensor, curve⟩) c2 hs hc hf
  obtain ⟨c'', d1, -, -, d4, -⟩ := c91_recipe c c2 c3 ⟨(1, ![0, 0, z]), sensor, curve⟩ hk hs hc hf
  obtain rfl : c' = c'' := by rw [r1] at d1; exact Outcome.ok.inj d1
  have hM := d4.mpr (by
    intro p hp
    obtain ⟨t, rfl⟩ := hmem p hp
    refine ⟨⟨?_, ?_⟩, ⟨?_, ?_⟩⟩
    · simp
    · simp only [circleControl, circleVelocity, one_mulVec]
      funext i
      fin_cases i <;> simp [cross_apply]
    · simp
    · simp only [circleControl, Prod.fst_zero, Prod.snd_zero, mulVec_zero, map_zero, add_zero])
  have hlen : c.controls.length = circleTimes.length := by rw [c4, List.length_map]
  have hget : ∀ (i : Nat) (hi : i < c.controls.length), c.controls[i] = circleControl curve world (circleTimes[i]'(hlen ▸ hi)) := by
    intro i hi
    simp only [c4, List.getElem_map]
  refine ⟨c, c', c1, r1, fun t t0 t1 => ?_⟩
  have hstart : TCurve.startTime c = .ok 0 := by
    unfold TCurve.startTime
    rw [c4]
    rfl
  have hend : TCurve.endTime c = .ok (2 * Real.pi) := by
    unfold TCurve.endTime
    rw [c4]
    rfl
  obtain ⟨p, hp⟩ := (c41_domain SE3.ops c c2 c3 t).1.mpr ⟨by rw [hlen]; decide, _, _, hstart, hend, t0, t1⟩
  have hturn : ∀ (i : Nat) (hi : i + 1 < c.controls.length), LessThanHalfTurn c.controls[i].point.g.val.1 c.controls[i + 1].point.g.val.1 := by
    intro i hi
    rw [hget i (by omega), hget (i + 1) hi]
    unfold LessThanHalfTurn
    change -1 < (SO3.exp (-(Real.pi / 2 + _) • zAxis) * (SO3.exp (-(Real.pi / 2 + _) • zAxis)).transpose).trace
    rw [circle_relative _ _ (circle_step i (hlen ▸ hi))]
    simp [Matrix.trace, Fin.sum_univ_three]
  have hall := c91_se3 c c' c2 r2 c3 r3 (by
    intro p hp
    obtain ⟨t, rfl⟩ := hmem p hp
    exact SO3.isRotation_exp _) hturn (1, ![0, 0, z]) hk hM t
  obtain ⟨p', hp', i, hi, hi', q, -, -, hq, hclose⟩ := alike_ok hall hp
  refine ⟨p, p', hp, hp', ?_⟩
  have key := seenFrom_iff se3Rep twistHat_inj (k := ((1, ![0, 0, z]) : Pose)) hk
  rw [key] at hq
  obtain ⟨q1, q2, -⟩ := hq
  obtain ⟨⟨w1, w2, -⟩, w4, -, -⟩ := hclose
  have g0' : c'.controls[i] = recipeControl ⟨(1, ![0, 0, z]), sensor, curve⟩ c.controls[i] := by simp only [r4, List.getElem_map]
  have g1' : c'.controls[i + 1] = recipeControl ⟨(1, ![0, 0, z]), sensor, curve⟩ c.controls[i + 1] := by simp only [r4, List.getElem_map]
  have hstep := circle_step i (hlen ▸ hi)
  rw [g0', g1', hget i (by omega), hget (i + 1) hi, circleControl_time, circleControl_time] at w4
  generalize circleTimes[i + 1]'(hlen ▸ hi) = tb at *
  generalize circleTimes[i]'(by omega) = ta at *
  have b1 := circle_translation curve world ta tb 0 hstep (circleControl curve world ta).point (circleControl curve world tb).point rfl rfl
  have mv : ∀ x, SE3.mul (1, ![0, 0, z]) (x, ![0, 1, 0]) = (x, ![0, 1, z]) := by
    intro x
    refine Prod.ext (Matrix.one_mul _) ?_
    change (1 : M3) *ᵥ ![0, 1, 0] + ![0, 0, z] = _
    rw [one_mulVec]
    funext j
    fin_cases j <;> simp
  have b2 := circle_translation sensor world ta tb z hstep (recipeControl ⟨(1, ![0, 0, z]), sensor, curve⟩ (circleControl curve world ta)).point
    (recipeControl ⟨(1, ![0, 0, z]), sensor, curve⟩ (circleControl curve world tb)).point (by simp only [recipeControl, circleControl, mv])
    (by simp only [recipeControl, circleControl, mv])
  refine ⟨?_, ?_, ?_⟩
  · rw [w1, q1]
    exact Matrix.one_mul _
  · have e : q.1.2 = p.g.val.2 + ![0, 0, z] := by
      rw [q1]
      change (1 : M3) *ᵥ p.g.val.2 + ![0, 0, z] = _
      rw [one_mulVec]
    rw [← e]
    linarith
  · rw [w2, q2]
    change (1 : M3) *ᵥ p.d.1 = _
    exact one_mulVec _

/-- C91: the same recipe with the sensor off the axis.  The velocity that the sensor's curve reports at its start is that of the body; the sensor's own differs
from it by its distance from the axis. -/
theorem c91_example03_offset (world curve sensor : Frame) (hw : world ≠ Frame.null) (hc : curve ≠ Frame.null) (hs : sensor ≠ Frame.null) (k : V3) :
    ∃ c c' p p', makeCircleCurve curve world = .ok c ∧ translateTCurve c ⟨(1, k), sensor, curve⟩ = .ok c' ∧ TCurve.pointAt SE3.ops c 0 = .ok p ∧
      TCurve.pointAt SE3.ops c' 0 = .ok p' ∧ ∀ q, SeenFrom poseMatrix twistHat (1, k) (p.g.val, p.d, p.d2) q →
        q.1 = p'.g.val ∧ eucNorm (p'.d.2 - q.2.1.2) = Real.sqrt (k 0 ^ 2 + k 1 ^ 2) := by
  obtain ⟨c, c1, c2, c3, c4⟩ := circle_make world curve hw hc circleTimes circle_times
  have hmem : ∀ p ∈ c.controls, ∃ t, p = circleControl curve world t := by
    intro p hp
    rw [c4, List.mem_map] at hp
    obtain ⟨t, -, rfl⟩ := hp
    exact ⟨t, rfl⟩
  have hk : IsRotation (1 : M3) := isRotation_one
  have hf : ∀ p ∈ c.controls, p.point.g.into = curve ∧ p.point.g.src ≠ Frame.null := by
    intro p hp
    obtain ⟨t, rfl⟩ := hmem p hp
    exact ⟨rfl, hw⟩
  obtain ⟨c', d1, -, -, -, d5⟩ := c91_recipe c c2 c3 ⟨(1, k), sensor, curve⟩ hk hs hc hf
  have hlen : 2 ≤ c.controls.length := by rw [c4, List.length_map]; decide
  obtain ⟨t, p, p', e1, e2, e3, e4, -, -, e5, e6⟩ := d5 hlen
  have hstart : TCurve.startTime c = .ok 0 := by
    unfold TCurve.startTime
    rw [c4]
    rfl
  obtain rfl : 0 = t := Outcome.ok.inj (hstart.symm.trans e1)
  refine ⟨c, c', p, p', c1, d1, e2, e3, fun q hq => ?_⟩
  have h0 : p = (circleControl curve world 0).point := by
    have := pointAt_start (valid := PoseValid) se3Laws SE3.exp_zero c2 c3 hlen
    have g0 : c.controls[0] = circleControl curve world 0 := by simp only [c4, List.getElem_map]; rfl
    rw [g0, circleControl_time, e2] at this
    exact Outcome.ok.inj this
  rw [seenFrom_iff se3Rep twistHat_inj (k := ((1, k) : Pose)) hk] at hq
  obtain ⟨q1, q2, -⟩ := hq
  refine ⟨?_, ?_⟩
  · rw [q1]
    exact (se3Rep.M_inj (e4.trans (se3Rep.M_mul _ _).symm)).symm
  · rw [q2, e5, h0]
    change eucNorm (circleVelocity.2 - (k ⨯₃ ((1 : M3) *ᵥ circleVelocity.1) + (1 : M3) *ᵥ circleVelocity.2)) = _
    rw [one_mulVec, one_mulVec, show circleVelocity.2 - (k ⨯₃ circleVelocity.1 + circleVelocity.2) = ![k 1, -k 0, 0] by
      funext i
      fin_cases i <;> simp [circleVelocity, cross_apply], eucNorm]
    congr 1
    simp [sqNorm, dotProduct, Fin.sum_univ_three]
    ring

/-! ## The sensor on the circle of the second visualization example -/

theorem whole_make (into src : Frame) (h : into = Frame.null ↔ src = Frame.null) (poses : List Pose) :
    ∃ c, DCurve.make SE3.ops SE3.arcLength (poses.map fun v => ⟨v, into, src⟩) = .ok c ∧ DBuilt SE3.ops SE3.arcLength c ∧
      c.controls.map (·.pose) = poses.map fun v => ⟨v, into, src⟩ := by
  have w : ∀ v : Pose, (⟨v, into, src⟩ : Framed Pose).into = Frame.null ↔ (⟨v, into, src⟩ : Framed Pose).src = Frame.null :=
    fun v => h
  have hp : ∀ ps : List Pose, ∀ p ∈ ps.map (fun v => (⟨v, into, src⟩ : Framed Pose)), p.into = Frame.null ↔ p.src = Frame.null := by
    intro ps p hp
    obtain ⟨v, -, rfl⟩ := List.mem_map.mp hp
    exact w v
  obtain ⟨k1, k2, k3⟩ := c42_construct SE3.ops SE3.arcLength (poses.map fun v => ⟨v, into, src⟩) (hp _)
  have hnt : ¬ (DCurve.make SE3.ops SE3.arcLength (poses.map fun v => ⟨v, into, src⟩)).IsThrow := by
    rw [k3]
    rintro ⟨k, hk, c, e1, e2⟩
    rw [← List.map_take] at e1
    obtain ⟨b1, b2⟩ := (c42_construct SE3.ops SE3.arcLength _ (hp (poses.take k))).1 c e1
    have hall : ∀ f ∈ c.controls, f.pose.into = into ∧ f.pose.src = src := by
      intro f hf
      have : f.pose ∈ c.controls.map (·.pose) := List.mem_map_of_mem hf
      rw [b2] at this
      obtain ⟨v', -, e⟩ := List.mem_map.mp this
      rw [← e]; simp
    rw [List.getElem_map] at e2
    refine ((c42_append _ _ c b1 _ (w _)).2.1.mp e2) ⟨fun f hf _ => ?_, fun b hb _ _ => ?_⟩
    · have := hall f (List.mem_of_mem_head? hf)
      exact ⟨this.1.symm, this.2.symm⟩
    · exact (hall b (List.mem_of_getLast? hb)).1
  cases e : DCurve.make SE3.ops SE3.arcLength (poses.map fun v => ⟨v, into, src⟩) with
  | throw m => exact absurd ⟨m, e⟩ hnt
  | ub m => exact absurd ⟨m, e⟩ k2
  | ok c =>
    obtain ⟨b1, b2⟩ := k1 c e
    exact ⟨c, rfl, b1, b2⟩

theorem framed_make (into src : Frame) (h1 : into ≠ Frame.null) (h2 : src ≠ Frame.null) (poses : List Pose) :
    ∃ c, DCurve.make SE3.ops SE3.arcLength (poses.map fun v => ⟨v, into, src⟩) = .ok c ∧ DBuilt SE3.ops SE3.arcLength c ∧
      c.controls.map (·.pose.val) = poses := by
  obtain ⟨c, e, b1, b2⟩ := whole_make into src ⟨fun e => absurd e h1, fun e => absurd e h2⟩ poses
  refine ⟨c, e, b1, ?_⟩
  have := congrArg (List.map Framed.val) b2
  rw [List.map_map, List.map_map] at this
  exact this.trans (List.map_id _)

theorem worldFromSensor_eq {m : Framed Pose} {world : Frame} (h0 : world ≠ Frame.null) (h1 : m.into ≠ Frame.null) (h2 : m.src ≠ Frame.null) (poses : List Pose) :
    worldFromSensor m (poses.map fun v => ⟨v, world, m.into⟩) = .ok ((poses.map fun v => SE3.mul v m.val).map fun v => ⟨v, world, m.src⟩) := by
  induction poses with
  | nil => rfl
  | cons v poses ih =>
    have hm : Framed.mul SE3.ops ⟨v, world, m.into⟩ m = .ok ⟨SE3.mul v m.val, world, m.src⟩ := mul_framed SE3.ops h0 h1 h2 rfl
    rw [List.map_cons]
    unfold worldFromSensor
    rw [hm, Outcome.ok_bind, ih]
    rfl

theorem onScrew_mounted {x : Twist} {g0 m : Pose} (hm : IsRotation m.1) {a : ℝ} {g : Pose} (h : OnScrew x g0 a g) :
    OnScrew (SE3.adjointTimes (SE3.inv m) x) (SE3.mul g0 m) a (SE3.mul g m) := by
  have hmi : PoseValid (SE3.inv m) := se3Laws.valid_inv (valid := PoseValid) hm
  rw [onScrew_pose] at h ⊢
  have e1 : a • SE3.adjointTimes (SE3.inv m) x = SE3.adjointTimes (SE3.inv m) (a • x) := (se3Laws.Ad_smul (valid := PoseValid) (SE3.inv m) a _).symm
  rw [e1, SE3.xexp_conj hmi, h]
  generalize SE3.xexp (a • x) = X
  have i2 := se3Laws.inv_inv (valid := PoseValid) hm
  have as := se3Laws.mul_assoc (valid := PoseValid)
  have mi := se3Laws.mul_inv (valid := PoseValid) hm
  have om := se3Laws.one_mul (valid := PoseValid)
  change SE3.ops.mul (SE3.ops.mul g0 X) m = SE3.ops.mul (SE3.ops.mul g0 m) (SE3.ops.mul (SE3.ops.mul (SE3.ops.inv m) X) (SE3.ops.inv (SE3.ops.inv m)))
  rw [i2, as, as, ← as m, ← as m, mi, om]

/-- A distance curve with increasing arc lengths answers every query up to its length. -/
theorem dcurve_answers {c : DCurve Pose} (h : DBuilt SE3.ops SE3.arcLength c) (h2 : 2 ≤ c.controls.length)
    (hl : ∀ (i : Nat) (hi : i + 1 < c.controls.length), c.controls[i].arcLength < c.controls[i + 1].arcLength) {s : ℝ} (s0 : 0 ≤ s) (s1 : s ≤ DCurve.curveLength c) :
    ∃ p, DCurve.pointAt SE3.ops c s = .ok p := by
  have hc := dInv_of_built h
  obtain ⟨j, hj, e1, e2, e3, e4, -⟩ := DCurve.pointAt_inside _ _ hc h2 s0 s1
  obtain ⟨f1, f2, k1, -⟩ := DCurve.onPiece_eq SE3.ops (hc.whole _ (List.getElem_mem (show j < c.controls.length by omega))) (hc.whole _ (List.getElem_mem hj)) s
  exact ⟨_, (e4 (hl j hj)).trans k1⟩

/-- How far a sensor is from the axis of the circle with radius `k` on which its body goes. -/
noncomputable def sensorRadius (k : ℝ) (place : V3) : ℝ := Real.sqrt ((k + place 0) ^ 2 + place 1 ^ 2)

theorem sensor_curves (world robot sensor : Frame) (h0 : world ≠ Frame.null) (h1 : robot ≠ Frame.null) (h2 : sensor ≠ Frame.null) (t : V3) (k : ℝ) (hk : 0 < k)
    (m : Pose) (hm : IsRotation m.1) :
    ∃ c c', DCurve.make SE3.ops SE3.arcLength ((unitCircle t k).map fun v => ⟨v, world, robot⟩) = .ok c ∧
      DCurve.make SE3.ops SE3.arcLength (((unitCircle t k).map fun v => SE3.mul v m).map fun v => ⟨v, world, sensor⟩) = .ok c' ∧
      DBuilt SE3.ops SE3.arcLength c ∧ DBuilt SE3.ops SE3.arcLength c' ∧ c.controls.map (·.pose.val) = unitCircle t k ∧
      c'.controls.map (·.pose.val) = (unitCircle t k).map (fun v => SE3.mul v m) ∧
      (∀ (i : Nat) (hi : i < c.controls.length), c.controls[i].arcLength = i * (Real.pi / 2) * k) ∧
      (∀ (i : Nat) (hi : i < c'.controls.length), c'.controls[i].arcLength = i * (Real.pi / 2) * sensorRadius k m.2) ∧
      ∃ (x : Twist) (g0 : Pose), IsRotation g0.1 ∧
        (∀ (r : ℝ) (g : Framed Pose), DCurve.pointAt SE3.ops c r = .ok g → ∃ p, OnScrew x g0 (r / k) p ∧ Spec.Within (1e-18 * r) g.val p) ∧
        (∀ (r : ℝ) (g : Framed Pose), DCurve.pointAt SE3.ops c' r = .ok g →
          ∃ p, OnScrew (SE3.adjointTimes (SE3.inv m) x) (SE3.mul g0 m) (r / sensorRadius k m.2) p ∧ Spec.Within (1e-18 * r) g.val p) := by
  obtain ⟨c, c1, c2, c3⟩ := framed_make world robot h0 h1 (unitCircle t k)
  obtain ⟨c', c1', c2', c3'⟩ := framed_make world sensor h0 h2 ((unitCircle t k).map fun v => SE3.mul v m)
  have hlen : c.controls.length = 5 := by
    have := congrArg List.length c3
    rw [List.length_map] at this
    exact this
  have hlen' : c'.controls.length = 5 := by
    have := congrArg List.length c3'
    rw [List.length_map] at this
    exact this
  have hon := unitCircle_on t k c c3
  have hcr : ![-k, 0, 0] ⨯₃ zAxis = ![0, k, 0] := by rw [zAxis, cross_apply]; simp
  rw [hcr] at hon
  set x : Twist := (zAxis, ![0, k, 0]) with hx
  set g0 : Pose := (1, ![k * (1 + t 0), k * t 1, k * t 2]) with hg0
  have vg0 : IsRotation g0.1 := isRotation_one
  have hn : eucNorm x.2 = k := by
    rw [hx, eucNorm, sqNorm_eq]
    simp [Real.sqrt_sq hk.le]
  have hn' : eucNorm (SE3.adjointTimes (SE3.inv m) x).2 = sensorRadius k m.2 := by
    change eucNorm ((m.1.transpose *ᵥ (-m.2)) ⨯₃ (m.1.transpose *ᵥ x.1) + m.1.transpose *ᵥ x.2) = _
    rw [← SO3.mulVec_cross (isRotation_transpose hm), ← mulVec_add, eucNorm_mulVec (isRotation_transpose hm), eucNorm, sensorRadius, sqNorm_eq]
    congr 1
    simp [hx, zAxis, cross_apply]
    ring
  have hz : eucNorm ((Real.pi / 2) • zAxis) = Real.pi / 2 := by rw [eucNorm_smul, zAxis_norm, mul_one, abs_of_pos Real.pi_div_two_pos]
  have hz' : eucNorm ((Real.pi / 2) • (SE3.adjointTimes (SE3.inv m) x).1) = Real.pi / 2 := by
    change eucNorm ((Real.pi / 2) • (m.1.transpose *ᵥ zAxis)) = _
    rw [← mulVec_smul, eucNorm_mulVec (isRotation_transpose hm), hz]
  have hp := Real.pi_gt_three
  have e : ∀ i : ℕ, ((i + 1 : ℕ) : ℝ) * (Real.pi / 2) - i * (Real.pi / 2) = Real.pi / 2 := by intro i; push_cast; ring
  obtain ⟨k1, k2⟩ := c89_helix_partial c c2 x g0 vg0 (fun i => i * (Real.pi / 2)) hon (by
    intro i _
    simp only [e]
    refine ⟨by linarith [e i], by rw [hz]; linarith, .inr (by rw [hz]; linarith)⟩)
  obtain ⟨k1', k2'⟩ := c89_helix_partial c' c2' (SE3.adjointTimes (SE3.inv m) x) (SE3.mul g0 m) (se3Laws.valid_mul (valid := PoseValid) vg0 hm)
    (fun i => i * (Real.pi / 2)) (by
      intro i hi
      have : c'.controls[i].pose.val = SE3.mul (c.controls[i]'(by omega)).pose.val m := by
        have a1 : c'.controls[i].pose.val = (c'.controls.map (·.pose.val))[i]'(by rw [List.length_map]; exact hi) := by simp
        have a2 : (c.controls[i]'(by omega)).pose.val = (c.controls.map (·.pose.val))[i]'(by rw [List.length_map]; omega) := by simp
        rw [a1, a2]
        simp only [c3', c3, List.getElem_map]
      rw [this]
      exact onScrew_mounted hm (hon i (by omega))) (by
    intro i _
    simp only [e]
    refine ⟨by linarith [e i], by rw [hz']; linarith, .inr (by rw [hz']; linarith)⟩)
  simp only [hn, hn', Nat.cast_zero, zero_mul, zero_add, sub_zero] at k1 k2 k1' k2'
  exact ⟨c, c', c1, c1', c2, c2', c3, c3', k1, k1', x, g0, vg0, k2, k2'⟩

/-- C91: the shipped example with the distance curve, for every circle (translation `t`, scale `k`) and every sensor that is not on the axis of the circle.  Both
curves are built; the sensor's is as long as the circle it goes round.  When the body has gone the distance `s`, the sensor has gone `s` times the ratio of the
radii, and the sensor's curve there gives its pose on the body, within 1e-18 of the distances gone. -/
theorem c91_example02 (world robot sensor : Frame) (h0 : world ≠ Frame.null) (h1 : robot ≠ Frame.null) (h2 : sensor ≠ Frame.null) (t : V3) (k : ℝ) (hk : 0 < k)
    (m : Pose) (hm : IsRotation m.1) (hr : 0 < sensorRadius k m.2) :
    ∃ points c c', worldFromSensor ⟨m, robot, sensor⟩ ((unitCircle t k).map fun v => ⟨v, world, robot⟩) = .ok points ∧
      DCurve.make SE3.ops SE3.arcLength ((unitCircle t k).map fun v => ⟨v, world, robot⟩) = .ok c ∧ DCurve.make SE3.ops SE3.arcLength points = .ok c' ∧
      DCurve.curveLength c' = 2 * Real.pi * sensorRadius k m.2 ∧
      ∀ s, 0 ≤ s → s ≤ 2 * Real.pi * k → ∃ p p', DCurve.pointAt SE3.ops c s = .ok p ∧ DCurve.pointAt SE3.ops c' (s / k * sensorRadius k m.2) = .ok p' ∧
        p'.val.1 = p.val.1 * m.1 ∧ eucNorm (p'.val.2 - (p.val.1 *ᵥ m.2 + p.val.2)) ≤ 1e-18 * (s + s / k * sensorRadius k m.2) := by
  obtain ⟨c, c', c1, c1', c2, c2', c3, c3', k1, k1', x, g0, vg0, k2, k2'⟩ := sensor_curves world robot sensor h0 h1 h2 t k hk m hm
  refine ⟨_, c, c', worldFromSensor_eq (m := ⟨m, robot, sensor⟩) h0 h1 h2 _, c1, c1', ?_⟩
  have hlen : c.controls.length = 5 := by
    have := congrArg List.length c3
    rw [List.length_map] at this
    exact this
  have hlen' : c'.controls.length = 5 := by
    have := congrArg List.length c3'
    rw [List.length_map] at this
    exact this
  have hp := Real.pi_gt_three
  have e : ∀ i : ℕ, ((i + 1 : ℕ) : ℝ) * (Real.pi / 2) - i * (Real.pi / 2) = Real.pi / 2 := by intro i; push_cast; ring
  have L : DCurve.curveLength c = 2 * Real.pi * k := by
    unfold DCurve.curveLength
    rw [List.getLast?_eq_getElem?, hlen, List.getElem?_eq_getElem (by omega)]
    simp only
    rw [k1 4 (by omega)]
    push_cast
    ring
  have L' : DCurve.curveLength c' = 2 * Real.pi * sensorRadius k m.2 := by
    unfold DCurve.curveLength
    rw [List.getLast?_eq_getElem?, hlen', List.getElem?_eq_getElem (by omega)]
    simp only
    rw [k1' 4 (by omega)]
    push_cast
    ring
  refine ⟨L', fun s s0 s1 => ?_⟩
  obtain ⟨p, hp1⟩ := dcurve_answers c2 (by omega) (by
    intro i hi
    rw [k1 i (by omega), k1 (i + 1) hi]
    nlinarith [e i]) s0 (by rw [L]; exact s1)
  obtain ⟨p', hp1'⟩ := dcurve_answers c2' (s := s / k * sensorRadius k m.2) (by omega) (by
    intro i hi
    rw [k1' i (by omega), k1' (i + 1) hi]
    nlinarith [e i]) (by positivity) (by
    rw [L']
    refine mul_le_mul_of_nonneg_right ?_ hr.le
    rw [div_le_iff₀ hk]
    exact s1)
  refine ⟨p, p', hp1, hp1', ?_⟩
  obtain ⟨q, q1, q2, q3⟩ := k2 s p hp1
  obtain ⟨q', q1', q2', q3'⟩ := k2' _ p' hp1'
  rw [mul_div_assoc, div_self hr.ne', mul_one] at q1'
  have hq : q' = SE3.mul q m := se3Rep.M_inj (q1'.trans (onScrew_mounted hm q1).symm)
  subst hq
  have vq : IsRotation q.1 := onScrew_rotation vg0 q1
  refine ⟨?_, ?_⟩
  · rw [q2', q2]
    rfl
  · have e2 : p'.val.2 - (p.val.1 *ᵥ m.2 + p.val.2) = (p'.val.2 - (SE3.mul q m).2) + -(p.val.2 - q.2) := by
      change _ = (p'.val.2 - (q.1 *ᵥ m.2 + q.2)) + -(p.val.2 - q.2)
      rw [q2]
      abel
    rw [e2]
    refine (eucNorm_add_le _ _).trans ?_
    rw [eucNorm_neg]
    have r1 : eucNorm (p'.val.2 - (SE3.mul q m).2) ≤ _ := q3'
    have r2 : eucNorm (p.val.2 - q.2) ≤ _ := q3
    linarith

/-- The sensor of the example: one ahead and one up, turned by a quarter turn.  It goes round a circle of radius two. -/
example : sensorRadius 1 ((angleAxisMatrix (Real.pi / 2) zAxis, ![1, 0, 1]) : Pose).2 = 2 := by
  simp only [sensorRadius]
  rw [show ((1 : ℝ) + (![1, 0, 1] : V3) 0) ^ 2 + (![1, 0, 1] : V3) 1 ^ 2 = 2 ^ 2 by simp; norm_num]
  exact Real.sqrt_sq (by norm_num)

/-- The curves of that example meet the hypotheses of `c91_distance`. -/
example : ∃ (c c' : DCurve Pose) (m : Pose), DBuilt SE3.ops SE3.arcLength c ∧ DBuilt SE3.ops SE3.arcLength c' ∧ (∀ p ∈ c.controls, IsRotation p.pose.val.1) ∧
    IsRotation m.1 ∧ List.Forall₂ (fun p p' : DControl Pose => poseMatrix p'.pose.val = poseMatrix p.pose.val * poseMatrix m) c.controls c'.controls ∧
    ∃ (h : 0 + 1 < c.controls.length) (h' : 0 + 1 < c'.controls.length), LessThanHalfTurn c.controls[0].pose.val.1 c.controls[0 + 1].pose.val.1 ∧
      c.controls[0].arcLength < c.controls[0 + 1].arcLength ∧ c'.controls[0].arcLength < c'.controls[0 + 1].arcLength := by
  obtain ⟨c, c', -, -, c2, c2', c3, c3', k1, k1', -⟩ := sensor_curves (exFrame 1) (exFrame 2) (exFrame 3) (by decide) (by decide) (by decide) 0 1 one_pos
    (quarterTurn, ![1, 0, 1]) quarterTurn_isRotation
  have hlen : c.controls.length = 5 := by
    have := congrArg List.length c3
    rw [List.length_map] at this
    exact this
  have hlen' : c'.controls.length = 5 := by
    have := congrArg List.length c3'
    rw [List.length_map] at this
    exact this
  have hp := Real.pi_pos
  have hr : sensorRadius 1 ![1, 0, 1] = 2 := by
    rw [sensorRadius, show ((1 : ℝ) + (![1, 0, 1] : V3) 0) ^ 2 + (![1, 0, 1] : V3) 1 ^ 2 = 2 ^ 2 by simp; norm_num]
    exact Real.sqrt_sq (by norm_num)
  refine ⟨c, c', (quarterTurn, ![1, 0, 1]), c2, c2', ?_, quarterTurn_isRotation, ?_, by omega, by omega, ?_, ?_, ?_⟩
  · intro p hp
    obtain ⟨i, hi, rfl⟩ := List.mem_iff_getElem.mp hp
    exact onScrew_rotation isRotation_one (unitCircle_on 0 1 c c3 i hi)
  · rw [List.forall₂_iff_get]
    refine ⟨by omega, fun i hi hi' => ?_⟩
    have a1 : c'.controls[i].pose.val = (c'.controls.map (·.pose.val))[i]'(by rw [List.length_map]; exact hi') := by simp
    have a2 : c.controls[i].pose.val = (c.controls.map (·.pose.val))[i]'(by rw [List.length_map]; exact hi) := by simp
    rw [List.get_eq_getElem, List.get_eq_getElem, a1, a2]
    simp only [c3', c3, List.getElem_map]
    exact se3Rep.M_mul _ _
  · have o0 := unitCircle_on 0 1 c c3 0 (by omega)
    have o1 := unitCircle_on 0 1 c c3 1 (by omega)
    rw [onScrew_pose, circle_at] at o0 o1
    unfold LessThanHalfTurn
    rw [o0, o1]
    simp only [exp_z, Nat.cast_zero, Nat.cast_one, zero_mul, one_mul, Real.cos_zero, Real.sin_zero, neg_zero, Real.cos_pi_div_two, Real.sin_pi_div_two]
    rw [← Matrix.one_fin_three, transpose_one, Matrix.mul_one]
    simp [Matrix.trace, Fin.sum_univ_three]
  · rw [k1 0 (by omega), k1 (0 + 1) (by omega)]
    push_cast
    linarith
  · rw [k1' 0 (by omega), k1' (0 + 1) (by omega)]
    simp only [hr]
    push_cast
    linarith

end Verif.Props
