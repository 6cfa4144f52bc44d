import Verif.Proofs.Shadow
import Verif.Props.TCurve
/-! # C37 to C39 and C70 for SE3 at all turns: the answers stay within rounding-sized distances of an exactly twice differentiable motion -/
namespace Verif.Props
open Verif.Framed Verif.Spec SO3 Matrix

/-- The translation of the move that takes pose `a` to pose `b`, from the left. -/
noncomputable def relativeTranslation (a b : Pose) : V3 := b.2 - (b.1 * a.1.transpose) *ᵥ a.2

/-- The size of the data of a segment that lasts `dt`: a displacement, two velocities and two accelerations. -/
noncomputable def dataSize (rel : ℝ) (dt : ℝ) (v0 v1 a0 a1 : V3) : ℝ :=
  rel + dt * (eucNorm v0 + eucNorm v1) + dt ^ 2 * (eucNorm a0 + eucNorm a1)

/-- How much translation the data of a segment ask for. -/
noncomputable def translationSize (dt : ℝ) (o d : TwoJetL Pose Twist) : ℝ :=
  dataSize (2 * eucNorm (relativeTranslation o.g.val d.g.val)) dt o.d.2 d.d.2 o.d2.2 d.d2.2

/-- How much rotation they ask for. -/
noncomputable def rotationSize (dt : ℝ) (o d : TwoJetL Pose Twist) : ℝ :=
  dataSize (eucNorm (relativeRotation o.g.val d.g.val)) dt o.d.1 d.d.1 o.d2.1 d.d2.1

/-- A reported point against a pose with velocity and acceleration: equal rotation parts, translation parts within the given distances. -/
def Within (p : TwoJetL Pose Twist) (q : Pose × Twist × Twist) (e0 e1 e2 : ℝ) : Prop :=
  (p.g.val.1 = q.1.1 ∧ p.d.1 = q.2.1.1 ∧ p.d2.1 = q.2.2.1) ∧
  eucNorm (p.g.val.2 - q.1.2) ≤ e0 ∧ eucNorm (p.d.2 - q.2.1.2) ≤ e1 ∧ eucNorm (p.d2.2 - q.2.2.2) ≤ e2

/-- The distances for a segment that lasts `dt`. -/
def SegmentClose (dt : ℝ) (o d p : TwoJetL Pose Twist) (q : Pose × Twist × Twist) : Prop :=
  Within p q (2e-15 * translationSize dt o d) (4e-15 * (translationSize dt o d * (1 + rotationSize dt o d)) / dt)
    (3e-14 * (translationSize dt o d * (1 + rotationSize dt o d) ^ 2) / dt ^ 2)

theorem rel_eq (a b : Pose) : SE3.mul b (SE3.inv a) = (b.1 * a.1.transpose, relativeTranslation a b) := by
  refine Prod.ext rfl ?_
  change b.1 *ᵥ (a.1.transpose *ᵥ (-a.2)) + b.2 = _
  rw [relativeTranslation, mulVec_mulVec, mulVec_neg, neg_add_eq_sub]

theorem demand_le {seg : TSegment Pose Twist} (ho : PoseValid seg.orig.g.val) (hd : PoseValid seg.dest.g.val) :
    SE3.demand Prod.snd seg ≤ translationSize 1 seg.orig seg.dest ∧ SE3.demand Prod.fst seg = rotationSize 1 seg.orig seg.dest := by
  have hrel : PoseValid (SE3.mul seg.dest.g.val (SE3.inv seg.orig.g.val)) := se3Laws.valid_mul (valid := PoseValid) hd (se3Laws.valid_inv (valid := PoseValid) ho)
  have hl := SE3.xlog_le hrel
  have e1 : (SE3.xlog (SE3.mul seg.dest.g.val (SE3.inv seg.orig.g.val))).1 = relativeRotation seg.orig.g.val seg.dest.g.val := rfl
  unfold SE3.demand translationSize rotationSize dataSize
  rw [e1]
  have e2 : (SE3.mul seg.dest.g.val (SE3.inv seg.orig.g.val)).2 = relativeTranslation seg.orig.g.val seg.dest.g.val := by rw [rel_eq]
  rw [e2] at hl
  constructor
  · linarith
  · ring

/-- The point of a segment against the exact one. -/
theorem segment_close {seg : TSegment Pose Twist} (ho : PoseValid seg.orig.g.val) (hd : PoseValid seg.dest.g.val) {u : ℝ} (h0 : 0 ≤ u) (h1 : u ≤ 1)
    (f f' : Frame) :
    SegmentClose 1 seg.orig seg.dest ⟨⟨SE3.ops.mul (vpoint SE3.ops seg u).1 seg.orig.g.val, f, f'⟩, (vpoint SE3.ops seg u).2.1, (vpoint SE3.ops seg u).2.2⟩
      (SE3.mul (vpoint SE3.xops seg u).1 seg.orig.g.val, (vpoint SE3.xops seg u).2) := by
  obtain ⟨k1, k2⟩ := demand_le ho hd
  obtain ⟨⟨n1, n2⟩, ⟨n3, n4⟩, ⟨n5, n6⟩, -, -⟩ := SE3.vpoint_shadow seg ho hd h0 h1
  rw [k2] at n4 n6
  have w0 : 0 ≤ rotationSize 1 seg.orig seg.dest := by
    rw [← k2]
    unfold SE3.demand
    have n := eucNorm_nonneg
    exact add_nonneg (n _) (add_nonneg (n _) (add_nonneg (n _) (add_nonneg (n _) (n _))))
  refine ⟨⟨?_, n3, n5⟩, ?_, ?_, ?_⟩
  · change (vpoint SE3.ops seg u).1.1 * _ = (vpoint SE3.xops seg u).1.1 * _
    rw [n1]
  · change eucNorm (((vpoint SE3.ops seg u).1.1 *ᵥ _ + (vpoint SE3.ops seg u).1.2) - ((vpoint SE3.xops seg u).1.1 *ᵥ _ + (vpoint SE3.xops seg u).1.2)) ≤ _
    rw [n1, add_sub_add_left_eq_sub]
    exact n2.trans (mul_le_mul_of_nonneg_left k1 (by norm_num))
  · rw [div_one]
    exact n4.trans (mul_le_mul_of_nonneg_left (mul_le_mul_of_nonneg_right k1 (by linarith)) (by norm_num))
  · rw [one_pow, div_one]
    exact n6.trans (mul_le_mul_of_nonneg_left (mul_le_mul_of_nonneg_right k1 (by positivity)) (by norm_num))

theorem xexp_zero : SE3.xops.exp 0 = SE3.xops.one := by
  have := (SE3.oneParam 0).zero
  rw [smul_zero] at this
  exact this

/-- C37 and C38 for SE3, at all turns.  Next to every segment there is a motion with the exact end poses, velocities and accelerations, exactly twice
differentiable at every time with the velocity and acceleration it is given with, and between the ends every answer of the segment agrees with it: the
rotation parts are equal, the translation parts are off by no more than a few parts in 1e15 of the translations asked for. -/
theorem c38_se3_close (o d : TwoJetL Pose Twist) (seg : TSegment Pose Twist) (h : TSegment.make o d = .ok seg)
    (hf : o.g.into = Frame.null ↔ o.g.src = Frame.null) (ho : IsRotation o.g.val.1) (hd : IsRotation d.g.val.1) :
    ∃ γ : ℝ → Pose × Twist × Twist, γ 0 = (o.g.val, o.d, o.d2) ∧ γ 1 = (d.g.val, d.d, d.d2) ∧
      (∀ t, HasLeftJet poseMatrix twistHat (fun s => (γ s).1) t (γ t).2.1 (γ t).2.2) ∧
      ∀ t, 0 ≤ t → t ≤ 1 → ∃ p, TSegment.pointAt SE3.ops seg t = .ok p ∧ SegmentClose 1 o d p (γ t) := by
  obtain ⟨hg, rfl, rfl⟩ := good_of_make h hf
  refine ⟨fun u => (SE3.mul (vpoint SE3.xops seg u).1 seg.orig.g.val, (vpoint SE3.xops seg u).2), ?_, ?_, fun t =>
    vpoint_jet SE3.xrep (fun x => SO3.isRotation_exp x.1) seg t (SE3.xtermsJet seg t), fun t h0 h1 =>
    ⟨_, TSegment.pointAt_eq SE3.ops hg t, segment_close ho hd h0 h1 _ _⟩⟩
  · simp only [vpoint_zero SE3.xlaws xexp_zero]
    rw [show SE3.mul SE3.xops.one seg.orig.g.val = seg.orig.g.val from SE3.xlaws.one_mul _]
  · have e : SE3.xops.exp (SE3.xops.log (SE3.xops.mul seg.dest.g.val (SE3.xops.inv seg.orig.g.val))) =
        SE3.xops.mul seg.dest.g.val (SE3.xops.inv seg.orig.g.val) :=
      SE3.xexp_xlog (SE3.xlaws.valid_mul hd (SE3.xlaws.valid_inv ho))
    simp only [vpoint_one SE3.xlaws xexp_zero]
    have : SE3.mul (SE3.xops.mul seg.dest.g.val (SE3.xops.inv seg.orig.g.val)) seg.orig.g.val = seg.dest.g.val := by
      change SE3.xops.mul (SE3.xops.mul _ _) _ = _
      rw [SE3.xlaws.mul_assoc, SE3.xlaws.inv_mul (valid := PoseValid) ho, SE3.xlaws.mul_one]
    rw [e, this]

/-- A start with a slow spin and a speed across it, an end at rest at the same place. -/
noncomputable def wobble : TSegment Pose Twist :=
  ⟨⟨⟨SE3.one, exFrame 1, exFrame 2⟩, (![0, 0, 1 / 1000], ![1, 0, 0]), 0⟩, ⟨⟨SE3.one, exFrame 1, exFrame 2⟩, 0, 0⟩⟩

theorem wobble_point (u : ℝ) : (SE3.ops.mul (vpoint SE3.ops wobble u).1 SE3.one = SE3.exp ((Quintic.dOrig u).a • ((![0, 0, 1 / 1000], ![1, 0, 0]) : Twist))) ∧
    (vpoint SE3.ops wobble u).2.1 = (Quintic.dOrig u).da • ((![0, 0, 1 / 1000], ![1, 0, 0]) : Twist) := by
  have e0 : SE3.ops.exp 0 = SE3.ops.one := SE3.exp_zero
  have l0 : SE3.ops.log SE3.ops.one = 0 := by
    change SE3.log SE3.one = 0
    rw [← SE3.exp_zero]
    exact SE3.log_exp (by simpa [eucNorm_zero] using Real.pi_pos) (.inl rfl)
  have L := se3Laws
  have m1 : ∀ g : Pose, SE3.ops.mul g SE3.ops.one = g := L.mul_one
  have hlog : SE3.ops.log (SE3.ops.mul wobble.dest.g.val (SE3.ops.inv wobble.orig.g.val)) = 0 := by
    change SE3.ops.log (SE3.ops.mul SE3.ops.one (SE3.ops.inv SE3.ops.one)) = 0
    rw [L.inv_one, m1, l0]
  have d1 : wobble.dest.d2 = 0 := rfl
  have d2 : wobble.orig.d2 = 0 := rfl
  have d3 : wobble.dest.d = 0 := rfl
  have d4 : wobble.orig.d = (![0, 0, 1 / 1000], ![1, 0, 0]) := rfl
  have d5 : SE3.one = SE3.ops.one := rfl
  unfold vpoint
  rw [hlog, d1, d2, d3, d4, d5]
  generalize ((![0, 0, 1 / 1000], ![1, 0, 0]) : Twist) = x
  simp only [vmul, vinc, L.smul_eq, smul_zero, e0, L.one_mul, m1, L.Ad_one, L.Ad_zero, add_zero, zero_add]
  exact ⟨rfl, trivial⟩

theorem wobble_tiny {u : ℝ} (h0 : 0 ≤ u) (h1 : u ≤ 1) : sqNorm ((Quintic.dOrig u).a • (![0, 0, 1 / 1000] : V3)) < tinySquareAngle := by
  have ha := (Quintic.abs_le_one h0 h1).2.1
  rw [sqNorm_smul]
  have e : sqNorm (![0, 0, 1 / 1000] : V3) = 1e-6 := by
    rw [sqNorm_eq]
    simp
    norm_num
  rw [e]
  have : (Quintic.dOrig u).a ^ 2 ≤ 1 := by rw [← sq_abs]; nlinarith [abs_nonneg (Quintic.dOrig u).a]
  unfold tinySquareAngle
  nlinarith

/-- Half way through, the sideways speed of the returned position is not the reported one. -/
theorem wobble_fails (a2 : Twist) : ¬ HasLeftJet poseMatrix twistHat (fun u => SE3.ops.mul (vpoint SE3.ops wobble u).1 SE3.one) (1 / 2)
    (vpoint SE3.ops wobble (1 / 2)).2.1 a2 := by
  rintro ⟨vel, hv, hvt, -⟩
  have h := hv.self_of_nhds (.inl 1) (.inr ())
  rw [hvt, (wobble_point _).2] at h
  simp only [(wobble_point _).1] at h
  have ev : ∀ᶠ u in nhds (1 / 2 : ℝ), poseMatrix (SE3.exp ((Quintic.dOrig u).a • ((![0, 0, 1 / 1000], ![1, 0, 0]) : Twist))) (.inl 1) (.inr ()) =
      SE3.tinyWU (1 / 1000000) (Quintic.dOrig u).a * (1 / 1000) := by
    filter_upwards [Icc_mem_nhds (show (0 : ℝ) < 1 / 2 by norm_num) (show (1 / 2 : ℝ) < 1 by norm_num)] with u hu
    rw [SE3.exp_tiny _ _ (wobble_tiny hu.1 hu.2)]
    have e : sqNorm (![0, 0, 1 / 1000] : V3) = 1 / 1000000 := by
      rw [sqNorm_eq]
      simp
      norm_num
    simp only [e]
    change (SE3.tinyU (1 / 1000000) (Quintic.dOrig u).a • ![1, 0, 0] + SE3.tinyWU (1 / 1000000) (Quintic.dOrig u).a • (![0, 0, 1 / 1000] ⨯₃ ![1, 0, 0]) +
      (SE3.tinyWW (1 / 1000000) (Quintic.dOrig u).a * (![0, 0, 1 / 1000] ⬝ᵥ ![1, 0, 0])) • ![0, 0, 1 / 1000] : V3) 1 = _
    simp [cross_apply]
  have hd := ((SE3.tinyWU_deriv (1 / 1000000) (Quintic.dOrig (1 / 2)).a).comp (1 / 2 : ℝ)
    (Quintic.hasDerivAt_a Quintic.dOrigTable (1 / 2))).mul_const (1 / 1000 : ℝ)
  have hu := h.unique (hd.congr_of_eventuallyEq ev)
  have hx : ∀ (k : ℝ) (g : Pose), (twistHat (k • ((![0, 0, 1 / 1000], ![1, 0, 0]) : Twist)) * poseMatrix g) (.inl 1) (.inr ()) = k * (1 / 1000) * g.2 0 := by
    intro k g
    rw [twistHat, poseMatrix, SE3.twistMatrix_eq, homogeneous, fromBlocks_multiply, fromBlocks_apply₁₂, Prod.smul_mk, Matrix.mul_one]
    change (crossMatrix (k • ![0, 0, 1 / 1000]) *ᵥ g.2) 1 + (k • ![1, 0, 0] : V3) 1 = _
    rw [crossMatrix_mulVec, cross_apply]
    simp
  rw [hx, SE3.exp_tiny _ _ (wobble_tiny (by norm_num) (by norm_num))] at hu
  have e : sqNorm (![0, 0, 1 / 1000] : V3) = 1 / 1000000 := by
    rw [sqNorm_eq]
    simp
    norm_num
  have ea : (Quintic.dOrig (1 / 2)).a = 5 / 32 := by
    simp only [Quintic.dOrig, Quintic.coeffs_a, Quintic.dOrigTable, Matrix.cons_val_zero, Matrix.cons_val_one, Matrix.cons_val]
    norm_num
  have eda : (Quintic.dOrig (1 / 2)).da = -7 / 16 := by
    simp only [Quintic.dOrig, Quintic.coeffs_da, Quintic.dOrigTable, Matrix.cons_val_zero, Matrix.cons_val_one, Matrix.cons_val]
    norm_num
  have eda' : (Quintic.coeffs Quintic.dOrigTable (1 / 2)).da = -7 / 16 := eda
  rw [eda', eda, ea, e] at hu
  simp [cross_apply, SE3.tinyU, SE3.tinyWU'] at hu
  norm_num at hu

/-- C38 is false for SE3 strictly inside the small-angle region: the returned velocity is not exactly the derivative of the returned pose. -/
theorem c38_se3_small_angle_fails : ∃ (o d : TwoJetL Pose Twist) (seg : TSegment Pose Twist), TSegment.make o d = .ok seg ∧
    (o.g.into = Frame.null ↔ o.g.src = Frame.null) ∧ IsRotation o.g.val.1 ∧ IsRotation d.g.val.1 ∧
    ¬ SegmentDerivatives SE3.ops poseMatrix twistHat seg (1 / 2) := by
  have hm : TSegment.make wobble.orig wobble.dest = .ok wobble := TSegment.make_ok_iff.mpr ⟨rfl, rfl, rfl⟩
  have hf : wobble.orig.g.into = Frame.null ↔ wobble.orig.g.src = Frame.null := by
    change exFrame 1 = Frame.null ↔ exFrame 2 = Frame.null
    decide
  refine ⟨_, _, _, hm, hf, SO3.isRotation_one, SO3.isRotation_one, ?_⟩
  rintro ⟨g, h1, -, h3⟩
  have hg : ∀ s, g s = ⟨⟨SE3.ops.mul (vpoint SE3.ops wobble s).1 wobble.orig.g.val, wobble.orig.g.into, wobble.orig.g.src⟩, (vpoint SE3.ops wobble s).2.1,
      (vpoint SE3.ops wobble s).2.2⟩ := fun s => by
    have := h1 s
    rw [TSegment.pointAt_eq SE3.ops (good_of_make hm hf).1, Outcome.ok.injEq] at this
    exact this.symm
  rw [hg (1 / 2)] at h3
  simp only [hg] at h3
  exact wobble_fails _ h3

/-- The same segment meets the hypotheses of `c38_se3_close`. -/
example : TSegment.make wobble.orig wobble.dest = .ok wobble ∧ (wobble.orig.g.into = Frame.null ↔ wobble.orig.g.src = Frame.null) ∧
    IsRotation wobble.orig.g.val.1 ∧ IsRotation wobble.dest.g.val.1 := by
  refine ⟨TSegment.make_ok_iff.mpr ⟨rfl, rfl, rfl⟩, ?_, SO3.isRotation_one, SO3.isRotation_one⟩
  change exFrame 1 = Frame.null ↔ exFrame 2 = Frame.null
  decide

theorem xhlog {c : TCurve Pose Twist} (hv : ∀ p ∈ c.controls, IsRotation p.point.g.val.1) (i : Nat) (hi : i + 1 < c.controls.length) :
    SE3.xops.exp (SE3.xops.log (SE3.xops.mul c.controls[i + 1].point.g.val (SE3.xops.inv c.controls[i].point.g.val))) =
    SE3.xops.mul c.controls[i + 1].point.g.val (SE3.xops.inv c.controls[i].point.g.val) :=
  SE3.xexp_xlog (SE3.xlaws.valid_mul (hv _ (List.getElem_mem _)) (SE3.xlaws.valid_inv (hv _ (List.getElem_mem _))))

theorem within_unnormalize {p q : TwoJetL Pose Twist} {e0 e1 e2 dt : ℝ} (hp : 0 < dt) (h : Within p (q.g.val, q.d, q.d2) e0 e1 e2) :
    Within (TCurve.unnormalize (1 / dt) p) ((TCurve.unnormalize (1 / dt) q).g.val, (TCurve.unnormalize (1 / dt) q).d, (TCurve.unnormalize (1 / dt) q).d2)
      e0 (e1 / dt) (e2 / dt ^ 2) := by
  obtain ⟨⟨n1, n2, n3⟩, n4, n5, n6⟩ := h
  simp only at n1 n2 n3 n4 n5 n6
  refine ⟨⟨n1, ?_, ?_⟩, n4, ?_, ?_⟩
  · change (1 / dt) • p.d.1 = (1 / dt) • q.d.1
    rw [n2]
  · change (1 / dt) • (1 / dt) • p.d2.1 = (1 / dt) • (1 / dt) • q.d2.1
    rw [n3]
  · change eucNorm ((1 / dt) • p.d.2 - (1 / dt) • q.d.2) ≤ _
    rw [← smul_sub, eucNorm_smul, abs_of_pos (by positivity), one_div_mul_eq_div]
    exact div_le_div_of_nonneg_right n5 hp.le
  · change eucNorm ((1 / dt) • (1 / dt) • p.d2.2 - (1 / dt) • (1 / dt) • q.d2.2) ≤ _
    rw [← smul_sub, ← smul_sub, eucNorm_smul, eucNorm_smul, abs_of_pos (by positivity), one_div_mul_eq_div, one_div_mul_eq_div, div_div, ← pow_two]
    exact div_le_div_of_nonneg_right n6 (by positivity)

theorem piece_sizes (a b : TControl Pose Twist) (hp : 0 < b.time - a.time) :
    translationSize 1 (TCurve.piece a b).curve.orig (TCurve.piece a b).curve.dest = translationSize (b.time - a.time) a.point b.point ∧
    rotationSize 1 (TCurve.piece a b).curve.orig (TCurve.piece a b).curve.dest = rotationSize (b.time - a.time) a.point b.point := by
  have sz : ∀ (rel dt : ℝ) (v0 v1 a0 a1 : V3), 0 < dt → dataSize rel 1 (dt • v0) (dt • v1) (dt • dt • a0) (dt • dt • a1) = dataSize rel dt v0 v1 a0 a1 := by
    intro rel dt v0 v1 a0 a1 hp
    simp only [dataSize, eucNorm_smul, abs_of_pos hp]
    ring
  exact ⟨sz _ _ _ _ _ _ hp, sz _ _ _ _ _ _ hp⟩

/-- The point of a segment, with the time scale undone. -/
noncomputable def rawPoint (L : LieOps ℝ Pose Twist V3) (seg : TSegment Pose Twist) (u : ℝ) : TwoJetL Pose Twist :=
  ⟨⟨L.mul (vpoint L seg u).1 seg.orig.g.val, seg.orig.g.into, seg.orig.g.src⟩, (vpoint L seg u).2.1, (vpoint L seg u).2.2⟩

theorem pieceFormula_raw (L : LieOps ℝ Pose Twist V3) (a b : TControl Pose Twist) (t : ℝ) :
    pieceFormula L a b t = TCurve.unnormalize (1 / (b.time - a.time)) (rawPoint L (TCurve.piece a b).curve (1 / (b.time - a.time) * (t - a.time))) := rfl

/-- On one piece. -/
theorem piece_close {a b : TControl Pose Twist} (ha : PoseValid a.point.g.val) (hb : PoseValid b.point.g.val) (hab : a.time < b.time) {t : ℝ}
    (h0 : a.time ≤ t) (h1 : t ≤ b.time) :
    SegmentClose (b.time - a.time) a.point b.point (pieceFormula SE3.ops a b t)
      ((pieceFormula SE3.xops a b t).g.val, (pieceFormula SE3.xops a b t).d, (pieceFormula SE3.xops a b t).d2) := by
  have hp : 0 < b.time - a.time := by linarith
  have u0 : 0 ≤ 1 / (b.time - a.time) * (t - a.time) := mul_nonneg (by positivity) (by linarith)
  have u1 : 1 / (b.time - a.time) * (t - a.time) ≤ 1 := by
    rw [one_div_mul_eq_div, div_le_one hp]
    linarith
  obtain ⟨z1, z2⟩ := piece_sizes a b hp
  rw [pieceFormula_raw, pieceFormula_raw]
  have ho : PoseValid (TCurve.piece a b).curve.orig.g.val := ha
  have hd : PoseValid (TCurve.piece a b).curve.dest.g.val := hb
  unfold SegmentClose
  rw [← z1, ← z2]
  generalize (TCurve.piece a b).curve = seg at *
  generalize 1 / (b.time - a.time) * (t - a.time) = u at *
  have n := segment_close ho hd u0 u1 seg.orig.g.into seg.orig.g.src
  unfold SegmentClose at n
  rw [div_one, one_pow, div_one] at n
  exact within_unnormalize (p := rawPoint SE3.ops seg u) (q := rawPoint SE3.xops seg u) hp n

theorem vpoint_valid (seg : TSegment Pose Twist) (u : ℝ) : PoseValid (vpoint SE3.xops seg u).1 := by
  have e : ∀ k v, PoseValid (vinc SE3.xops k v).1 := fun k v => SO3.isRotation_exp _
  have m : ∀ {x y : Pose × Twist × Twist}, PoseValid x.1 → PoseValid y.1 → PoseValid (vmul SE3.xops x y).1 := fun hx hy => SE3.xlaws.valid_mul hx hy
  exact m (e _ _) (m (e _ _) (m (e _ _) (m (e _ _) (m (e _ _) SE3.xlaws.valid_one))))

/-- C39 and C70 for SE3, at all turns.  Next to every curve there is a motion that passes exactly through every control with its velocity and
acceleration, that is exactly twice differentiable at every time inside the curve with the velocity and acceleration it is given with, and with which
every answer of the curve agrees up to the distances of the piece that contains the time. -/
theorem c70_se3_close (c : TCurve Pose Twist) (h : Built c) (hw : WholeFrames c) (h2 : 2 ≤ c.controls.length)
    (hv : ∀ p ∈ c.controls, IsRotation p.point.g.val.1) (s e : ℝ) (hs : TCurve.startTime c = .ok s) (he : TCurve.endTime c = .ok e) :
    ∃ γ : ℝ → Pose × Twist × Twist, (∀ t, IsRotation (γ t).1.1) ∧ (∀ p ∈ c.controls, γ p.time = (p.point.g.val, p.point.d, p.point.d2)) ∧
      (∀ t, s < t → t < e → HasLeftJet poseMatrix twistHat (fun r => (γ r).1) t (γ t).2.1 (γ t).2.2) ∧
      ∀ t, s ≤ t → t ≤ e → ∃ (i : Nat) (hi : i + 1 < c.controls.length) (p : TwoJetL Pose Twist), c.controls[i].time ≤ t ∧ t ≤ c.controls[i + 1].time ∧
        TCurve.pointAt SE3.ops c t = .ok p ∧
        SegmentClose (c.controls[i + 1].time - c.controls[i].time) c.controls[i].point c.controls[i + 1].point p (γ t) := by
  have hc := inv_of_built h
  have s' := startTime_eq h2 hs
  have e' := endTime_eq h2 he
  subst s' e'
  have hx : ∀ t, ∃ p : TwoJetL Pose Twist, PoseValid p.g.val ∧
      (c.controls[0].time ≤ t → t ≤ c.controls[c.controls.length - 1].time → TCurve.pointAt SE3.xops c t = .ok p) := by
    intro t
    by_cases hin : c.controls[0].time ≤ t ∧ t ≤ c.controls[c.controls.length - 1].time
    · obtain ⟨i, hi, -, -, -, e3⟩ := TCurve.pointAt_inside SE3.xops hc h2 t hin.1 hin.2
      rw [onPiece_formula SE3.xops (TCurve.good_piece hc hw hi)] at e3
      exact ⟨_, SE3.xlaws.valid_mul (vpoint_valid _ _) (hv _ (List.getElem_mem _)), fun _ _ => e3⟩
    · exact ⟨c.controls[0].point, hv _ (List.getElem_mem _), fun a b => absurd ⟨a, b⟩ hin⟩
  choose f hfv hf using hx
  refine ⟨fun t => ((f t).g.val, (f t).d, (f t).d2), hfv, ?_, ?_, ?_⟩
  · intro p hp
    obtain ⟨i, hi, rfl⟩ := List.getElem_of_mem hp
    have e1 := TCurve.pointAt_control SE3.xlaws xexp_zero hc hw hv (xhlog hv) hi h2
    rw [hf _ (hc.time_le (by omega) (by omega)) (hc.time_le (by omega) (by omega)), Outcome.ok.injEq] at e1
    simp only [e1]
  · intro t t0 t1
    exact TCurve.pointAt_jet SE3.xrep (fun x => SO3.isRotation_exp x.1) xexp_zero hc hw hv (xhlog hv) h2 f hf t t0 t1 fun i hi _ _ => SE3.xtermsJet _ _
  · intro t t0 t1
    obtain ⟨i, hi, e0, e1, e2, e3⟩ := TCurve.pointAt_inside SE3.ops hc h2 t t0 t1
    rw [onPiece_formula SE3.ops (TCurve.good_piece hc hw hi)] at e3
    have e4 := TCurve.pointAt_on_piece SE3.xlaws xexp_zero hc hw hv (xhlog hv) hi e1 e2
    rw [hf t t0 t1, onPiece_formula SE3.xops (TCurve.good_piece hc hw hi), Outcome.ok.injEq] at e4
    refine ⟨i, hi, _, e1, e2, e3, ?_⟩
    simp only [e4]
    exact piece_close (hv _ (List.getElem_mem _)) (hv _ (List.getElem_mem _)) (hc.time_lt hi (by omega)) e1 e2

/-- The same data as the controls of a curve. -/
noncomputable def wobbleControls : List (TControl Pose Twist) := [⟨0, wobble.orig⟩, ⟨1, wobble.dest⟩]

theorem wobble_curve : ∃ c : TCurve Pose Twist, Built c ∧ WholeFrames c ∧ c.controls = wobbleControls ∧ ∀ p ∈ c.controls, IsRotation p.point.g.val.1 := by
  have hok : ∃ c, TCurve.make wobbleControls = .ok c := by
    rw [(c40_construct wobbleControls).1]
    intro i hi q hq
    simp only [wobbleControls, List.length_cons, List.length_nil] at hi
    obtain rfl | rfl : i = 0 ∨ i = 1 := by omega
    · simp [wobbleControls] at hq
    · simp only [wobbleControls, List.take_succ_cons, List.take_zero, List.mem_singleton] at hq; subst hq
      simp [wobbleControls, wobble]
  obtain ⟨c, hc⟩ := hok
  obtain ⟨hb, he⟩ := (c40_construct wobbleControls).2.1 c hc
  refine ⟨c, hb, ?_, he, ?_⟩
  · intro p hp
    rw [he] at hp
    simp only [wobbleControls, List.mem_cons, List.not_mem_nil, or_false] at hp
    rcases hp with rfl | rfl <;> decide
  · intro p hp
    rw [he] at hp
    simp only [wobbleControls, List.mem_cons, List.not_mem_nil, or_false] at hp
    rcases hp with rfl | rfl <;> exact SO3.isRotation_one

/-- A curve inside the small-angle region meets the hypotheses. -/
example : ∃ c : TCurve Pose Twist, Built c ∧ WholeFrames c ∧ 2 ≤ c.controls.length ∧ (∀ p ∈ c.controls, IsRotation p.point.g.val.1) ∧
    TCurve.startTime c = .ok 0 ∧ TCurve.endTime c = .ok 1 := by
  obtain ⟨c, hb, hw, he, hv⟩ := wobble_curve
  refine ⟨c, hb, hw, by rw [he]; simp [wobbleControls], hv, ?_, ?_⟩
  · unfold TCurve.startTime
    rw [he]
    rfl
  · unfold TCurve.endTime
    rw [he]
    rfl

/-- C70 is false for SE3 strictly inside the small-angle region. -/
theorem c70_se3_small_angle_fails : ∃ c : TCurve Pose Twist, Built c ∧ WholeFrames c ∧ 2 ≤ c.controls.length ∧
    (∀ p ∈ c.controls, IsRotation p.point.g.val.1) ∧ ¬ ReportsDerivatives SE3.ops poseMatrix twistHat c (fun _ => True) := by
  obtain ⟨c, hb, hw, he, hv⟩ := wobble_curve
  have h2 : 2 ≤ c.controls.length := by rw [he]; simp [wobbleControls]
  have hl : c.controls.length = 2 := by rw [he]; rfl
  have hc := inv_of_built hb
  refine ⟨c, hb, hw, h2, hv, fun H => ?_⟩
  have t0 : c.controls[0].time = 0 := by simp only [he, wobbleControls, List.getElem_cons_zero]
  have t1 : c.controls[c.controls.length - 1].time = 1 := by simp only [he, wobbleControls, List.length_cons, List.length_nil]; rfl
  have hs : TCurve.startTime c = .ok 0 := by
    unfold TCurve.startTime
    rw [he]
    rfl
  have hen : TCurve.endTime c = .ok 1 := by
    unfold TCurve.endTime
    rw [he]
    rfl
  have hpc : (TCurve.piece (⟨0, wobble.orig⟩ : TControl Pose Twist) ⟨1, wobble.dest⟩).curve = wobble := by
    simp [TCurve.piece, TCurve.scaled, wobble]
  have key := H 0 1 hs hen (fun t => pieceFormula SE3.ops ⟨0, wobble.orig⟩ ⟨1, wobble.dest⟩ t) (by
    intro r h0 h1
    obtain ⟨i, hi, -, -, -, e3⟩ := TCurve.pointAt_inside SE3.ops hc h2 r (by rw [t0]; exact h0) (by rw [t1]; exact h1)
    obtain rfl : i = 0 := by omega
    rw [e3, onPiece_formula SE3.ops (TCurve.good_piece hc hw hi)]
    simp only [he, wobbleControls, List.getElem_cons_zero, List.getElem_cons_succ]) (1 / 2) (by norm_num) (by norm_num) trivial
  simp only [pieceFormula_raw, hpc, sub_zero, div_one, one_mul, TCurve.unnormalize, one_smul] at key
  exact wobble_fails _ key

end Verif.Props
