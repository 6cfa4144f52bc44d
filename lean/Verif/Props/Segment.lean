import Verif.Spec.Quintic
import Verif.Proofs.TCurveSegment
import Verif.Props.ExpLog
import Verif.Props.TwoJet
import Mathlib.Algebra.Polynomial.Eval.Degree
import Mathlib.Tactic.ComputeDegree
/-! # C36 to C38: quintic coefficients and curve segments -/
namespace Verif.Props
open Verif.Framed Verif.Spec SO3

/-! ## C36 -/

theorem hermite_of (c : Fin 5 → ℝ) : ∃ p : Polynomial ℝ, p.natDegree ≤ 5 ∧
    ∀ t, (Quintic.coeffs c t).a = p.eval t ∧ (Quintic.coeffs c t).da = p.derivative.eval t ∧
      (Quintic.coeffs c t).d2a = p.derivative.derivative.eval t := by
  refine ⟨.C (c 0) * .X + .C (c 1) * .X ^ 2 + .C (c 2) * .X ^ 3 + .C (c 3) * .X ^ 4 + .C (c 4) * .X ^ 5, by compute_degree, fun t => ?_⟩
  rw [Quintic.coeffs_a, Quintic.coeffs_da, Quintic.coeffs_d2a]
  refine ⟨by simp, ?_, ?_⟩
  · simp; ring
  · simp; ring

/-- C36.  Each of the five coefficient functions is the quintic Hermite polynomial that its name says, with its derivatives, at every
time: the pose difference, the velocity at the start and at the end, and the acceleration at the start and at the end. -/
theorem c36_hermite :
    IsHermite Quintic.destFromOrig ⟨0, 0, 0⟩ ⟨1, 0, 0⟩ ∧
    IsHermite Quintic.dOrig ⟨0, 1, 0⟩ ⟨0, 0, 0⟩ ∧ IsHermite Quintic.dDest ⟨0, 0, 0⟩ ⟨0, 1, 0⟩ ∧
    IsHermite Quintic.d2Orig ⟨0, 0, 1⟩ ⟨0, 0, 0⟩ ∧ IsHermite Quintic.d2Dest ⟨0, 0, 0⟩ ⟨0, 0, 1⟩ := by
  refine ⟨?_, ?_, ?_, ?_, ?_⟩ <;> refine (hermite_of _).imp fun p h => ⟨h.1, h.2, ?_⟩ <;>
  · simp only [Quintic.destFromOrig, Quintic.dOrig, Quintic.dDest, Quintic.d2Orig, Quintic.d2Dest, Quintic.coeffs_a, Quintic.coeffs_da,
      Quintic.coeffs_d2a, Quintic.destOrigTable, Quintic.dOrigTable, Quintic.dDestTable, Quintic.d2OrigTable, Quintic.d2DestTable,
      Matrix.cons_val_zero, Matrix.cons_val_one, Matrix.cons_val]
    norm_num

example : (Quintic.destFromOrig (1 / 2)).a = 1 / 2 := by
  simp only [Quintic.destFromOrig, Quintic.coeffs_a, Quintic.destOrigTable, Matrix.cons_val_zero, Matrix.cons_val_one, Matrix.cons_val]
  norm_num

/-! ## C37 -/

variable {G A V : Type}

theorem good_of_make {o d : TwoJetL G A} {seg : TSegment G A} (h : TSegment.make o d = .ok seg)
    (hf : o.g.into = Frame.null ↔ o.g.src = Frame.null) : TSegment.Good seg ∧ seg.orig = o ∧ seg.dest = d := by
  obtain ⟨rfl, h1, h2⟩ := TSegment.make_ok_iff.mp h
  exact ⟨⟨hf, h1.symm, h2.symm⟩, rfl, rfl⟩

/-- C37.  A segment can be built exactly from two-jets with equal frames; otherwise the constructor throws. -/
theorem c37_construct (o d : TwoJetL G A) :
    ((∃ seg, TSegment.make o d = .ok seg) ↔ o.g.into = d.g.into ∧ o.g.src = d.g.src) ∧
    ((TSegment.make o d).IsThrow ↔ ¬ (o.g.into = d.g.into ∧ o.g.src = d.g.src)) := by
  have h1 : (∃ seg, TSegment.make o d = .ok seg) ↔ o.g.into = d.g.into ∧ o.g.src = d.g.src :=
    ⟨fun ⟨seg, h⟩ => (TSegment.make_ok_iff.mp h).2, fun h => ⟨⟨o, d⟩, TSegment.make_ok_iff.mpr ⟨rfl, h⟩⟩⟩
  refine ⟨h1, ?_⟩
  rw [← h1]
  unfold TSegment.make
  split_ifs <;> simp

/-- C37 for SO3. -/
theorem c37_so3 (o d : TwoJetL M3 V3) (seg : TSegment M3 V3) (h : TSegment.make o d = .ok seg)
    (hf : o.g.into = Frame.null ↔ o.g.src = Frame.null) (ho : IsRotation o.g.val) (hd : IsRotation d.g.val) :
    TSegment.pointAt SO3.ops seg 0 = .ok o ∧ TSegment.pointAt SO3.ops seg 1 = .ok d := by
  obtain ⟨hg, rfl, rfl⟩ := good_of_make h hf
  refine ⟨TSegment.pointAt_zero so3Laws SO3.exp_zero hg, TSegment.pointAt_one so3Laws SO3.exp_zero hg ho ?_⟩
  exact (SO3.exp_log (so3Laws.valid_mul hd (so3Laws.valid_inv ho))).1

/-- The rotation angle from one pose to another. -/
noncomputable def relativeRotation (a b : Pose) : V3 := SO3.log (b.1 * a.1.transpose)

/-- C37 for SE3: the start always; the end exactly when the poses differ by no rotation or by an angle of at least 0.002.  For smaller angles
`exp (log g)` is not exactly `g` (C30); see the next two theorems. -/
theorem c37_se3_partial (o d : TwoJetL Pose Twist) (seg : TSegment Pose Twist) (h : TSegment.make o d = .ok seg)
    (hf : o.g.into = Frame.null ↔ o.g.src = Frame.null) (ho : IsRotation o.g.val.1) (hd : IsRotation d.g.val.1) :
    TSegment.pointAt SE3.ops seg 0 = .ok o ∧
    (GoodAngle (relativeRotation o.g.val d.g.val) → TSegment.pointAt SE3.ops seg 1 = .ok d) := by
  obtain ⟨hg, rfl, rfl⟩ := good_of_make h hf
  refine ⟨TSegment.pointAt_zero se3Laws SE3.exp_zero hg, fun ha => TSegment.pointAt_one se3Laws SE3.exp_zero hg ho ?_⟩
  exact SE3.exp_log (se3Laws.valid_mul hd (se3Laws.valid_inv ho)) (goodAngle_iff ha)

/-- C37 for SE3 and small angles: at the end derivatives, frames and rotation are exact and the translation is off by at most 1e-15 of the
distance between the two poses' frames. -/
theorem c37_se3_close_partial (o d : TwoJetL Pose Twist) (seg : TSegment Pose Twist) (h : TSegment.make o d = .ok seg)
    (hf : o.g.into = Frame.null ↔ o.g.src = Frame.null) (ho : IsRotation o.g.val.1) (hd : IsRotation d.g.val.1) :
    ∃ p, TSegment.pointAt SE3.ops seg 1 = .ok p ∧ p.d = d.d ∧ p.d2 = d.d2 ∧ p.g.into = d.g.into ∧ p.g.src = d.g.src ∧
      p.g.val.1 = d.g.val.1 ∧
      eucNorm (p.g.val.2 - d.g.val.2) ≤ 1e-15 * eucNorm (d.g.val.2 - (d.g.val.1 * o.g.val.1.transpose).mulVec o.g.val.2) := by
  obtain ⟨hg, rfl, rfl⟩ := good_of_make h hf
  rw [TSegment.pointAt_eq SE3.ops hg, vpoint_one se3Laws SE3.exp_zero]
  refine ⟨_, rfl, rfl, rfl, hg.into.symm, hg.src.symm, ?_⟩
  generalize hrel : SE3.ops.mul seg.dest.g.val (SE3.ops.inv seg.orig.g.val) = rel
  have hv : IsRotation rel.1 := by rw [← hrel]; exact se3Laws.valid_mul hd (se3Laws.valid_inv ho)
  have hback : SE3.ops.mul rel seg.orig.g.val = seg.dest.g.val := by
    rw [← hrel, se3Laws.mul_assoc, se3Laws.inv_mul ho, se3Laws.mul_one]
  have h1 : (SE3.ops.exp (SE3.ops.log rel)).1 = rel.1 := (SO3.exp_log hv).1
  have h2 : eucNorm ((SE3.ops.exp (SE3.ops.log rel)).2 - rel.2) ≤ 1e-15 * eucNorm rel.2 := by
    by_cases ha : GoodAngle (SO3.log rel.1)
    · have : SE3.ops.exp (SE3.ops.log rel) = rel := SE3.exp_log hv (goodAngle_iff ha)
      rw [this, sub_self]
      have : eucNorm (0 : V3) = 0 := by simp [eucNorm, sqNorm_eq]
      rw [this]
      exact mul_nonneg (by norm_num) (eucNorm_nonneg _)
    · exact (c30_small_angle_close_partial rel hv (by
        unfold GoodAngle at ha
        rw [not_or, not_le] at ha
        exact ha.2)).2
  have e2 : rel.2 = seg.dest.g.val.2 - (seg.dest.g.val.1 * seg.orig.g.val.1.transpose).mulVec seg.orig.g.val.2 := by
    have : seg.dest.g.val.2 = rel.1.mulVec seg.orig.g.val.2 + rel.2 := (congrArg Prod.snd hback).symm
    rw [this, ← hrel]
    simp [SE3.ops, SE3.mul, SE3.inv, SO3.mul, SO3.inv]
  constructor
  · rw [← hback]
    exact congrArg (· * seg.orig.g.val.1) h1
  · rw [← e2]
    refine le_trans (le_of_eq ?_) h2
    congr 1
    have a1 : seg.dest.g.val.2 = rel.1.mulVec seg.orig.g.val.2 + rel.2 := (congrArg Prod.snd hback).symm
    have a2 : (SE3.ops.mul (SE3.ops.exp (SE3.ops.log rel)) seg.orig.g.val).2 = rel.1.mulVec seg.orig.g.val.2 + (SE3.ops.exp (SE3.ops.log rel)).2 := by
      rw [← h1]; rfl
    rw [a2, a1]
    abel

/-- C37 is false for SE3 at some small angle. -/
theorem c37_se3_small_angle_fails : ∃ (o d : TwoJetL Pose Twist) (seg : TSegment Pose Twist), TSegment.make o d = .ok seg ∧
    IsRotation o.g.val.1 ∧ IsRotation d.g.val.1 ∧ TSegment.pointAt SE3.ops seg 1 ≠ .ok d := by
  obtain ⟨g, hg, hne⟩ := c30_small_angle_fails
  have hm : TSegment.make (⟨⟨SE3.one, Frame.null, Frame.null⟩, 0, 0⟩ : TwoJetL Pose Twist) ⟨⟨g, Frame.null, Frame.null⟩, 0, 0⟩ =
      .ok ⟨⟨⟨SE3.one, Frame.null, Frame.null⟩, 0, 0⟩, ⟨⟨g, Frame.null, Frame.null⟩, 0, 0⟩⟩ := TSegment.make_ok_iff.mpr ⟨rfl, rfl, rfl⟩
  refine ⟨_, _, _, hm, se3Laws.valid_one, hg, ?_⟩
  rw [TSegment.pointAt_eq SE3.ops (good_of_make hm Iff.rfl).1, vpoint_one se3Laws SE3.exp_zero]
  intro e
  simp only [Outcome.ok.injEq, TwoJetL.mk.injEq, Framed.mk.injEq] at e
  apply hne
  have h1 : SE3.ops.inv SE3.one = SE3.one := se3Laws.inv_one
  have h2 : SE3.ops.mul g SE3.one = g := se3Laws.mul_one g
  have h3 : ∀ x, SE3.ops.mul x SE3.one = x := se3Laws.mul_one
  rw [h1, h3, h3] at e
  exact e.1.1

/-- A quarter turn with some velocity between two named frames meets the hypotheses. -/
example : ∃ seg, TSegment.make (⟨⟨1, exFrame 1, exFrame 2⟩, ![1, 0, 0], ![0, 1, 0]⟩ : TwoJetL M3 V3)
    ⟨⟨quarterTurn, exFrame 1, exFrame 2⟩, ![0, 0, 3], 0⟩ = .ok seg := ((c37_construct _ _).1).mpr ⟨rfl, rfl⟩
example : IsRotation quarterTurn := quarterTurn_isRotation

/-! ## C38 -/

/-- `point_at` answers at every time, and at `t` the reported derivatives are the derivatives of the reported pose. -/
def SegmentDerivatives {n : Type} [Fintype n] [NormedAddCommGroup A] [NormedSpace ℝ A] (L : LieOps ℝ G A V) (M : G → Matrix n n ℝ)
    (hat : A → Matrix n n ℝ) (seg : TSegment G A) (t : ℝ) : Prop :=
  ∃ g : ℝ → TwoJetL G A, (∀ s, TSegment.pointAt L seg s = .ok (g s)) ∧ (∀ s, (g s).g.into = seg.orig.g.into ∧ (g s).g.src = seg.orig.g.src) ∧
    HasLeftJet M hat (fun s => (g s).g.val) t (g t).d (g t).d2

/-- C38 for SO3. -/
theorem c38_so3 (o d : TwoJetL M3 V3) (seg : TSegment M3 V3) (h : TSegment.make o d = .ok seg)
    (hf : o.g.into = Frame.null ↔ o.g.src = Frame.null) (t : ℝ) : SegmentDerivatives SO3.ops (fun R : M3 => R) rotHat seg t := by
  obtain ⟨hg, rfl, rfl⟩ := good_of_make h hf
  exact ⟨_, fun s => TSegment.pointAt_eq SO3.ops hg s, fun s => ⟨rfl, rfl⟩,
    vpoint_jet so3Rep (fun x => SO3.isRotation_exp x) seg t (SO3.termsJet seg t)⟩

/-- One term of the segment formula is outside the small-angle region at this time, or is zero there. -/
def ExactTerm (k : PolyCoeffs) (w : V3) : Prop := w = 0 ∨ k.a = 0 ∨ 0.002 < eucNorm (k.a • w)

/-- All five terms are. -/
def ExactAt (seg : TSegment Pose Twist) (t : ℝ) : Prop :=
  ExactTerm (Quintic.destFromOrig t) (relativeRotation seg.orig.g.val seg.dest.g.val) ∧ ExactTerm (Quintic.dOrig t) seg.orig.d.1 ∧
  ExactTerm (Quintic.dDest t) seg.dest.d.1 ∧ ExactTerm (Quintic.d2Orig t) seg.orig.d2.1 ∧ ExactTerm (Quintic.d2Dest t) seg.dest.d2.1

theorem ExactTerm.or {k : PolyCoeffs} {w : V3} (h : ExactTerm k w) : w = 0 ∨ k.a = 0 ∨ tinySquareAngle < sqNorm (k.a • w) := by
  rcases h with h | h | h
  · exact .inl h
  · exact .inr (.inl h)
  · right; right; rw [← eucNorm_sq]; unfold tinySquareAngle; nlinarith

theorem ExactAt.termsJet {seg : TSegment Pose Twist} {t : ℝ} (h : ExactAt seg t) : TermsJet SE3.ops poseMatrix twistHat seg t := by
  obtain ⟨h1, h2, h3, h4, h5⟩ := h
  exact ⟨SE3.termJet _ _ t h1.or, SE3.termJet _ _ t h2.or, SE3.termJet _ _ t h3.or, SE3.termJet _ _ t h4.or, SE3.termJet _ _ t h5.or⟩

/-- C38 for SE3, at times when no term is inside the small-angle region.  Inside it `SE3::exp` is a series whose derivative is only
approximately the reported one; that is what is missing. -/
theorem c38_se3_partial (o d : TwoJetL Pose Twist) (seg : TSegment Pose Twist) (h : TSegment.make o d = .ok seg)
    (hf : o.g.into = Frame.null ↔ o.g.src = Frame.null) (t : ℝ) (ht : ExactAt seg t) :
    SegmentDerivatives SE3.ops poseMatrix twistHat seg t := by
  obtain ⟨hg, rfl, rfl⟩ := good_of_make h hf
  exact ⟨_, fun s => TSegment.pointAt_eq SE3.ops hg s, fun s => ⟨rfl, rfl⟩,
    vpoint_jet se3Rep (fun x => SO3.isRotation_exp x.1) seg t ht.termsJet⟩

theorem exactAt_zero (seg : TSegment Pose Twist) : ExactAt seg 0 := by
  obtain ⟨⟨_, _, _, h1, _⟩, ⟨_, _, _, h2, _⟩, ⟨_, _, _, h3, _⟩, ⟨_, _, _, h4, _⟩, ⟨_, _, _, h5, _⟩⟩ := c36_hermite
  exact ⟨.inr (.inl h1), .inr (.inl h2), .inr (.inl h3), .inr (.inl h4), .inr (.inl h5)⟩

theorem exactAt_one (seg : TSegment Pose Twist) (h : relativeRotation seg.orig.g.val seg.dest.g.val = 0 ∨
    0.002 < eucNorm (relativeRotation seg.orig.g.val seg.dest.g.val)) : ExactAt seg 1 := by
  obtain ⟨⟨_, _, _, _, _, _, h1, _⟩, ⟨_, _, _, _, _, _, h2, _⟩, ⟨_, _, _, _, _, _, h3, _⟩, ⟨_, _, _, _, _, _, h4, _⟩,
    ⟨_, _, _, _, _, _, h5, _⟩⟩ := c36_hermite
  refine ⟨?_, .inr (.inl h2), .inr (.inl h3), .inr (.inl h4), .inr (.inl h5)⟩
  unfold ExactTerm
  rw [h1, one_smul]
  exact h.imp id .inr

/-- C38 for SE3 at the two ends: at the start for every segment, at the end when the poses differ by no rotation or by more than 0.002. -/
theorem c38_se3_ends (o d : TwoJetL Pose Twist) (seg : TSegment Pose Twist) (h : TSegment.make o d = .ok seg)
    (hf : o.g.into = Frame.null ↔ o.g.src = Frame.null) :
    SegmentDerivatives SE3.ops poseMatrix twistHat seg 0 ∧
    (relativeRotation o.g.val d.g.val = 0 ∨ 0.002 < eucNorm (relativeRotation o.g.val d.g.val) →
      SegmentDerivatives SE3.ops poseMatrix twistHat seg 1) := by
  refine ⟨c38_se3_partial o d seg h hf 0 (exactAt_zero seg), fun ha => c38_se3_partial o d seg h hf 1 (exactAt_one seg ?_)⟩
  obtain ⟨-, rfl, rfl⟩ := good_of_make h hf
  exact ha

/-- A segment of pure translations with a spin that is large enough at half time meets the hypotheses. -/
theorem exSegment_exact : ExactAt ⟨⟨⟨SE3.one, exFrame 1, exFrame 2⟩, (![1, 0, 0], ![5, 0, 0]), 0⟩, ⟨⟨(1, ![1, 2, 3]), exFrame 1, exFrame 2⟩, 0, 0⟩⟩ (1 / 2) := by
  have hr : relativeRotation SE3.one (1, ![1, 2, 3]) = 0 := by
    unfold relativeRotation
    rw [show (SE3.one.1 : M3) = 1 from rfl, Matrix.transpose_one, Matrix.mul_one, ← SO3.exp_zero]
    exact SO3.log_exp (by simpa [eucNorm, sqNorm_eq] using Real.pi_pos)
  refine ⟨.inl hr, .inr (.inr ?_), .inl rfl, .inl rfl, .inl rfl⟩
  rw [eucNorm, sqNorm_eq]
  refine Real.lt_sqrt_of_sq_lt ?_
  simp only [Quintic.dOrig, Quintic.coeffs_a, Quintic.dOrigTable, Pi.smul_apply, smul_eq_mul, Matrix.cons_val_zero, Matrix.cons_val_one,
    Matrix.cons_val]
  norm_num

/-! ## Instances of the theorems above -/

/-- C37 and C38 for a segment of rotations that turns by a quarter and ends spinning. -/
example : ∃ (o d : TwoJetL M3 V3) (seg : TSegment M3 V3), o.g.val = 1 ∧ d.g.val = quarterTurn ∧ d.d = ![0, 0, 3] ∧
    TSegment.pointAt SO3.ops seg 0 = .ok o ∧ TSegment.pointAt SO3.ops seg 1 = .ok d ∧ SegmentDerivatives SO3.ops (fun R : M3 => R) rotHat seg (1 / 3) := by
  obtain ⟨seg, h⟩ := ((c37_construct (⟨⟨1, exFrame 1, exFrame 2⟩, ![1, 0, 0], ![0, 1, 0]⟩ : TwoJetL M3 V3)
    ⟨⟨quarterTurn, exFrame 1, exFrame 2⟩, ![0, 0, 3], 0⟩).1).mpr ⟨rfl, rfl⟩
  have hf : exFrame 1 = Frame.null ↔ exFrame 2 = Frame.null := by decide
  have hp := c37_so3 _ _ seg h hf so3Laws.valid_one quarterTurn_isRotation
  exact ⟨_, _, seg, rfl, rfl, rfl, hp.1, hp.2, c38_so3 _ _ seg h hf _⟩

/-- C37 and C38 for a segment of poses that moves straight, starting with a spin. -/
example : ∃ (o d : TwoJetL Pose Twist) (seg : TSegment Pose Twist), d.g.val.2 = ![1, 2, 3] ∧ o.d.1 = ![1, 0, 0] ∧
    TSegment.pointAt SE3.ops seg 0 = .ok o ∧ TSegment.pointAt SE3.ops seg 1 = .ok d ∧
    (∃ p, TSegment.pointAt SE3.ops seg 1 = .ok p ∧ p.g.val.1 = d.g.val.1) ∧ SegmentDerivatives SE3.ops poseMatrix twistHat seg (1 / 2) := by
  obtain ⟨o, ho⟩ : ∃ o : TwoJetL Pose Twist, o = ⟨⟨SE3.one, exFrame 1, exFrame 2⟩, (![1, 0, 0], ![5, 0, 0]), 0⟩ := ⟨_, rfl⟩
  obtain ⟨d, hd⟩ : ∃ d : TwoJetL Pose Twist, d = ⟨⟨(1, ![1, 2, 3]), exFrame 1, exFrame 2⟩, 0, 0⟩ := ⟨_, rfl⟩
  have hmk := (c37_construct o d).1.mpr (by rw [ho, hd]; exact ⟨rfl, rfl⟩)
  obtain ⟨seg, h⟩ := hmk
  have hs := TSegment.make_ok_iff.mp h
  have hf : o.g.into = Frame.null ↔ o.g.src = Frame.null := by rw [ho]; simp only; decide
  have r1 : IsRotation o.g.val.1 := by rw [ho]; exact so3Laws.valid_one
  have r2 : IsRotation d.g.val.1 := by rw [hd]; exact so3Laws.valid_one
  have hx : ExactAt seg (1 / 2) := by rw [hs.1, ho, hd]; exact exSegment_exact
  have h3 := c37_se3_partial o d seg h hf r1 r2
  obtain ⟨p, p1, -, -, -, -, p2, -⟩ := c37_se3_close_partial o d seg h hf r1 r2
  refine ⟨o, d, seg, by rw [hd], by rw [ho], h3.1, h3.2 (.inl ?_), ⟨p, p1, p2⟩, c38_se3_partial o d seg h hf _ hx⟩
  rw [ho, hd]
  change SO3.log ((1 : M3) * (1 : M3).transpose) = 0
  rw [Matrix.transpose_one, Matrix.mul_one, ← SO3.exp_zero]
  exact SO3.log_exp (by simpa [eucNorm, sqNorm_eq] using Real.pi_pos)

end Verif.Props
