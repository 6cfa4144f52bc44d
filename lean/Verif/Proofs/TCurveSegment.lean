import Verif.Proofs.Quintic
import Verif.Proofs.TwoJet
import Verif.Proofs.ExpDeriv
/-! # Curve segments in closed form -/
namespace Verif
open Framed Spec Matrix Topology

variable {G A V : Type}

/-- Product of jets without frames. -/
def vmul [AddCommGroup A] (L : LieOps ℝ G A V) (x y : G × A × A) : G × A × A :=
  (L.mul x.1 y.1, x.2.1 + L.Ad x.1 y.2.1, x.2.2 + L.Ad x.1 y.2.2 + L.ad x.2.1 (L.Ad x.1 y.2.1))

/-- The increment of one term of the curve. -/
def vinc (L : LieOps ℝ G A V) (k : PolyCoeffs) (v : A) : G × A × A := (L.exp (L.smul k.a v), L.smul k.da v, L.smul k.d2a v)

/-- The point relative to the origin. -/
noncomputable def vpoint [AddCommGroup A] (L : LieOps ℝ G A V) (seg : TSegment G A) (t : ℝ) : G × A × A :=
  vmul L (vinc L (Quintic.d2Dest t) seg.dest.d2) (vmul L (vinc L (Quintic.d2Orig t) seg.orig.d2)
    (vmul L (vinc L (Quintic.dDest t) seg.dest.d) (vmul L (vinc L (Quintic.dOrig t) seg.orig.d)
      (vmul L (vinc L (Quintic.destFromOrig t) (L.log (L.mul seg.dest.g.val (L.inv seg.orig.g.val)))) (L.one, 0, 0)))))

namespace TSegment

/-- A segment a client can hold: the constructor checked the frames, and these are not half null. -/
structure Good (seg : TSegment G A) : Prop where
  whole : Whole seg.orig.g
  into : seg.dest.g.into = seg.orig.g.into
  src : seg.dest.g.src = seg.orig.g.src

theorem make_ok_iff {o d : TwoJetL G A} {seg : TSegment G A} :
    make o d = .ok seg ↔ seg = ⟨o, d⟩ ∧ o.g.into = d.g.into ∧ o.g.src = d.g.src := by
  unfold make Framed.verifyFrames Framed.verifyInto Framed.verifyFrom
  split_ifs with h
  · simp only [Bool.and_eq_true, Frame.eq_iff] at h
    simp [h, eq_comm]
  · simp only [Bool.and_eq_true, Frame.eq_iff] at h
    simp [h]

variable [AddCommGroup A]

theorem accumulate_eq (L : LieOps ℝ G A V) (seg : TSegment G A) (k : PolyCoeffs) (v : A) (x : G × A × A) :
    accumulate L seg k v ⟨⟨x.1, seg.orig.g.into, seg.orig.g.into⟩, x.2.1, x.2.2⟩ =
      .ok ⟨⟨(vmul L (vinc L k v) x).1, seg.orig.g.into, seg.orig.g.into⟩, (vmul L (vinc L k v) x).2.1, (vmul L (vinc L k v) x).2.2⟩ := by
  unfold accumulate Framed.exp
  rw [mk'_ok Iff.rfl]
  simp only [Outcome.ok_bind]
  rw [TwoJetL.mul_uniform L (j := ⟨⟨L.exp (L.smul k.a v), seg.orig.g.into, seg.orig.g.into⟩, L.smul k.da v, L.smul k.d2a v⟩)
    (k := ⟨⟨x.1, seg.orig.g.into, seg.orig.g.into⟩, x.2.1, x.2.2⟩) Iff.rfl Iff.rfl Iff.rfl, if_pos rfl]
  rfl

theorem pointAt_eq (L : LieOps ℝ G A V) {seg : TSegment G A} (h : Good seg) (t : ℝ) :
    pointAt L seg t = .ok ⟨⟨L.mul (vpoint L seg t).1 seg.orig.g.val, seg.orig.g.into, seg.orig.g.src⟩, (vpoint L seg t).2.1,
      (vpoint L seg t).2.2⟩ := by
  have hw : seg.orig.g.into = Frame.null ↔ seg.orig.g.src = Frame.null := h.whole
  unfold pointAt
  rw [Framed.identity_same, Framed.inverse_whole L h.whole]
  simp only [Outcome.ok_bind]
  rw [Framed.mul_uniform L (b := ⟨_, seg.orig.g.src, seg.orig.g.into⟩) (show Whole seg.dest.g by unfold Whole; rw [h.into, h.src]; exact hw)
    hw.symm (by rw [h.into]; exact hw), if_pos h.src]
  simp only [Outcome.ok_bind]
  have e0 := accumulate_eq L seg (Quintic.destFromOrig t) (L.log (L.mul seg.dest.g.val (L.inv seg.orig.g.val))) (L.one, 0, 0)
  have e0' : (TwoJetL.identityUnframed L : TwoJetL G A).d = 0 := rfl
  have e0'' : (TwoJetL.identityUnframed L : TwoJetL G A).d2 = 0 := rfl
  rw [e0', e0'']
  simp only at e0
  rw [e0]
  simp only [Outcome.ok_bind]
  rw [accumulate_eq]
  simp only [Outcome.ok_bind]
  rw [accumulate_eq]
  simp only [Outcome.ok_bind]
  rw [accumulate_eq]
  simp only [Outcome.ok_bind]
  rw [accumulate_eq]
  simp only [Outcome.ok_bind]
  rw [Framed.mul_uniform L (a := ⟨_, seg.orig.g.into, seg.orig.g.into⟩) Iff.rfl h.whole Iff.rfl, if_pos rfl]
  rfl

end TSegment

section
variable [AddCommGroup A] [Module ℝ A] {L : LieOps ℝ G A V} {valid : G → Prop} (H : LieLaws L valid)
include H

theorem vpoint_zero (hexp : L.exp 0 = L.one) (seg : TSegment G A) : vpoint L seg 0 = (L.one, seg.orig.d, seg.orig.d2) := by
  simp only [vpoint, vmul, vinc, H.smul_eq, Quintic.destFromOrig, Quintic.dOrig, Quintic.dDest, Quintic.d2Orig, Quintic.d2Dest,
    Quintic.coeffs_a, Quintic.coeffs_da, Quintic.coeffs_d2a, Quintic.destOrigTable, Quintic.dOrigTable, Quintic.dDestTable,
    Quintic.d2OrigTable, Quintic.d2DestTable, Matrix.cons_val_zero, Matrix.cons_val_one, Matrix.cons_val]
  norm_num [hexp, H.one_mul, H.Ad_one, H.ad_zero_left, H.ad_zero_right, H.Ad_zero]

theorem vpoint_one (hexp : L.exp 0 = L.one) (seg : TSegment G A) :
    vpoint L seg 1 = (L.exp (L.log (L.mul seg.dest.g.val (L.inv seg.orig.g.val))), seg.dest.d, seg.dest.d2) := by
  simp only [vpoint, vmul, vinc, H.smul_eq, Quintic.destFromOrig, Quintic.dOrig, Quintic.dDest, Quintic.d2Orig, Quintic.d2Dest,
    Quintic.coeffs_a, Quintic.coeffs_da, Quintic.coeffs_d2a, Quintic.destOrigTable, Quintic.dOrigTable, Quintic.dDestTable,
    Quintic.d2OrigTable, Quintic.d2DestTable, Matrix.cons_val_zero, Matrix.cons_val_one, Matrix.cons_val]
  norm_num [hexp, H.one_mul, H.mul_one, H.Ad_one, H.ad_zero_left, H.ad_zero_right, H.Ad_zero]

theorem TSegment.pointAt_zero (hexp : L.exp 0 = L.one) {seg : TSegment G A} (h : Good seg) : pointAt L seg 0 = .ok seg.orig := by
  rw [pointAt_eq L h, vpoint_zero H hexp]
  simp [H.one_mul]

theorem TSegment.pointAt_one (hexp : L.exp 0 = L.one) {seg : TSegment G A} (h : Good seg) (vo : valid seg.orig.g.val)
    (hlog : L.exp (L.log (L.mul seg.dest.g.val (L.inv seg.orig.g.val))) = L.mul seg.dest.g.val (L.inv seg.orig.g.val)) :
    pointAt L seg 1 = .ok seg.dest := by
  rw [pointAt_eq L h, vpoint_one H hexp, hlog, H.mul_assoc, H.inv_mul vo, H.mul_one, ← h.into, ← h.src]

end

section
variable {n : Type} [Fintype n] [DecidableEq n] [NormedAddCommGroup A] [NormedSpace ℝ A]
  {L : LieOps ℝ G A V} {valid : G → Prop} {M : G → Matrix n n ℝ} {hat : A → Matrix n n ℝ} (P : MatRep L valid M hat)
include P

theorem MatRep.left_const (g : G) (t : ℝ) : HasLeftJet M hat (fun _ => g) t 0 0 := by
  refine ⟨fun _ => 0, .of_forall fun s i j => ?_, rfl, hasDerivAt_const _ _⟩
  have : hat 0 = 0 := by simpa using P.hat_smul 0 0
  rw [this, Matrix.zero_mul]
  exact hasDerivAt_const _ _

/-- A term of the curve moves with the velocity the code states. -/
def TermJet (L : LieOps ℝ G A V) (M : G → Matrix n n ℝ) (hat : A → Matrix n n ℝ) (k : ℝ → PolyCoeffs) (v : A) (t : ℝ) : Prop :=
  HasLeftJet M hat (fun s => L.exp (L.smul (k s).a v)) t (L.smul (k t).da v) (L.smul (k t).d2a v)

/-- The five terms of a curve segment at time `t`. -/
def TermsJet (L : LieOps ℝ G A V) (M : G → Matrix n n ℝ) (hat : A → Matrix n n ℝ) (seg : TSegment G A) (t : ℝ) : Prop :=
  TermJet L M hat Quintic.destFromOrig (L.log (L.mul seg.dest.g.val (L.inv seg.orig.g.val))) t ∧
  TermJet L M hat Quintic.dOrig seg.orig.d t ∧ TermJet L M hat Quintic.dDest seg.dest.d t ∧
  TermJet L M hat Quintic.d2Orig seg.orig.d2 t ∧ TermJet L M hat Quintic.d2Dest seg.dest.d2 t

theorem vmul_jet {x y : ℝ → G × A × A} {t : ℝ} (hv : ∀ s, valid (x s).1)
    (h1 : HasLeftJet M hat (fun s => (x s).1) t (x t).2.1 (x t).2.2)
    (h2 : HasLeftJet M hat (fun s => (y s).1) t (y t).2.1 (y t).2.2) :
    HasLeftJet M hat (fun s => (vmul L (x s) (y s)).1) t (vmul L (x t) (y t)).2.1 (vmul L (x t) (y t)).2.2 :=
  P.left_mul hv h1 h2

theorem vpoint_jet (hexp : ∀ x, valid (L.exp x)) (seg : TSegment G A) (t : ℝ) (h : TermsJet L M hat seg t) :
    HasLeftJet M hat (fun s => L.mul (vpoint L seg s).1 seg.orig.g.val) t (vpoint L seg t).2.1 (vpoint L seg t).2.2 := by
  obtain ⟨h1, h2, h3, h4, h5⟩ := h
  have hv : ∀ (k : ℝ → PolyCoeffs) (v : A) (s : ℝ), valid (vinc L (k s) v).1 := fun k v s => hexp _
  have c0 : HasLeftJet M hat (fun _ : ℝ => ((L.one, 0, 0) : G × A × A).1) t 0 0 := P.left_const L.one t
  have c1 := vmul_jet P (x := fun s => vinc L (Quintic.destFromOrig s) _) (y := fun _ => (L.one, 0, 0)) (fun s => hexp _) h1 c0
  have c2 := vmul_jet P (x := fun s => vinc L (Quintic.dOrig s) seg.orig.d) (fun s => hexp _) h2 c1
  have c3 := vmul_jet P (x := fun s => vinc L (Quintic.dDest s) seg.dest.d) (fun s => hexp _) h3 c2
  have c4 := vmul_jet P (x := fun s => vinc L (Quintic.d2Orig s) seg.orig.d2) (fun s => hexp _) h4 c3
  have c5 := vmul_jet P (x := fun s => vinc L (Quintic.d2Dest s) seg.dest.d2) (fun s => hexp _) h5 c4
  have hm : ∀ {g h : G}, valid g → valid h → valid (L.mul g h) := P.laws.valid_mul
  have hvp : ∀ s, valid (vpoint L seg s).1 := by
    intro s
    simp only [vpoint, vmul, vinc]
    exact hm (hexp _) (hm (hexp _) (hm (hexp _) (hm (hexp _) (hm (hexp _) P.laws.valid_one))))
  have c6 := P.left_mul hvp c5 (P.left_const seg.orig.g.val t)
  simp only [P.laws.Ad_zero, P.laws.ad_zero_right, add_zero] at c6
  exact c6

end

theorem SO3.termsJet (seg : TSegment M3 V3) (t : ℝ) : TermsJet SO3.ops (fun R : M3 => R) rotHat seg t := by
  have : ∀ (c : Fin 5 → ℝ) (v : V3), TermJet SO3.ops (fun R : M3 => R) rotHat (Quintic.coeffs c) v t := fun c v =>
    SO3.exp_jet (f' := fun s => (Quintic.coeffs c s).da) v (.of_forall fun s => Quintic.hasDerivAt_a c s) (Quintic.hasDerivAt_da c t)
  exact ⟨this _ _, this _ _, this _ _, this _ _, this _ _⟩

theorem SE3.termJet (c : Fin 5 → ℝ) (v : Twist) (t : ℝ)
    (h : v.1 = 0 ∨ (Quintic.coeffs c t).a = 0 ∨ SO3.tinySquareAngle < SO3.sqNorm ((Quintic.coeffs c t).a • v.1)) :
    TermJet SE3.ops poseMatrix twistHat (Quintic.coeffs c) v t := by
  have e1 : ∀ᶠ s in 𝓝 t, HasDerivAt (fun s => (Quintic.coeffs c s).a) (Quintic.coeffs c s).da s :=
    .of_forall fun s => Quintic.hasDerivAt_a c s
  have e2 := Quintic.hasDerivAt_da c t
  rcases h with h | h | h
  · exact SE3.exp_jet (f' := fun s => (Quintic.coeffs c s).da) v (.inl h) e1 e2
  · exact SE3.exp_jet_zero (f' := fun s => (Quintic.coeffs c s).da) v h e1 e2
  · exact SE3.exp_jet (f' := fun s => (Quintic.coeffs c s).da) v (.inr h) e1 e2

theorem SE3.exp_zero : SE3.exp 0 = SE3.one := by
  refine Prod.ext SO3.exp_zero ?_
  rw [SE3.exp_translation]; simp [SE3.one]

end Verif
