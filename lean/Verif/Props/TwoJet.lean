import Verif.Proofs.TwoJet
import Verif.Proofs.ExpDeriv
import Verif.Props.Transform
/-! # Properties C33-C35: two-jets -/
namespace Verif.Props
open Matrix Spec Verif.Framed

variable {G A V : Type}

/-! ## C33 -/

/-- Left two-jets form a group: associativity (as equality of outcomes), identities, inverses, in value, both derivatives and frames.
Jets must be all framed or all unframed, which `Whole` and the conditions on the into frames express. -/
def LeftJetGroup [AddCommGroup A] (L : LieOps ℝ G A V) (valid : G → Prop) : Prop :=
  (∀ a b c : TwoJetL G A, valid a.g.val → valid b.g.val → valid c.g.val → Whole a.g → Whole b.g → Whole c.g →
    (a.g.into = Frame.null ↔ b.g.into = Frame.null) → (b.g.into = Frame.null ↔ c.g.into = Frame.null) →
    ((TwoJetL.mul L a b) >>= fun ab => TwoJetL.mul L ab c) = ((TwoJetL.mul L b c) >>= fun bc => TwoJetL.mul L a bc)) ∧
  (∀ a : TwoJetL G A, Whole a.g →
    ((TwoJetL.identity L a.g.into a.g.into) >>= fun i => TwoJetL.mul L i a) = .ok a ∧
    ((TwoJetL.identity L a.g.src a.g.src) >>= fun i => TwoJetL.mul L a i) = .ok a) ∧
  (∀ a : TwoJetL G A, valid a.g.val → Whole a.g →
    ((TwoJetL.inverse L a) >>= fun i => TwoJetL.mul L a i) = TwoJetL.identity L a.g.into a.g.into ∧
    ((TwoJetL.inverse L a) >>= fun i => TwoJetL.mul L i a) = TwoJetL.identity L a.g.src a.g.src) ∧
  (∀ f, TwoJetL.identity L f f = .ok ⟨⟨L.one, f, f⟩, 0, 0⟩) ∧
  TwoJetL.identityUnframed L = ⟨⟨L.one, Frame.null, Frame.null⟩, 0, 0⟩

/-- The same for right two-jets. -/
def RightJetGroup [AddCommGroup A] (L : LieOps ℝ G A V) (valid : G → Prop) : Prop :=
  (∀ a b c : TwoJetR G A, valid a.g.val → valid b.g.val → valid c.g.val → Whole a.g → Whole b.g → Whole c.g →
    (a.g.into = Frame.null ↔ b.g.into = Frame.null) → (b.g.into = Frame.null ↔ c.g.into = Frame.null) →
    ((TwoJetR.mul L a b) >>= fun ab => TwoJetR.mul L ab c) = ((TwoJetR.mul L b c) >>= fun bc => TwoJetR.mul L a bc)) ∧
  (∀ a : TwoJetR G A, Whole a.g →
    ((TwoJetR.identity L a.g.into a.g.into) >>= fun i => TwoJetR.mul L i a) = .ok a ∧
    ((TwoJetR.identity L a.g.src a.g.src) >>= fun i => TwoJetR.mul L a i) = .ok a) ∧
  (∀ a : TwoJetR G A, valid a.g.val → Whole a.g →
    ((TwoJetR.inverse L a) >>= fun i => TwoJetR.mul L a i) = TwoJetR.identity L a.g.into a.g.into ∧
    ((TwoJetR.inverse L a) >>= fun i => TwoJetR.mul L i a) = TwoJetR.identity L a.g.src a.g.src) ∧
  (∀ f, TwoJetR.identity L f f = .ok ⟨⟨L.one, f, f⟩, 0, 0⟩) ∧
  TwoJetR.identityUnframed L = ⟨⟨L.one, Frame.null, Frame.null⟩, 0, 0⟩

theorem leftJetGroup_of [AddCommGroup A] [Module ℝ A] {L : LieOps ℝ G A V} {valid : G → Prop} (H : LieLaws L valid) :
    LeftJetGroup L valid := by
  refine ⟨?_, ?_, ?_, TwoJetL.identity_same L, rfl⟩
  · intro a b c va vb vc wa wb wc h1 h2
    have h3 : a.g.src = b.g.into → Whole (⟨L.mul a.g.val b.g.val, a.g.into, b.g.src⟩ : Framed G) := by
      intro e; unfold Whole at *; rw [h1, wb]
    have h4 : b.g.src = c.g.into → Whole (⟨L.mul b.g.val c.g.val, b.g.into, c.g.src⟩ : Framed G) := by
      intro e; unfold Whole at *; rw [h2, wc]
    rw [TwoJetL.mul_uniform L wa wb h1, TwoJetL.mul_uniform L wb wc h2]
    by_cases e1 : a.g.src = b.g.into
    · rw [if_pos e1]
      simp only [Outcome.ok_bind]
      rw [TwoJetL.mul_uniform L (j := ⟨⟨_, a.g.into, b.g.src⟩, _, _⟩) (h3 e1) wc (h1.trans h2)]
      by_cases e2 : b.g.src = c.g.into
      · rw [if_pos e2, if_pos e2]
        simp only [Outcome.ok_bind]
        rw [TwoJetL.mul_uniform L (k := ⟨⟨_, b.g.into, c.g.src⟩, _, _⟩) wa (h4 e2) h1, if_pos e1]
        simp only [Outcome.ok.injEq, TwoJetL.mk.injEq, Framed.mk.injEq]
        refine ⟨⟨H.mul_assoc _ _ _, trivial, trivial⟩, ?_, ?_⟩
        · rw [H.Ad_mul va vb, H.Ad_add]; abel
        · rw [H.Ad_mul va vb, H.Ad_mul va vb, H.Ad_add, H.Ad_add, H.Ad_add, H.Ad_ad va, H.ad_add_left, H.ad_add_right]; abel
      · rw [if_neg e2, if_neg e2]; rfl
    · rw [if_neg e1]
      by_cases e2 : b.g.src = c.g.into
      · rw [if_pos e2]
        simp only [Outcome.ok_bind, Outcome.throw_bind]
        rw [TwoJetL.mul_uniform L (k := ⟨⟨_, b.g.into, c.g.src⟩, _, _⟩) wa (h4 e2) h1, if_neg e1]
      · rw [if_neg e2]; rfl
  · intro a wa
    rw [TwoJetL.identity_same, TwoJetL.identity_same]
    simp only [Outcome.ok_bind]
    rw [TwoJetL.mul_uniform L (j := ⟨⟨L.one, a.g.into, a.g.into⟩, 0, 0⟩) Iff.rfl wa Iff.rfl,
      TwoJetL.mul_uniform L (k := ⟨⟨L.one, a.g.src, a.g.src⟩, 0, 0⟩) wa Iff.rfl wa, if_pos rfl, if_pos rfl]
    simp [H.one_mul, H.mul_one, H.Ad_one, H.Ad_zero, H.ad_zero_left, H.ad_zero_right]
  · intro a va wa
    rw [TwoJetL.inverse_whole L wa, TwoJetL.identity_same, TwoJetL.identity_same]
    simp only [Outcome.ok_bind]
    rw [TwoJetL.mul_uniform L (k := ⟨⟨L.inv a.g.val, a.g.src, a.g.into⟩, _, _⟩) wa wa.symm wa,
      TwoJetL.mul_uniform L (j := ⟨⟨L.inv a.g.val, a.g.src, a.g.into⟩, _, _⟩) wa.symm wa wa.symm, if_pos rfl, if_pos rfl]
    simp [H.mul_inv va, H.inv_mul va, H.Ad_neg, H.Ad_Ad_inv va, H.ad_neg_right, H.ad_neg_left, H.ad_self]

theorem rightJetGroup_of [AddCommGroup A] [Module ℝ A] {L : LieOps ℝ G A V} {valid : G → Prop} (H : LieLaws L valid) :
    RightJetGroup L valid := by
  refine ⟨?_, ?_, ?_, TwoJetR.identity_same L, rfl⟩
  · intro a b c va vb vc wa wb wc h1 h2
    have h3 : a.g.src = b.g.into → Whole (⟨L.mul a.g.val b.g.val, a.g.into, b.g.src⟩ : Framed G) := by
      intro e; unfold Whole at *; rw [h1, wb]
    have h4 : b.g.src = c.g.into → Whole (⟨L.mul b.g.val c.g.val, b.g.into, c.g.src⟩ : Framed G) := by
      intro e; unfold Whole at *; rw [h2, wc]
    rw [TwoJetR.mul_uniform L wa wb h1, TwoJetR.mul_uniform L wb wc h2]
    by_cases e1 : a.g.src = b.g.into
    · rw [if_pos e1]
      simp only [Outcome.ok_bind]
      rw [TwoJetR.mul_uniform L (j := ⟨⟨_, a.g.into, b.g.src⟩, _, _⟩) (h3 e1) wc (h1.trans h2)]
      by_cases e2 : b.g.src = c.g.into
      · rw [if_pos e2, if_pos e2]
        simp only [Outcome.ok_bind]
        rw [TwoJetR.mul_uniform L (k := ⟨⟨_, b.g.into, c.g.src⟩, _, _⟩) wa (h4 e2) h1, if_pos e1]
        simp only [Outcome.ok.injEq, TwoJetR.mk.injEq, Framed.mk.injEq]
        refine ⟨⟨H.mul_assoc _ _ _, trivial, trivial⟩, ?_, ?_⟩
        · rw [H.inv_mul_rev vb vc, H.Ad_mul (H.valid_inv vc) (H.valid_inv vb), H.Ad_add]; abel
        · rw [H.inv_mul_rev vb vc, H.Ad_mul (H.valid_inv vc) (H.valid_inv vb), H.Ad_mul (H.valid_inv vc) (H.valid_inv vb),
            H.Ad_add, sub_eq_add_neg (b.d2 + _), H.Ad_add, H.Ad_add, H.Ad_neg, H.Ad_ad (H.valid_inv vc), H.ad_add_left,
            H.ad_add_right]
          abel
      · rw [if_neg e2, if_neg e2]; rfl
    · rw [if_neg e1]
      by_cases e2 : b.g.src = c.g.into
      · rw [if_pos e2]
        simp only [Outcome.ok_bind, Outcome.throw_bind]
        rw [TwoJetR.mul_uniform L (k := ⟨⟨_, b.g.into, c.g.src⟩, _, _⟩) wa (h4 e2) h1, if_neg e1]
      · rw [if_neg e2]; rfl
  · intro a wa
    rw [TwoJetR.identity_same, TwoJetR.identity_same]
    simp only [Outcome.ok_bind]
    rw [TwoJetR.mul_uniform L (j := ⟨⟨L.one, a.g.into, a.g.into⟩, 0, 0⟩) Iff.rfl wa Iff.rfl,
      TwoJetR.mul_uniform L (k := ⟨⟨L.one, a.g.src, a.g.src⟩, 0, 0⟩) wa Iff.rfl wa, if_pos rfl, if_pos rfl]
    simp [H.one_mul, H.mul_one, H.inv_one, H.Ad_one, H.Ad_zero, H.ad_zero_left, H.ad_zero_right]
  · intro a va wa
    rw [TwoJetR.inverse_whole L wa, TwoJetR.identity_same, TwoJetR.identity_same]
    simp only [Outcome.ok_bind]
    rw [TwoJetR.mul_uniform L (k := ⟨⟨L.inv a.g.val, a.g.src, a.g.into⟩, _, _⟩) wa wa.symm wa,
      TwoJetR.mul_uniform L (j := ⟨⟨L.inv a.g.val, a.g.src, a.g.into⟩, _, _⟩) wa.symm wa wa.symm, if_pos rfl, if_pos rfl]
    simp [H.mul_inv va, H.inv_mul va, H.inv_inv va, H.Ad_neg, H.Ad_inv_Ad va, H.ad_neg_right, H.ad_neg_left, H.ad_self]

/-- C33 for SO3. -/
theorem c33_so3 : LeftJetGroup SO3.ops IsRotation ∧ RightJetGroup SO3.ops IsRotation :=
  ⟨leftJetGroup_of so3Laws, rightJetGroup_of so3Laws⟩

/-- C33 for SE3. -/
theorem c33_se3 : LeftJetGroup SE3.ops (fun g => IsRotation g.1) ∧ RightJetGroup SE3.ops (fun g => IsRotation g.1) :=
  ⟨leftJetGroup_of se3Laws, rightJetGroup_of se3Laws⟩

/-- A concrete product of SO3 jets. -/
example : TwoJetL.mul SO3.ops ⟨⟨quarterTurn, exFrame 1, exFrame 2⟩, ![1, 0, 0], ![0, 0, 5]⟩
      ⟨⟨1, exFrame 2, exFrame 3⟩, ![0, 0, 1], ![2, 0, 0]⟩ =
    .ok ⟨⟨quarterTurn, exFrame 1, exFrame 3⟩, ![1, 0, 1], ![0, 1, 5]⟩ := by
  rw [TwoJetL.mul_uniform SO3.ops (by decide) (by decide) (by decide), if_pos rfl]
  simp only [Outcome.ok.injEq, TwoJetL.mk.injEq, Framed.mk.injEq]
  refine ⟨⟨Matrix.mul_one _, trivial, trivial⟩, ?_, ?_⟩ <;>
    (simp only [SO3.ops, SO3.adjointTimes, SO3.bracket, quarterTurn_mulVec]; ext i; fin_cases i <;> simp [crossProduct] <;> norm_num)

/-! ## C34 -/

/-- Left and right two-jets correspond. -/
def JetsCorrespond [AddCommGroup A] (L : LieOps ℝ G A V) (valid : G → Prop) : Prop :=
  (∀ j : TwoJetL G A, valid j.g.val → Whole j.g → ((TwoJetL.right L j) >>= TwoJetR.left L) = .ok j) ∧
  (∀ j : TwoJetR G A, valid j.g.val → Whole j.g → ((TwoJetR.left L j) >>= TwoJetL.right L) = .ok j) ∧
  (∀ j k : TwoJetL G A, valid j.g.val → valid k.g.val → Whole j.g → Whole k.g → (j.g.into = Frame.null ↔ k.g.into = Frame.null) →
    ((TwoJetL.mul L j k) >>= TwoJetL.right L) =
      ((TwoJetL.right L j) >>= fun rj => (TwoJetL.right L k) >>= fun rk => TwoJetR.mul L rk rj)) ∧
  (∀ j : TwoJetL G A, valid j.g.val → Whole j.g →
    ((TwoJetL.inverse L j) >>= TwoJetL.right L) = ((TwoJetL.right L j) >>= TwoJetR.inverse L))

theorem jetsCorrespond_of [AddCommGroup A] [Module ℝ A] {L : LieOps ℝ G A V} {valid : G → Prop} (H : LieLaws L valid) :
    JetsCorrespond L valid := by
  refine ⟨?_, ?_, ?_, ?_⟩
  · intro j v w
    rw [TwoJetL.right_whole L w]
    simp only [Outcome.ok_bind]
    rw [TwoJetR.left_whole L (j := ⟨⟨_, j.g.src, j.g.into⟩, _, _⟩) w.symm]
    simp [H.inv_inv v]
  · intro j v w
    rw [TwoJetR.left_whole L w]
    simp only [Outcome.ok_bind]
    rw [TwoJetL.right_whole L (j := ⟨⟨_, j.g.src, j.g.into⟩, _, _⟩) w.symm]
    simp [H.inv_inv v]
  · intro j k vj vk wj wk h
    rw [TwoJetL.right_whole L wj, TwoJetL.right_whole L wk]
    simp only [Outcome.ok_bind]
    rw [TwoJetL.mul_uniform L wj wk h, TwoJetR.mul_uniform L (j := ⟨⟨_, k.g.src, k.g.into⟩, _, _⟩) (k := ⟨⟨_, j.g.src, j.g.into⟩, _, _⟩) wk.symm wj.symm (wk.symm.trans (h.symm.trans wj))]
    by_cases e : j.g.src = k.g.into
    · rw [if_pos e, if_pos e.symm]
      simp only [Outcome.ok_bind]
      rw [TwoJetL.right_whole L (j := ⟨⟨_, j.g.into, k.g.src⟩, _, _⟩) (h.trans wk)]
      simp only [Outcome.ok.injEq, TwoJetR.mk.injEq, H.inv_inv vj, H.inv_mul_rev vj vk, true_and, H.Ad_neg,
        H.ad_neg_left, H.ad_neg_right]
      constructor <;> abel
    · rw [if_neg e, if_neg (fun e' => e e'.symm)]
      rfl
  · intro j v w
    rw [TwoJetL.inverse_whole L w, TwoJetL.right_whole L w]
    simp only [Outcome.ok_bind]
    rw [TwoJetL.right_whole L (j := ⟨⟨_, j.g.src, j.g.into⟩, _, _⟩) w.symm, TwoJetR.inverse_whole L (j := ⟨⟨_, j.g.src, j.g.into⟩, _, _⟩) w.symm]
    simp [H.Ad_neg]

/-- C34 for SO3. -/
theorem c34_so3 : JetsCorrespond SO3.ops IsRotation := jetsCorrespond_of so3Laws

/-- C34 for SE3. -/
theorem c34_se3 : JetsCorrespond SE3.ops (fun g => IsRotation g.1) := jetsCorrespond_of se3Laws

example : TwoJetL.right SO3.ops ⟨⟨quarterTurn, exFrame 1, exFrame 2⟩, ![1, 0, 0], ![0, 0, 5]⟩ =
    .ok ⟨⟨quarterTurnᵀ, exFrame 2, exFrame 1⟩, -![1, 0, 0], -![0, 0, 5]⟩ := TwoJetL.right_whole SO3.ops (by decide)

/-! ## C35 -/

/-- Products, inverses and side changes of jets are those of the motions: if motions have the jets' derivatives at time `t`, the product
and inverse motions have the computed ones. -/
def JetsAreDerivatives {n : Type} [Fintype n] [NormedAddCommGroup A] [NormedSpace ℝ A] (L : LieOps ℝ G A V) (valid : G → Prop)
    (M : G → Matrix n n ℝ) (hat : A → Matrix n n ℝ) : Prop :=
  ∀ (g h : ℝ → G) (t : ℝ), (∀ s, valid (g s)) → (∀ s, valid (h s)) →
  (∀ j k p : TwoJetL G A, g t = j.g.val → h t = k.g.val → HasLeftJet M hat g t j.d j.d2 → HasLeftJet M hat h t k.d k.d2 →
    TwoJetL.mul L j k = .ok p → L.mul (g t) (h t) = p.g.val ∧ HasLeftJet M hat (fun s => L.mul (g s) (h s)) t p.d p.d2) ∧
  (∀ j p : TwoJetL G A, g t = j.g.val → HasLeftJet M hat g t j.d j.d2 → TwoJetL.inverse L j = .ok p →
    L.inv (g t) = p.g.val ∧ HasLeftJet M hat (fun s => L.inv (g s)) t p.d p.d2) ∧
  (∀ (j : TwoJetL G A) (p : TwoJetR G A), g t = j.g.val → HasLeftJet M hat g t j.d j.d2 → TwoJetL.right L j = .ok p →
    L.inv (g t) = p.g.val ∧ HasRightJet M hat (fun s => L.inv (g s)) t p.d p.d2) ∧
  (∀ j k p : TwoJetR G A, g t = j.g.val → h t = k.g.val → HasRightJet M hat g t j.d j.d2 → HasRightJet M hat h t k.d k.d2 →
    TwoJetR.mul L j k = .ok p → L.mul (g t) (h t) = p.g.val ∧ HasRightJet M hat (fun s => L.mul (g s) (h s)) t p.d p.d2) ∧
  (∀ j p : TwoJetR G A, g t = j.g.val → HasRightJet M hat g t j.d j.d2 → TwoJetR.inverse L j = .ok p →
    L.inv (g t) = p.g.val ∧ HasRightJet M hat (fun s => L.inv (g s)) t p.d p.d2) ∧
  (∀ (j : TwoJetR G A) (p : TwoJetL G A), g t = j.g.val → HasRightJet M hat g t j.d j.d2 → TwoJetR.left L j = .ok p →
    L.inv (g t) = p.g.val ∧ HasLeftJet M hat (fun s => L.inv (g s)) t p.d p.d2)

theorem jetsAreDerivatives_of {n : Type} [Fintype n] [DecidableEq n] [NormedAddCommGroup A] [NormedSpace ℝ A] {L : LieOps ℝ G A V}
    {valid : G → Prop} {M : G → Matrix n n ℝ} {hat : A → Matrix n n ℝ} (P : MatRep L valid M hat) :
    JetsAreDerivatives L valid M hat := by
  intro g h t hg hh
  refine ⟨?_, ?_, ?_, ?_, ?_, ?_⟩
  · intro j k p ej ek h1 h2 hp
    obtain ⟨q, hq, hp⟩ := bind_ok hp
    have hv := framed_mul_ok hq
    cases hp
    exact ⟨by rw [hv, ej, ek], by rw [← ej]; exact P.left_mul hg h1 h2⟩
  · intro j p ej h1 hp
    obtain ⟨q, hq, hp⟩ := bind_ok hp
    have hv := framed_inverse_ok hq
    cases hp
    exact ⟨by rw [hv, ej], by rw [hv, ← ej]; exact P.left_inv' hg h1⟩
  · intro j p ej h1 hp
    obtain ⟨q, hq, hp⟩ := bind_ok hp
    have hv := framed_inverse_ok hq
    cases hp
    exact ⟨by rw [hv, ej], P.left_inv hg h1⟩
  · intro j k p ej ek h1 h2 hp
    obtain ⟨q, hq, hp⟩ := bind_ok hp
    obtain ⟨r, hr, hp⟩ := bind_ok hp
    have hv := framed_mul_ok hq
    have hv2 := framed_inverse_ok hr
    cases hp
    exact ⟨by rw [hv, ej, ek], by rw [hv2, ← ek]; exact P.right_mul hg hh h1 h2⟩
  · intro j p ej h1 hp
    obtain ⟨q, hq, hp⟩ := bind_ok hp
    have hv := framed_inverse_ok hq
    cases hp
    exact ⟨by rw [hv, ej], by rw [← ej]; exact P.right_inv' hg h1⟩
  · intro j p ej h1 hp
    obtain ⟨q, hq, hp⟩ := bind_ok hp
    have hv := framed_inverse_ok hq
    cases hp
    exact ⟨by rw [hv, ej], P.right_inv hg h1⟩

/-- C35 for SO3. -/
theorem c35_so3 : JetsAreDerivatives SO3.ops IsRotation (fun R : M3 => R) rotHat := jetsAreDerivatives_of so3Rep

/-- C35 for SE3. -/
theorem c35_se3 : JetsAreDerivatives SE3.ops (fun g => IsRotation g.1) poseMatrix twistHat := jetsAreDerivatives_of se3Rep

/-- A spin about a fixed axis with growing speed is a motion with a left jet. -/
example : HasLeftJet (fun R : M3 => R) rotHat (fun s => SO3.exp (s ^ 2 • ![1, 2, 3])) 3 ((2 * 3 : ℝ) • ![1, 2, 3]) ((2 : ℝ) • ![1, 2, 3]) := by
  exact SO3.exp_jet (f := fun s => s ^ 2) (f' := fun s => 2 * s) (f'' := 2) (t := 3) ![1, 2, 3]
    (.of_forall fun s => by simpa using hasDerivAt_pow 2 s) (by simpa using (hasDerivAt_id (3 : ℝ)).const_mul 2)
example (s : ℝ) : IsRotation (SO3.exp (s ^ 2 • ![1, 2, 3])) := SO3.isRotation_exp _

end Verif.Props
