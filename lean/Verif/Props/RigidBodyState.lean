import Verif.Model.RigidBodyState
import Verif.Spec.RigidBodyState
import Verif.Props.TwoJet
/-! # Properties C47-C49: rigid body states -/
namespace Verif.Props
open Matrix Spec Verif.Framed

/-! ## C47 -/

/-- What the getters return. -/
def reading (s : RBState) : BodyReading (Framed Pose) :=
  ⟨s.refFromBody, s.linearVelocity, s.angularVelocity, s.linearAcceleration, s.angularAcceleration⟩

/-- A setter call. -/
def write (s : RBState) : BodyWrite (Framed Pose) → RBState
  | .pose p => s.setRefFromBody p
  | .linearVelocity v => s.setLinearVelocity v
  | .angularVelocity v => s.setAngularVelocity v
  | .linearAcceleration v => s.setLinearAcceleration v
  | .angularAcceleration v => s.setAngularAcceleration v

/-- C47.  After any sequence of setter calls the getters return what five independent variables would hold. -/
theorem c47_writes (s : RBState) (ws : List (BodyWrite (Framed Pose))) :
    reading (ws.foldl write s) = ws.foldl BodyReading.after (reading s) := by
  induction ws generalizing s with
  | nil => rfl
  | cons w ws ih =>
    rw [List.foldl_cons, List.foldl_cons, ih]
    congr 1
    cases w <;> rfl

/-- C47.  A state is determined by its five readings, and a two-jet given to the constructor is what the state reads and returns. -/
theorem c47_reading_determines (s s' : RBState) : reading s = reading s' ↔ s = s' := by
  constructor
  · intro h
    simp only [reading, BodyReading.mk.injEq] at h
    obtain ⟨h1, h2, h3, h4, h5⟩ := h
    obtain ⟨g, d, d2⟩ := s
    obtain ⟨g', d', d2'⟩ := s'
    simp only [RBState.refFromBody, RBState.linearVelocity, RBState.angularVelocity, RBState.linearAcceleration,
      RBState.angularAcceleration, SE3.translationPart, SE3.rotationPart] at *
    simp only [RBState.mk.injEq, TwoJetR.mk.injEq, h1, true_and]
    exact ⟨Prod.ext h3 h2, Prod.ext h5 h4⟩
  · rintro rfl; rfl

/-- C47.  The constructor from derivatives and `body_derivatives` are inverse; the constructor from a pose has zero derivatives; the bundled
derivatives are the single getters. -/
theorem c47_constructors (s : RBState) (g old : Framed Pose) (v : RBDerivatives) :
    RBState.ofDerivatives s.refFromBody s.bodyDerivatives = s ∧
    (RBState.ofDerivatives g v).refFromBody = g ∧ (RBState.ofDerivatives g v).bodyDerivatives = v ∧
    reading (RBState.ofDerivatives g v) =
      ⟨g, v.velocity.linear, v.velocity.angular, v.acceleration.linear, v.acceleration.angular⟩ ∧
    reading (RBState.ofPose old g) = ⟨g, 0, 0, 0, 0⟩ ∧
    s.bodyDerivatives = ⟨⟨s.linearVelocity, s.angularVelocity⟩, ⟨s.linearAcceleration, s.angularAcceleration⟩⟩ ∧
    s = ⟨s.twoJet⟩ :=
  ⟨rfl, rfl, rfl, rfl, rfl, rfl, rfl⟩

/-- A moving state: quarter turn at (1,2,3) with distinct derivatives. -/
def exState : RBState := ⟨⟨⟨(quarterTurn, ![1, 2, 3]), exFrame 1, exFrame 2⟩, (![1, 0, 0], ![0, 1, 0]), (![0, 0, 2], ![3, 0, 0])⟩⟩

example : reading ([BodyWrite.linearVelocity ![5, 0, 0], .angularVelocity ![0, 7, 0], .linearVelocity ![6, 0, 0]].foldl write exState) =
    ⟨exState.refFromBody, ![6, 0, 0], ![0, 7, 0], ![3, 0, 0], ![0, 0, 2]⟩ := rfl

/-! ## C48 -/

theorem poseMatrix_mul_twistHat (g : Pose) (x : Twist) :
    poseMatrix g * twistHat x = fromBlocks (g.1 * SO3.crossMatrix x.1) (replicateCol Unit (g.1 *ᵥ x.2)) 0 0 := by
  simp only [poseMatrix, homogeneous, twistHat, SE3.twistMatrix_eq, fromBlocks_multiply]
  congr 1
  · simp
  · simp [replicateCol_mulVec]
  · simp
  · simp

theorem mhas_iff_columns {F : ℝ → M3} {F' : M3} {t : ℝ} : MHas F F' t ↔ ∀ x : V3, HasDerivAt (fun s => F s *ᵥ x) (F' *ᵥ x) t := by
  constructor
  · intro h x
    simpa using h.mulVec (hasDerivAt_const t x)
  · intro h i j
    have := h (Pi.single j 1)
    rw [hasDerivAt_pi] at this
    simpa using this i

/-- C48.  A state's derivatives are the right derivatives of a motion exactly when the getters are the body-frame kinematics of that motion:
`body_linear_velocity` is the velocity of the position seen in the body frame, `body_angular_velocity` the body-frame rotation rate, and the
accelerations are the time derivatives of these two. -/
theorem c48_body_kinematics (s : RBState) (g : ℝ → Pose) (t : ℝ) :
    HasRightJet poseMatrix twistHat g t s.twoJet.d s.twoJet.d2 ↔
      BodyKinematics g t s.linearVelocity s.angularVelocity s.linearAcceleration s.angularAcceleration := by
  constructor
  · rintro ⟨vel, h1, h2, h3⟩
    rw [hasDerivAt_twist] at h3
    refine ⟨fun r => (vel r).2, fun r => (vel r).1, ?_, congrArg Prod.snd h2, congrArg Prod.fst h2, h3.2, h3.1⟩
    filter_upwards [h1] with r hr
    have hm : MHas (fun r => poseMatrix (g r)) (poseMatrix (g r) * twistHat (vel r)) r := hr
    rw [poseMatrix_mul_twistHat] at hm
    obtain ⟨k1, k2⟩ := poseMatrix_has hm
    refine ⟨k2, fun x => ?_⟩
    have := mhas_iff_columns.mp k1 x
    rwa [show (fun i j => (fromBlocks ((g r).1 * SO3.crossMatrix (vel r).1) (replicateCol Unit ((g r).1 *ᵥ (vel r).2)) 0 0 :
      Matrix (Fin 3 ⊕ Unit) (Fin 3 ⊕ Unit) ℝ) (Sum.inl i) (Sum.inl j)) = (g r).1 * SO3.crossMatrix (vel r).1 from rfl,
      ← mulVec_mulVec, SO3.crossMatrix_mulVec] at this
  · rintro ⟨u, w, h1, h2, h3, h4, h5⟩
    refine ⟨fun r => (w r, u r), ?_, Prod.ext h3 h2, hasDerivAt_twist.mpr ⟨h5, h4⟩⟩
    filter_upwards [h1] with r hr
    have k1 : MHas (fun r => (g r).1) ((g r).1 * SO3.crossMatrix (w r)) r := by
      rw [mhas_iff_columns]
      intro x
      rw [← mulVec_mulVec, SO3.crossMatrix_mulVec]
      exact hr.2 x
    have := has_poseMatrix k1 hr.1
    rw [← poseMatrix_mul_twistHat (g r) (w r, u r)] at this
    exact this

/-- C48.  With a rotation as orientation, the readings at a time are determined by the motion. -/
theorem c48_unique (s s' : RBState) (g : ℝ → Pose) (t : ℝ) (hr : ∀ r, IsRotation (g r).1)
    (h : BodyKinematics g t s.linearVelocity s.angularVelocity s.linearAcceleration s.angularAcceleration)
    (h' : BodyKinematics g t s'.linearVelocity s'.angularVelocity s'.linearAcceleration s'.angularAcceleration) :
    s.bodyDerivatives = s'.bodyDerivatives := by
  obtain ⟨u, w, h1, h2, h3, h4, h5⟩ := h
  obtain ⟨u', w', h1', h2', h3', h4', h5'⟩ := h'
  have hinj : ∀ (R : M3), IsRotation R → ∀ x y : V3, R *ᵥ x = R *ᵥ y → x = y := by
    intro R hR x y e
    have := congrArg (Rᵀ *ᵥ ·) e
    simpa [mulVec_mulVec, hR.orth] using this
  have hcross : ∀ a b : V3, (∀ x : V3, a ⨯₃ x = b ⨯₃ x) → a = b := by
    intro a b e
    have e1 := e ![1, 0, 0]
    have e2 := e ![0, 1, 0]
    simp only [cross_apply, Matrix.cons_val_zero, Matrix.cons_val_one, Matrix.cons_val] at e1 e2
    have a1 := congrFun e1 1
    have a2 := congrFun e1 2
    have a3 := congrFun e2 2
    simp only [Matrix.cons_val_zero, Matrix.cons_val_one, Matrix.cons_val, mul_one, mul_zero, sub_zero, zero_sub, neg_inj] at a1 a2 a3
    ext i
    fin_cases i
    · exact a3
    · exact a2
    · exact a1
  have hu : u =ᶠ[nhds t] u' := by
    filter_upwards [h1, h1'] with r k k'
    exact hinj _ (hr r) _ _ (k.1.unique k'.1)
  have hw : w =ᶠ[nhds t] w' := by
    filter_upwards [h1, h1'] with r k k'
    exact hcross _ _ fun x => hinj _ (hr r) _ _ ((k.2 x).unique (k'.2 x))
  have e1 : s.linearVelocity = s'.linearVelocity := by rw [← h2, ← h2']; exact hu.eq_of_nhds
  have e2 : s.angularVelocity = s'.angularVelocity := by rw [← h3, ← h3']; exact hw.eq_of_nhds
  have e3 : s.linearAcceleration = s'.linearAcceleration := (h4.congr_of_eventuallyEq hu.symm).unique h4'
  have e4 : s.angularAcceleration = s'.angularAcceleration := (h5.congr_of_eventuallyEq hw.symm).unique h5'
  simp only [RBState.bodyDerivatives, e1, e2, e3, e4]

/-- C48.  Hence the second derivative of the position is the body-frame acceleration plus the Coriolis term `w × v`, turned into the reference
frame (so `body_linear_acceleration` is not what an accelerometer at the body origin reads). -/
theorem c48_position_acceleration (s : RBState) (g : ℝ → Pose) (t : ℝ) (hg : g t = s.refFromBody.val)
    (h : BodyKinematics g t s.linearVelocity s.angularVelocity s.linearAcceleration s.angularAcceleration) :
    ∃ p' : ℝ → V3, (∀ᶠ r in nhds t, HasDerivAt (fun q => (g q).2) (p' r) r) ∧ p' t = s.refFromBody.val.1 *ᵥ s.linearVelocity ∧
      HasDerivAt p' (s.refFromBody.val.1 *ᵥ (s.linearAcceleration + s.angularVelocity ⨯₃ s.linearVelocity)) t := by
  obtain ⟨u, w, h1, h2, h3, h4, h5⟩ := h
  refine ⟨fun r => (g r).1 *ᵥ u r, h1.mono fun r hr => hr.1, by simp only [h2, hg], ?_⟩
  have k1 : MHas (fun r => (g r).1) ((g t).1 * SO3.crossMatrix (w t)) t := by
    rw [mhas_iff_columns]
    intro x
    rw [← mulVec_mulVec, SO3.crossMatrix_mulVec]
    exact h1.self_of_nhds.2 x
  have := k1.mulVec h4
  rw [← mulVec_mulVec, SO3.crossMatrix_mulVec, h2, h3, hg, ← mulVec_add] at this
  rwa [add_comm s.linearAcceleration]

/-- A point moving with constant speed 2 along the first axis, accelerating body: position `2 s + s²`. -/
example : BodyKinematics (fun s => ((1 : M3), (![2 * s + s ^ 2, 0, 0] : V3))) 0 ![2, 0, 0] 0 ![2, 0, 0] 0 := by
  have hcoord : ∀ (f : ℝ → ℝ) (f' r : ℝ), HasDerivAt f f' r → HasDerivAt (fun s => (![f s, 0, 0] : V3)) ![f', 0, 0] r := by
    intro f f' r h
    rw [hasDerivAt_pi]
    intro i
    fin_cases i
    · exact h
    · exact hasDerivAt_const _ _
    · exact hasDerivAt_const _ _
  refine ⟨fun s => ![2 + 2 * s, 0, 0], fun _ => 0, .of_forall fun r => ⟨?_, fun x => ?_⟩, by simp, rfl, ?_, hasDerivAt_const _ _⟩
  · rw [one_mulVec]
    apply hcoord
    have := ((hasDerivAt_id' r).const_mul 2).fun_add ((hasDerivAt_id' r).fun_pow 2)
    simpa using this
  · simpa using hasDerivAt_const r x
  · apply hcoord (fun s => 2 + 2 * s)
    simpa using ((hasDerivAt_id (0 : ℝ)).const_mul 2).const_add 2

/-! ## C49 -/

/-- C49.  `a.inverse_times(a * b)` is `b`, and `a * a.inverse_times(b)` is `b`, for states that are both framed or both unframed. -/
theorem c49_relative_state (a b : RBState) (ha : IsRotation a.refFromBody.val.1) (hb : IsRotation b.refFromBody.val.1)
    (wa : Whole a.refFromBody) (wb : Whole b.refFromBody) (hf : a.refFromBody.into = Frame.null ↔ b.refFromBody.into = Frame.null) :
    (a.refFromBody.src = b.refFromBody.into → ((RBState.mul a b) >>= fun ab => RBState.inverseTimes a ab) = .ok b) ∧
    (a.refFromBody.into = b.refFromBody.into → ((RBState.inverseTimes a b) >>= fun r => RBState.mul a r) = .ok b) := by
  obtain ⟨a⟩ := a
  obtain ⟨b⟩ := b
  simp only [RBState.refFromBody] at *
  have H := se3Laws
  refine ⟨fun e => ?_, fun e => ?_⟩
  · unfold RBState.mul RBState.inverseTimes
    rw [TwoJetR.mul_uniform SE3.ops wa wb hf, if_pos e, TwoJetR.inverse_whole SE3.ops wa]
    simp only [Outcome.ok_bind]
    rw [TwoJetR.mul_uniform SE3.ops (j := ⟨⟨_, a.g.src, a.g.into⟩, _, _⟩) (k := ⟨⟨_, a.g.into, b.g.src⟩, _, _⟩) wa.symm (hf.trans wb) wa.symm,
      if_pos rfl]
    simp only [Outcome.ok_bind, Outcome.ok.injEq, RBState.mk.injEq]
    have hva : PoseValid a.g.val := ha
    have hvb : PoseValid b.g.val := hb
    have hab := H.valid_mul hva hvb
    have e1 : SE3.ops.mul (SE3.ops.inv a.g.val) (SE3.ops.mul a.g.val b.g.val) = b.g.val := by
      rw [← H.mul_assoc, H.inv_mul hva, H.one_mul]
    have e2 : ∀ x, SE3.ops.Ad (SE3.ops.inv (SE3.ops.mul a.g.val b.g.val)) (-SE3.ops.Ad a.g.val x) = -SE3.ops.Ad (SE3.ops.inv b.g.val) x := by
      intro x
      rw [H.Ad_neg, H.inv_mul_rev hva hvb, H.Ad_mul (H.valid_inv hvb) (H.valid_inv hva), H.Ad_inv_Ad hva]
    rw [e1, e2, e2]
    obtain ⟨⟨bv, bi, bs⟩, bd, bd2⟩ := b
    simp only [TwoJetR.mk.injEq, Framed.mk.injEq, true_and] at *
    refine ⟨⟨e, trivial⟩, by abel, ?_⟩
    rw [H.ad_neg_right, H.ad_add_left, H.ad_self]
    abel
  · unfold RBState.mul RBState.inverseTimes
    rw [TwoJetR.inverse_whole SE3.ops wa]
    simp only [Outcome.ok_bind]
    rw [TwoJetR.mul_uniform SE3.ops (j := ⟨⟨_, a.g.src, a.g.into⟩, _, _⟩) wa.symm wb (wa.symm.trans hf), if_pos e]
    simp only [Outcome.ok_bind]
    rw [TwoJetR.mul_uniform SE3.ops (k := ⟨⟨_, a.g.src, b.g.src⟩, _, _⟩) wa (wa.symm.trans (hf.trans wb)) wa, if_pos rfl]
    simp only [Outcome.ok_bind, Outcome.ok.injEq, RBState.mk.injEq]
    have hva : PoseValid a.g.val := ha
    have hvb : PoseValid b.g.val := hb
    have e1 : SE3.ops.mul a.g.val (SE3.ops.mul (SE3.ops.inv a.g.val) b.g.val) = b.g.val := by
      rw [← H.mul_assoc, H.mul_inv hva, H.one_mul]
    have e2 : ∀ x, SE3.ops.Ad (SE3.ops.inv (SE3.ops.mul (SE3.ops.inv a.g.val) b.g.val)) x = SE3.ops.Ad (SE3.ops.inv b.g.val) (SE3.ops.Ad a.g.val x) := by
      intro x
      rw [H.inv_mul_rev (H.valid_inv hva) hvb, H.inv_inv hva, H.Ad_mul (H.valid_inv hvb) hva]
    rw [e1, e2, e2]
    obtain ⟨⟨bv, bi, bs⟩, bd, bd2⟩ := b
    simp only [TwoJetR.mk.injEq, Framed.mk.injEq, true_and] at *
    refine ⟨⟨e, trivial⟩, ?_, ?_⟩
    · rw [H.Ad_neg]; abel
    · simp only [H.Ad_neg, H.ad_neg_right, H.ad_add_left, H.ad_neg_left, H.ad_self]
      abel

/-- C49.  A state relative to itself is the identity state at rest, in the body frame, or the default state if there are no frames. -/
theorem c49_self (a : RBState) (ha : IsRotation a.refFromBody.val.1) (wa : Whole a.refFromBody) :
    RBState.inverseTimes a a = RBState.identity a.refFromBody.src a.refFromBody.src ∧
    RBState.inverseTimes a a = .ok ⟨⟨⟨(1, 0), a.refFromBody.src, a.refFromBody.src⟩, 0, 0⟩⟩ ∧
    (a.refFromBody.src = Frame.null → RBState.inverseTimes a a = .ok RBState.identityUnframed) := by
  obtain ⟨-, -, h, hid, -⟩ := c33_se3.2
  have h2 := (h a.jet ha wa).2
  have e : RBState.inverseTimes a a = RBState.identity a.refFromBody.src a.refFromBody.src := by
    unfold RBState.inverseTimes RBState.identity RBState.refFromBody
    rw [← h2]
    rw [TwoJetR.inverse_whole SE3.ops wa]
    rfl
  have e' : RBState.inverseTimes a a = .ok ⟨⟨⟨(1, 0), a.refFromBody.src, a.refFromBody.src⟩, 0, 0⟩⟩ := by
    rw [e]
    unfold RBState.identity
    rw [hid]
    rfl
  refine ⟨e, e', fun h0 => ?_⟩
  rw [e', h0]
  rfl

/-- C49.  Composition and relative state follow the motions: if the bodies move along `g` and `h`, the composed state has the kinematics of
`g h` and the relative state those of `g⁻¹ h`. -/
theorem c49_motions (a b p : RBState) (g h : ℝ → Pose) (t : ℝ) (hg : ∀ r, IsRotation (g r).1) (hh : ∀ r, IsRotation (h r).1)
    (ga : g t = a.refFromBody.val) (hb : h t = b.refFromBody.val)
    (ka : BodyKinematics g t a.linearVelocity a.angularVelocity a.linearAcceleration a.angularAcceleration)
    (kb : BodyKinematics h t b.linearVelocity b.angularVelocity b.linearAcceleration b.angularAcceleration) :
    (RBState.mul a b = .ok p → SE3.mul (g t) (h t) = p.refFromBody.val ∧
      BodyKinematics (fun r => SE3.mul (g r) (h r)) t p.linearVelocity p.angularVelocity p.linearAcceleration p.angularAcceleration) ∧
    (RBState.inverseTimes a b = .ok p → SE3.mul (SE3.inv (g t)) (h t) = p.refFromBody.val ∧
      BodyKinematics (fun r => SE3.mul (SE3.inv (g r)) (h r)) t p.linearVelocity p.angularVelocity p.linearAcceleration
        p.angularAcceleration) := by
  rw [← c48_body_kinematics] at ka kb
  rw [← c48_body_kinematics, ← c48_body_kinematics]
  have H := c35_se3
  refine ⟨fun e => ?_, fun e => ?_⟩
  · unfold RBState.mul at e
    obtain ⟨j, ej, e2⟩ := bind_ok e
    obtain rfl := Outcome.ok.inj e2
    exact (H g h t hg hh).2.2.2.1 a.jet b.jet j ga hb ka kb ej
  · unfold RBState.inverseTimes at e
    obtain ⟨i, ei, e2⟩ := bind_ok e
    obtain ⟨j, ej, e3⟩ := bind_ok e2
    obtain rfl := Outcome.ok.inj e3
    obtain ⟨k1, k2⟩ := (H g g t hg hg).2.2.2.2.1 a.jet i ga ka ei
    exact (H (fun r => SE3.inv (g r)) h t (fun r => se3Laws.valid_inv (hg r)) hh).2.2.2.1 i b.jet j k1 hb k2 kb ej

example : IsRotation exState.refFromBody.val.1 ∧ Whole exState.refFromBody := by
  refine ⟨quarterTurn_isRotation, ?_⟩
  change exFrame 1 = Frame.null ↔ exFrame 2 = Frame.null
  decide

end Verif.Props
