import Verif.Props.Proto
/-! # Lemmas for C76: unpacking arbitrary messages -/
namespace Verif.Props
open Verif Verif.Proto Verif.Framed Verif.Spec Verif.SO3

/-- A call that returns a value with property `P` or throws; it has no undefined behaviour. -/
def Returns {α : Type} (P : α → Prop) (x : Outcome α) : Prop := ¬ x.IsUB ∧ ∀ a, x = .ok a → P a

theorem returns_ok {α : Type} {P : α → Prop} {a : α} (h : P a) : Returns P (.ok a) :=
  ⟨by simp, fun b e => Outcome.ok.inj e ▸ h⟩

theorem returns_throw {α : Type} {P : α → Prop} (m : String) : Returns P (.throw m : Outcome α) := ⟨by simp, fun b e => by cases e⟩

theorem returns_bind {α β : Type} {P : α → Prop} {Q : β → Prop} {x : Outcome α} {f : α → Outcome β} (hx : Returns P x)
    (hf : ∀ a, P a → Returns Q (f a)) : Returns Q (x >>= f) := by
  match x, hx with
  | .ok a, hx => exact hf a (hx.2 a rfl)
  | .throw m, _ => exact returns_throw m
  | .ub w, hx => exact absurd ⟨w, rfl⟩ hx.1

theorem returns_mono {α : Type} {P Q : α → Prop} {x : Outcome α} (hx : Returns P x) (h : ∀ a, P a → Q a) : Returns Q x :=
  ⟨hx.1, fun a e => h a (hx.2 a e)⟩

theorem returns_uuid (m : Uuid.Msg) : Returns (fun _ => True) (Uuid.unpack m) := by
  unfold Uuid.unpack
  rcases c18_accepts_prefix m.data with ⟨u, h, -⟩ | ⟨h, -⟩ <;> rw [h]
  · exact returns_ok trivial
  · exact returns_throw _

theorem returns_vec (n : Nat) (l : List ℝ) : Returns (fun _ => True) (unpackVec n l) := by
  unfold unpackVec unpackMatrix
  split
  · exact returns_ok trivial
  · exact returns_throw _

theorem returns_frame (m : FrameMsg) : Returns (fun _ => True) (unpackFrame m) :=
  returns_bind (returns_uuid _) fun _ _ => returns_ok trivial

variable {G A V : Type}

theorem returns_group (L : LieOps ℝ G A V) (F : Layout A) {valid : G → Prop} (he : ∀ x, valid (L.exp x)) (m : GroupMsg) :
    Returns (fun g : Framed G => Whole g ∧ valid g.val) (unpackGroup L F m) := by
  refine returns_bind (returns_vec _ _) fun a _ => returns_bind (returns_frame _) fun i _ => returns_bind (returns_frame _) fun s _ => ?_
  unfold Framed.exp
  by_cases h : i = Frame.null ↔ s = Frame.null
  · rw [mk'_ok h]; exact returns_ok ⟨h, he _⟩
  · rw [mk'_throw h]; exact returns_throw _

theorem returns_twoJetL (L : LieOps ℝ G A V) (F : Layout A) {valid : G → Prop} (he : ∀ x, valid (L.exp x)) (m : JetMsg) :
    Returns (fun j : TwoJetL G A => Whole j.g ∧ valid j.g.val) (unpackTwoJetL L F m) :=
  returns_bind (returns_group L F he _) fun _ hg => returns_bind (returns_vec _ _) fun _ _ => returns_bind (returns_vec _ _) fun _ _ => returns_ok hg

theorem returns_twoJetR (L : LieOps ℝ G A V) (F : Layout A) {valid : G → Prop} (he : ∀ x, valid (L.exp x)) (m : JetMsg) :
    Returns (fun j : TwoJetR G A => Whole j.g ∧ valid j.g.val) (unpackTwoJetR L F m) :=
  returns_bind (returns_group L F he _) fun _ hg => returns_bind (returns_vec _ _) fun _ _ => returns_bind (returns_vec _ _) fun _ _ => returns_ok hg

/-- What holds of a time curve that was unpacked. -/
def GoodT [AddCommGroup A] [Module ℝ A] (valid : G → Prop) (c : TCurve G A) : Prop :=
  Built c ∧ WholeFrames c ∧ ∀ p ∈ c.controls, valid p.point.g.val

theorem returns_controls [AddCommGroup A] [Module ℝ A] (L : LieOps ℝ G A V) (F : Layout A) {valid : G → Prop} (he : ∀ x, valid (L.exp x))
    (ms : List ControlMsg) (c : TCurve G A) (h : GoodT valid c) : Returns (GoodT valid) (unpackControls L F c ms) := by
  induction ms generalizing c with
  | nil => exact returns_ok h
  | cons m ms ih =>
    unfold unpackControls
    refine returns_bind (returns_twoJetL L F he _) fun j hj => ?_
    obtain ⟨a1, a2, a3, a4⟩ := c40_append c h.1 ⟨m.time, j⟩
    have hb := Built.append h.1 ⟨m.time, j⟩
    by_cases hm : MayFollow c.controls ⟨m.time, j⟩
    · have e1 := a1.mpr hm
      have e2 := a3 hm
      match hx : TCurve.append c ⟨m.time, j⟩ with
      | (c', o) =>
        rw [hx] at e1 e2 hb
        simp only at e1 e2 hb
        subst e1
        refine ih c' ⟨hb, fun p hp => ?_, fun p hp => ?_⟩
        all_goals
          rw [e2, List.mem_append, List.mem_singleton] at hp
          rcases hp with hp | rfl
        exacts [h.2.1 p hp, hj.1, h.2.2 p hp, hj.2]
    · obtain ⟨e, he'⟩ := a2.mpr hm
      match hx : TCurve.append c ⟨m.time, j⟩ with
      | (c', o) =>
        rw [hx] at he'
        simp only at he'
        subst he'
        exact returns_throw _

theorem returns_tcurve [AddCommGroup A] [Module ℝ A] (L : LieOps ℝ G A V) (F : Layout A) {valid : G → Prop} (he : ∀ x, valid (L.exp x))
    (m : TCurveMsg) : Returns (GoodT valid) (unpackTCurve L F m) :=
  returns_controls L F he _ _ ⟨.empty, fun p hp => by simp [TCurve.empty] at hp, fun p hp => by simp [TCurve.empty] at hp⟩

/-- What holds of a list of poses that were unpacked. -/
def GoodPoses (valid : G → Prop) (ps : List (Framed G)) : Prop := ∀ p ∈ ps, Whole p ∧ valid p.val

theorem returns_poses (L : LieOps ℝ G A V) (F : Layout A) {valid : G → Prop} (he : ∀ x, valid (L.exp x)) (ms : List GroupMsg)
    (acc : List (Framed G)) (h : GoodPoses valid acc) : Returns (GoodPoses valid) (unpackPoses L F acc ms) := by
  induction ms generalizing acc with
  | nil => exact returns_ok h
  | cons m ms ih =>
    refine returns_bind (returns_group L F he m) fun g hg => ih _ fun p hp => ?_
    rw [List.mem_append, List.mem_singleton] at hp
    rcases hp with hp | rfl
    exacts [h p hp, hg]

theorem returns_dcurve (L : LieOps ℝ G A V) (arc : G → ℝ) (F : Layout A) {valid : G → Prop} (he : ∀ x, valid (L.exp x)) (m : DCurveMsg) :
    Returns (fun c => DBuilt L arc c ∧ ∀ p ∈ c.controls, valid p.pose.val) (unpackDCurve L arc F m) := by
  refine returns_bind (returns_poses L F he _ [] fun p hp => by simp at hp) fun ps hps => ?_
  obtain ⟨k, k1, k2, k3, k4, k5⟩ := c42_append_list L arc DCurve.empty .empty ps fun p hp => (hps p hp).1
  unfold DCurve.make
  match hx : DCurve.appendList L arc DCurve.empty ps with
  | (c, o) =>
    rw [hx] at k2 k3 k4 k5
    simp only at k2 k3 k4 k5
    by_cases hk : k = ps.length
    · have := k3.mpr hk
      subst this
      refine returns_ok ⟨k5, fun p hp => ?_⟩
      have : p.pose ∈ c.controls.map (·.pose) := List.mem_map_of_mem hp
      rw [k2] at this
      simp [DCurve.empty] at this
      exact (hps _ (List.mem_of_mem_take this)).2
    · obtain ⟨e, he'⟩ := k4.mpr (by omega)
      subst he'
      exact returns_throw _

theorem returns_vector (m : VectorMsg) : Returns (fun _ => True) (unpackVector m) :=
  returns_bind (returns_vec _ _) fun _ _ => returns_bind (returns_frame _) fun _ _ => returns_ok trivial

theorem so3_exp_valid (x : V3) : IsRotation (SO3.ops.exp x) := isRotation_exp x

theorem se3_exp_valid (x : Twist) : PoseValid (SE3.ops.exp x) := isRotation_exp _

theorem fromSecs_returns (s : Timestamp.SecsAndNanos) (h1 : InI64 (s.secs * 10 ^ 9)) (h2 : InI64 (s.secs * 10 ^ 9 + s.nanos)) :
    Returns (fun t => InI64 t) (Timestamp.fromSecsAndNanos s) := by
  unfold Timestamp.fromSecsAndNanos
  have e : Timestamp.NANO = 10 ^ 9 := rfl
  rw [e, i64_ok h1, Outcome.ok_bind, i64_ok h2]
  exact returns_ok h2

theorem returns_trajectory (m : TrajMsg) (h : ∀ s, s = m.startTime.getD ⟨0, 0⟩ → InI64 (s.secs * 10 ^ 9) ∧ InI64 (s.secs * 10 ^ 9 + s.nanos)) :
    Returns (fun T => Valid (.trajectory T)) (unpackTrajectory m) := by
  refine returns_bind (fromSecs_returns _ (h _ rfl).1 (h _ rfl).2) fun t ht => ?_
  refine returns_bind (returns_tcurve SE3.ops se3Layout se3_exp_valid _) fun c hc => returns_ok ?_
  exact ⟨hc.1, hc.2.1, ht, hc.2.2⟩

theorem returns_payload (m : PayloadMsg) (h : ∀ t, m = .trajectory t → ∀ s, s = t.startTime.getD ⟨0, 0⟩ →
      InI64 (s.secs * 10 ^ 9) ∧ InI64 (s.secs * 10 ^ 9 + s.nanos)) :
    Returns Valid (unpackPayload m) := by
  cases m with
  | frame m => exact returns_bind (returns_frame m) fun _ _ => returns_ok trivial
  | se3 m => exact returns_bind (returns_group SE3.ops se3Layout se3_exp_valid m) fun _ h => returns_ok h
  | so3 m => exact returns_bind (returns_group SO3.ops so3Layout so3_exp_valid m) fun _ h => returns_ok h
  | dCurve m => exact returns_bind (returns_dcurve SE3.ops SE3.arcLength se3Layout se3_exp_valid m) fun _ h => returns_ok h
  | tCurve m => exact returns_bind (returns_tcurve SE3.ops se3Layout se3_exp_valid m) fun _ h => returns_ok h
  | trajectory m => exact returns_bind (returns_trajectory m (h m rfl)) fun _ h => returns_ok h
  | framedVector m => exact returns_bind (returns_vector m) fun _ _ => returns_ok trivial

theorem unpackPrimitive_some {m : PrimitiveMsg} {u : Uuid} (hu : Uuid.unpack (m.id.getD {}) = .ok u) {pm : PayloadMsg} (hp : m.payload = some pm) :
    unpackPrimitive m = (unpackPayload pm >>= fun x => .ok ⟨u, x, if m.name.isEmpty then none else some m.name, m.fileName, m.lineNumber⟩) := by
  simp only [unpackPrimitive, unpackPrimitiveStatus, hu, hp, Outcome.ok_bind]
  cases unpackPayload pm with
  | ok x =>
    simp [StatusValue.ofValue, StatusValue.getStatus, Status.checkOk, Outcome.reassert, Status.ok, StatusValue.getValue, StatusValue.ok]
  | throw _ => rfl
  | ub _ => rfl

theorem unpackPrimitive_bad {m : PrimitiveMsg} {e : String} (hu : Uuid.unpack (m.id.getD {}) = .throw e) : unpackPrimitive m = .throw e := by
  simp only [unpackPrimitive, unpackPrimitiveStatus, hu, Outcome.throw_bind]

end Verif.Props
