import Verif.Proofs.Unpack
/-! # C76: unpacking arbitrary messages -/
namespace Verif.Props
open Verif Verif.Proto Verif.Framed Verif.Spec

/-- The seconds of the start time in nanoseconds, and the start time in nanoseconds, fit in 64 bits. -/
def StartFits (m : TrajMsg) : Prop :=
  ∀ s, s = m.startTime.getD ⟨0, 0⟩ → InI64 (s.secs * 10 ^ 9) ∧ InI64 (s.secs * 10 ^ 9 + s.nanos)

/-- If the message holds a trajectory, its start time fits. -/
def MessageFits (m : PrimitiveMsg) : Prop := ∀ t, m.payload = some (.trajectory t) → StartFits t

/-- The timestamps `google.protobuf.Timestamp` allows: from year 1 to year 9999. -/
def ProtoTimestamp (s : Timestamp.SecsAndNanos) : Prop :=
  -62135596800 ≤ s.secs ∧ s.secs ≤ 253402300799 ∧ 0 ≤ s.nanos ∧ s.nanos ≤ 999999999

/-- C76.  Unpacking a frame, a framed vector, a transform, a two-jet or a curve from any message returns or throws.  What it returns is
well formed: frames are both null or both not, rotations are rotation matrices, and a curve is one that could have been built by appending. -/
theorem c76_pieces (f : FrameMsg) (v : VectorMsg) (g : GroupMsg) (j : JetMsg) (t : TCurveMsg) (d : DCurveMsg) :
    Returns (fun _ => True) (unpackFrame f) ∧
    Returns (fun _ => True) (unpackVector v) ∧
    Returns (fun x => (x.into = Frame.null ↔ x.src = Frame.null) ∧ IsRotation x.val) (unpackGroup SO3.ops so3Layout g) ∧
    Returns (fun x => (x.into = Frame.null ↔ x.src = Frame.null) ∧ IsRotation x.val.1) (unpackGroup SE3.ops se3Layout g) ∧
    Returns (fun x => (x.g.into = Frame.null ↔ x.g.src = Frame.null) ∧ IsRotation x.g.val) (unpackTwoJetL SO3.ops so3Layout j) ∧
    Returns (fun x => (x.g.into = Frame.null ↔ x.g.src = Frame.null) ∧ IsRotation x.g.val.1) (unpackTwoJetL SE3.ops se3Layout j) ∧
    Returns (fun x => (x.g.into = Frame.null ↔ x.g.src = Frame.null) ∧ IsRotation x.g.val) (unpackTwoJetR SO3.ops so3Layout j) ∧
    Returns (fun x => (x.g.into = Frame.null ↔ x.g.src = Frame.null) ∧ IsRotation x.g.val.1) (unpackTwoJetR SE3.ops se3Layout j) ∧
    Returns (fun c => Built c ∧ WholeFrames c ∧ ∀ p ∈ c.controls, IsRotation p.point.g.val) (unpackTCurve SO3.ops so3Layout t) ∧
    Returns (fun c => Built c ∧ WholeFrames c ∧ ∀ p ∈ c.controls, IsRotation p.point.g.val.1) (unpackTCurve SE3.ops se3Layout t) ∧
    Returns (fun c => DBuilt SE3.ops SE3.arcLength c ∧ ∀ p ∈ c.controls, IsRotation p.pose.val.1)
      (unpackDCurve SE3.ops SE3.arcLength se3Layout d) :=
  ⟨returns_frame f, returns_vector v, returns_group SO3.ops so3Layout so3_exp_valid g, returns_group SE3.ops se3Layout se3_exp_valid g,
    returns_twoJetL SO3.ops so3Layout so3_exp_valid j, returns_twoJetL SE3.ops se3Layout se3_exp_valid j,
    returns_twoJetR SO3.ops so3Layout so3_exp_valid j, returns_twoJetR SE3.ops se3Layout se3_exp_valid j,
    returns_tcurve SO3.ops so3Layout so3_exp_valid t, returns_tcurve SE3.ops se3Layout se3_exp_valid t,
    returns_dcurve SE3.ops SE3.arcLength se3Layout se3_exp_valid d⟩

/-- C76.  Unpacking a view primitive from any message whose trajectory, if it holds one, has a start time that fits, returns or throws; the
payload it returns is well formed and the name is not empty. -/
theorem c76_primitive_partial (m : PrimitiveMsg) (h : MessageFits m) :
    Returns (fun p => Valid p.payload ∧ p.name ≠ some "") (unpackPrimitive m) := by
  rcases c18_accepts_prefix (m.id.getD {}).data with ⟨u, hu, -⟩ | ⟨hu, -⟩
  · cases hp : m.payload with
    | none =>
      obtain ⟨e, he⟩ := (c57_unset m u hu hp).2
      rw [he]
      exact returns_throw _
    | some pm =>
      rw [unpackPrimitive_some hu hp]
      refine returns_bind (returns_payload pm fun t ht => h t (by rw [hp, ht])) fun x hx => returns_ok ⟨hx, ?_⟩
      simp only
      split <;> simp_all
  · rw [unpackPrimitive_bad hu]
    exact returns_throw _

/-- C76.  Unpacking a view primitive is undefined exactly when its id is accepted and it holds a trajectory whose start time does not fit. -/
theorem c76_undefined_iff (m : PrimitiveMsg) :
    (unpackPrimitive m).IsUB ↔ (Uuid.unpack (m.id.getD {})).IsOk ∧ ¬ MessageFits m := by
  constructor
  · intro hu
    refine ⟨?_, fun h => (c76_primitive_partial m h).1 hu⟩
    rcases c18_accepts_prefix (m.id.getD {}).data with ⟨u, e, -⟩ | ⟨e, -⟩
    · exact ⟨u, e⟩
    · rw [unpackPrimitive_bad e] at hu
      simp at hu
  · rintro ⟨⟨u, hu⟩, h⟩
    simp only [MessageFits, not_forall] at h
    obtain ⟨t, ht, hs⟩ := h
    rw [unpackPrimitive_some hu ht]
    have : (Timestamp.fromSecsAndNanos (t.startTime.getD ⟨0, 0⟩)).IsUB := by
      rw [c08_from_ub_iff, ← not_and_or]
      exact fun hc => hs fun s e => e ▸ hc
    obtain ⟨w, hw⟩ := this
    exact ⟨w, by simp only [unpackPayload, unpackTrajectory, hw, Outcome.ub_bind]⟩

/-- C76.  Unpacking an update: as for one primitive. -/
theorem c76_update_partial (m : UpdateMsg) (h : ∀ p ∈ m.primitive, MessageFits p) :
    Returns (fun u => u.length = m.primitive.length ∧ ∀ p ∈ u, Valid p.payload ∧ p.name ≠ some "") (unpackUpdate m) := by
  have key : ∀ (ms : List PrimitiveMsg) (acc : List ViewPrimitive), (∀ p ∈ ms, MessageFits p) → (∀ p ∈ acc, Valid p.payload ∧ p.name ≠ some "") →
      Returns (fun u => u.length = acc.length + ms.length ∧ ∀ p ∈ u, Valid p.payload ∧ p.name ≠ some "") (unpackPrimitives acc ms) := by
    intro ms
    induction ms with
    | nil => exact fun acc _ ha => returns_ok ⟨rfl, ha⟩
    | cons x ms ih =>
      intro acc hm ha
      refine returns_bind (c76_primitive_partial x (hm x (by simp))) fun p hp => ?_
      refine returns_mono (ih (acc ++ [p]) (fun q hq => hm q (by simp [hq])) fun q hq => ?_) fun u hu => ⟨by rw [hu.1]; simp; omega, hu.2⟩
      rw [List.mem_append, List.mem_singleton] at hq
      rcases hq with hq | rfl
      exacts [ha q hq, hp]
  exact returns_mono (key m.primitive [] h (by simp)) fun u hu => ⟨by simpa using hu.1, hu.2⟩

/-- C76.  What was unpacked can be packed and unpacked again; ids, names, files and lines come back, and the payload up to the rounding of C55. -/
theorem c76_repack (m : UpdateMsg) (h : ∀ p ∈ m.primitive, MessageFits p) (u : List ViewPrimitive) (hu : unpackUpdate m = .ok u) (old : UpdateMsg) :
    ∃ v, (packUpdate u (some old) >>= unpackUpdate) = .ok v ∧ List.Forall₂ NearPrimitive u v :=
  c58_near u (fun p hp => (((c76_update_partial m h).2 u hu).2 p hp).1) old

/-- An update of a trajectory without content, of an unset id and of an unset payload: the hypothesis holds. -/
example : ∀ p ∈ [({ payload := some (.trajectory {}) } : PrimitiveMsg), {}, { id := some ⟨"x".toList⟩ }], MessageFits p := by
  intro p hp t ht s hs
  simp only [List.mem_cons, List.not_mem_nil, or_false] at hp
  rcases hp with rfl | rfl | rfl
  · cases ht; subst hs; decide
  · cases ht
  · cases ht

/-- An update that is accepted. -/
example : ∃ u, u.length = 1 ∧ unpackUpdate ⟨[{ id := some { data := Uuid.null.toStr }, payload := some (.trajectory { startTime := some ⟨1, 5⟩ }), name := "a" }]⟩ = .ok u := by
  refine ⟨[⟨Uuid.null, .trajectory (Trajectory.ofCurve TCurve.empty 1000000005), some "a", "", 0⟩], rfl, ?_⟩
  unfold unpackUpdate unpackPrimitives
  rw [unpackPrimitive_some (u := Uuid.null) (by exact uuid_unpack_pack _) rfl]
  rfl

/-- C76.  A timestamp in the range protobuf allows need not fit: the year 2300. -/
theorem c76_valid_timestamp_undefined : ∃ m : PrimitiveMsg, (∃ t s, m.payload = some (.trajectory t) ∧ t.startTime = some s ∧ ProtoTimestamp s) ∧
    (unpackPrimitive m).IsUB := by
  refine ⟨{ id := some { data := Uuid.null.toStr }, payload := some (.trajectory { startTime := some ⟨10413792000, 0⟩ }) }, ⟨_, _, rfl, rfl, by norm_num [ProtoTimestamp]⟩, ?_⟩
  rw [c76_undefined_iff]
  refine ⟨⟨Uuid.null, uuid_unpack_pack _⟩, fun h => ?_⟩
  have := (h _ rfl _ rfl).1
  revert this
  decide

end Verif.Props
