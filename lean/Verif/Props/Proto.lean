import Verif.Proofs.Proto
import Verif.Props.ExpLog
/-! # C53 to C58: messages -/
namespace Verif.Props
open Verif.Framed Verif.Proto Verif.Spec SO3

/-! ## C53 -/

/-- C53.  Packing any matrix over anything and unpacking gives the matrix, whatever the message and the target matrix held before. -/
theorem c53_round_trip {K : Type} {r c : Nat} (M out : Matrix (Fin r) (Fin c) K) (old : List K) :
    (packMatrix M (some old) >>= fun m => unpackMatrix m out) = .ok M := by
  rw [packMatrix_some, Outcome.ok_bind, unpackMatrix_flat]

/-- C53.  The message holds the elements column after column and nothing else. -/
theorem c53_content {K : Type} {r c : Nat} (M : Matrix (Fin r) (Fin c) K) (old : List K) :
    ∃ m, packMatrix M (some old) = .ok m ∧ m.length = r * c ∧ ∀ (i : Fin r) (j : Fin c), m[j.val * r + i.val]? = some (M i j) := by
  refine ⟨flat M, packMatrix_some M old, flat_length M, fun i j => ?_⟩
  have h : j.val * r + i.val < (flat M).length := flat_length M ▸ flat_index i j
  rw [List.getElem?_eq_getElem h, flat_get]

/-- C53.  Different matrices of one shape give different messages; in particular a square matrix is not confused with its transpose. -/
theorem c53_injective {K : Type} {r c : Nat} (M N : Matrix (Fin r) (Fin c) K) (o1 o2 : List K) :
    packMatrix M (some o1) = packMatrix N (some o2) ↔ M = N := by
  refine ⟨fun h => ?_, fun h => by subst h; rw [packMatrix_some, packMatrix_some]⟩
  have h1 := c53_round_trip M M o1
  rw [h, c53_round_trip N M o2] at h1
  exact (Outcome.ok.inj h1).symm

/-- C53.  Unpacking throws exactly for a message of another size, and packing into null throws. -/
theorem c53_errors {K : Type} {r c : Nat} (m : List K) (M : Matrix (Fin r) (Fin c) K) :
    ((unpackMatrix m M).IsThrow ↔ m.length ≠ r * c) ∧ ((unpackMatrix m M).IsOk ↔ m.length = r * c) ∧ (packMatrix M none).IsThrow := by
  unfold unpackMatrix packMatrix
  by_cases h : m.length = r * c
  · rw [dif_pos h]; simp [h]
  · rw [dif_neg h]; simp [h]

/-- A two by three matrix over the integers, packed over an old message: the columns in turn. -/
example : packMatrix !![(1 : Int), 2, 3; 4, 5, 6] (some [9, 9]) = .ok [1, 4, 2, 5, 3, 6] := by decide
example : packMatrix !![(1 : Int), 2; 3, 4] (some []) ≠ packMatrix !![(1 : Int), 2; 3, 4].transpose (some []) := by decide

/-! ## C54 -/

/-- C54.  Frames. -/
theorem c54_frame (f : Frame) (old : FrameMsg) : (packFrame f (some old) >>= unpackFrame) = .ok f := by
  rw [packFrame_some, Outcome.ok_bind, unpackFrame_pack]

/-- C54.  Framed vectors. -/
theorem c54_framed_vector (v : FramedVector V3) (old : VectorMsg) : (packVector v (some old) >>= unpackVector) = .ok v := by
  simp only [packVector, packVec_some, packFrame_some, Outcome.ok_bind, unpackVector, unpackVec_flat, Option.getD_some, unpackFrame_pack]

/-- C54.  A frame message without an identifier, a vector message without a frame or with another number of elements than three, and packing
into null are all rejected with an exception. -/
theorem c54_rejected (f : Frame) (v : FramedVector V3) (m : VectorMsg) :
    (unpackFrame { id := none }).IsThrow ∧ (packFrame f none).IsThrow ∧ (packVector v none).IsThrow ∧
    (m.frame = none → (unpackVector m).IsThrow) ∧ (m.algebra.length ≠ 3 → (unpackVector m).IsThrow) := by
  have hf : (unpackFrame {}).IsThrow := by
    unfold unpackFrame
    have : (Uuid.unpack {}).IsThrow := ⟨_, rfl⟩
    obtain ⟨e, he⟩ := this
    exact ⟨e, by rw [Option.getD_none, he]; rfl⟩
  refine ⟨hf, ⟨_, rfl⟩, ⟨_, rfl⟩, fun h => ?_, fun h => ?_⟩
  · unfold unpackVector unpackVec unpackMatrix
    rw [h, Option.getD_none]
    obtain ⟨e, he⟩ := hf
    split_ifs
    · exact ⟨e, by rw [he]; rfl⟩
    · exact ⟨_, rfl⟩
  · unfold unpackVector unpackVec unpackMatrix
    rw [dif_neg (by simpa using h)]
    exact ⟨_, rfl⟩

example : (packFrame Frame.null (some { id := some { data := "junk".toList } }) >>= unpackFrame) = .ok Frame.null := c54_frame _ _

/-! ## C55 -/

/-- C55.  Rotations, with their frames. -/
theorem c55_so3 (g : Framed M3) (h : IsRotation g.val) (hw : g.into = Frame.null ↔ g.src = Frame.null) (old : GroupMsg) :
    (packGroup SO3.ops so3Layout g (some old) >>= unpackGroup SO3.ops so3Layout) = .ok g := by
  obtain ⟨m, h1, h2⟩ := group_roundtrip SO3.ops so3Layout_faithful (g := g) hw
  rw [h1, Outcome.ok_bind, h2]
  unfold viaLog
  rw [(c29_exp_log g.val h).1]

/-- The rotation angle is zero or at least 0.002, the region where `exp` and `log` of SE3 are inverse to each other. -/
def ClearAngle (g : Pose) : Prop := SO3.log g.1 = 0 ∨ 0.002 ≤ eucNorm (SO3.log g.1)

/-- Same rotation and a translation that is the same up to 1e-15 of its length. -/
def Near (g g' : Pose) : Prop := g'.1 = g.1 ∧ eucNorm (g'.2 - g.2) ≤ 1e-15 * eucNorm g.2

/-- C55 for poses with a rotation angle that is zero or at least 0.002.  Missing: smaller non-zero angles, where it is false
(`c55_se3_fails`) but nearly true (`c55_se3_near`). -/
theorem c55_se3_partial (g : Framed Pose) (h : IsRotation g.val.1) (hc : ClearAngle g.val) (hw : g.into = Frame.null ↔ g.src = Frame.null)
    (old : GroupMsg) : (packGroup SE3.ops se3Layout g (some old) >>= unpackGroup SE3.ops se3Layout) = .ok g := by
  obtain ⟨m, h1, h2⟩ := group_roundtrip SE3.ops se3Layout_faithful (g := g) hw
  rw [h1, Outcome.ok_bind, h2]
  unfold viaLog
  rw [c30_exp_log_partial g.val h hc]

theorem near_viaLog (g : Pose) (h : IsRotation g.1) : Near g (SE3.ops.exp (SE3.ops.log g)) := by
  by_cases hc : ClearAngle g
  · rw [c30_exp_log_partial g h hc]
    refine ⟨rfl, ?_⟩
    rw [sub_self, SO3.eucNorm_zero]
    exact mul_nonneg (by norm_num) (eucNorm_nonneg _)
  · unfold ClearAngle at hc
    rw [not_or, not_le] at hc
    exact c30_small_angle_close_partial g h hc.2

/-- C55.  Every pose comes back with the same frames and rotation, and its translation up to 1e-15 of its length. -/
theorem c55_se3_near (g : Framed Pose) (h : IsRotation g.val.1) (hw : g.into = Frame.null ↔ g.src = Frame.null) (old : GroupMsg) :
    ∃ g', (packGroup SE3.ops se3Layout g (some old) >>= unpackGroup SE3.ops se3Layout) = .ok g' ∧ g'.into = g.into ∧ g'.src = g.src ∧
      Near g.val g'.val := by
  obtain ⟨m, h1, h2⟩ := group_roundtrip SE3.ops se3Layout_faithful (g := g) hw
  exact ⟨viaLog SE3.ops g, by rw [h1, Outcome.ok_bind, h2], rfl, rfl, near_viaLog g.val h⟩

/-- C55 is false without the condition. -/
theorem c55_se3_fails : ∃ g : Framed Pose, IsRotation g.val.1 ∧ (g.into = Frame.null ↔ g.src = Frame.null) ∧
    ∀ old, (packGroup SE3.ops se3Layout g (some old) >>= unpackGroup SE3.ops se3Layout) ≠ .ok g := by
  obtain ⟨g, h, hne⟩ := c30_small_angle_fails
  refine ⟨unframed g, h, Iff.rfl, fun old e => ?_⟩
  obtain ⟨m, h1, h2⟩ := group_roundtrip SE3.ops se3Layout_faithful (g := unframed g) Iff.rfl
  rw [h1, Outcome.ok_bind, h2] at e
  exact hne (congrArg Framed.val (Outcome.ok.inj e))

/-- C55.  Messages that cannot come from a transform are rejected: a wrong number of elements, a missing frame, exactly one null frame; so is
packing into null. -/
theorem c55_rejected (m : GroupMsg) (g : Framed Pose) (h : m.algebra.length ≠ 6 ∨ m.into = none ∨ m.src = none ∨
      ∃ a b, (m.into.getD {}, m.src.getD {}) = (a, b) ∧
        ((unpackFrame a = .ok Frame.null ∧ unpackFrame b ≠ .ok Frame.null) ∨ (unpackFrame b = .ok Frame.null ∧ unpackFrame a ≠ .ok Frame.null))) :
    (unpackGroup SE3.ops se3Layout m).IsThrow ∧ (packGroup SE3.ops se3Layout g none).IsThrow := by
  refine ⟨?_, ⟨_, rfl⟩⟩
  unfold unpackGroup unpackVec unpackMatrix
  have hf : ∃ e, unpackFrame {} = .throw e := (c54_rejected Frame.null ⟨0, Frame.null⟩ {}).1
  have hu : ∀ x : FrameMsg, (unpackFrame x).IsOk ∨ (unpackFrame x).IsThrow := by
    intro x
    unfold unpackFrame Uuid.unpack
    rcases c18_accepts_prefix (x.id.getD {}).data with ⟨u, hu, -⟩ | ⟨hu, -⟩
    · rw [hu]; exact .inl ⟨_, rfl⟩
    · rw [hu]; exact .inr ⟨_, rfl⟩
  obtain ⟨e, he⟩ := hf
  by_cases h6 : m.algebra.length = se3Layout.dof * 1
  · rw [dif_pos h6]
    rcases h with h | h | h | ⟨a, b, hab, h⟩
    · exact absurd h6 (by simpa [se3Layout] using h)
    · rw [h, Option.getD_none, he]; exact ⟨_, rfl⟩
    · rw [h, Option.getD_none, he]
      rcases hu (m.into.getD {}) with ⟨a, ha⟩ | ⟨a, ha⟩ <;> rw [ha] <;> exact ⟨_, rfl⟩
    · obtain ⟨rfl, rfl⟩ := Prod.mk.injEq .. ▸ hab
      rcases hu (m.into.getD {}) with ⟨f1, h1⟩ | ⟨a, ha⟩
      · rcases hu (m.src.getD {}) with ⟨f2, h2⟩ | ⟨a, ha⟩
        · rw [h1, h2] at h ⊢
          refine ⟨semiFramedErr, ?_⟩
          simp only [Outcome.ok_bind, Framed.exp]
          apply mk'_throw
          simp only [Outcome.ok.injEq, ne_eq] at h
          tauto
        · rw [h1, ha]; exact ⟨_, rfl⟩
      · rw [ha]; exact ⟨_, rfl⟩
  · rw [dif_neg h6]; exact ⟨_, rfl⟩

/-- A framed pose with a quarter turn meets the conditions. -/
example : ∃ g : Framed Pose, IsRotation g.val.1 ∧ ClearAngle g.val ∧ (g.into = Frame.null ↔ g.src = Frame.null) ∧ g.into ≠ Frame.null := by
  refine ⟨⟨(SO3.exp ![1, 0, 0], ![1, 2, 3]), exFrame 1, exFrame 2⟩, SO3.isRotation_exp _, ?_, by decide, by decide⟩
  have hn : eucNorm ![1, 0, 0] = 1 := by
    rw [eucNorm, sqNorm_eq]
    simp only [Matrix.cons_val_zero, Matrix.cons_val_one, Matrix.cons_val]
    norm_num
  right
  change 0.002 ≤ eucNorm (SO3.log (SO3.exp ![1, 0, 0]))
  rw [SO3.log_exp (by rw [hn]; linarith [Real.pi_gt_three]), hn]
  norm_num

/-! ## C56 -/

/-- C56.  Left two-jets of rotations. -/
theorem c56_two_jetl_so3 (j : TwoJetL M3 V3) (h : IsRotation j.g.val) (hw : j.g.into = Frame.null ↔ j.g.src = Frame.null) (old : JetMsg) :
    (packTwoJetL SO3.ops so3Layout j (some old) >>= unpackTwoJetL SO3.ops so3Layout) = .ok j := by
  obtain ⟨m, h1, h2⟩ := twoJetL_roundtrip SO3.ops so3Layout_faithful (j := j) hw
  rw [h1, Outcome.ok_bind, h2]
  unfold viaLogL viaLog
  rw [(c29_exp_log j.g.val h).1]

/-- C56.  Right two-jets of rotations. -/
theorem c56_two_jetr_so3 (j : TwoJetR M3 V3) (h : IsRotation j.g.val) (hw : j.g.into = Frame.null ↔ j.g.src = Frame.null) (old : JetMsg) :
    (packTwoJetR SO3.ops so3Layout j (some old) >>= unpackTwoJetR SO3.ops so3Layout) = .ok j := by
  obtain ⟨m, h1, h2⟩ := twoJetR_roundtrip SO3.ops so3Layout_faithful (j := j) hw
  rw [h1, Outcome.ok_bind, h2]
  unfold viaLogR viaLog
  rw [(c29_exp_log j.g.val h).1]

/-- C56.  Two-jets of poses.  Missing: rotation angles strictly between 0 and 0.002, where C55 fails. -/
theorem c56_two_jetl_se3_partial (j : TwoJetL Pose Twist) (h : IsRotation j.g.val.1) (hc : ClearAngle j.g.val)
    (hw : j.g.into = Frame.null ↔ j.g.src = Frame.null) (old : JetMsg) :
    (packTwoJetL SE3.ops se3Layout j (some old) >>= unpackTwoJetL SE3.ops se3Layout) = .ok j := by
  obtain ⟨m, h1, h2⟩ := twoJetL_roundtrip SE3.ops se3Layout_faithful (j := j) hw
  rw [h1, Outcome.ok_bind, h2]
  unfold viaLogL viaLog
  rw [c30_exp_log_partial j.g.val h hc]

/-- C56.  The same for right two-jets. -/
theorem c56_two_jetr_se3_partial (j : TwoJetR Pose Twist) (h : IsRotation j.g.val.1) (hc : ClearAngle j.g.val)
    (hw : j.g.into = Frame.null ↔ j.g.src = Frame.null) (old : JetMsg) :
    (packTwoJetR SE3.ops se3Layout j (some old) >>= unpackTwoJetR SE3.ops se3Layout) = .ok j := by
  obtain ⟨m, h1, h2⟩ := twoJetR_roundtrip SE3.ops se3Layout_faithful (j := j) hw
  rw [h1, Outcome.ok_bind, h2]
  unfold viaLogR viaLog
  rw [c30_exp_log_partial j.g.val h hc]

/-- C56.  Every reachable time curve of rotations comes back as it was, with its pieces, hence answers every query identically. -/
theorem c56_tcurve_so3 (c : TCurve M3 V3) (h : Built c) (hw : WholeFrames c) (hr : ∀ p ∈ c.controls, IsRotation p.point.g.val) (old : TCurveMsg) :
    (packTCurve SO3.ops so3Layout c (some old) >>= unpackTCurve SO3.ops so3Layout) = .ok c := by
  obtain ⟨m, h1, c', h2, h3, h4⟩ := tcurve_roundtrip SO3.ops so3Layout_faithful h hw
  rw [h1, Outcome.ok_bind, h2]
  congr 1
  refine t_determined h3 h ?_
  rw [h4]
  refine (List.map_congr_left fun p hp => ?_).trans (List.map_id _)
  unfold viaLogL viaLog
  rw [(c29_exp_log _ (hr p hp)).1]
  rfl

example : ∃ c : TCurve M3 V3, Built c ∧ WholeFrames c ∧ 2 ≤ c.controls.length ∧ ∀ p ∈ c.controls, IsRotation p.point.g.val := exCurve_built

/-- C56.  The same for time curves of poses.  Missing: controls with rotation angles strictly between 0 and 0.002, where C55 fails; for these
`c56_tcurve_se3_near` says what comes back. -/
theorem c56_tcurve_se3_partial (c : TCurve Pose Twist) (h : Built c) (hw : WholeFrames c)
    (hr : ∀ p ∈ c.controls, IsRotation p.point.g.val.1 ∧ ClearAngle p.point.g.val) (old : TCurveMsg) :
    (packTCurve SE3.ops se3Layout c (some old) >>= unpackTCurve SE3.ops se3Layout) = .ok c := by
  obtain ⟨m, h1, c', h2, h3, h4⟩ := tcurve_roundtrip SE3.ops se3Layout_faithful h hw
  rw [h1, Outcome.ok_bind, h2]
  congr 1
  refine t_determined h3 h ?_
  rw [h4]
  refine (List.map_congr_left fun p hp => ?_).trans (List.map_id _)
  unfold viaLogL viaLog
  rw [c30_exp_log_partial _ (hr p hp).1 (hr p hp).2]
  rfl

theorem clear_one (v : V3) : ClearAngle (1, v) := by
  left
  change SO3.log 1 = 0
  rw [← SO3.exp_zero]
  exact SO3.log_exp (by simpa [eucNorm, sqNorm_eq] using Real.pi_pos)

theorem exCurveSE3_clear : ∃ c : TCurve Pose Twist, Built c ∧ WholeFrames c ∧ c.controls = exCurveSE3 ∧
    ∀ p ∈ c.controls, IsRotation p.point.g.val.1 ∧ ClearAngle p.point.g.val := by
  obtain ⟨c, hc⟩ := exCurveSE3_ok
  obtain ⟨hb, he⟩ := (c40_construct exCurveSE3).2.1 c hc
  refine ⟨c, hb, ?_, he, ?_⟩
  · intro p hp
    rw [he] at hp
    simp only [exCurveSE3, List.mem_cons, List.not_mem_nil, or_false] at hp
    rcases hp with rfl | rfl <;> decide
  · intro p hp
    rw [he] at hp
    simp only [exCurveSE3, List.mem_cons, List.not_mem_nil, or_false] at hp
    rcases hp with rfl | rfl <;> exact ⟨so3Laws.valid_one, clear_one _⟩

example : ∃ c : TCurve Pose Twist, Built c ∧ WholeFrames c ∧ 2 ≤ c.controls.length ∧
    ∀ p ∈ c.controls, IsRotation p.point.g.val.1 ∧ ClearAngle p.point.g.val := by
  obtain ⟨c, h1, h2, h3, h4⟩ := exCurveSE3_clear
  exact ⟨c, h1, h2, by rw [h3]; simp [exCurveSE3], h4⟩

/-- Two controls agree in time, frames and derivatives, and their poses are near. -/
def NearControl (p q : TControl Pose Twist) : Prop :=
  q.time = p.time ∧ q.point.g.into = p.point.g.into ∧ q.point.g.src = p.point.g.src ∧ q.point.d = p.point.d ∧ q.point.d2 = p.point.d2 ∧
    Near p.point.g.val q.point.g.val

/-- C56.  Every reachable time curve of poses is accepted on unpacking, and comes back with the same number of controls in the same order, the
same times, frames and derivatives, and poses that are near. -/
theorem c56_tcurve_se3_near (c : TCurve Pose Twist) (h : Built c) (hw : WholeFrames c) (hr : ∀ p ∈ c.controls, IsRotation p.point.g.val.1)
    (old : TCurveMsg) :
    ∃ c', (packTCurve SE3.ops se3Layout c (some old) >>= unpackTCurve SE3.ops se3Layout) = .ok c' ∧ Built c' ∧
      List.Forall₂ NearControl c.controls c'.controls := by
  obtain ⟨m, h1, c', h2, h3, h4⟩ := tcurve_roundtrip SE3.ops se3Layout_faithful h hw
  refine ⟨c', by rw [h1, Outcome.ok_bind, h2], h3, ?_⟩
  rw [h4, List.forall₂_map_right_iff, List.forall₂_same]
  exact fun p hp => ⟨rfl, rfl, rfl, rfl, rfl, near_viaLog _ (hr p hp)⟩

/-- C56.  Every reachable distance curve comes back as it was.  Missing: as above. -/
theorem c56_dcurve_partial (c : DCurve Pose) (h : DBuilt SE3.ops SE3.arcLength c)
    (hr : ∀ p ∈ c.controls, IsRotation p.pose.val.1 ∧ ClearAngle p.pose.val) (old : DCurveMsg) :
    (packDCurve SE3.ops se3Layout c (some old) >>= unpackDCurve SE3.ops SE3.arcLength se3Layout) = .ok c := by
  obtain ⟨m, h1, c', h2, h3, h4⟩ := dcurve_roundtrip SE3.ops SE3.arcLength se3Layout_faithful h
  rw [h1, Outcome.ok_bind, h2]
  congr 1
  refine d_determined h3 h ?_
  rw [h4]
  refine List.map_congr_left fun p hp => ?_
  unfold viaLog
  rw [c30_exp_log_partial _ (hr p hp).1 (hr p hp).2]

/-- C56.  Every reachable distance curve is accepted on unpacking, with the same number of poses in the same order, the same frames and near
poses. -/
theorem c56_dcurve_near (c : DCurve Pose) (h : DBuilt SE3.ops SE3.arcLength c) (hr : ∀ p ∈ c.controls, IsRotation p.pose.val.1) (old : DCurveMsg) :
    ∃ c', (packDCurve SE3.ops se3Layout c (some old) >>= unpackDCurve SE3.ops SE3.arcLength se3Layout) = .ok c' ∧
      DBuilt SE3.ops SE3.arcLength c' ∧
      List.Forall₂ (fun p q => q.into = p.into ∧ q.src = p.src ∧ Near p.val q.val) (c.controls.map (·.pose)) (c'.controls.map (·.pose)) := by
  obtain ⟨m, h1, c', h2, h3, h4⟩ := dcurve_roundtrip SE3.ops SE3.arcLength se3Layout_faithful h
  refine ⟨c', by rw [h1, Outcome.ok_bind, h2], h3, ?_⟩
  rw [h4, List.forall₂_map_right_iff, List.forall₂_map_left_iff, List.forall₂_same]
  exact fun p hp => ⟨rfl, rfl, near_viaLog _ (hr p hp)⟩

example : ∃ c : DCurve Pose, DBuilt SE3.ops SE3.arcLength c ∧ c.controls.length = 3 ∧ ∀ p ∈ c.controls, IsRotation p.pose.val.1 := by
  obtain ⟨c, hb, hc⟩ := exDCurve_built
  refine ⟨c, hb, by simpa [exDCurve] using congrArg List.length hc, fun p hp => ?_⟩
  have : p.pose ∈ exDCurve := by rw [← hc]; exact List.mem_map_of_mem hp
  simp only [exDCurve, List.mem_cons, List.not_mem_nil, or_false] at this
  rcases this with e | e | e <;> rw [e]
  · exact so3Laws.valid_one
  · exact so3Laws.valid_one
  · exact quarterTurn_isRotation

theorem trajectory_msg (T : Trajectory) (h : Built T.curve) (hw : WholeFrames T.curve) (hs : InI64 T.startTime) :
    ∃ m, (∀ old, packTrajectory T (some old) = .ok m) ∧ ∃ c', unpackTrajectory m = .ok ⟨c', T.startTime⟩ ∧ Built c' ∧
      c'.controls = T.curve.controls.map fun p => ⟨p.time, viaLogL SE3.ops p.point⟩ := by
  obtain ⟨m, h1, c', h2, h3, h4⟩ := tcurve_roundtrip SE3.ops se3Layout_faithful h hw
  obtain ⟨s, s1, s2, -⟩ := c08_round_trip T.startTime hs
  refine ⟨⟨some s, some m⟩, fun old => ?_, c', ?_, h3, h4⟩
  · simp only [packTrajectory, s1, Outcome.ok_bind, h1]
  · simp only [unpackTrajectory, Option.getD_some, s2, h2, Outcome.ok_bind]
    rfl

/-- C56.  A trajectory with any reachable curve and any start time comes back as it was.  Missing: as above. -/
theorem c56_trajectory_partial (T : Trajectory) (h : Built T.curve) (hw : WholeFrames T.curve) (hs : InI64 T.startTime)
    (hr : ∀ p ∈ T.curve.controls, IsRotation p.point.g.val.1 ∧ ClearAngle p.point.g.val) (old : TrajMsg) :
    (packTrajectory T (some old) >>= unpackTrajectory) = .ok T := by
  obtain ⟨m, h1, c', h2, h3, h4⟩ := trajectory_msg T h hw hs
  rw [h1, Outcome.ok_bind, h2]
  congr 1
  have : c' = T.curve := by
    refine t_determined h3 h ?_
    rw [h4]
    refine (List.map_congr_left fun p hp => ?_).trans (List.map_id _)
    unfold viaLogL viaLog
    rw [c30_exp_log_partial _ (hr p hp).1 (hr p hp).2]
    rfl
  rw [this]

/-- A trajectory that starts before the epoch. -/
example : ∃ T : Trajectory, Built T.curve ∧ WholeFrames T.curve ∧ InI64 T.startTime ∧ T.startTime < 0 ∧ T.curve.controls ≠ [] ∧
    ∀ p ∈ T.curve.controls, IsRotation p.point.g.val.1 ∧ ClearAngle p.point.g.val := by
  obtain ⟨c, h1, h2, h3, h4⟩ := exCurveSE3_clear
  exact ⟨⟨c, -5⟩, h1, h2, by simp only; decide, by simp only; decide, by simp only [h3]; simp [exCurveSE3], h4⟩

theorem reached_start {T : Trajectory} {acc : List TrajControl} (h : Reached T acc) : InI64 T.startTime := by
  have key : ∀ {T T' : Trajectory} {p : TrajControl} {o : Outcome Unit}, InI64 T.startTime → InI64 p.atTime → Trajectory.append T p = (T', o) →
      InI64 T'.startTime := by
    intro T T' p o h1 h2 h3
    unfold Trajectory.append Trajectory.push at h3
    split_ifs at h3
    · repeat' split at h3
      all_goals (simp only [Prod.mk.injEq] at h3; rw [← h3.1]; exact h2)
    · repeat' split at h3
      all_goals (simp only [Prod.mk.injEq] at h3; rw [← h3.1]; exact h1)
  induction h with
  | empty => exact ⟨by decide, by decide⟩
  | accepted h p hw hi ho ih => exact key ih hi ho
  | rejected h p hw hi m ho ih => exact key ih hi ho

theorem trajectory_near (T : Trajectory) (h : Built T.curve) (hw : WholeFrames T.curve) (hs : InI64 T.startTime)
    (hr : ∀ p ∈ T.curve.controls, IsRotation p.point.g.val.1) (old : TrajMsg) :
    ∃ T', (packTrajectory T (some old) >>= unpackTrajectory) = .ok T' ∧ T'.startTime = T.startTime ∧ Built T'.curve ∧
      List.Forall₂ NearControl T.curve.controls T'.curve.controls := by
  obtain ⟨m, h1, c', h2, h3, h4⟩ := trajectory_msg T h hw hs
  refine ⟨⟨c', T.startTime⟩, by rw [h1, Outcome.ok_bind, h2], rfl, h3, ?_⟩
  simp only
  rw [h4, List.forall₂_map_right_iff, List.forall₂_same]
  exact fun p hp => ⟨rfl, rfl, rfl, rfl, rfl, near_viaLog _ (hr p hp)⟩

/-- C56.  Every trajectory reachable by appends is accepted on unpacking with the same start time, and controls in the same order with the same
times, frames and derivatives and near poses. -/
theorem c56_trajectory_near (T : Trajectory) (acc : List TrajControl) (h : Reached T acc) (hr : ∀ p ∈ acc, IsRotation p.state.refFromBody.val.1)
    (old : TrajMsg) :
    ∃ T', (packTrajectory T (some old) >>= unpackTrajectory) = .ok T' ∧ T'.startTime = T.startTime ∧ Built T'.curve ∧
      List.Forall₂ NearControl T.curve.controls T'.curve.controls := by
  have hI := inv_of_reached h
  have hc : ∀ p ∈ T.curve.controls, (p.point.g.into = Frame.null ↔ p.point.g.src = Frame.null) ∧ IsRotation p.point.g.val.1 := by
    intro p hp
    rw [hI.controls] at hp
    obtain ⟨q, hq, rfl⟩ := List.mem_map.mp hp
    exact ⟨(hI.whole q hq).symm, isRotation_transpose (hr q hq)⟩
  exact trajectory_near T hI.built (fun p hp => (hc p hp).1) (reached_start h) (fun p hp => (hc p hp).2) old

example : ∃ T acc, Reached T acc ∧ acc.length = 3 ∧ ∀ p ∈ acc, IsRotation p.state.refFromBody.val.1 := by
  obtain ⟨T, hT⟩ := exReached (fun t => exAt quarterTurn ![(t : ℝ), 2, 3]) (fun _ => ⟨exAt_whole _ _, rfl, rfl⟩) 100 (by decide) [115, 230] (by decide)
    (by decide) (by decide)
  refine ⟨T, _, hT, by simp, fun p hp => ?_⟩
  rw [List.mem_map] at hp
  obtain ⟨t, -, rfl⟩ := hp
  exact quarterTurn_isRotation

/-- C56.  Messages with controls that could not be appended are rejected, not accepted silently: two controls with the same time. -/
theorem c56_revalidated (j : TwoJetL M3 V3) (hw : j.g.into = Frame.null ↔ j.g.src = Frame.null) (t : ℝ) :
    ∃ m, packTwoJetL SO3.ops so3Layout j (some {}) = .ok m ∧
      (unpackTCurve SO3.ops so3Layout ⟨[⟨t, some m⟩, ⟨t, some m⟩]⟩).IsThrow := by
  obtain ⟨m, h1, h2⟩ := twoJetL_roundtrip SO3.ops so3Layout_faithful (j := j) hw
  refine ⟨m, h1 _, ?_⟩
  simp only [unpackTCurve, unpackControls, Option.getD_some, h2, Outcome.ok_bind]
  have b1 : Built (TCurve.append TCurve.empty ⟨t, viaLogL SO3.ops j⟩).1 := Built.append Built.empty _
  obtain ⟨a1, -, a3, -⟩ := c40_append TCurve.empty Built.empty ⟨t, viaLogL SO3.ops j⟩
  have hm : MayFollow (TCurve.empty : TCurve M3 V3).controls ⟨t, viaLogL SO3.ops j⟩ := by intro q hq; simp [TCurve.empty] at hq
  have e1 := a1.mpr hm
  have e3 := a3 hm
  revert e1 e3 b1
  match TCurve.append TCurve.empty ⟨t, viaLogL SO3.ops j⟩ with
  | (c, o) =>
    intro b1 e1 e3
    simp only at e1 e3 b1
    subst e1
    simp only
    have : (TCurve.append c ⟨t, viaLogL SO3.ops j⟩).2.IsThrow := by
      rw [(c40_append c b1 _).2.1]
      intro hm2
      have := (hm2 ⟨t, viaLogL SO3.ops j⟩ (by rw [e3]; simp)).1
      exact lt_irrefl _ this
    obtain ⟨e, he⟩ := this
    match hx : TCurve.append c ⟨t, viaLogL SO3.ops j⟩ with
    | (c2, o2) =>
      rw [hx] at he
      simp only at he
      subst he
      exact ⟨_, rfl⟩

/-! ## C57 -/

/-- The payloads that come back exactly: transforms with frames on both sides or on neither, reachable curves, 64-bit start times, valid
rotations, and for poses rotation angles that are zero or at least 0.002. -/
def Exact : Payload → Prop
  | .se3 g => (g.into = Frame.null ↔ g.src = Frame.null) ∧ IsRotation g.val.1 ∧ ClearAngle g.val
  | .so3 g => (g.into = Frame.null ↔ g.src = Frame.null) ∧ IsRotation g.val
  | .dCurve c => DBuilt SE3.ops SE3.arcLength c ∧ ∀ p ∈ c.controls, IsRotation p.pose.val.1 ∧ ClearAngle p.pose.val
  | .tCurve c => Built c ∧ WholeFrames c ∧ ∀ p ∈ c.controls, IsRotation p.point.g.val.1 ∧ ClearAngle p.point.g.val
  | .trajectory T => Built T.curve ∧ WholeFrames T.curve ∧ InI64 T.startTime ∧
      ∀ p ∈ T.curve.controls, IsRotation p.point.g.val.1 ∧ ClearAngle p.point.g.val
  | .frame _ => True
  | .framedVector _ => True

/-- The payloads a client can hold: as `Exact` without the condition on angles. -/
def Valid : Payload → Prop
  | .se3 g => (g.into = Frame.null ↔ g.src = Frame.null) ∧ IsRotation g.val.1
  | .so3 g => (g.into = Frame.null ↔ g.src = Frame.null) ∧ IsRotation g.val
  | .dCurve c => DBuilt SE3.ops SE3.arcLength c ∧ ∀ p ∈ c.controls, IsRotation p.pose.val.1
  | .tCurve c => Built c ∧ WholeFrames c ∧ ∀ p ∈ c.controls, IsRotation p.point.g.val.1
  | .trajectory T => Built T.curve ∧ WholeFrames T.curve ∧ InI64 T.startTime ∧ ∀ p ∈ T.curve.controls, IsRotation p.point.g.val.1
  | .frame _ => True
  | .framedVector _ => True

/-- Two payloads of the same kind that differ at most in the translations of poses, and there by at most 1e-15 of their length. -/
def NearPayload : Payload → Payload → Prop
  | .se3 g, .se3 g' => g'.into = g.into ∧ g'.src = g.src ∧ Near g.val g'.val
  | .so3 g, .so3 g' => g' = g
  | .dCurve c, .dCurve c' => DBuilt SE3.ops SE3.arcLength c' ∧
      List.Forall₂ (fun p q => q.into = p.into ∧ q.src = p.src ∧ Near p.val q.val) (c.controls.map (·.pose)) (c'.controls.map (·.pose))
  | .tCurve c, .tCurve c' => Built c' ∧ List.Forall₂ NearControl c.controls c'.controls
  | .trajectory T, .trajectory T' => T'.startTime = T.startTime ∧ Built T'.curve ∧ List.Forall₂ NearControl T.curve.controls T'.curve.controls
  | .frame f, .frame f' => f' = f
  | .framedVector v, .framedVector v' => v' = v
  | _, _ => False

theorem payload_near (p : Payload) (h : Valid p) : ∃ m q, packPayload p = .ok m ∧ unpackPayload m = .ok q ∧ NearPayload p q := by
  cases p with
  | se3 g =>
    obtain ⟨q, e, hq⟩ := c55_se3_near g h.2 h.1 {}
    obtain ⟨m, h1, h2⟩ := bind_ok e
    exact ⟨.se3 m, .se3 q, by simp only [packPayload, h1, Outcome.ok_bind], by simp only [unpackPayload, h2, Outcome.ok_bind], hq⟩
  | so3 g =>
    obtain ⟨m, h1, h2⟩ := bind_ok (c55_so3 g h.2 h.1 {})
    exact ⟨.so3 m, .so3 g, by simp only [packPayload, h1, Outcome.ok_bind], by simp only [unpackPayload, h2, Outcome.ok_bind], rfl⟩
  | dCurve c =>
    obtain ⟨q, e, hq⟩ := c56_dcurve_near c h.1 h.2 {}
    obtain ⟨m, h1, h2⟩ := bind_ok e
    exact ⟨.dCurve m, .dCurve q, by simp only [packPayload, h1, Outcome.ok_bind], by simp only [unpackPayload, h2, Outcome.ok_bind], hq⟩
  | tCurve c =>
    obtain ⟨q, e, hq⟩ := c56_tcurve_se3_near c h.1 h.2.1 h.2.2 {}
    obtain ⟨m, h1, h2⟩ := bind_ok e
    exact ⟨.tCurve m, .tCurve q, by simp only [packPayload, h1, Outcome.ok_bind], by simp only [unpackPayload, h2, Outcome.ok_bind], hq⟩
  | trajectory T =>
    obtain ⟨q, e, hq⟩ := trajectory_near T h.1 h.2.1 h.2.2.1 h.2.2.2 {}
    obtain ⟨m, h1, h2⟩ := bind_ok e
    exact ⟨.trajectory m, .trajectory q, by simp only [packPayload, h1, Outcome.ok_bind], by simp only [unpackPayload, h2, Outcome.ok_bind], hq⟩
  | frame f =>
    obtain ⟨m, h1, h2⟩ := bind_ok (c54_frame f {})
    exact ⟨.frame m, .frame f, by simp only [packPayload, h1, Outcome.ok_bind], by simp only [unpackPayload, h2, Outcome.ok_bind], rfl⟩
  | framedVector v =>
    obtain ⟨m, h1, h2⟩ := bind_ok (c54_framed_vector v {})
    exact ⟨.framedVector m, .framedVector v, by simp only [packPayload, h1, Outcome.ok_bind], by simp only [unpackPayload, h2, Outcome.ok_bind], rfl⟩

theorem payload_roundtrip (p : Payload) (h : Exact p) : ∃ m, packPayload p = .ok m ∧ unpackPayload m = .ok p := by
  cases p with
  | se3 g =>
    obtain ⟨m, h1, h2⟩ := bind_ok (c55_se3_partial g h.2.1 h.2.2 h.1 {})
    exact ⟨.se3 m, by simp only [packPayload, h1, Outcome.ok_bind], by simp only [unpackPayload, h2, Outcome.ok_bind]⟩
  | so3 g =>
    obtain ⟨m, h1, h2⟩ := bind_ok (c55_so3 g h.2 h.1 {})
    exact ⟨.so3 m, by simp only [packPayload, h1, Outcome.ok_bind], by simp only [unpackPayload, h2, Outcome.ok_bind]⟩
  | dCurve c =>
    obtain ⟨m, h1, h2⟩ := bind_ok (c56_dcurve_partial c h.1 h.2 {})
    exact ⟨.dCurve m, by simp only [packPayload, h1, Outcome.ok_bind], by simp only [unpackPayload, h2, Outcome.ok_bind]⟩
  | tCurve c =>
    obtain ⟨m, h1, h2⟩ := bind_ok (c56_tcurve_se3_partial c h.1 h.2.1 h.2.2 {})
    exact ⟨.tCurve m, by simp only [packPayload, h1, Outcome.ok_bind], by simp only [unpackPayload, h2, Outcome.ok_bind]⟩
  | trajectory T =>
    obtain ⟨m, h1, h2⟩ := bind_ok (c56_trajectory_partial T h.1 h.2.1 h.2.2.1 h.2.2.2 {})
    exact ⟨.trajectory m, by simp only [packPayload, h1, Outcome.ok_bind], by simp only [unpackPayload, h2, Outcome.ok_bind]⟩
  | frame f =>
    obtain ⟨m, h1, h2⟩ := bind_ok (c54_frame f {})
    exact ⟨.frame m, by simp only [packPayload, h1, Outcome.ok_bind], by simp only [unpackPayload, h2, Outcome.ok_bind]⟩
  | framedVector v =>
    obtain ⟨m, h1, h2⟩ := bind_ok (c54_framed_vector v {})
    exact ⟨.framedVector m, by simp only [packPayload, h1, Outcome.ok_bind], by simp only [unpackPayload, h2, Outcome.ok_bind]⟩

/-- C57, the exact account: everything comes back, except that an empty name comes back as no name. -/
theorem c57_round_trip (p : ViewPrimitive) (h : Exact p.payload) (old : PrimitiveMsg) :
    (packPrimitive p (some old) >>= unpackPrimitive) = .ok { p with name := if p.name = some "" then none else p.name } := by
  obtain ⟨m, h1, h2⟩ := payload_roundtrip p.payload h
  obtain ⟨id, payload, name, file, line⟩ := p
  simp only at h1 h2
  cases name with
  | none =>
    simp only [packPrimitive, uuid_pack_some, h1, Outcome.ok_bind, unpackPrimitive, unpackPrimitiveStatus, Option.getD_some, uuid_unpack_pack, h2]
    simp [StatusValue.ofValue, StatusValue.getStatus, Status.checkOk, Outcome.reassert, Status.ok, StatusValue.getValue, StatusValue.ok]
  | some n =>
    simp only [packPrimitive, uuid_pack_some, h1, Outcome.ok_bind, unpackPrimitive, unpackPrimitiveStatus, Option.getD_some, uuid_unpack_pack, h2]
    simp [StatusValue.ofValue, StatusValue.getStatus, Status.checkOk, Outcome.reassert, Status.ok, StatusValue.getValue, StatusValue.ok]

/-- The primitive `q` is `p` up to the loss of an empty name and to tiny changes of translations. -/
def NearPrimitive (p q : ViewPrimitive) : Prop :=
  q.id = p.id ∧ q.fileName = p.fileName ∧ q.lineNumber = p.lineNumber ∧ q.name = (if p.name = some "" then none else p.name) ∧
    NearPayload p.payload q.payload

/-- C57.  Every primitive a client can hold comes back, up to the loss of an empty name and to tiny changes of translations. -/
theorem c57_near (p : ViewPrimitive) (h : Valid p.payload) (old : PrimitiveMsg) :
    ∃ q, (packPrimitive p (some old) >>= unpackPrimitive) = .ok q ∧ NearPrimitive p q := by
  obtain ⟨m, q, h1, h2, h3⟩ := payload_near p.payload h
  obtain ⟨id, payload, name, file, line⟩ := p
  simp only at h1 h2 h3
  refine ⟨⟨id, q, if name = some "" then none else name, file, line⟩, ?_, rfl, rfl, rfl, rfl, h3⟩
  cases name with
  | none =>
    simp only [packPrimitive, uuid_pack_some, h1, Outcome.ok_bind, unpackPrimitive, unpackPrimitiveStatus, Option.getD_some, uuid_unpack_pack, h2]
    simp [StatusValue.ofValue, StatusValue.getStatus, Status.checkOk, Outcome.reassert, Status.ok, StatusValue.getValue, StatusValue.ok]
  | some n =>
    simp only [packPrimitive, uuid_pack_some, h1, Outcome.ok_bind, unpackPrimitive, unpackPrimitiveStatus, Option.getD_some, uuid_unpack_pack, h2]
    simp [StatusValue.ofValue, StatusValue.getStatus, Status.checkOk, Outcome.reassert, Status.ok, StatusValue.getValue, StatusValue.ok]

/-- C57.  Missing: the empty name, for which the statement is false (`c57_empty_name_lost`), and the poses of C55. -/
theorem c57_round_trip_partial (p : ViewPrimitive) (h : Exact p.payload) (hn : p.name ≠ some "") (old : PrimitiveMsg) :
    (packPrimitive p (some old) >>= unpackPrimitive) = .ok p := by
  rw [c57_round_trip p h old, if_neg hn]

/-- C57 is false for the empty name. -/
theorem c57_empty_name_lost : ∃ p : ViewPrimitive, Exact p.payload ∧ ∀ old, (packPrimitive p (some old) >>= unpackPrimitive) ≠ .ok p := by
  refine ⟨⟨Uuid.null, .frame Frame.null, some "", "", 0⟩, trivial, fun old e => ?_⟩
  rw [c57_round_trip ⟨Uuid.null, .frame Frame.null, some "", "", 0⟩ trivial old] at e
  simp at e

/-- C57.  A message without a payload is reported as a bad status, by `unpack` as an exception. -/
theorem c57_unset (m : PrimitiveMsg) (u : Uuid) (hid : Uuid.unpack (m.id.getD {}) = .ok u) (h : m.payload = none) :
    (∃ v, unpackPrimitiveStatus m = .ok v ∧ v.ok = false ∧ ∃ f l, v.getStatus = .err "Can't unpack unset ViewPrimitive!" f l) ∧
      (unpackPrimitive m).IsThrow := by
  have e : unpackPrimitiveStatus m = .ok (.status (.err "Can't unpack unset ViewPrimitive!" "resim/visualization/proto/view_primitive_to_proto.cc" 104)) := by
    unfold unpackPrimitiveStatus
    rw [hid, h]
    rfl
  refine ⟨⟨_, e, rfl, _, _, rfl⟩, ?_⟩
  unfold unpackPrimitive
  rw [e]
  exact ⟨_, rfl⟩

/-- A named primitive with a framed rotation as payload. -/
example : ∃ p : ViewPrimitive, Exact p.payload ∧ p.name ≠ some "" :=
  ⟨⟨Uuid.null, .so3 ⟨quarterTurn, exFrame 1, exFrame 2⟩, some "turn", "a.cc", 7⟩, ⟨by decide, quarterTurn_isRotation⟩, by simp⟩
example : Uuid.unpack (({ id := some { data := Uuid.null.toStr } } : PrimitiveMsg).id.getD {}) = .ok Uuid.null := uuid_unpack_pack _

/-! ## C58 -/

theorem packPrimitives_spec (u : List ViewPrimitive) (h : ∀ p ∈ u, Exact p.payload) :
    ∃ ms, (∀ m, packPrimitives m u = .ok ⟨m.primitive ++ ms⟩) ∧
      ∀ acc, unpackPrimitives acc ms = .ok (acc ++ u.map fun p => { p with name := if p.name = some "" then none else p.name }) := by
  induction u with
  | nil => exact ⟨[], fun m => by simp [packPrimitives], fun acc => by simp [unpackPrimitives]⟩
  | cons p u ih =>
    obtain ⟨ms, h1, h2⟩ := ih fun q hq => h q (by simp [hq])
    obtain ⟨m, h3, h4⟩ := bind_ok (c57_round_trip p (h p (by simp)) {})
    refine ⟨m :: ms, fun m' => ?_, fun acc => ?_⟩
    · simp only [packPrimitives, h3, Outcome.ok_bind, h1]
      simp
    · simp only [unpackPrimitives, h4, Outcome.ok_bind, h2]
      simp

/-- C58.  An update of any length comes back with the same primitives in the same order, up to the loss of empty names; old content of the message
is gone. -/
theorem c58_round_trip (u : List ViewPrimitive) (h : ∀ p ∈ u, Exact p.payload) (old : UpdateMsg) :
    (packUpdate u (some old) >>= unpackUpdate) = .ok (u.map fun p => { p with name := if p.name = some "" then none else p.name }) := by
  obtain ⟨ms, h1, h2⟩ := packPrimitives_spec u h
  simp only [packUpdate, h1, Outcome.ok_bind, unpackUpdate, List.nil_append, h2]

/-- C58 without empty names.  Missing: as in `c57_round_trip_partial`. -/
theorem c58_round_trip_partial (u : List ViewPrimitive) (h : ∀ p ∈ u, Exact p.payload ∧ p.name ≠ some "") (old : UpdateMsg) :
    (packUpdate u (some old) >>= unpackUpdate) = .ok u := by
  rw [c58_round_trip u (fun p hp => (h p hp).1) old]
  congr 1
  refine (List.map_congr_left fun p hp => ?_).trans (List.map_id _)
  rw [if_neg (h p hp).2]
  rfl

/-- C58.  Every update a client can hold comes back with as many primitives, in the same order, each one up to the loss of an empty name and to
tiny changes of translations. -/
theorem c58_near (u : List ViewPrimitive) (h : ∀ p ∈ u, Valid p.payload) (old : UpdateMsg) :
    ∃ v, (packUpdate u (some old) >>= unpackUpdate) = .ok v ∧ List.Forall₂ NearPrimitive u v := by
  have key : ∃ ms v, (∀ m, packPrimitives m u = .ok ⟨m.primitive ++ ms⟩) ∧ (∀ acc, unpackPrimitives acc ms = .ok (acc ++ v)) ∧
      List.Forall₂ NearPrimitive u v := by
    clear old
    induction u with
    | nil => exact ⟨[], [], fun m => by simp [packPrimitives], fun acc => by simp [unpackPrimitives], .nil⟩
    | cons p u ih =>
      obtain ⟨ms, v, h1, h2, h5⟩ := ih fun q hq => h q (by simp [hq])
      obtain ⟨q, e, hq⟩ := c57_near p (h p (by simp)) {}
      obtain ⟨m, h3, h4⟩ := bind_ok e
      refine ⟨m :: ms, q :: v, fun m' => ?_, fun acc => ?_, .cons hq h5⟩
      · simp only [packPrimitives, h3, Outcome.ok_bind, h1]
        simp
      · simp only [unpackPrimitives, h4, Outcome.ok_bind, h2]
        simp
  obtain ⟨ms, v, h1, h2, h3⟩ := key
  exact ⟨v, by simp only [packUpdate, h1, Outcome.ok_bind, unpackUpdate, List.nil_append, h2], h3⟩

/-- Three primitives, two of them equal. -/
example : ∀ p ∈ [⟨Uuid.null, .frame (exFrame 1), none, "a.cc", 1⟩, ⟨Uuid.null, .frame (exFrame 1), none, "a.cc", 1⟩,
    (⟨Uuid.null, .framedVector ⟨![1, 2, 3], exFrame 1⟩, some "v", "a.cc", 2⟩ : ViewPrimitive)], Exact p.payload ∧ Valid p.payload ∧ p.name ≠ some "" := by
  intro p hp
  simp only [List.mem_cons, List.not_mem_nil, or_false] at hp
  rcases hp with rfl | rfl | rfl <;> exact ⟨trivial, trivial, by simp⟩

/-! ## Instances of the theorems above -/

/-- A pose that turns by one radian, far from the angles where C55 fails. -/
theorem radian_clear (v : V3) : IsRotation (SO3.exp ![1, 0, 0], v).1 ∧ ClearAngle (SO3.exp ![1, 0, 0], v) := by
  have hn : eucNorm ![1, 0, 0] = 1 := by
    rw [eucNorm, sqNorm_eq]
    simp only [Matrix.cons_val_zero, Matrix.cons_val_one, Matrix.cons_val]
    norm_num
  refine ⟨SO3.isRotation_exp _, .inr ?_⟩
  change 0.002 ≤ eucNorm (SO3.log (SO3.exp ![1, 0, 0]))
  rw [SO3.log_exp (by rw [hn]; linarith [Real.pi_gt_three]), hn]
  norm_num

/-- C55 and C56 for framed rotations and their two-jets. -/
example (old : GroupMsg) (old2 : JetMsg) :
    (packGroup SO3.ops so3Layout ⟨quarterTurn, exFrame 1, exFrame 2⟩ (some old) >>= unpackGroup SO3.ops so3Layout) = .ok ⟨quarterTurn, exFrame 1, exFrame 2⟩ ∧
    (packTwoJetL SO3.ops so3Layout ⟨⟨quarterTurn, exFrame 1, exFrame 2⟩, ![1, 2, 3], ![4, 5, 6]⟩ (some old2) >>= unpackTwoJetL SO3.ops so3Layout) =
      .ok ⟨⟨quarterTurn, exFrame 1, exFrame 2⟩, ![1, 2, 3], ![4, 5, 6]⟩ ∧
    (packTwoJetR SO3.ops so3Layout ⟨⟨quarterTurn, exFrame 1, exFrame 2⟩, ![1, 2, 3], ![4, 5, 6]⟩ (some old2) >>= unpackTwoJetR SO3.ops so3Layout) =
      .ok ⟨⟨quarterTurn, exFrame 1, exFrame 2⟩, ![1, 2, 3], ![4, 5, 6]⟩ :=
  ⟨c55_so3 ⟨quarterTurn, exFrame 1, exFrame 2⟩ quarterTurn_isRotation (by decide) old,
    c56_two_jetl_so3 ⟨⟨quarterTurn, exFrame 1, exFrame 2⟩, ![1, 2, 3], ![4, 5, 6]⟩ quarterTurn_isRotation (by simp only; decide) old2,
    c56_two_jetr_so3 ⟨⟨quarterTurn, exFrame 1, exFrame 2⟩, ![1, 2, 3], ![4, 5, 6]⟩ quarterTurn_isRotation (by simp only; decide) old2⟩

/-- C55 and C56 for framed poses and their two-jets, with any derivatives. -/
example (old : GroupMsg) (old2 : JetMsg) (d d2 : Twist) : ∃ g : Framed Pose, g.val = (SO3.exp ![1, 0, 0], ![1, 2, 3]) ∧ g.into ≠ Frame.null ∧
    (packGroup SE3.ops se3Layout g (some old) >>= unpackGroup SE3.ops se3Layout) = .ok g ∧
    (∃ g', (packGroup SE3.ops se3Layout g (some old) >>= unpackGroup SE3.ops se3Layout) = .ok g' ∧ Near g.val g'.val) ∧
    (packTwoJetL SE3.ops se3Layout ⟨g, d, d2⟩ (some old2) >>= unpackTwoJetL SE3.ops se3Layout) = .ok ⟨g, d, d2⟩ ∧
    (packTwoJetR SE3.ops se3Layout ⟨g, d, d2⟩ (some old2) >>= unpackTwoJetR SE3.ops se3Layout) = .ok ⟨g, d, d2⟩ := by
  obtain ⟨h1, h2⟩ := radian_clear ![1, 2, 3]
  have hw : exFrame 1 = Frame.null ↔ exFrame 2 = Frame.null := by decide
  obtain ⟨g, hg⟩ : ∃ g : Framed Pose, g = ⟨(SO3.exp ![1, 0, 0], ![1, 2, 3]), exFrame 1, exFrame 2⟩ := ⟨_, rfl⟩
  have hv : g.val = (SO3.exp ![1, 0, 0], ![1, 2, 3]) := by rw [hg]
  rw [← hv] at h1 h2
  have hw' : g.into = Frame.null ↔ g.src = Frame.null := by rw [hg]; exact hw
  obtain ⟨g', e, -, -, hn⟩ := c55_se3_near g h1 hw' old
  exact ⟨g, hv, by rw [hg]; simp only; decide, c55_se3_partial g h1 h2 hw' old, ⟨g', e, hn⟩,
    c56_two_jetl_se3_partial ⟨g, d, d2⟩ h1 h2 hw' old2, c56_two_jetr_se3_partial ⟨g, d, d2⟩ h1 h2 hw' old2⟩

/-- C56 for a distance curve from the identity to a pose turned by one radian. -/
example (old : DCurveMsg) : ∃ c : DCurve Pose, c.controls.length = 2 ∧
    (packDCurve SE3.ops se3Layout c (some old) >>= unpackDCurve SE3.ops SE3.arcLength se3Layout) = .ok c := by
  obtain ⟨c, hb, hc⟩ := framed_built [(1, 0), (SO3.exp ![1, 0, 0], ![1, 2, 3])]
  refine ⟨c, by simpa using congrArg List.length hc, c56_dcurve_partial c hb (fun p hp => ?_) old⟩
  have : p.pose ∈ [(1, 0), (SO3.exp ![1, 0, 0], ![1, 2, 3])].map (fun v => (⟨v, exFrame 1, exFrame 2⟩ : Framed Pose)) := by
    rw [← hc]; exact List.mem_map_of_mem hp
  simp only [List.map_cons, List.map_nil, List.mem_cons, List.not_mem_nil, or_false] at this
  rcases this with e | e <;> rw [e]
  · exact ⟨so3Laws.valid_one, clear_one 0⟩
  · exact radian_clear _

/-- C56: two controls at one time, packed by hand, are rejected. -/
example : ∃ m, packTwoJetL SO3.ops so3Layout ⟨⟨quarterTurn, exFrame 1, exFrame 2⟩, ![1, 2, 3], ![4, 5, 6]⟩ (some {}) = .ok m ∧
    (unpackTCurve SO3.ops so3Layout ⟨[⟨3, some m⟩, ⟨3, some m⟩]⟩).IsThrow :=
  c56_revalidated _ (by simp only; decide) 3

/-- C57 and C58: an object with a name, one with an empty name, and an update with both. -/
example (old : PrimitiveMsg) (oldU : UpdateMsg) : ∃ p q : ViewPrimitive, p.name = some "turn" ∧ q.name = some "" ∧
    (packPrimitive p (some old) >>= unpackPrimitive) = .ok p ∧ (packPrimitive q (some old) >>= unpackPrimitive) = .ok { q with name := none } ∧
    (∃ q', (packPrimitive q (some old) >>= unpackPrimitive) = .ok q' ∧ NearPrimitive q q') ∧
    (packUpdate [p, q, p] (some oldU) >>= unpackUpdate) = .ok [p, { q with name := none }, p] ∧
    (packUpdate [p, p] (some oldU) >>= unpackUpdate) = .ok [p, p] := by
  have hp : Exact (.so3 ⟨quarterTurn, exFrame 1, exFrame 2⟩) := ⟨by decide, quarterTurn_isRotation⟩
  refine ⟨⟨Uuid.null, .so3 ⟨quarterTurn, exFrame 1, exFrame 2⟩, some "turn", "a.cc", 7⟩, ⟨Uuid.null, .frame (exFrame 1), some "", "a.cc", 8⟩, rfl, rfl,
    c57_round_trip_partial _ hp (by simp) old, (c57_round_trip ⟨Uuid.null, .frame (exFrame 1), some "", "a.cc", 8⟩ trivial old).trans (by simp),
    c57_near ⟨Uuid.null, .frame (exFrame 1), some "", "a.cc", 8⟩ trivial old,
    (c58_round_trip _ ?_ oldU).trans (by simp), c58_round_trip_partial _ ?_ oldU⟩
  · simp only [List.mem_cons, List.not_mem_nil, or_false]
    rintro p (rfl | rfl | rfl)
    · exact hp
    · exact trivial
    · exact hp
  · simp only [List.mem_cons, List.not_mem_nil, or_false]
    rintro p (rfl | rfl) <;> exact ⟨hp, by simp⟩

end Verif.Props
