import Verif.Spec.Change
import Verif.Proofs.Transport
import Verif.Props.OneAxis
import Verif.Props.Obtained
/-! # C83 to C86: the same motion described differently -/
namespace Verif.Props
open Matrix Verif.Framed Verif.Spec SO3

theorem alike_ok {α β : Type} {R : α → β → Prop} {x : Outcome α} {y : Outcome β} (h : Alike R x y) {a : α} (e : x = .ok a) : ∃ b, y = .ok b ∧ R a b := by
  subst e
  cases h with
  | ok h => exact ⟨_, rfl, h⟩

theorem alike_of {α β : Type} {R : α → β → Prop} {x : Outcome α} {y : Outcome β}
    (h : (∃ a b, x = .ok a ∧ y = .ok b ∧ R a b) ∨ (x.IsThrow ∧ y.IsThrow) ∨ (x.IsUB ∧ y.IsUB)) : Alike R x y := by
  rcases h with ⟨a, b, rfl, rfl, h⟩ | ⟨⟨m, rfl⟩, m', rfl⟩ | ⟨⟨m, rfl⟩, m', rfl⟩
  · exact .ok h
  · exact .throw _ _
  · exact .ub _ _

/-! ## C83: another reference frame -/

section
variable {n : Type} [Fintype n] [DecidableEq n] {G A V : Type} [NormedAddCommGroup A] [NormedSpace ℝ A]

/-- The controls of the second curve are those of the first, with poses relative to another reference: the same times and derivatives, and the
poses (`point_from_ref`) multiplied by the fixed transform `k` on the right. -/
def Rebased (M : G → Matrix n n ℝ) (k : G) (c c' : TCurve G A) : Prop :=
  List.Forall₂ (fun p p' : TControl G A => p'.time = p.time ∧ M p'.point.g.val = M p.point.g.val * M k ∧ p'.point.d = p.point.d ∧
    p'.point.d2 = p.point.d2) c.controls c'.controls

theorem rebased_curve {L : LieOps ℝ G A V} {valid : G → Prop} {M : G → Matrix n n ℝ} {hat : A → Matrix n n ℝ} (P : MatRep L valid M hat)
    (c c' : TCurve G A) (h : Built c) (h' : Built c') (hw : WholeFrames c) (hw' : WholeFrames c') (hv : ∀ p ∈ c.controls, valid p.point.g.val)
    (k : G) (hk : valid k) (hR : Rebased M k c c') (t : ℝ) :
    Alike (fun p p' : TwoJetL G A => M p'.g.val = M p.g.val * M k ∧ p'.d = p.d ∧ p'.d2 = p.d2) (TCurve.pointAt L c t) (TCurve.pointAt L c' t) := by
  have := TCurve.transport L L (inv_of_built h) (inv_of_built h') hw hw' id strictMono_id _ hR (fun p p' e => e.1)
    (fun p p' : TwoJetL G A => M p'.g.val = M p.g.val * M k ∧ p'.d = p.d ∧ p'.d2 = p.d2) (by
      intro a b a' b' t ha hb ra rb _
      have ea : a'.point.g.val = L.mul a.point.g.val k := P.M_inj (by rw [P.M_mul]; exact ra.2.1)
      have eb : b'.point.g.val = L.mul b.point.g.val k := P.M_inj (by rw [P.M_mul]; exact rb.2.1)
      have e : ∀ s, vpoint L (TCurve.piece a' b').curve s = vpoint L (TCurve.piece a b).curve s := fun s =>
        vpoint_right P.laws hk (hv a ha) ea eb (by simp only [TCurve.piece, TCurve.scaled, ra.1, rb.1, ra.2.2.1])
          (by simp only [TCurve.piece, TCurve.scaled, ra.1, rb.1, rb.2.2.1]) (by simp only [TCurve.piece, TCurve.scaled, ra.1, rb.1, ra.2.2.2])
          (by simp only [TCurve.piece, TCurve.scaled, ra.1, rb.1, rb.2.2.2]) s
      unfold pieceFormula
      simp only [TCurve.unnormalize, e, ra.1, rb.1, id]
      refine ⟨?_, trivial, trivial⟩
      change M (L.mul _ a'.point.g.val) = M (L.mul _ a.point.g.val) * M k
      rw [ea, ← P.laws.mul_assoc, P.M_mul]) t
  exact alike_of (this.imp_right .inl)

end

/-- C83 for rotations.  Measuring the same motion from another reference, by multiplying all control poses with one rotation on the right, changes no
query except for that rotation: the same times succeed, and the derivatives are the same. -/
theorem c83_so3 (c c' : TCurve M3 V3) (h : Built c) (h' : Built c') (hw : WholeFrames c) (hw' : WholeFrames c')
    (hv : ∀ p ∈ c.controls, IsRotation p.point.g.val) (k : M3) (hk : IsRotation k) (hR : Rebased (fun R : M3 => R) k c c') (t : ℝ) :
    Alike (fun p p' : TwoJetL M3 V3 => p'.g.val = p.g.val * k ∧ p'.d = p.d ∧ p'.d2 = p.d2) (TCurve.pointAt SO3.ops c t) (TCurve.pointAt SO3.ops c' t) :=
  rebased_curve so3Rep c c' h h' hw hw' hv k hk hR t

/-- C83 for rigid motions.  There is no small-angle exception: the equality is exact for all turns. -/
theorem c83_se3 (c c' : TCurve Pose Twist) (h : Built c) (h' : Built c') (hw : WholeFrames c) (hw' : WholeFrames c')
    (hv : ∀ p ∈ c.controls, IsRotation p.point.g.val.1) (k : Pose) (hk : IsRotation k.1) (hR : Rebased poseMatrix k c c') (t : ℝ) :
    Alike (fun p p' : TwoJetL Pose Twist => poseMatrix p'.g.val = poseMatrix p.g.val * poseMatrix k ∧ p'.d = p.d ∧ p'.d2 = p.d2)
      (TCurve.pointAt SE3.ops c t) (TCurve.pointAt SE3.ops c' t) :=
  rebased_curve se3Rep c c' h h' hw hw' hv k hk hR t

/-- Curves sampled from the same motion, seen from a reference turned by a quarter and moved: at every time in range both give a point. -/
example (f : ℝ → Pose × Twist × Twist) (hf : ∀ t, IsRotation (f t).1.1) : ∃ c c' : TCurve Pose Twist, Built c ∧ Built c' ∧
    Rebased poseMatrix (quarterTurn, ![1, 2, 3]) c c' ∧ ∀ t, 0 ≤ t → t ≤ 2 → ∃ p p', TCurve.pointAt SE3.ops c t = .ok p ∧ TCurve.pointAt SE3.ops c' t = .ok p' ∧
      poseMatrix p'.g.val = poseMatrix p.g.val * poseMatrix (quarterTurn, ![1, 2, 3]) ∧ p'.d = p.d ∧ p'.d2 = p.d2 := by
  obtain ⟨c, hb, hw, hc⟩ := sampled f [0, 1, 2] (by norm_num)
  obtain ⟨c', hb', hw', hc'⟩ := sampled (fun t => (SE3.ops.mul (f t).1 (quarterTurn, ![1, 2, 3]), (f t).2.1, (f t).2.2)) [0, 1, 2] (by norm_num)
  have hR : Rebased poseMatrix (quarterTurn, ![1, 2, 3]) c c' := by
    unfold Rebased
    rw [hc, hc', List.forall₂_map_left_iff, List.forall₂_map_right_iff]
    exact List.forall₂_same.mpr fun t _ => ⟨rfl, se3Rep.M_mul _ _, rfl, rfl⟩
  refine ⟨c, c', hb, hb', hR, fun t h0 h1 => ?_⟩
  obtain ⟨p, hp⟩ := (c41_domain SE3.ops c hb hw t).1.mpr ⟨by rw [hc]; simp, 0, 2, by unfold TCurve.startTime; rw [hc]; simp,
    by unfold TCurve.endTime; rw [hc]; simp, h0, h1⟩
  obtain ⟨p', hp', h⟩ := alike_ok (c83_se3 c c' hb hb' hw hw' (by
    intro q hq
    rw [hc, List.mem_map] at hq
    obtain ⟨u, -, rfl⟩ := hq
    exact hf u) _ quarterTurn_isRotation hR t) hp
  exact ⟨p, p', hp, hp', h⟩

theorem goodTraj_of_reached {T : Trajectory} {acc : List TrajControl} (h : Reached T acc) (hv : ∀ p ∈ acc, IsRotation p.state.refFromBody.val.1) :
    GoodTraj T := by
  have hI := inv_of_reached h
  refine ⟨hI.built, whole_curve hI, ?_⟩
  intro p hp
  rw [hI.controls, List.mem_map] at hp
  obtain ⟨q, hq, rfl⟩ := hp
  exact se3Laws.valid_inv (valid := PoseValid) (hv q hq)

theorem reached_nil {T : Trajectory} {acc : List TrajControl} (h : Reached T acc) : acc = [] → T.startTime = 0 := by
  induction h with
  | empty => exact fun _ => rfl
  | accepted h p hw hi ho ih => simp
  | @rejected T T' acc h p hw hi m ho ih =>
    rintro rfl
    have := (Trajectory.append_nil (inv_of_reached h) hw).1
    rw [ho] at this
    cases this

theorem start_of_times {T T' : Trajectory} {acc acc' : List TrajControl} (h : Reached T acc) (h' : Reached T' acc')
    {R : TrajControl → TrajControl → Prop} (hR : List.Forall₂ R acc acc') (ht : ∀ p p', R p p' → p'.atTime = p.atTime) : T'.startTime = T.startTime := by
  cases hR with
  | nil => rw [reached_nil h rfl, reached_nil h' rfl]
  | cons r _ => rw [c50_start_time _ _ _ h, c50_start_time _ _ _ h', ht _ _ r]

/-- Alike curves make alike trajectories. -/
theorem traj_alike {T T' : Trajectory} (g : GoodTraj T) (g' : GoodTraj T') {R : TwoJetL Pose Twist → TwoJetL Pose Twist → Prop}
    {Q : RBState → RBState → Prop} {t t' : Int} (hs : t' - T'.startTime = t - T.startTime)
    (h : Alike R (TCurve.pointAt SE3.ops T.curve (Binary64.asSeconds (t - T.startTime) : ℝ))
      (TCurve.pointAt SE3.ops T'.curve (Binary64.asSeconds (t - T.startTime) : ℝ)))
    (hQ : ∀ j j' : TwoJetL Pose Twist, R j j' → PoseValid j.g.val → PoseValid j'.g.val →
      Q ⟨⟨⟨SE3.ops.inv j.g.val, j.g.src, j.g.into⟩, -j.d, -j.d2⟩⟩ ⟨⟨⟨SE3.ops.inv j'.g.val, j'.g.src, j'.g.into⟩, -j'.d, -j'.d2⟩⟩) :
    Alike Q (Trajectory.pointAt T t) (Trajectory.pointAt T' t') := by
  unfold Trajectory.pointAt
  rw [hs]
  by_cases hi : InI64 (t - T.startTime)
  · rw [i64_ok hi, Outcome.ok_bind, Outcome.ok_bind]
    have y := yields_curve se3Laws se3_exp_valid g (Binary64.asSeconds (t - T.startTime) : ℝ)
    have y' := yields_curve se3Laws se3_exp_valid g' (Binary64.asSeconds (t - T.startTime) : ℝ)
    revert h y y'
    generalize TCurve.pointAt SE3.ops T.curve (Binary64.asSeconds (t - T.startTime) : ℝ) = x
    generalize TCurve.pointAt SE3.ops T'.curve (Binary64.asSeconds (t - T.startTime) : ℝ) = x'
    intro h y y'
    cases h with
    | ok h =>
      obtain ⟨w, v⟩ := y _ rfl
      obtain ⟨w', v'⟩ := y' _ rfl
      rw [Outcome.ok_bind, Outcome.ok_bind, TwoJetL.right_whole SE3.ops w, TwoJetL.right_whole SE3.ops w', Outcome.ok_bind, Outcome.ok_bind]
      exact .ok (hQ _ _ h v v')
    | throw m m' => exact .throw _ _
    | ub m m' => exact .ub _ _
  · unfold i64
    rw [if_neg hi]
    exact .ub _ _

/-- The controls of the second trajectory are those of the first, with poses relative to another reference: the same timestamps and derivatives, and
the poses (`ref_from_body`) multiplied by the fixed transform `k` on the left. -/
def RebasedStates (k : Pose) (acc acc' : List TrajControl) : Prop :=
  List.Forall₂ (fun p p' : TrajControl => p'.atTime = p.atTime ∧
    poseMatrix p'.state.refFromBody.val = poseMatrix k * poseMatrix p.state.refFromBody.val ∧
    p'.state.bodyDerivatives = p.state.bodyDerivatives) acc acc'

theorem bodyDerivatives_eq {s s' : RBState} (h : s'.bodyDerivatives = s.bodyDerivatives) : s'.twoJet.d = s.twoJet.d ∧ s'.twoJet.d2 = s.twoJet.d2 := by
  unfold RBState.bodyDerivatives at h
  injection h with h1 h2
  injection h1 with a1 a2
  injection h2 with b1 b2
  exact ⟨Prod.ext a2 a1, Prod.ext b2 b1⟩

/-- C83 for trajectories.  Moving all states by one fixed transform moves the state at every time by that transform; velocities and accelerations, being
given in the body's frame, are unchanged.  The same times succeed. -/
theorem c83_trajectory (T T' : Trajectory) (acc acc' : List TrajControl) (h : Reached T acc) (h' : Reached T' acc')
    (hv : ∀ p ∈ acc, IsRotation p.state.refFromBody.val.1) (k : Pose) (hk : IsRotation k.1) (hR : RebasedStates k acc acc') (t : Int) :
    Alike (fun s s' : RBState => poseMatrix s'.refFromBody.val = poseMatrix k * poseMatrix s.refFromBody.val ∧ s'.bodyDerivatives = s.bodyDerivatives)
      (Trajectory.pointAt T t) (Trajectory.pointAt T' t) := by
  have hs := start_of_times h h' hR fun _ _ r => r.1
  have hval : ∀ p p' : TrajControl, poseMatrix p'.state.refFromBody.val = poseMatrix k * poseMatrix p.state.refFromBody.val →
      p'.state.refFromBody.val = SE3.ops.mul k p.state.refFromBody.val := fun p p' e => se3Rep.M_inj (by rw [se3Rep.M_mul]; exact e)
  have hv' : ∀ p ∈ acc', IsRotation p.state.refFromBody.val.1 := by
    intro p' hp'
    obtain ⟨i, hi, rfl⟩ := List.mem_iff_getElem.mp hp'
    have hi' : i < acc.length := hR.length_eq ▸ hi
    rw [hval _ _ (forall2_get hR hi').2.1]
    exact se3Laws.valid_mul (valid := PoseValid) hk (hv _ (List.getElem_mem hi'))
  have g := goodTraj_of_reached h hv
  have g' := goodTraj_of_reached h' hv'
  have hI := inv_of_reached h
  have hI' := inv_of_reached h'
  have hki : PoseValid (SE3.ops.inv k) := se3Laws.valid_inv (valid := PoseValid) hk
  have hcur : Rebased poseMatrix (SE3.ops.inv k) T.curve T'.curve := by
    unfold Rebased
    rw [hI.controls, hI'.controls, List.forall₂_map_left_iff, List.forall₂_map_right_iff]
    have hR2 := (List.forall₂_and_left (p := fun p : TrajControl => IsRotation p.state.refFromBody.val.1) acc acc').mpr ⟨hv, hR⟩
    refine hR2.imp fun p p' ⟨hvp, r1, r2, r3⟩ => ?_
    obtain ⟨e1, e2⟩ := bodyDerivatives_eq r3
    refine ⟨?_, ?_, ?_, ?_⟩
    · simp only [Trajectory.toControl, r1, hs]
    · simp only [Trajectory.toControl]
      rw [hval _ _ r2, se3Laws.inv_mul_rev (valid := PoseValid) hk hvp]
      exact se3Rep.M_mul _ _
    · simp only [Trajectory.toControl, e1]
    · simp only [Trajectory.toControl, e2]
  have hc := c83_se3 T.curve T'.curve g.1 g'.1 g.2.1 g'.2.1 g.2.2 _ hki hcur (Binary64.asSeconds (t - T.startTime) : ℝ)
  refine traj_alike g g' (by rw [hs]) hc ?_
  rintro j j' ⟨e1, e2, e3⟩ v v'
  have e : j'.g.val = SE3.ops.mul j.g.val (SE3.ops.inv k) := se3Rep.M_inj (by rw [se3Rep.M_mul]; exact e1)
  refine ⟨?_, ?_⟩
  · simp only [RBState.refFromBody]
    rw [e, se3Laws.inv_mul_rev (valid := PoseValid) v hki, se3Laws.inv_inv (valid := PoseValid) hk]
    exact se3Rep.M_mul _ _
  · simp only [RBState.bodyDerivatives, RBState.linearVelocity, RBState.angularVelocity, RBState.linearAcceleration, RBState.angularAcceleration, e2, e3]

/-- A state moved by a quarter turn and a shift. -/
noncomputable def exMoved (t : Int) : RBState :=
  ⟨⟨⟨SE3.ops.mul (quarterTurn, ![1, 2, 3]) (exAt quarterTurn ![(t : ℝ), 2, 3]).refFromBody.val, exFrame 1, exFrame 2⟩,
    (exAt quarterTurn ![(t : ℝ), 2, 3]).twoJet.d, (exAt quarterTurn ![(t : ℝ), 2, 3]).twoJet.d2⟩⟩

/-- Three states, and the same three moved by a quarter turn and a shift: at 120 ns both trajectories have a state, and they are related. -/
example : ∃ T T' acc acc' s s', Reached T acc ∧ Reached T' acc' ∧ RebasedStates (quarterTurn, ![1, 2, 3]) acc acc' ∧ Trajectory.pointAt T 120 = .ok s ∧
    Trajectory.pointAt T' 120 = .ok s' ∧ poseMatrix s'.refFromBody.val = poseMatrix (quarterTurn, ![1, 2, 3]) * poseMatrix s.refFromBody.val := by
  obtain ⟨T, hT⟩ := exReached (fun t => exAt quarterTurn ![(t : ℝ), 2, 3]) (fun _ => ⟨exAt_whole _ _, rfl, rfl⟩) 100 (by decide) [115, 230] (by decide)
    (by decide) (by decide)
  obtain ⟨T', hT'⟩ := exReached exMoved (fun _ => ⟨(by decide : exFrame 1 = Frame.null ↔ exFrame 2 = Frame.null), rfl, rfl⟩) 100 (by decide) [115, 230]
    (by decide) (by decide) (by decide)
  have hR : RebasedStates (quarterTurn, ![1, 2, 3]) ([100, 115, 230].map fun t => ⟨t, exAt quarterTurn ![(t : ℝ), 2, 3]⟩)
      ([100, 115, 230].map fun t => ⟨t, exMoved t⟩) := by
    unfold RebasedStates
    rw [List.forall₂_map_left_iff, List.forall₂_map_right_iff]
    exact List.forall₂_same.mpr fun t _ => ⟨rfl, se3Rep.M_mul _ _, rfl⟩
  obtain ⟨s, h1, -⟩ := c51_inside T _ ⟨230, exAt quarterTurn ![((230 : Int) : ℝ), 2, 3]⟩ [⟨115, exAt quarterTurn ![((115 : Int) : ℝ), 2, 3]⟩] hT 120
    (by decide) (by decide)
  obtain ⟨s', h2, h3, -⟩ := alike_ok (c83_trajectory T T' _ _ hT hT' (by
    intro p hp
    rw [List.mem_map] at hp
    obtain ⟨t, -, rfl⟩ := hp
    exact quarterTurn_isRotation) _ quarterTurn_isRotation hR 120) h1
  exact ⟨T, T', _, _, s, s', hT, hT', hR, h1, h2, h3⟩

/-- C83 for distance curves.  Moving all poses by one fixed transform keeps all lengths and moves every point by that transform. -/
theorem c83_distance (c c' : DCurve Pose) (h : DBuilt SE3.ops SE3.arcLength c) (h' : DBuilt SE3.ops SE3.arcLength c')
    (hv : ∀ p ∈ c.controls, IsRotation p.pose.val.1) (k : Pose) (hk : IsRotation k.1)
    (hR : List.Forall₂ (fun p p' : DControl Pose => poseMatrix p'.pose.val = poseMatrix k * poseMatrix p.pose.val) c.controls c'.controls) (s : ℝ) :
    DCurve.curveLength c' = DCurve.curveLength c ∧
    Alike (fun g g' : Framed Pose => poseMatrix g'.val = poseMatrix k * poseMatrix g.val) (DCurve.pointAt SE3.ops c s) (DCurve.pointAt SE3.ops c' s) := by
  have hval : ∀ g g' : Framed Pose, poseMatrix g'.val = poseMatrix k * poseMatrix g.val → g'.val = SE3.ops.mul k g.val :=
    fun p p' e => se3Rep.M_inj (by rw [se3Rep.M_mul]; exact e)
  have hrel : ∀ (a b : DControl Pose) (a' b' : Framed Pose), a ∈ c.controls → poseMatrix a'.val = poseMatrix k * poseMatrix a.pose.val →
      poseMatrix b'.val = poseMatrix k * poseMatrix b.pose.val →
      SE3.ops.mul (SE3.ops.inv a'.val) b'.val = SE3.ops.mul (SE3.ops.inv a.pose.val) b.pose.val := by
    intro a b a' b' ha ra rb
    rw [hval _ _ ra, hval _ _ rb, se3Laws.inv_mul_rev (valid := PoseValid) hk (hv a ha), se3Laws.mul_assoc, ← se3Laws.mul_assoc (SE3.ops.inv k),
      se3Laws.inv_mul (valid := PoseValid) hk, se3Laws.one_mul]
  have := DCurve.transport SE3.ops SE3.arcLength (fun _ => eucNorm_nonneg _) (dInv_of_built h) (dInv_of_built h') one_pos
    (fun g g' => poseMatrix g'.val = poseMatrix k * poseMatrix g.val) hR (by
      intro a b a' b' ha hb ra rb
      rw [hrel a b a' b' ha ra rb, one_mul]) (fun g g' => poseMatrix g' = poseMatrix k * poseMatrix g) (by
      intro a b a' b' s ha hb ra rb la lb
      unfold DCurve.pieceVal
      rw [hrel a b a'.pose b'.pose ha ra rb, la, lb, hval _ _ ra]
      simp only [one_mul]
      rw [se3Laws.mul_assoc (valid := PoseValid)]
      exact se3Rep.M_mul _ _) s
  simp only [one_mul] at this
  exact ⟨this.1, alike_of this.2⟩

/-- Any poses, moved by a quarter turn and a shift, meet the hypotheses. -/
example (poses : List Pose) (hp : ∀ g ∈ poses, IsRotation g.1) : ∃ c c' : DCurve Pose, DBuilt SE3.ops SE3.arcLength c ∧ DBuilt SE3.ops SE3.arcLength c' ∧
    c.controls.length = poses.length ∧ DCurve.curveLength c' = DCurve.curveLength c ∧
    ∀ s g, DCurve.pointAt SE3.ops c s = .ok g → ∃ g', DCurve.pointAt SE3.ops c' s = .ok g' ∧
      poseMatrix g'.val = poseMatrix (quarterTurn, ![1, 2, 3]) * poseMatrix g.val := by
  obtain ⟨c, hb, hc⟩ := framed_built poses
  obtain ⟨c', hb', hc'⟩ := framed_built (poses.map (SE3.ops.mul (quarterTurn, ![1, 2, 3])))
  have hR : List.Forall₂ (fun p p' : DControl Pose => poseMatrix p'.pose.val = poseMatrix (quarterTurn, ![1, 2, 3]) * poseMatrix p.pose.val)
      c.controls c'.controls := by
    have : List.Forall₂ (fun g g' : Framed Pose => poseMatrix g'.val = poseMatrix (quarterTurn, ![1, 2, 3]) * poseMatrix g.val)
        (c.controls.map (·.pose)) (c'.controls.map (·.pose)) := by
      rw [hc, hc', List.map_map, List.forall₂_map_left_iff, List.forall₂_map_right_iff]
      exact List.forall₂_same.mpr fun g _ => se3Rep.M_mul _ _
    rw [List.forall₂_map_left_iff, List.forall₂_map_right_iff] at this
    exact this
  have hv : ∀ p ∈ c.controls, IsRotation p.pose.val.1 := by
    intro p hpc
    have : p.pose ∈ c.controls.map (·.pose) := List.mem_map_of_mem hpc
    rw [hc, List.mem_map] at this
    obtain ⟨g, hg, e⟩ := this
    rw [← e]
    exact hp g hg
  refine ⟨c, c', hb, hb', by simpa using congrArg List.length hc, (c83_distance c c' hb hb' hv _ quarterTurn_isRotation hR 0).1, fun s g hg => ?_⟩
  exact alike_ok (c83_distance c c' hb hb' hv _ quarterTurn_isRotation hR s).2 hg

/-! ## C85: another time origin or unit -/

section
variable {G A V : Type} [NormedAddCommGroup A] [NormedSpace ℝ A]

/-- The controls of the second curve are those of the first, with time `t` called `k * t + b` and derivatives by that time. -/
def Retimed (k b : ℝ) (c c' : TCurve G A) : Prop :=
  List.Forall₂ (fun p p' : TControl G A => p'.time = k * p.time + b ∧ p'.point.g.val = p.point.g.val ∧ p'.point.d = k⁻¹ • p.point.d ∧
    p'.point.d2 = (k⁻¹ ^ 2) • p.point.d2) c.controls c'.controls

/-- C85 for time curves of any group.  Measuring time from another origin and in another unit gives the same poses at the same moments, and derivatives
by the new time.  The same moments succeed. -/
theorem c85_curve (L : LieOps ℝ G A V) (c c' : TCurve G A) (h : Built c) (h' : Built c') (hw : WholeFrames c) (hw' : WholeFrames c') (k b : ℝ) (hk : 0 < k)
    (hR : Retimed k b c c') (t : ℝ) :
    Alike (fun p p' : TwoJetL G A => p'.g.val = p.g.val ∧ p'.d = k⁻¹ • p.d ∧ p'.d2 = (k⁻¹ ^ 2) • p.d2) (TCurve.pointAt L c t)
      (TCurve.pointAt L c' (k * t + b)) := by
  have := TCurve.transport L L (inv_of_built h) (inv_of_built h') hw hw' (fun t => k * t + b) (fun x y hxy => by
      have := mul_lt_mul_of_pos_left hxy hk
      simpa using this) _ hR (fun p p' e => e.1)
    (fun p p' : TwoJetL G A => p'.g.val = p.g.val ∧ p'.d = k⁻¹ • p.d ∧ p'.d2 = (k⁻¹ ^ 2) • p.d2) (by
      intro a b1 a' b1' t ha hb ra rb hlt
      have hne : b1.time - a.time ≠ 0 := sub_ne_zero.mpr hlt.ne'
      have hd : b1'.time - a'.time = k * (b1.time - a.time) := by rw [ra.1, rb.1]; ring
      have e : ∀ s, vpoint L (TCurve.piece a' b1').curve s = vpoint L (TCurve.piece a b1).curve s := by
        intro s
        have h1 : (k * (b1.time - a.time)) * k⁻¹ = b1.time - a.time := by field_simp
        unfold vpoint
        simp only [TCurve.piece, TCurve.scaled, ra.2.1, rb.2.1, ra.2.2.1, rb.2.2.1, ra.2.2.2, rb.2.2.2, hd, smul_smul]
        have h2 : (k * (b1.time - a.time)) * ((k * (b1.time - a.time)) * k⁻¹ ^ 2) = (b1.time - a.time) * (b1.time - a.time) := by field_simp
        rw [h1, h2]
      have es : 1 / (b1'.time - a'.time) * ((k * t + b) - a'.time) = 1 / (b1.time - a.time) * (t - a.time) := by
        rw [hd, ra.1]
        field_simp
        ring
      unfold pieceFormula
      simp only [TCurve.unnormalize]
      rw [es]
      simp only [e, hd, smul_smul]
      refine ⟨?_, ?_, ?_⟩
      · simp only [TCurve.piece, TCurve.scaled, ra.2.1]
      · congr 1
        field_simp
      · congr 1
        field_simp) t
  exact alike_of (this.imp_right .inl)

end

/-- A curve over three seconds, and the same in milliseconds counted from another moment. -/
example (f : ℝ → M3 × V3 × V3) : ∃ c c' : TCurve M3 V3, Built c ∧ Built c' ∧ Retimed 1000 500 c c' ∧
    ∃ p p', TCurve.pointAt SO3.ops c 2 = .ok p ∧ TCurve.pointAt SO3.ops c' 2500 = .ok p' ∧ p'.g.val = p.g.val ∧ p'.d = (1000 : ℝ)⁻¹ • p.d := by
  obtain ⟨c, hb, hw, hc⟩ := sampled f [0, 1, 3] (by norm_num)
  obtain ⟨c', hb', hw', hc'⟩ := sampled (fun t => ((f ((t - 500) / 1000)).1, (1000 : ℝ)⁻¹ • (f ((t - 500) / 1000)).2.1,
    ((1000 : ℝ)⁻¹ ^ 2) • (f ((t - 500) / 1000)).2.2)) ([0, 1, 3].map fun t => 1000 * t + 500) (by norm_num)
  have hR : Retimed 1000 500 c c' := by
    unfold Retimed
    rw [hc, hc', List.map_map, List.forall₂_map_left_iff, List.forall₂_map_right_iff]
    refine List.forall₂_same.mpr fun t _ => ?_
    simp
  obtain ⟨p, hp⟩ := (c41_domain SO3.ops c hb hw 2).1.mpr ⟨by rw [hc]; simp, 0, 3, by unfold TCurve.startTime; rw [hc]; simp,
    by unfold TCurve.endTime; rw [hc]; simp, by norm_num, by norm_num⟩
  obtain ⟨p', hp', h⟩ := alike_ok (c85_curve SO3.ops c c' hb hb' hw hw' 1000 500 (by norm_num) hR 2) hp
  rw [show (1000 : ℝ) * 2 + 500 = 2500 by norm_num] at hp'
  exact ⟨c, c', hb, hb', hR, p, p', hp, hp', h.1, h.2.1⟩

/-- A control later by `δ` nanoseconds. -/
def later (δ : Int) (p : TrajControl) : TrajControl := ⟨p.atTime + δ, p.state⟩

/-- C85 for trajectories: all answers depend on timestamps only through differences, exactly, including the rounding of times to seconds.  The same
controls with all timestamps later by `δ` are accepted, and then every query at a time later by `δ` gives the same answer. -/
theorem c85_trajectory (T : Trajectory) (acc : List TrajControl) (h : Reached T acc) (δ : Int) (hδ : ∀ p ∈ acc, InI64 (p.atTime + δ)) :
    (∃ T', Reached T' (acc.map (later δ))) ∧
    ∀ T', Reached T' (acc.map (later δ)) → acc ≠ [] →
      T'.startTime = T.startTime + δ ∧ (∀ t, Trajectory.pointAt T' (t + δ) = Trajectory.pointAt T t) ∧
      (∀ d, Trajectory.pointAtDuration T' d = Trajectory.pointAtDuration T d) ∧ Trajectory.timeDuration T' = Trajectory.timeDuration T ∧
      Trajectory.referenceFrame T' = Trajectory.referenceFrame T ∧ Trajectory.bodyFrame T' = Trajectory.bodyFrame T := by
  have hcurve : ∀ {T T' : Trajectory} {acc : List TrajControl}, Reached T acc → Reached T' (acc.map (later δ)) → acc ≠ [] →
      T'.startTime = T.startTime + δ ∧ T'.curve = T.curve := by
    intro T T' acc h h' hne
    obtain ⟨p, rest, rfl⟩ := List.exists_cons_of_ne_nil hne
    have hs : T'.startTime = T.startTime + δ := by
      rw [List.map_cons] at h'
      rw [c50_start_time _ _ _ h, c50_start_time _ _ _ h']
      rfl
    have hI := inv_of_reached h
    have hI' := inv_of_reached h'
    have hc : T'.curve.controls = T.curve.controls := by
      rw [hI.controls, hI'.controls, List.map_map]
      refine List.map_congr_left fun q _ => ?_
      simp only [Function.comp, Trajectory.toControl, later, hs]
      rw [show q.atTime + δ - (T.startTime + δ) = q.atTime - T.startTime by ring]
    refine ⟨hs, ?_⟩
    have e1 := (inv_of_built hI.built).segments
    have e2 := (inv_of_built hI'.built).segments
    rw [hc, ← e1] at e2
    cases hT : T.curve
    cases hT' : T'.curve
    rw [hT, hT'] at hc e2
    simp only at hc e2
    rw [hc, e2]
  constructor
  · induction h with
    | empty => exact ⟨_, Reached.empty⟩
    | @accepted T T1 acc h p hw hi ho ih =>
      obtain ⟨T', h'⟩ := ih fun q hq => hδ q (by simp [hq])
      have hp : InI64 (p.atTime + δ) := hδ p (by simp)
      rw [List.map_append, List.map_singleton]
      by_cases hne : acc = []
      · subst hne
        exact ⟨_, Reached.accepted h' (later δ p) hw hp (Prod.ext rfl (c50_first _ h' (later δ p) hw).1)⟩
      · obtain ⟨hs, hc⟩ := hcurve h h' hne
        have hT' : T' = ⟨T.curve, T.startTime + δ⟩ := by cases T'; simp only at hs hc; rw [hs, hc]
        have hpush : (Trajectory.push T' (later δ p)).2 = (Trajectory.push T p).2 := by
          unfold Trajectory.push
          rw [hT']
          simp only [later]
          rw [show p.atTime + δ - (T.startTime + δ) = p.atTime - T.startTime by ring]
          split
          · split <;> rfl
          · rfl
          · rfl
        have hbody : Trajectory.bodyFrame T' = Trajectory.bodyFrame T := by unfold Trajectory.bodyFrame; rw [hc]
        have e : (Trajectory.append T' (later δ p)).2 = (Trajectory.append T p).2 := by
          have hl : T.curve.controls.length ≠ 0 := by
            rw [(inv_of_reached h).controls, List.length_map]
            exact fun e => hne (List.length_eq_zero_iff.mp e)
          unfold Trajectory.append
          rw [hc, if_neg hl, if_neg hl, hbody]
          split
          · change (if p.state.refFromBody.src = _ then _ else _ : Trajectory × Outcome Unit).2 = _
            split_ifs
            · exact hpush
            · rfl
          · rfl
          · rfl
        rw [ho] at e
        exact ⟨_, Reached.accepted h' (later δ p) hw hp (Prod.ext rfl e)⟩
    | @rejected T T1 acc h p hw hi m ho ih => exact ih hδ
  · intro T' h' hne
    obtain ⟨hs, hc⟩ := hcurve h h' hne
    refine ⟨hs, fun t => ?_, fun d => ?_, ?_, ?_, ?_⟩
    · unfold Trajectory.pointAt
      rw [hs, hc, show t + δ - (T.startTime + δ) = t - T.startTime by ring]
    · unfold Trajectory.pointAtDuration; rw [hc]
    · unfold Trajectory.timeDuration; rw [hc]
    · unfold Trajectory.referenceFrame; rw [hc]
    · unfold Trajectory.bodyFrame; rw [hc]

/-- A trajectory at the start of the epoch and the same thirty years later: the state 20 ns after the start is the same. -/
example : ∃ T T' s, Trajectory.pointAt T 120 = .ok s ∧ Trajectory.pointAt T' (120 + 946684800000000000) = .ok s ∧ T'.startTime = 946684800000000100 := by
  obtain ⟨T, hT⟩ := exReached (fun t => exAt quarterTurn ![(t : ℝ), 2, 3]) (fun _ => ⟨exAt_whole _ _, rfl, rfl⟩) 100 (by decide) [115, 230] (by decide)
    (by decide) (by decide)
  obtain ⟨s, h1, -⟩ := c51_inside T _ ⟨230, exAt quarterTurn ![((230 : Int) : ℝ), 2, 3]⟩ [⟨115, exAt quarterTurn ![((115 : Int) : ℝ), 2, 3]⟩] hT 120
    (by decide) (by decide)
  obtain ⟨⟨T', hT'⟩, h⟩ := c85_trajectory T _ hT 946684800000000000 (by
    intro p hp
    rw [List.mem_map] at hp
    obtain ⟨t, ht, rfl⟩ := hp
    have : ∀ t ∈ ([100, 115, 230] : List Int), InI64 (t + 946684800000000000) := by decide
    exact this t ht)
  obtain ⟨e1, e2, -⟩ := h T' hT' (by simp)
  have hs : T.startTime = 100 := c50_start_time _ _ _ hT
  exact ⟨T, T', s, h1, by rw [e2, h1], by rw [e1, hs]; rfl⟩

/-! ## C86: another unit of length -/

theorem longer_pose {k : ℝ} {g g' : Pose} : Longer k g g' ↔ g' = SE3.lengths k g :=
  ⟨fun h => Prod.ext h.1 (funext h.2), fun h => h ▸ ⟨rfl, fun _ => rfl⟩⟩

theorem longer_twist {k : ℝ} {x x' : Twist} : Longer k x x' ↔ x' = SE3.lengthsTwist k x :=
  ⟨fun h => Prod.ext h.1 (funext h.2), fun h => h ▸ ⟨rfl, fun _ => rfl⟩⟩

/-- The controls of the second curve are those of the first with lengths in another unit. -/
def Resized (k : ℝ) (c c' : TCurve Pose Twist) : Prop :=
  List.Forall₂ (fun p p' : TControl Pose Twist => p'.time = p.time ∧ Longer k p.point.g.val p'.point.g.val ∧ Longer k p.point.d p'.point.d ∧
    Longer k p.point.d2 p'.point.d2) c.controls c'.controls

/-- C86 for time curves.  Giving all lengths in another unit gives the same points in that unit, exactly.  The same times succeed. -/
theorem c86_curve (c c' : TCurve Pose Twist) (h : Built c) (h' : Built c') (hw : WholeFrames c) (hw' : WholeFrames c') (k : ℝ) (hR : Resized k c c')
    (t : ℝ) :
    Alike (fun p p' : TwoJetL Pose Twist => Longer k p.g.val p'.g.val ∧ Longer k p.d p'.d ∧ Longer k p.d2 p'.d2) (TCurve.pointAt SE3.ops c t)
      (TCurve.pointAt SE3.ops c' t) := by
  have := TCurve.transport SE3.ops SE3.ops (inv_of_built h) (inv_of_built h') hw hw' id strictMono_id _ hR (fun p p' e => e.1)
    (fun p p' : TwoJetL Pose Twist => Longer k p.g.val p'.g.val ∧ Longer k p.d p'.d ∧ Longer k p.d2 p'.d2) (by
      intro a b a' b' t ha hb ra rb _
      have hh := SE3.lengths_hom k
      rw [longer_pose, longer_twist, longer_twist] at ra rb
      have e : ∀ s, vpoint SE3.ops (TCurve.piece a' b').curve s = _ := fun s => hh.vpoint (seg := (TCurve.piece a b).curve) (seg' := (TCurve.piece a' b').curve)
        ra.2.1 rb.2.1 (by simp only [TCurve.piece, TCurve.scaled, ra.1, rb.1, ra.2.2.1, map_smul])
          (by simp only [TCurve.piece, TCurve.scaled, ra.1, rb.1, rb.2.2.1, map_smul]) (by simp only [TCurve.piece, TCurve.scaled, ra.1, rb.1, ra.2.2.2, map_smul])
          (by simp only [TCurve.piece, TCurve.scaled, ra.1, rb.1, rb.2.2.2, map_smul]) s
      rw [longer_pose, longer_twist, longer_twist]
      unfold pieceFormula
      simp only [TCurve.unnormalize, e, ra.1, rb.1, id, map_smul]
      refine ⟨?_, trivial, trivial⟩
      rw [hh.mul]
      exact congrArg _ ra.2.1) t
  exact alike_of (this.imp_right .inl)

/-- A curve in metres and the same in millimetres. -/
example (f : ℝ → Pose × Twist × Twist) : ∃ c c' : TCurve Pose Twist, Built c ∧ Built c' ∧ Resized 1000 c c' ∧
    ∃ p p', TCurve.pointAt SE3.ops c 2 = .ok p ∧ TCurve.pointAt SE3.ops c' 2 = .ok p' ∧ Longer 1000 p.g.val p'.g.val := by
  obtain ⟨c, hb, hw, hc⟩ := sampled f [0, 1, 3] (by norm_num)
  obtain ⟨c', hb', hw', hc'⟩ := sampled (fun t => (SE3.lengths 1000 (f t).1, SE3.lengthsTwist 1000 (f t).2.1, SE3.lengthsTwist 1000 (f t).2.2)) [0, 1, 3]
    (by norm_num)
  have hR : Resized 1000 c c' := by
    unfold Resized
    rw [hc, hc', List.forall₂_map_left_iff, List.forall₂_map_right_iff]
    exact List.forall₂_same.mpr fun t _ => ⟨rfl, longer_pose.mpr rfl, longer_twist.mpr rfl, longer_twist.mpr rfl⟩
  obtain ⟨p, hp⟩ := (c41_domain SE3.ops c hb hw 2).1.mpr ⟨by rw [hc]; simp, 0, 3, by unfold TCurve.startTime; rw [hc]; simp,
    by unfold TCurve.endTime; rw [hc]; simp, by norm_num, by norm_num⟩
  obtain ⟨p', hp', h⟩ := alike_ok (c86_curve c c' hb hb' hw hw' 1000 hR 2) hp
  exact ⟨c, c', hb, hb', hR, p, p', hp, hp', h.1⟩

/-- Velocity and acceleration with lengths in another unit: angular parts stay. -/
def LongerDerivatives (k : ℝ) (v v' : RBDerivatives) : Prop :=
  v'.velocity.angular = v.velocity.angular ∧ v'.acceleration.angular = v.acceleration.angular ∧
    ∀ i, v'.velocity.linear i = k * v.velocity.linear i ∧ v'.acceleration.linear i = k * v.acceleration.linear i

theorem longerDerivatives_iff {k : ℝ} {s s' : RBState} :
    LongerDerivatives k s.bodyDerivatives s'.bodyDerivatives ↔ Longer k s.twoJet.d s'.twoJet.d ∧ Longer k s.twoJet.d2 s'.twoJet.d2 :=
  ⟨fun h => ⟨⟨h.1, fun i => (h.2.2 i).1⟩, ⟨h.2.1, fun i => (h.2.2 i).2⟩⟩, fun h => ⟨h.1.1, h.2.1, fun i => ⟨h.1.2 i, h.2.2 i⟩⟩⟩

/-- C86 for trajectories. -/
theorem c86_trajectory (T T' : Trajectory) (acc acc' : List TrajControl) (h : Reached T acc) (h' : Reached T' acc')
    (hv : ∀ p ∈ acc, IsRotation p.state.refFromBody.val.1) (k : ℝ)
    (hR : List.Forall₂ (fun p p' : TrajControl => p'.atTime = p.atTime ∧ Longer k p.state.refFromBody.val p'.state.refFromBody.val ∧
      LongerDerivatives k p.state.bodyDerivatives p'.state.bodyDerivatives) acc acc') (t : Int) :
    Alike (fun s s' : RBState => Longer k s.refFromBody.val s'.refFromBody.val ∧ LongerDerivatives k s.bodyDerivatives s'.bodyDerivatives)
      (Trajectory.pointAt T t) (Trajectory.pointAt T' t) := by
  have hs := start_of_times h h' hR fun _ _ r => r.1
  have hh := SE3.lengths_hom k
  have hv' : ∀ p ∈ acc', IsRotation p.state.refFromBody.val.1 := by
    intro p' hp'
    obtain ⟨i, hi, rfl⟩ := List.mem_iff_getElem.mp hp'
    have hi' : i < acc.length := hR.length_eq ▸ hi
    rw [(forall2_get hR hi').2.1.1]
    exact hv _ (List.getElem_mem hi')
  have g := goodTraj_of_reached h hv
  have g' := goodTraj_of_reached h' hv'
  have hI := inv_of_reached h
  have hI' := inv_of_reached h'
  have hcur : Resized k T.curve T'.curve := by
    unfold Resized
    rw [hI.controls, hI'.controls, List.forall₂_map_left_iff, List.forall₂_map_right_iff]
    refine hR.imp fun p p' ⟨r1, r2, r3⟩ => ?_
    obtain ⟨e1, e2⟩ := longerDerivatives_iff.mp r3
    rw [longer_twist] at e1 e2
    rw [longer_pose] at r2
    refine ⟨?_, ?_, ?_, ?_⟩
    · simp only [Trajectory.toControl, r1, hs]
    · simp only [Trajectory.toControl]
      rw [longer_pose, r2, hh.inv]
    · simp only [Trajectory.toControl, longer_twist, e1, map_neg]
    · simp only [Trajectory.toControl, longer_twist, e2, map_neg]
  have hc := c86_curve T.curve T'.curve g.1 g'.1 g.2.1 g'.2.1 k hcur (Binary64.asSeconds (t - T.startTime) : ℝ)
  refine traj_alike g g' (by rw [hs]) hc ?_
  rintro j j' ⟨e1, e2, e3⟩ v v'
  rw [longer_pose] at e1
  rw [longer_twist] at e2 e3
  refine ⟨?_, longerDerivatives_iff.mpr ⟨?_, ?_⟩⟩
  · simp only [RBState.refFromBody]
    rw [longer_pose, e1, hh.inv]
  · simp only [RBState.twoJet, longer_twist, e2, map_neg]
  · simp only [RBState.twoJet, longer_twist, e3, map_neg]

/-- Three states in metres and the same in millimetres. -/
example : ∃ T T' acc acc' s s', Reached T acc ∧ Reached T' acc' ∧ Trajectory.pointAt T 120 = .ok s ∧ Trajectory.pointAt T' 120 = .ok s' ∧
    Longer 1000 s.refFromBody.val s'.refFromBody.val ∧ s'.angularVelocity = s.angularVelocity := by
  let f : Int → RBState := fun t => exAt quarterTurn ![(t : ℝ), 2, 3]
  let f' : Int → RBState := fun t => ⟨⟨⟨SE3.lengths 1000 (f t).refFromBody.val, exFrame 1, exFrame 2⟩, SE3.lengthsTwist 1000 (f t).twoJet.d,
    SE3.lengthsTwist 1000 (f t).twoJet.d2⟩⟩
  obtain ⟨T, hT⟩ := exReached f (fun _ => ⟨exAt_whole _ _, rfl, rfl⟩) 100 (by decide) [115, 230] (by decide)
    (by decide) (by decide)
  obtain ⟨T', hT'⟩ := exReached f' (fun _ => ⟨(by decide : exFrame 1 = Frame.null ↔ exFrame 2 = Frame.null), rfl, rfl⟩) 100 (by decide) [115, 230]
    (by decide) (by decide) (by decide)
  obtain ⟨s, h1, -⟩ := c51_inside T _ ⟨230, f 230⟩ [⟨115, f 115⟩] hT 120 (by decide) (by decide)
  obtain ⟨s', h2, h3, h4⟩ := alike_ok (c86_trajectory T T' _ _ hT hT' (by
    intro p hp
    rw [List.mem_map] at hp
    obtain ⟨t, -, rfl⟩ := hp
    exact quarterTurn_isRotation) 1000 (by
    rw [List.forall₂_map_left_iff, List.forall₂_map_right_iff]
    exact List.forall₂_same.mpr fun t _ => ⟨rfl, longer_pose.mpr rfl, longerDerivatives_iff.mpr ⟨longer_twist.mpr rfl, longer_twist.mpr rfl⟩⟩) 120) h1
  exact ⟨T, T', _, _, s, s', hT, hT', h1, h2, h3, h4.1⟩

/-- C86 for distance curves: arc lengths and points are in the new unit. -/
theorem c86_distance (c c' : DCurve Pose) (h : DBuilt SE3.ops SE3.arcLength c) (h' : DBuilt SE3.ops SE3.arcLength c') (k : ℝ) (hk : 0 < k)
    (hR : List.Forall₂ (fun p p' : DControl Pose => Longer k p.pose.val p'.pose.val) c.controls c'.controls) (s : ℝ) :
    DCurve.curveLength c' = k * DCurve.curveLength c ∧
    Alike (fun g g' : Framed Pose => Longer k g.val g'.val) (DCurve.pointAt SE3.ops c s) (DCurve.pointAt SE3.ops c' (k * s)) := by
  have hh := SE3.lengths_hom k
  have harc : ∀ g, SE3.arcLength (SE3.lengths k g) = k * SE3.arcLength g := by
    intro g
    have : SE3.log (SE3.lengths k g) = SE3.lengthsTwist k (SE3.log g) := (hh.log g).symm
    unfold SE3.arcLength
    rw [this]
    change eucNorm (k • (SE3.log g).2) = _
    rw [eucNorm_smul, abs_of_pos hk]
  have := DCurve.transport SE3.ops SE3.arcLength (fun _ => eucNorm_nonneg _) (dInv_of_built h) (dInv_of_built h') hk
    (fun g g' => Longer k g.val g'.val) hR (by
      intro a b a' b' ha hb ra rb
      rw [longer_pose] at ra rb
      rw [ra, rb, ← hh.inv, ← hh.mul, harc]) (fun g g' => Longer k g g') (by
      intro a b a' b' s ha hb ra rb la lb
      rw [longer_pose] at ra rb ⊢
      unfold DCurve.pieceVal
      rw [hh.mul, hh.exp, hh.smul, hh.smul, map_smul, hh.log, hh.mul, hh.inv, ra, rb, la, lb]
      congr 3
      rw [← mul_sub, ← mul_sub, mul_div_mul_left _ _ hk.ne']) s
  exact ⟨this.1, alike_of this.2⟩

/-- Any poses, in metres and in millimetres. -/
example (poses : List Pose) : ∃ c c' : DCurve Pose, DBuilt SE3.ops SE3.arcLength c ∧ DBuilt SE3.ops SE3.arcLength c' ∧
    c.controls.length = poses.length ∧ DCurve.curveLength c' = 1000 * DCurve.curveLength c ∧
    ∀ s g, DCurve.pointAt SE3.ops c s = .ok g → ∃ g', DCurve.pointAt SE3.ops c' (1000 * s) = .ok g' ∧ Longer 1000 g.val g'.val := by
  obtain ⟨c, hb, hc⟩ := framed_built poses
  obtain ⟨c', hb', hc'⟩ := framed_built (poses.map (SE3.lengths 1000))
  have hR : List.Forall₂ (fun p p' : DControl Pose => Longer 1000 p.pose.val p'.pose.val) c.controls c'.controls := by
    have : List.Forall₂ (fun g g' : Framed Pose => Longer 1000 g.val g'.val) (c.controls.map (·.pose)) (c'.controls.map (·.pose)) := by
      rw [hc, hc', List.map_map, List.forall₂_map_left_iff, List.forall₂_map_right_iff]
      exact List.forall₂_same.mpr fun g _ => longer_pose.mpr rfl
    rw [List.forall₂_map_left_iff, List.forall₂_map_right_iff] at this
    exact this
  refine ⟨c, c', hb, hb', by simpa using congrArg List.length hc, (c86_distance c c' hb hb' 1000 (by norm_num) hR 0).1, fun s g hg => ?_⟩
  exact alike_ok (c86_distance c c' hb hb' 1000 (by norm_num) hR s).2 hg

end Verif.Props
