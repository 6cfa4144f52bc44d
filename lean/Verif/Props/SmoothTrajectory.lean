import Verif.Props.ExactMotion
import Verif.Props.Trajectory
import Verif.Props.CurveExamples
/-! # C90: a trajectory is one smooth motion -/
namespace Verif.Props
open Verif.Framed Verif.Spec SO3 Matrix Binary64

/-- How much translation two neighbouring states `dt` seconds apart ask for: their distance and their body velocities and accelerations. -/
noncomputable def stateTranslation (dt : ℝ) (a b : RBState) : ℝ :=
  dataSize (2 * eucNorm (b.refFromBody.val.2 - a.refFromBody.val.2)) dt a.twoJet.d.2 b.twoJet.d.2 a.twoJet.d2.2 b.twoJet.d2.2

/-- How much rotation they ask for: the angle between them, and their angular velocities and accelerations. -/
noncomputable def stateRotation (dt : ℝ) (a b : RBState) : ℝ :=
  dataSize (eucNorm (SO3.log (b.refFromBody.val.1.transpose * a.refFromBody.val.1))) dt a.twoJet.d.1 b.twoJet.d.1 a.twoJet.d2.1 b.twoJet.d2.1

/-- An answer of a trajectory against a pose with body velocity and acceleration: equal rotation parts, and translation parts within distances fixed
by the two states around the time asked for, `dt` seconds apart. -/
def StateClose (dt : ℝ) (a b s : RBState) (q : Pose × Twist × Twist) : Prop :=
  (s.refFromBody.val.1 = q.1.1 ∧ s.twoJet.d.1 = q.2.1.1 ∧ s.twoJet.d2.1 = q.2.2.1) ∧
  eucNorm (s.refFromBody.val.2 - q.1.2) ≤ 2e-15 * stateTranslation dt a b ∧
  eucNorm (s.twoJet.d.2 - q.2.1.2) ≤ 4e-15 * (stateTranslation dt a b * (1 + stateRotation dt a b)) / dt ∧
  eucNorm (s.twoJet.d2.2 - q.2.2.2) ≤ 3e-14 * (stateTranslation dt a b * (1 + stateRotation dt a b) ^ 2) / dt ^ 2

theorem state_sizes {a b : RBState} (ha : IsRotation a.refFromBody.val.1) (hb : IsRotation b.refFromBody.val.1) (dt : ℝ) (o d : TwoJetL Pose Twist)
    (ho : o = ⟨⟨SE3.ops.inv a.refFromBody.val, a.refFromBody.src, a.refFromBody.into⟩, -a.twoJet.d, -a.twoJet.d2⟩)
    (hd : d = ⟨⟨SE3.ops.inv b.refFromBody.val, b.refFromBody.src, b.refFromBody.into⟩, -b.twoJet.d, -b.twoJet.d2⟩) :
    translationSize dt o d = stateTranslation dt a b ∧ rotationSize dt o d = stateRotation dt a b := by
  have n : ∀ (r dt : ℝ) (v0 v1 a0 a1 : V3), dataSize r dt (-v0) (-v1) (-a0) (-a1) = dataSize r dt v0 v1 a0 a1 := by
    intro r dt v0 v1 a0 a1
    simp only [dataSize, eucNorm_neg]
  have e : relativeTranslation (SE3.ops.inv a.refFromBody.val) (SE3.ops.inv b.refFromBody.val) =
      b.refFromBody.val.1.transpose *ᵥ (a.refFromBody.val.2 - b.refFromBody.val.2) := by
    have h1 := congrArg Prod.snd (rel_eq (SE3.ops.inv a.refFromBody.val) (SE3.ops.inv b.refFromBody.val))
    refine h1.symm.trans ?_
    change b.refFromBody.val.1.transpose *ᵥ ((a.refFromBody.val.1.transpose).transpose *ᵥ (-(a.refFromBody.val.1.transpose *ᵥ (-a.refFromBody.val.2))))
      + b.refFromBody.val.1.transpose *ᵥ (-b.refFromBody.val.2) = _
    rw [transpose_transpose, mulVec_neg a.refFromBody.val.2, neg_neg, mulVec_mulVec a.refFromBody.val.2 a.refFromBody.val.1,
      mul_eq_one_comm.mp ha.orth, one_mulVec, ← mulVec_add, sub_eq_add_neg]
  have e2 : relativeRotation (SE3.ops.inv a.refFromBody.val) (SE3.ops.inv b.refFromBody.val) =
      SO3.log (b.refFromBody.val.1.transpose * a.refFromBody.val.1) := by
    simp [relativeRotation, SE3.ops, SE3.inv, SO3.inv]
  have ht : IsRotation b.refFromBody.val.1.transpose := se3Laws.valid_inv (valid := PoseValid) hb
  subst ho hd
  constructor
  · unfold translationSize stateTranslation
    simp only
    rw [e, eucNorm_mulVec ht, ← eucNorm_neg, neg_sub]
    exact n _ _ _ _ _ _
  · unfold rotationSize stateRotation
    simp only
    rw [e2]
    exact n _ _ _ _ _ _

theorem traj_query_jet (T : Trajectory) (first : TrajControl) (rest : List TrajControl) (h : Reached T (first :: rest)) (t : Int) (s : RBState)
    (hs : Trajectory.pointAt T t = .ok s) :
    ∃ j, TCurve.pointAt SE3.ops T.curve (Binary64.asSeconds (t - first.atTime) : ℝ) = .ok j ∧ s.refFromBody.val = SE3.ops.inv j.g.val ∧
      s.twoJet.d = -j.d ∧ s.twoJet.d2 = -j.d2 := by
  have hst := c50_start_time T first rest h
  unfold Trajectory.pointAt at hs
  obtain ⟨d, hd, hs1⟩ := bind_ok hs
  obtain ⟨j, hj, hs2⟩ := bind_ok hs1
  obtain ⟨r, hr, hs3⟩ := bind_ok hs2
  have hd' : d = t - first.atTime := by
    unfold i64 at hd
    split_ifs at hd
    rw [← hst]
    exact (Outcome.ok.inj hd).symm
  subst hd'
  unfold TwoJetL.right at hr
  obtain ⟨q, hq, hr2⟩ := bind_ok hr
  rw [Framed.inverse, mk'_eq_ok_iff] at hq
  rw [← Outcome.ok.inj hs3, ← Outcome.ok.inj hr2]
  refine ⟨j, hj, ?_, rfl, rfl⟩
  change q.val = _
  rw [hq.2]

/-- C90.  The states of a trajectory form one motion of the body: next to every trajectory there is a motion that passes through every control at its time with
exactly its pose, velocity and acceleration, that is twice differentiable at every time in between and has there exactly the body velocity and acceleration it is
given with, and every answer of the trajectory agrees with it: the rotation parts exactly, the translation parts up to rounding-sized distances. -/
theorem c90_smooth (T : Trajectory) (acc : List TrajControl) (first last : TrajControl) (mid : List TrajControl) (hacc : acc = first :: (mid ++ [last]))
    (h : Reached T acc) (hv : ∀ p ∈ acc, IsRotation p.state.refFromBody.val.1) :
    ∃ γ : ℝ → Pose × Twist × Twist,
      (∀ p ∈ acc, γ (asSeconds (p.atTime - first.atTime)) = (p.state.refFromBody.val, p.state.twoJet.d, p.state.twoJet.d2)) ∧
      (∀ τ : ℝ, 0 < τ → τ < (asSeconds (last.atTime - first.atTime) : ℝ) →
        HasRightJet poseMatrix twistHat (fun r => (γ r).1) τ (γ τ).2.1 (γ τ).2.2) ∧
      ∀ t : Int, first.atTime ≤ t → t ≤ last.atTime → ∃ (i : Nat) (hi : i + 1 < acc.length) (s : RBState),
        (asSeconds (acc[i].atTime - first.atTime) : ℝ) ≤ asSeconds (t - first.atTime) ∧
        (asSeconds (t - first.atTime) : ℝ) ≤ asSeconds (acc[i + 1].atTime - first.atTime) ∧
        Trajectory.pointAt T t = .ok s ∧
        StateClose (asSeconds (acc[i + 1].atTime - first.atTime) - asSeconds (acc[i].atTime - first.atTime) : ℝ) acc[i].state acc[i + 1].state s
          (γ (asSeconds (t - first.atTime))) := by
  have hI := inv_of_reached h
  have hst : T.startTime = first.atTime := by
    subst hacc
    exact c50_start_time T first (mid ++ [last]) h
  have hc := hI.controls
  rw [hst] at hc
  obtain ⟨hlen, k0, k1, k2⟩ := curve_range (T := T) (first := first) (last := last) (mid := mid) (by rw [hacc] at hI; exact hI)
  have hv' : ∀ q ∈ T.curve.controls, IsRotation q.point.g.val.1 := by
    intro q hq
    rw [hc, List.mem_map] at hq
    obtain ⟨r, hr, rfl⟩ := hq
    exact se3Laws.valid_inv (hv r hr)
  have hs : TCurve.startTime T.curve = .ok 0 := by
    unfold TCurve.startTime
    rw [List.head?_eq_getElem?, List.getElem?_eq_getElem (by omega)]
    simp only [k0]
  have he : TCurve.endTime T.curve = .ok (asSeconds (last.atTime - first.atTime) : ℝ) := by
    unfold TCurve.endTime
    rw [List.getLast?_eq_getElem?, List.getElem?_eq_getElem (by omega)]
    simp only [k1]
  obtain ⟨γ, g1, g2, g3, g4⟩ := c70_se3_close T.curve hI.built (whole_curve hI) hlen hv' _ _ hs he
  refine ⟨fun τ => (SE3.ops.inv (γ τ).1, -(γ τ).2.1, -(γ τ).2.2), ?_, ?_, ?_⟩
  · intro p hp
    have := g2 (Trajectory.toControl first.atTime p) (by rw [hc]; exact List.mem_map_of_mem hp)
    change γ (asSeconds (p.atTime - first.atTime) : ℝ) = _ at this
    simp only [this]
    simp only [Trajectory.toControl, neg_neg]
    rw [se3Laws.inv_inv (hv p hp)]
  · intro τ t0 t1
    exact se3Rep.left_inv (g := fun r => (γ r).1) (fun r => g1 r) (g3 τ t0 t1)
  · intro t t0 t1
    obtain ⟨s, hq, -⟩ := c51_inside T first last mid (by rw [hacc] at h; exact h) t t0 t1
    obtain ⟨j, hj, j1, j2, j3⟩ := traj_query_jet T first (mid ++ [last]) (by rw [hacc] at h; exact h) t s hq
    have m0 : (0 : ℚ) ≤ asSeconds (t - first.atTime) := by
      rw [← zero_seconds]
      exact c11_as_seconds_mono 0 (t - first.atTime) (by omega)
    have m1 : asSeconds (t - first.atTime) ≤ asSeconds (last.atTime - first.atTime) := c11_as_seconds_mono _ _ (by omega)
    obtain ⟨i, hi, p, b1, b2, b3, b4⟩ := g4 (asSeconds (t - first.atTime) : ℝ) (by exact_mod_cast m0) (by exact_mod_cast m1)
    have hi' : i + 1 < acc.length := by rw [hc, List.length_map] at hi; exact hi
    obtain rfl := Outcome.ok.inj (hj.symm.trans b3)
    have hget : ∀ (k : Nat) (hk : k < acc.length), T.curve.controls[k]'(by rw [hc, List.length_map]; exact hk) = Trajectory.toControl first.atTime acc[k] := by
      intro k hk
      simp [hc]
    rw [hget i (by omega)] at b1 b4
    rw [hget (i + 1) hi'] at b2 b4
    refine ⟨i, hi', s, b1, b2, hq, ?_⟩
    have ha := hv _ (List.getElem_mem (l := acc) (n := i) (by omega))
    have hb := hv _ (List.getElem_mem (l := acc) hi')
    have hg := g1 (asSeconds (t - first.atTime) : ℝ)
    beta_reduce
    generalize acc[i] = a at *
    generalize acc[i + 1] = b at *
    generalize γ (asSeconds (t - first.atTime) : ℝ) = q at *
    obtain ⟨⟨r1, r2, r3⟩, r4, r5, r6⟩ := b4
    obtain ⟨s1, s2⟩ := state_sizes ha hb ((Trajectory.toControl first.atTime b).time - (Trajectory.toControl first.atTime a).time) _ _
      (rfl : (Trajectory.toControl first.atTime a).point = _) (rfl : (Trajectory.toControl first.atTime b).point = _)
    rw [s1] at r4 r5 r6
    rw [s2] at r5 r6
    have neg : ∀ x y : V3, eucNorm (-x - -y) = eucNorm (x - y) := fun x y => by
      rw [← eucNorm_neg, neg_sub, sub_neg_eq_add, neg_add_eq_sub]
    refine ⟨⟨?_, ?_, ?_⟩, ?_, ?_, ?_⟩
    · rw [j1]
      change j.g.val.1.transpose = q.1.1.transpose
      rw [r1]
    · rw [j2]
      exact congrArg Neg.neg r2
    · rw [j3]
      exact congrArg Neg.neg r3
    · rw [j1]
      change eucNorm (j.g.val.1.transpose *ᵥ (-j.g.val.2) - q.1.1.transpose *ᵥ (-q.1.2)) ≤ _
      rw [r1, ← mulVec_sub, eucNorm_mulVec (isRotation_transpose hg), neg]
      exact r4
    · rw [j2]
      exact (neg _ _).trans_le r5
    · rw [j3]
      exact (neg _ _).trans_le r6

/-- The hypotheses of `c90_smooth` hold for a body that turns by small angles while it moves, with three controls. -/
example : ∃ (T : Trajectory) (acc : List TrajControl) (first last : TrajControl) (mid : List TrajControl), acc = first :: (mid ++ [last]) ∧ Reached T acc ∧
    (∀ p ∈ acc, IsRotation p.state.refFromBody.val.1) ∧ acc.length = 3 ∧ first.state.refFromBody.val.1 ≠ last.state.refFromBody.val.1 := by
  obtain ⟨T, hT⟩ := exReached (fun t => exAt (SO3.exp ![0.0001 * (t : ℝ), 0, 0]) ![(t : ℝ), 2, 3]) (fun _ => ⟨exAt_whole _ _, rfl, rfl⟩) 100 (by decide)
    [115, 230] (by decide) (by decide) (by decide)
  refine ⟨T, ([100, 115, 230] : List Int).map fun t => ⟨t, exAt (SO3.exp ![0.0001 * (t : ℝ), 0, 0]) ![(t : ℝ), 2, 3]⟩, _, _, [⟨115, exAt (SO3.exp ![0.0001 * ((115 : ℤ) : ℝ), 0, 0]) ![((115 : ℤ) : ℝ), 2, 3]⟩], rfl, hT, ?_, rfl, ?_⟩
  · intro p hp
    obtain ⟨t, -, rfl⟩ := List.mem_map.mp hp
    exact SO3.isRotation_exp _
  · change SO3.exp _ ≠ SO3.exp _
    intro e
    have l : ∀ x : ℝ, 0 ≤ x → x ≤ 1 → SO3.log (SO3.exp ![x, 0, 0]) = ![x, 0, 0] := by
      intro x h0 h1
      refine SO3.log_exp ?_
      have : sqNorm (![x, 0, 0] : V3) = x ^ 2 := by rw [sqNorm_eq]; simp
      rw [eucNorm, this, Real.sqrt_sq h0]
      linarith [Real.pi_gt_three]
    have := congrArg SO3.log e
    rw [l _ (by norm_num) (by norm_num), l _ (by norm_num) (by norm_num)] at this
    have := congrFun this 0
    norm_num at this

end Verif.Props
