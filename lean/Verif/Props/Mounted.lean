import Verif.Proofs.Mount
import Verif.Proofs.Approx
import Verif.Props.Change
import Verif.Props.SmoothTrajectory
/-! # C91: something fixed to the moving body -/
namespace Verif.Props
open Verif.Framed Verif.Spec SO3 Matrix Binary64

/-- Less than half a turn from one orientation to the other. -/
def LessThanHalfTurn (a b : M3) : Prop := -1 < (b * a.transpose).trace

theorem lessThanHalfTurn_log {a b : M3} (ha : IsRotation a) (hb : IsRotation b) (h : LessThanHalfTurn a b) : eucNorm (SO3.log (b * a.transpose)) < Real.pi := by
  have hr : IsRotation (b * a.transpose) := so3Laws.valid_mul hb (isRotation_transpose ha)
  obtain ⟨h1, h2⟩ := SO3.exp_log hr
  refine h2.lt_of_ne fun e => ?_
  unfold LessThanHalfTurn at h
  rw [← h1, Approx.trace_exp, e, Real.cos_pi] at h
  norm_num at h

section
variable {n : Type} [Fintype n] [DecidableEq n] {G A V : Type} [NormedAddCommGroup A] [NormedSpace ℝ A]

/-- A pose with velocity and acceleration, and the same for something fixed to the body by `k` (`mount_from_body`): the velocities (`g' = hat v · g`) are those of
the mounted frame. -/
def SeenFrom (M : G → Matrix n n ℝ) (hat : A → Matrix n n ℝ) (k : G) (p q : G × A × A) : Prop :=
  M q.1 = M k * M p.1 ∧ hat q.2.1 * M k = M k * hat p.2.1 ∧ hat q.2.2 * M k = M k * hat p.2.2

/-- The controls of the second curve are those of the first, for something fixed to the moving body by `k`: the same times. -/
def MountedControls (M : G → Matrix n n ℝ) (hat : A → Matrix n n ℝ) (k : G) (c c' : TCurve G A) : Prop :=
  List.Forall₂ (fun p p' : TControl G A => p'.time = p.time ∧
    SeenFrom M hat k (p.point.g.val, p.point.d, p.point.d2) (p'.point.g.val, p'.point.d, p'.point.d2)) c.controls c'.controls

theorem seenFrom_iff {L : LieOps ℝ G A V} {valid : G → Prop} {M : G → Matrix n n ℝ} {hat : A → Matrix n n ℝ} (P : MatRep L valid M hat)
    (hinj : ∀ {x y}, hat x = hat y → x = y) {k : G} (hk : valid k) (p q : G × A × A) :
    SeenFrom M hat k p q ↔ q.1 = L.mul k p.1 ∧ q.2.1 = L.Ad k p.2.1 ∧ q.2.2 = L.Ad k p.2.2 := by
  have m1 : M k * M (L.inv k) = 1 := by rw [← P.M_mul, P.laws.mul_inv hk, P.M_one]
  have m2 : M (L.inv k) * M k = 1 := by rw [← P.M_mul, P.laws.inv_mul hk, P.M_one]
  have e : ∀ x y : A, hat y * M k = M k * hat x ↔ y = L.Ad k x := by
    intro x y
    constructor
    · intro h
      refine hinj ?_
      rw [P.hat_Ad hk, ← h, Matrix.mul_assoc, m1, Matrix.mul_one]
    · rintro rfl
      rw [P.hat_Ad hk, Matrix.mul_assoc, m2, Matrix.mul_one]
  unfold SeenFrom
  rw [e, e, ← P.M_mul]
  exact ⟨fun h => ⟨P.M_inj h.1, h.2⟩, fun h => ⟨by rw [h.1], h.2⟩⟩

end

theorem rotHat_inj {x y : V3} (h : rotHat x = rotHat y) : x = y := by
  have h0 := congrFun (congrFun h 2) 1
  have h1 := congrFun (congrFun h 0) 2
  have h2 := congrFun (congrFun h 1) 0
  change x 0 = y 0 at h0
  change x 1 = y 1 at h1
  change x 2 = y 2 at h2
  funext i
  fin_cases i <;> assumption

theorem twistHat_inj {x y : Twist} (h : twistHat x = twistHat y) : x = y := SE3.T_injective h

/-- C91 for rotations.  A curve through the orientations of something fixed to a turning body, with its angular velocities and accelerations, is the motion of
that thing on the body, if neighbouring controls are less than half a turn apart. -/
theorem c91_so3 (c c' : TCurve M3 V3) (h : Built c) (h' : Built c') (hw : WholeFrames c) (hw' : WholeFrames c')
    (hv : ∀ p ∈ c.controls, IsRotation p.point.g.val)
    (hturn : ∀ (i : Nat) (hi : i + 1 < c.controls.length), LessThanHalfTurn c.controls[i].point.g.val c.controls[i + 1].point.g.val)
    (k : M3) (hk : IsRotation k) (hR : MountedControls (fun R : M3 => R) rotHat k c c') (t : ℝ) :
    Alike (fun p p' : TwoJetL M3 V3 => SeenFrom (fun R : M3 => R) rotHat k (p.g.val, p.d, p.d2) (p'.g.val, p'.d, p'.d2))
      (TCurve.pointAt SO3.ops c t) (TCurve.pointAt SO3.ops c' t) := by
  have key := seenFrom_iff so3Rep rotHat_inj hk
  have := TCurve.transport_at SO3.ops SO3.ops (inv_of_built h) (inv_of_built h') hw hw' id strictMono_id _ hR (fun p p' e => e.1)
    (fun p p' : TwoJetL M3 V3 => SeenFrom (fun R : M3 => R) rotHat k (p.g.val, p.d, p.d2) (p'.g.val, p'.d, p'.d2)) t (by
      intro i hi hi' t0 t1
      have ra := forall2_get hR (show i < c.controls.length by omega)
      have rb := forall2_get hR hi
      simp only [key] at ra rb
      rw [key]
      have va := hv _ (List.getElem_mem (show i < c.controls.length by omega))
      have vb := hv _ (List.getElem_mem hi)
      exact piece_left so3Laws (fun x => SO3.isRotation_exp x) hk (SO3.exp_conj hk) va ra rb
        (SO3.log_conj hk (so3Laws.valid_mul vb (isRotation_transpose va)) (lessThanHalfTurn_log va vb (hturn i hi))) t)
  exact alike_of (this.imp_right .inl)

/-- A body that makes a quarter turn, and a camera mounted on it at a quarter turn. -/
example : ∃ c c' : TCurve M3 V3, Built c ∧ Built c' ∧ WholeFrames c ∧ WholeFrames c' ∧ (∀ p ∈ c.controls, IsRotation p.point.g.val) ∧
    (∀ (i : Nat) (hi : i + 1 < c.controls.length), LessThanHalfTurn c.controls[i].point.g.val c.controls[i + 1].point.g.val) ∧ IsRotation quarterTurn ∧
    MountedControls (fun R : M3 => R) rotHat quarterTurn c c' ∧ c.controls.length = 2 := by
  obtain ⟨c, h1, h2, h3⟩ := sampled (fun t => ((if t = 0 then 1 else quarterTurn, ![1, 2, 3], 0) : M3 × V3 × V3)) [0, 1] (by simp)
  obtain ⟨c', h1', h2', h3'⟩ := sampled (fun t => ((quarterTurn * (if t = 0 then 1 else quarterTurn), quarterTurn *ᵥ ![1, 2, 3], quarterTurn *ᵥ 0) : M3 × V3 × V3))
    [0, 1] (by simp)
  refine ⟨c, c', h1, h1', h2, h2', ?_, ?_, quarterTurn_isRotation, ?_, by rw [h3]; rfl⟩
  · intro p hp
    rw [h3, List.mem_map] at hp
    obtain ⟨t, -, rfl⟩ := hp
    simp only
    split
    · exact isRotation_one
    · exact quarterTurn_isRotation
  · intro i hi
    have hl : c.controls.length = 2 := by rw [h3]; rfl
    obtain rfl : i = 0 := by omega
    unfold LessThanHalfTurn
    simp [h3]
    simp [quarterTurn, Matrix.trace, Fin.sum_univ_three]
  · unfold MountedControls
    rw [h3, h3', List.forall₂_map_left_iff, List.forall₂_map_right_iff]
    exact List.forall₂_same.mpr fun t _ => ⟨rfl, (seenFrom_iff so3Rep rotHat_inj quarterTurn_isRotation _ _).mpr ⟨rfl, rfl, rfl⟩⟩

/-- A point against a pose with velocity and acceleration, with the distances of the two segments involved added up. -/
def MountedClose (dt : ℝ) (a b a' b' p : TwoJetL Pose Twist) (q : Pose × Twist × Twist) : Prop :=
  Within p q (2e-15 * (translationSize dt a b + translationSize dt a' b'))
    (4e-15 * (translationSize dt a b * (1 + rotationSize dt a b) + translationSize dt a' b' * (1 + rotationSize dt a' b')) / dt)
    (3e-14 * (translationSize dt a b * (1 + rotationSize dt a b) ^ 2 + translationSize dt a' b' * (1 + rotationSize dt a' b') ^ 2) / dt ^ 2)

theorem within_seen {k : Pose} (hk : IsRotation k.1) {p p' : TwoJetL Pose Twist} {x x' : Pose × Twist × Twist} {e0 e1 e2 f0 f1 f2 : ℝ} (h : Within p x e0 e1 e2)
    (h' : Within p' x' f0 f1 f2) (hx : x' = (SE3.mul k x.1, SE3.adjointTimes k x.2.1, SE3.adjointTimes k x.2.2)) :
    Within p' (SE3.mul k p.g.val, SE3.adjointTimes k p.d, SE3.adjointTimes k p.d2) (e0 + f0) (e1 + f1) (e2 + f2) := by
  obtain ⟨⟨a1, a2, a3⟩, a4, a5, a6⟩ := h
  obtain ⟨⟨b1, b2, b3⟩, b4, b5, b6⟩ := h'
  subst hx
  have tri : ∀ {u v w : V3} {e f : ℝ}, eucNorm (k.1 *ᵥ (u - v)) ≤ e → eucNorm w ≤ f → eucNorm (w - k.1 *ᵥ (u - v)) ≤ e + f := by
    intro u v w e f h1 h2
    rw [sub_eq_add_neg, add_comm e f]
    refine (eucNorm_add_le _ _).trans (add_le_add h2 ?_)
    rwa [eucNorm_neg]
  rw [← eucNorm_mulVec hk] at a4 a5 a6
  refine ⟨⟨?_, ?_, ?_⟩, ?_, ?_, ?_⟩
  · rw [b1]
    change k.1 * x.1.1 = k.1 * p.g.val.1
    rw [a1]
  · rw [b2]
    change k.1 *ᵥ x.2.1.1 = k.1 *ᵥ p.d.1
    rw [a2]
  · rw [b3]
    change k.1 *ᵥ x.2.2.1 = k.1 *ᵥ p.d2.1
    rw [a3]
  · have := tri a4 b4
    refine le_of_eq_of_le ?_ this
    congr 1
    change p'.g.val.2 - (k.1 *ᵥ p.g.val.2 + k.2) = p'.g.val.2 - (k.1 *ᵥ x.1.2 + k.2) - k.1 *ᵥ (p.g.val.2 - x.1.2)
    rw [mulVec_sub]
    abel
  · have := tri a5 b5
    refine le_of_eq_of_le ?_ this
    congr 1
    change p'.d.2 - (k.2 ⨯₃ (k.1 *ᵥ p.d.1) + k.1 *ᵥ p.d.2) = p'.d.2 - (k.2 ⨯₃ (k.1 *ᵥ x.2.1.1) + k.1 *ᵥ x.2.1.2) - k.1 *ᵥ (p.d.2 - x.2.1.2)
    rw [mulVec_sub, a2]
    abel
  · have := tri a6 b6
    refine le_of_eq_of_le ?_ this
    congr 1
    change p'.d2.2 - (k.2 ⨯₃ (k.1 *ᵥ p.d2.1) + k.1 *ᵥ p.d2.2) = p'.d2.2 - (k.2 ⨯₃ (k.1 *ᵥ x.2.2.1) + k.1 *ᵥ x.2.2.2) - k.1 *ᵥ (p.d2.2 - x.2.2.2)
    rw [mulVec_sub, a3]
    abel

/-- C91 for rigid motions: the pose, velocity and acceleration of the mounted thing that belong to an answer of the body's curve, against the answer of the curve
through its own controls: equal rotation parts, and translation parts within rounding-sized distances. -/
theorem c91_se3 (c c' : TCurve Pose Twist) (h : Built c) (h' : Built c') (hw : WholeFrames c) (hw' : WholeFrames c')
    (hv : ∀ p ∈ c.controls, IsRotation p.point.g.val.1)
    (hturn : ∀ (i : Nat) (hi : i + 1 < c.controls.length), LessThanHalfTurn c.controls[i].point.g.val.1 c.controls[i + 1].point.g.val.1)
    (k : Pose) (hk : IsRotation k.1) (hR : MountedControls poseMatrix twistHat k c c') (t : ℝ) :
    Alike (fun p p' : TwoJetL Pose Twist => ∃ (i : Nat) (hi : i + 1 < c.controls.length) (hi' : i + 1 < c'.controls.length) (q : Pose × Twist × Twist),
        c.controls[i].time ≤ t ∧ t ≤ c.controls[i + 1].time ∧ SeenFrom poseMatrix twistHat k (p.g.val, p.d, p.d2) q ∧
        MountedClose (c.controls[i + 1].time - c.controls[i].time) c.controls[i].point c.controls[i + 1].point c'.controls[i].point c'.controls[i + 1].point p' q)
      (TCurve.pointAt SE3.ops c t) (TCurve.pointAt SE3.ops c' t) := by
  have key := seenFrom_iff se3Rep twistHat_inj (k := k) hk
  have := TCurve.transport_at SE3.ops SE3.ops (inv_of_built h) (inv_of_built h') hw hw' id strictMono_id _ hR (fun p p' e => e.1)
    (fun p p' : TwoJetL Pose Twist => ∃ (i : Nat) (hi : i + 1 < c.controls.length) (hi' : i + 1 < c'.controls.length) (q : Pose × Twist × Twist),
        c.controls[i].time ≤ t ∧ t ≤ c.controls[i + 1].time ∧ SeenFrom poseMatrix twistHat k (p.g.val, p.d, p.d2) q ∧
        MountedClose (c.controls[i + 1].time - c.controls[i].time) c.controls[i].point c.controls[i + 1].point c'.controls[i].point c'.controls[i + 1].point p' q) t (by
      intro i hi hi' t0 t1
      have ra := forall2_get hR (show i < c.controls.length by omega)
      have rb := forall2_get hR hi
      simp only [key] at ra rb
      have va : PoseValid c.controls[i].point.g.val := hv _ (List.getElem_mem (show i < c.controls.length by omega))
      have vb : PoseValid c.controls[i + 1].point.g.val := hv _ (List.getElem_mem hi)
      have hlt := (inv_of_built h).time_lt (show i + 1 < c.controls.length from hi) (show i < i + 1 by omega)
      have hl := lessThanHalfTurn_log va vb (hturn i hi)
      refine ⟨i, hi, hi', (SE3.mul k (pieceFormula SE3.ops c.controls[i] c.controls[i + 1] t).g.val,
        SE3.adjointTimes k (pieceFormula SE3.ops c.controls[i] c.controls[i + 1] t).d, SE3.adjointTimes k (pieceFormula SE3.ops c.controls[i] c.controls[i + 1] t).d2),
        t0, t1, (key _ _).mpr ⟨rfl, rfl, rfl⟩, ?_⟩
      generalize c.controls[i] = a at *
      generalize c.controls[i + 1] = b at *
      generalize c'.controls[i] = a' at *
      generalize c'.controls[i + 1] = b' at *
      have va' : PoseValid a'.point.g.val := by
        rw [ra.2.1]
        exact se3Laws.valid_mul (valid := PoseValid) hk va
      have vb' : PoseValid b'.point.g.val := by
        rw [rb.2.1]
        exact se3Laws.valid_mul (valid := PoseValid) hk vb
      have q1 := piece_close va vb hlt t0 t1
      have q2 := piece_close (a := a') (b := b') (t := t) va' vb' (by rw [ra.1, rb.1]; exact hlt) (by rw [ra.1]; exact t0) (by rw [rb.1]; exact t1)
      obtain ⟨x1, x2, x3⟩ := piece_left SE3.xlaws (fun x => SO3.isRotation_exp x.1) (k := k) hk (SE3.xexp_conj hk) va ra rb
        (SE3.xlog_conj hk (se3Laws.valid_mul (valid := PoseValid) vb (se3Laws.valid_inv (valid := PoseValid) va)) hl) t
      rw [ra.1, rb.1] at q2
      have := within_seen hk q1 q2 (Prod.ext x1 (Prod.ext x2 x3))
      unfold MountedClose
      rw [mul_add (2e-15 : ℝ), mul_add (4e-15 : ℝ), mul_add (3e-14 : ℝ), add_div, add_div]
      exact this)
  exact alike_of (this.imp_right .inl)

/-- The state of a body, and the state of something mounted on it by `m` (`body_from_mount`): its pose is the body's times `m`, its angular velocity is the body's,
its velocity is that of the place where it is mounted, and likewise for the derivatives of these, all in its own frame. -/
def SeenState (m : Pose) (s s' : RBState) : Prop :=
  poseMatrix s'.refFromBody.val = poseMatrix s.refFromBody.val * poseMatrix m ∧
  s'.angularVelocity = m.1.transpose *ᵥ s.angularVelocity ∧
  s'.linearVelocity = m.1.transpose *ᵥ (s.linearVelocity + s.angularVelocity ⨯₃ m.2) ∧
  s'.angularAcceleration = m.1.transpose *ᵥ s.angularAcceleration ∧
  s'.linearAcceleration = m.1.transpose *ᵥ (s.linearAcceleration + s.angularAcceleration ⨯₃ m.2)

/-- Two states with equal orientation, angular velocity and acceleration, and with positions, velocities and accelerations within distances fixed by the states of
body and mounted thing before and after, `dt` seconds apart. -/
def StatesClose (dt : ℝ) (a b a' b' s q : RBState) : Prop :=
  s.refFromBody.val.1 = q.refFromBody.val.1 ∧ s.angularVelocity = q.angularVelocity ∧ s.angularAcceleration = q.angularAcceleration ∧
  eucNorm (s.refFromBody.val.2 - q.refFromBody.val.2) ≤ 2e-15 * (stateTranslation dt a b + stateTranslation dt a' b') ∧
  eucNorm (s.linearVelocity - q.linearVelocity) ≤
    4e-15 * (stateTranslation dt a b * (1 + stateRotation dt a b) + stateTranslation dt a' b' * (1 + stateRotation dt a' b')) / dt ∧
  eucNorm (s.linearAcceleration - q.linearAcceleration) ≤
    3e-14 * (stateTranslation dt a b * (1 + stateRotation dt a b) ^ 2 + stateTranslation dt a' b' * (1 + stateRotation dt a' b') ^ 2) / dt ^ 2

theorem seenState_iff {m : Pose} (hm : IsRotation m.1) (s s' : RBState) : SeenState m s s' ↔
    s'.refFromBody.val = SE3.ops.mul s.refFromBody.val m ∧ s'.twoJet.d = SE3.ops.Ad (SE3.ops.inv m) s.twoJet.d ∧
      s'.twoJet.d2 = SE3.ops.Ad (SE3.ops.inv m) s.twoJet.d2 := by
  have e : ∀ x y : Twist, y = SE3.ops.Ad (SE3.ops.inv m) x ↔ y.1 = m.1.transpose *ᵥ x.1 ∧ y.2 = m.1.transpose *ᵥ (x.2 + x.1 ⨯₃ m.2) := by
    intro x y
    rw [Prod.ext_iff]
    have : (SE3.ops.Ad (SE3.ops.inv m) x).2 = m.1.transpose *ᵥ (x.2 + x.1 ⨯₃ m.2) := by
      change (m.1.transpose *ᵥ (-m.2)) ⨯₃ (m.1.transpose *ᵥ x.1) + m.1.transpose *ᵥ x.2 = _
      rw [← SO3.mulVec_cross (isRotation_transpose hm), ← mulVec_add, add_comm, LinearMap.map_neg, LinearMap.neg_apply, cross_anticomm]
    rw [this]
    exact Iff.rfl
  unfold SeenState
  rw [e, e, ← se3Rep.M_mul, and_assoc]
  exact ⟨fun h => ⟨se3Rep.M_inj h.1, h.2⟩, fun h => ⟨by rw [h.1], h.2⟩⟩

/-- C91 for trajectories.  The states of something mounted on a body, as a trajectory of its own, follow the body: at every time its state is the one that belongs
to the body's state at that time, up to rounding-sized distances, if neighbouring controls are less than half a turn apart.  The same times succeed. -/
theorem c91_trajectory (T T' : Trajectory) (acc acc' : List TrajControl) (h : Reached T acc) (h' : Reached T' acc')
    (hv : ∀ p ∈ acc, IsRotation p.state.refFromBody.val.1)
    (hturn : ∀ (i : Nat) (hi : i + 1 < acc.length), LessThanHalfTurn acc[i].state.refFromBody.val.1 acc[i + 1].state.refFromBody.val.1)
    (m : Pose) (hm : IsRotation m.1) (hR : List.Forall₂ (fun p p' : TrajControl => p'.atTime = p.atTime ∧ SeenState m p.state p'.state) acc acc') (t : Int) :
    Alike (fun s s' : RBState => ∃ (i : Nat) (hi : i + 1 < acc.length) (hi' : i + 1 < acc'.length) (q : RBState), SeenState m s q ∧
        (asSeconds (acc[i].atTime - acc[0].atTime) : ℝ) ≤ asSeconds (t - acc[0].atTime) ∧
        (asSeconds (t - acc[0].atTime) : ℝ) ≤ asSeconds (acc[i + 1].atTime - acc[0].atTime) ∧
        StatesClose (asSeconds (acc[i + 1].atTime - acc[0].atTime) - asSeconds (acc[i].atTime - acc[0].atTime)) acc[i].state acc[i + 1].state
          acc'[i].state acc'[i + 1].state s' q)
      (Trajectory.pointAt T t) (Trajectory.pointAt T' t) := by
  have hs := start_of_times h h' hR fun _ _ r => r.1
  have hR2 : List.Forall₂ (fun p p' : TrajControl => IsRotation p.state.refFromBody.val.1 ∧ p'.atTime = p.atTime ∧ SeenState m p.state p'.state) acc acc' :=
    (List.forall₂_and_left (p := fun p : TrajControl => IsRotation p.state.refFromBody.val.1) acc acc').mpr ⟨hv, hR⟩
  have hv' : ∀ p ∈ acc', IsRotation p.state.refFromBody.val.1 := by
    intro p' hp'
    obtain ⟨i, hi, rfl⟩ := List.mem_iff_getElem.mp hp'
    have hi' : i < acc.length := hR.length_eq ▸ hi
    rw [((seenState_iff hm _ _).mp (forall2_get hR hi').2).1]
    exact se3Laws.valid_mul (valid := PoseValid) (hv _ (List.getElem_mem hi')) hm
  have g := goodTraj_of_reached h hv
  have g' := goodTraj_of_reached h' hv'
  have hI := inv_of_reached h
  have hI' := inv_of_reached h'
  have hmi : PoseValid (SE3.ops.inv m) := se3Laws.valid_inv (valid := PoseValid) hm
  have key := seenFrom_iff se3Rep twistHat_inj hmi
  have hAd := se3Laws.Ad_neg (SE3.ops.inv m)
  have hcur : MountedControls poseMatrix twistHat (SE3.ops.inv m) T.curve T'.curve := by
    unfold MountedControls
    rw [hI.controls, hI'.controls, List.forall₂_map_left_iff, List.forall₂_map_right_iff]
    refine hR2.imp fun p p' ⟨hvp, r1, r2⟩ => ?_
    rw [seenState_iff hm] at r2
    rw [key]
    refine ⟨?_, ?_, ?_, ?_⟩
    · simp only [Trajectory.toControl, r1, hs]
    · simp only [Trajectory.toControl]
      rw [r2.1, se3Laws.inv_mul_rev (valid := PoseValid) hvp hm]
    · simp only [Trajectory.toControl, r2.2.1, hAd]
    · simp only [Trajectory.toControl, r2.2.2, hAd]
  have hget : ∀ (k : Nat) (hk : k < acc.length), T.curve.controls[k]'(by rw [hI.controls, List.length_map]; exact hk) = Trajectory.toControl T.startTime acc[k] := by
    intro k hk
    simp [hI.controls]
  have hget' : ∀ (k : Nat) (hk : k < acc'.length), T'.curve.controls[k]'(by rw [hI'.controls, List.length_map]; exact hk) = Trajectory.toControl T'.startTime acc'[k] := by
    intro k hk
    simp [hI'.controls]
  have ht : ∀ (i : Nat) (hi : i + 1 < T.curve.controls.length), LessThanHalfTurn T.curve.controls[i].point.g.val.1 T.curve.controls[i + 1].point.g.val.1 := by
    intro i hi
    have hi2 : i + 1 < acc.length := by rw [hI.controls, List.length_map] at hi; exact hi
    rw [hget i (by omega), hget (i + 1) hi2]
    have := hturn i hi2
    unfold LessThanHalfTurn at this ⊢
    change -1 < (acc[i + 1].state.refFromBody.val.1.transpose * (acc[i].state.refFromBody.val.1.transpose).transpose).trace
    rw [transpose_transpose, trace_mul_comm, ← trace_transpose, transpose_mul, transpose_transpose]
    exact this
  have hc := c91_se3 T.curve T'.curve g.1 g'.1 g.2.1 g'.2.1 g.2.2 ht _ hmi hcur (Binary64.asSeconds (t - T.startTime) : ℝ)
  refine traj_alike g g' (by rw [hs]) hc ?_
  rintro j j' ⟨i, hi, hi', q, t0, t1, hq, hclose⟩ v v'
  have hi2 : i + 1 < acc.length := by rw [hI.controls, List.length_map] at hi; exact hi
  have hi2' : i + 1 < acc'.length := by rw [← hR.length_eq]; exact hi2
  have hstart : T.startTime = acc[0].atTime := (hI.start acc[0] (by rw [List.head?_eq_getElem?]; simp)).symm
  rw [key] at hq
  obtain ⟨q1, q2, q3⟩ := hq
  rw [hget i (by omega), hget (i + 1) hi2, hget' i (by omega), hget' (i + 1) hi2'] at hclose
  rw [hget i (by omega)] at t0
  rw [hget (i + 1) hi2] at t1
  rw [hstart] at t0 t1
  rw [hs, hstart] at hclose
  refine ⟨i, hi2, hi2', ⟨⟨⟨SE3.ops.inv q.1, j.g.src, j.g.into⟩, -q.2.1, -q.2.2⟩⟩, ?_, t0, t1, ?_⟩
  · rw [seenState_iff hm]
    refine ⟨?_, ?_, ?_⟩
    · change SE3.ops.inv q.1 = SE3.ops.mul (SE3.ops.inv j.g.val) m
      rw [q1, se3Laws.inv_mul_rev (valid := PoseValid) hmi v, se3Laws.inv_inv (valid := PoseValid) hm]
    · change -q.2.1 = SE3.ops.Ad (SE3.ops.inv m) (-j.d)
      rw [q2, hAd]
    · change -q.2.2 = SE3.ops.Ad (SE3.ops.inv m) (-j.d2)
      rw [q3, hAd]
  · have ha := hv _ (List.getElem_mem (l := acc) (n := i) (by omega))
    have hb := hv _ (List.getElem_mem (l := acc) hi2)
    have ha' := hv' _ (List.getElem_mem (l := acc') (n := i) (by omega))
    have hb' := hv' _ (List.getElem_mem (l := acc') hi2')
    have vq : PoseValid q.1 := by
      rw [q1]
      exact se3Laws.valid_mul (valid := PoseValid) hmi v
    generalize acc[i] = a at *
    generalize acc[i + 1] = b at *
    generalize acc'[i] = a' at *
    generalize acc'[i + 1] = b' at *
    generalize acc[0].atTime = first at *
    obtain ⟨s1, s2⟩ := state_sizes ha hb ((Trajectory.toControl first b).time - (Trajectory.toControl first a).time) _ _
      (rfl : (Trajectory.toControl first a).point = _) (rfl : (Trajectory.toControl first b).point = _)
    obtain ⟨s1', s2'⟩ := state_sizes ha' hb' ((Trajectory.toControl first b).time - (Trajectory.toControl first a).time) _ _
      (rfl : (Trajectory.toControl first a').point = _) (rfl : (Trajectory.toControl first b').point = _)
    unfold MountedClose at hclose
    rw [s1, s2, s1', s2'] at hclose
    obtain ⟨⟨r1, r2, r3⟩, r4, r5, r6⟩ := hclose
    have neg : ∀ x y : V3, eucNorm (-x - -y) = eucNorm (x - y) := fun x y => by
      rw [← eucNorm_neg, neg_sub, sub_neg_eq_add, neg_add_eq_sub]
    refine ⟨?_, congrArg Neg.neg r2, congrArg Neg.neg r3, ?_, (neg _ _).trans_le r5, (neg _ _).trans_le r6⟩
    · change j'.g.val.1.transpose = q.1.1.transpose
      rw [r1]
    · change eucNorm (j'.g.val.1.transpose *ᵥ (-j'.g.val.2) - q.1.1.transpose *ᵥ (-q.1.2)) ≤ _
      rw [r1, ← mulVec_sub, eucNorm_mulVec (isRotation_transpose vq), neg]
      exact r4

/-- The state of something mounted on a body. -/
noncomputable def exMounted (m : Pose) (s : RBState) : RBState :=
  ⟨⟨⟨SE3.mul s.refFromBody.val m, s.refFromBody.into, s.refFromBody.src⟩, SE3.ops.Ad (SE3.ops.inv m) s.twoJet.d, SE3.ops.Ad (SE3.ops.inv m) s.twoJet.d2⟩⟩

/-- A moving body and a camera on it. -/
example : ∃ T T' acc acc' s s', Reached T acc ∧ Reached T' acc' ∧
    List.Forall₂ (fun p p' : TrajControl => p'.atTime = p.atTime ∧ SeenState (quarterTurn, ![1, 2, 3]) p.state p'.state) acc acc' ∧
    Trajectory.pointAt T 120 = .ok s ∧ Trajectory.pointAt T' 120 = .ok s' ∧ s'.angularVelocity = quarterTurn.transpose *ᵥ s.angularVelocity := by
  obtain ⟨T, hT⟩ := exReached (fun t => exAt quarterTurn ![(t : ℝ), 2, 3]) (fun _ => ⟨exAt_whole _ _, rfl, rfl⟩) 100 (by decide) [115, 230] (by decide)
    (by decide) (by decide)
  obtain ⟨T', hT'⟩ := exReached (fun t => exMounted (quarterTurn, ![1, 2, 3]) (exAt quarterTurn ![(t : ℝ), 2, 3]))
    (fun _ => ⟨(by decide : exFrame 1 = Frame.null ↔ exFrame 2 = Frame.null), rfl, rfl⟩) 100 (by decide) [115, 230] (by decide) (by decide) (by decide)
  have hR : List.Forall₂ (fun p p' : TrajControl => p'.atTime = p.atTime ∧ SeenState (quarterTurn, ![1, 2, 3]) p.state p'.state)
      ([100, 115, 230].map fun t => ⟨t, exAt quarterTurn ![(t : ℝ), 2, 3]⟩)
      ([100, 115, 230].map fun t => ⟨t, exMounted (quarterTurn, ![1, 2, 3]) (exAt quarterTurn ![(t : ℝ), 2, 3])⟩) := by
    rw [List.forall₂_map_left_iff, List.forall₂_map_right_iff]
    exact List.forall₂_same.mpr fun t _ => ⟨rfl, (seenState_iff quarterTurn_isRotation _ _).mpr ⟨rfl, rfl, rfl⟩⟩
  obtain ⟨s, h1, -⟩ := c51_inside T _ ⟨230, exAt quarterTurn ![((230 : Int) : ℝ), 2, 3]⟩ [⟨115, exAt quarterTurn ![((115 : Int) : ℝ), 2, 3]⟩] hT 120
    (by decide) (by decide)
  obtain ⟨s', h2, i, hi, hi', q, hq, -, -, hc⟩ := alike_ok (c91_trajectory T T' _ _ hT hT' (by
    intro p hp
    rw [List.mem_map] at hp
    obtain ⟨t, -, rfl⟩ := hp
    exact quarterTurn_isRotation) (by
    intro i hi
    simp only [List.getElem_map]
    change -1 < (quarterTurn * quarterTurn.transpose).trace
    rw [IsRotation_orth' quarterTurn_isRotation, trace_one]
    simp
    norm_num) _ quarterTurn_isRotation hR 120) h1
  exact ⟨T, T', _, _, s, s', hT, hT', hR, h1, h2, hc.2.1.trans hq.2.1⟩

end Verif.Props
