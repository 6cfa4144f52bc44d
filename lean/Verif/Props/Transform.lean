import Verif.Proofs.Homogeneous
import Verif.Props.Frame
import Mathlib.Tactic.NormNum
/-! # Properties C22, C24, C25 (for SO3 and SE3), C26, C27: SO3 and SE3 in exact real arithmetic -/
namespace Verif.Props
open Matrix Spec Verif.Framed

/-! ## Examples used below -/

/-- A quarter turn about the z axis. -/
def quarterTurn : M3 := !![0, -1, 0; 1, 0, 0; 0, 0, 1]

theorem quarterTurn_isRotation : IsRotation quarterTurn := by
  constructor
  · ext i j; fin_cases i <;> fin_cases j <;> simp [quarterTurn, Matrix.mul_apply, Fin.sum_univ_three]
  · rw [det_fin_three]; simp [quarterTurn]

theorem quarterTurn_mulVec (v : V3) : quarterTurn *ᵥ v = ![-v 1, v 0, v 2] := by
  ext i; fin_cases i <;> simp [quarterTurn, mulVec, dotProduct, Fin.sum_univ_three]

/-! ## C22: group laws with frames -/

/-- The group laws for framed transforms of a class, on values satisfying `valid`: associativity as equality of outcomes (value and frames,
or both throw), identities, inverses. -/
def FramedGroupLaws {R G A V : Type} (L : LieOps R G A V) (valid : G → Prop) : Prop :=
  (∀ a b c : Framed G, a.into ≠ Frame.null → a.src ≠ Frame.null → b.into ≠ Frame.null → b.src ≠ Frame.null →
    c.into ≠ Frame.null → c.src ≠ Frame.null →
    ((Framed.mul L a b) >>= fun ab => Framed.mul L ab c) = ((Framed.mul L b c) >>= fun bc => Framed.mul L a bc)) ∧
  (∀ a : Framed G, a.into ≠ Frame.null → a.src ≠ Frame.null →
    ((Framed.identity L a.into a.into) >>= fun i => Framed.mul L i a) = .ok a ∧
    ((Framed.identity L a.src a.src) >>= fun i => Framed.mul L a i) = .ok a) ∧
  (∀ a : Framed G, a.into ≠ Frame.null → a.src ≠ Frame.null → valid a.val →
    ((Framed.inverse L a) >>= fun i => Framed.mul L a i) = Framed.identity L a.into a.into ∧
    ((Framed.inverse L a) >>= fun i => Framed.mul L i a) = Framed.identity L a.src a.src ∧
    ((Framed.inverse L a) >>= fun i => Framed.inverse L i) = .ok a) ∧
  (∀ f g : Frame, f ≠ Frame.null → g ≠ Frame.null → Framed.identity L f g = .ok ⟨L.one, f, g⟩)

/-- The laws follow from the algebra of the class. -/
theorem framedGroupLaws_of {G A V : Type} [AddCommGroup A] [Module ℝ A] {L : LieOps ℝ G A V} {valid : G → Prop}
    (H : LieLaws L valid) : FramedGroupLaws L valid := by
  refine ⟨?_, ?_, ?_, ?_⟩
  · intro a b c a1 a2 b1 b2 c1 c2
    by_cases e1 : a.src = b.into
    · rw [mul_framed L a1 b1 b2 e1]
      by_cases e2 : b.src = c.into
      · rw [mul_framed L b1 c1 c2 e2]
        simp only [Outcome.ok_bind]
        rw [mul_framed L (a := ⟨L.mul a.val b.val, a.into, b.src⟩) a1 c1 c2 e2,
          mul_framed L (b := ⟨L.mul b.val c.val, b.into, c.src⟩) a1 b1 c2 e1]
        simp [H.mul_assoc]
      · rw [mul_mismatch L b1 c1 e2]
        simp only [Outcome.ok_bind, Outcome.throw_bind]
        rw [mul_mismatch L (a := ⟨L.mul a.val b.val, a.into, b.src⟩) a1 c1 e2]
    · rw [mul_mismatch L a1 b1 e1]
      by_cases e2 : b.src = c.into
      · rw [mul_framed L b1 c1 c2 e2]
        simp only [Outcome.ok_bind, Outcome.throw_bind]
        rw [mul_mismatch L (b := ⟨L.mul b.val c.val, b.into, c.src⟩) a1 b1 e1]
      · rw [mul_mismatch L b1 c1 e2]
        simp
  · intro a a1 a2
    unfold Framed.identity
    rw [mk'_ok (by simp), mk'_ok (by simp)]
    simp only [Outcome.ok_bind]
    rw [mul_framed L (a := ⟨L.one, a.into, a.into⟩) a1 a1 a2 rfl, mul_framed L (b := ⟨L.one, a.src, a.src⟩) a1 a2 a2 rfl]
    simp [H.one_mul, H.mul_one]
  · intro a a1 a2 hv
    unfold Framed.identity Framed.inverse
    rw [mk'_ok (i := a.into) (s := a.into) Iff.rfl, mk'_ok (i := a.src) (s := a.src) Iff.rfl,
      mk'_ok (i := a.src) (s := a.into) (by simp [a1, a2])]
    simp only [Outcome.ok_bind]
    rw [mul_framed L (b := ⟨L.inv a.val, a.src, a.into⟩) a1 a2 a1 rfl, mul_framed L (a := ⟨L.inv a.val, a.src, a.into⟩) a2 a1 a2 rfl,
      mk'_ok (i := a.into) (s := a.src) (by simp [a1, a2])]
    simp [H.mul_inv hv, H.inv_mul hv, H.inv_inv hv]
  · intro f g hf hg
    exact mk'_ok (by simp [hf, hg])

/-- C22 for SO3. -/
theorem c22_so3_group_laws : FramedGroupLaws SO3.ops IsRotation := framedGroupLaws_of so3Laws

/-- C22 for SE3. -/
theorem c22_se3_group_laws : FramedGroupLaws SE3.ops (fun g => IsRotation g.1) := framedGroupLaws_of se3Laws

/-- C22.  The composition is the right one: SE3 composition is multiplication of homogeneous matrices, SO3 composition is matrix
multiplication, and the inverse is the matrix inverse. -/
theorem c22_matrix_meaning (a b : Pose) (R S : M3) :
    homogeneous (SE3.ops.mul a b).1 (SE3.ops.mul a b).2 = homogeneous a.1 a.2 * homogeneous b.1 b.2 ∧
    homogeneous SE3.ops.one.1 SE3.ops.one.2 = 1 ∧
    (IsRotation a.1 → homogeneous (SE3.ops.inv a).1 (SE3.ops.inv a).2 = (homogeneous a.1 a.2)⁻¹) ∧
    SO3.ops.mul R S = R * S ∧ SO3.ops.one = 1 ∧ (IsRotation R → SO3.ops.inv R = R⁻¹) := by
  refine ⟨SE3.H_mul a b, SE3.H_one, ?_, rfl, rfl, ?_⟩
  · intro h
    exact (inv_eq_left_inv (SE3.H_inv (g := a) h).1).symm
  · intro h
    exact (inv_eq_left_inv h.orth).symm

example : IsRotation (SE3.ops.mul (quarterTurn, ![1, 2, 3]) (quarterTurn, ![4, 1, 5])).1 ∧
    (SE3.ops.mul (quarterTurn, ![1, 2, 3]) (quarterTurn, ![4, 1, 5])).2 = ![0, 6, 8] := by
  refine ⟨SO3.isRotation_mul quarterTurn_isRotation quarterTurn_isRotation, ?_⟩
  simp only [SE3.ops, SE3.mul, SO3.act, quarterTurn_mulVec]
  ext i
  fin_cases i <;> simp <;> norm_num
example : (exFrame 1 ≠ Frame.null) ∧ (exFrame 2 ≠ Frame.null) := by decide

/-! ## C24: the action on vectors -/

/-- C24 for SO3: composition, identity, inner products, handedness, inverse. -/
theorem c24_so3_action (a b : M3) (v w u : V3) :
    SO3.act (SO3.ops.mul a b) v = SO3.act a (SO3.act b v) ∧ SO3.act SO3.ops.one v = v ∧
    (IsRotation a → SO3.act a v ⬝ᵥ SO3.act a w = v ⬝ᵥ w ∧
      SO3.act a v ⬝ᵥ (SO3.act a w ⨯₃ SO3.act a u) = v ⬝ᵥ (w ⨯₃ u) ∧
      SO3.act (SO3.ops.inv a) (SO3.act a v) = v) := by
  refine ⟨(mulVec_mulVec v a b).symm, one_mulVec v, fun h => ⟨SO3.dot_mulVec h v w, ?_, ?_⟩⟩
  · unfold SO3.act
    rw [← SO3.mulVec_cross h, SO3.dot_mulVec h]
  · have : a.transpose * a = 1 := h.orth
    simp [SO3.act, SO3.ops, SO3.inv, this]

/-- C24 for SE3: composition, identity, distances, inverse, and `rotate` is the linear part. -/
theorem c24_se3_action (a b : Pose) (v w : V3) :
    SE3.act (SE3.ops.mul a b) v = SE3.act a (SE3.act b v) ∧ SE3.act SE3.ops.one v = v ∧
    SE3.rotate a v = SE3.act a v - SE3.act a 0 ∧ SE3.act a 0 = a.2 ∧
    (IsRotation a.1 → SO3.eucNorm (SE3.act a v - SE3.act a w) = SO3.eucNorm (v - w) ∧
      SE3.act (SE3.ops.inv a) (SE3.act a v) = v) := by
  refine ⟨?_, ?_, ?_, ?_, fun h => ⟨?_, ?_⟩⟩
  · simp [SE3.act, SE3.ops, SE3.mul, SO3.mul, SO3.act, mulVec_add, mulVec_mulVec, add_assoc]
  · simp [SE3.act, SE3.ops, SE3.one, SO3.one, SO3.act]
  · simp [SE3.act, SE3.rotate, SO3.act]
  · simp [SE3.act, SO3.act]
  · have : SE3.act a v - SE3.act a w = a.1 *ᵥ (v - w) := by
      simp [SE3.act, SO3.act, mulVec_sub]
    rw [this, SO3.eucNorm_mulVec h]
  · have h' : a.1.transpose * a.1 = 1 := h.orth
    simp [SE3.act, SO3.act, SE3.ops, SE3.inv, SO3.inv, mulVec_add, h', mulVec_neg]

/-- The rotation matrices a client can reach through SO3's interface starting from proper rotation matrices, unit quaternions and unit
axes. -/
inductive RotationReach : M3 → Prop
  | matrix (R) : IsRotation R → RotationReach R
  | quaternion (q : SO3.Quat) : q.w ^ 2 + q.v ⬝ᵥ q.v = 1 → RotationReach (SO3.quatMatrix q)
  | angleAxis (t n) : n ⬝ᵥ n = 1 → RotationReach (SO3.angleAxisMatrix t n)
  | identity : RotationReach SO3.ops.one
  | exp (w) : RotationReach (SO3.ops.exp w)
  | mul (a b) : RotationReach a → RotationReach b → RotationReach (SO3.ops.mul a b)
  | inverse (a) : RotationReach a → RotationReach (SO3.ops.inv a)
  | interp (a) (f : ℝ) : RotationReach a → RotationReach (SO3.ops.exp (SO3.ops.smul f (SO3.ops.log a)))

/-- C24.  Every reachable SO3 is a proper rotation. -/
theorem c24_reachable_rotations (R : M3) (h : RotationReach R) : R.transpose * R = 1 ∧ R.det = 1 := by
  suffices IsRotation R from ⟨this.orth, this.det⟩
  induction h with
  | matrix R h => exact h
  | quaternion q h => exact SO3.isRotation_quatMatrix h
  | angleAxis t n h => exact SO3.isRotation_angleAxis t h
  | identity => exact SO3.isRotation_one
  | exp w => exact SO3.isRotation_exp w
  | mul a b _ _ ha hb => exact SO3.isRotation_mul ha hb
  | inverse a _ ha => exact SO3.isRotation_transpose ha
  | interp a f _ _ => exact SO3.isRotation_exp _

/-- The poses a client can reach through SE3's interface. -/
inductive PoseReach : Pose → Prop
  | parts (R t) : RotationReach R → PoseReach (R, t)
  | identity : PoseReach SE3.ops.one
  | exp (x) : PoseReach (SE3.ops.exp x)
  | mul (a b) : PoseReach a → PoseReach b → PoseReach (SE3.ops.mul a b)
  | inverse (a) : PoseReach a → PoseReach (SE3.ops.inv a)
  | interp (a) (f : ℝ) : PoseReach a → PoseReach (SE3.ops.exp (SE3.ops.smul f (SE3.ops.log a)))

/-- C24.  Every reachable SE3 has a proper rotation. -/
theorem c24_reachable_poses (g : Pose) (h : PoseReach g) : g.1.transpose * g.1 = 1 ∧ g.1.det = 1 := by
  suffices IsRotation g.1 from ⟨this.orth, this.det⟩
  induction h with
  | parts R t h => exact ⟨(c24_reachable_rotations R h).1, (c24_reachable_rotations R h).2⟩
  | identity => exact SO3.isRotation_one
  | exp x => exact SO3.isRotation_exp x.1
  | mul a b _ _ ha hb => exact SO3.isRotation_mul ha hb
  | inverse a _ ha => exact SO3.isRotation_transpose ha
  | interp a f _ _ => exact SO3.isRotation_exp _

example : RotationReach (SO3.ops.mul quarterTurn (SO3.ops.exp ![1, 2, 3])) :=
  .mul _ _ (.matrix _ quarterTurn_isRotation) (.exp _)
example : SO3.act quarterTurn ![1, 2, 3] = ![-2, 1, 3] := by
  ext i; fin_cases i <;> simp [SO3.act, quarterTurn, mulVec, dotProduct, Fin.sum_univ_three]

/-! ## C25 for the two classes -/

/-- C25.  Rotating framed vectors is linear, for SO3. -/
theorem c25_so3_rotate_linear (a : Framed M3) (d : ℝ) (v w : FramedVector V3) :
    rotateFramed SO3.ops a (FramedVector.scale d v) = FramedVector.scale d <$> rotateFramed SO3.ops a v ∧
    (∀ u, (FramedVector.add v w >>= rotateFramed SO3.ops a) = .ok u ↔
      (rotateFramed SO3.ops a v >>= fun x => rotateFramed SO3.ops a w >>= fun y => FramedVector.add x y) = .ok u) ∧
    ((FramedVector.add v w >>= rotateFramed SO3.ops a).IsThrow ↔
      (rotateFramed SO3.ops a v >>= fun x => rotateFramed SO3.ops a w >>= fun y => FramedVector.add x y).IsThrow) :=
  c25_rotate_linear SO3.ops a (fun d x => mulVec_smul a.val d x) (fun x y => mulVec_add a.val x y) d v w

/-- C25.  Rotating framed vectors is linear, for SE3. -/
theorem c25_se3_rotate_linear (a : Framed Pose) (d : ℝ) (v w : FramedVector V3) :
    rotateFramed SE3.ops a (FramedVector.scale d v) = FramedVector.scale d <$> rotateFramed SE3.ops a v ∧
    (∀ u, (FramedVector.add v w >>= rotateFramed SE3.ops a) = .ok u ↔
      (rotateFramed SE3.ops a v >>= fun x => rotateFramed SE3.ops a w >>= fun y => FramedVector.add x y) = .ok u) ∧
    ((FramedVector.add v w >>= rotateFramed SE3.ops a).IsThrow ↔
      (rotateFramed SE3.ops a v >>= fun x => rotateFramed SE3.ops a w >>= fun y => FramedVector.add x y).IsThrow) :=
  c25_rotate_linear SE3.ops a (fun d x => mulVec_smul a.val.1 d x) (fun x y => mulVec_add a.val.1 x y) d v w

/-- C25.  Rotating framed vectors composes, for SO3. -/
theorem c25_so3_rotate_composition (a b : Framed M3) (ha : a.into ≠ Frame.null ∧ a.src ≠ Frame.null)
    (hb : b.into ≠ Frame.null ∧ b.src ≠ Frame.null) (v : FramedVector V3) :
    (∀ w, ((Framed.mul SO3.ops a b) >>= fun ab => rotateFramed SO3.ops ab v) = .ok w ↔
      ((rotateFramed SO3.ops b v) >>= fun bv => rotateFramed SO3.ops a bv) = .ok w) ∧
    (((Framed.mul SO3.ops a b) >>= fun ab => rotateFramed SO3.ops ab v).IsThrow ↔
      ((rotateFramed SO3.ops b v) >>= fun bv => rotateFramed SO3.ops a bv).IsThrow) :=
  c25_rotate_composition SO3.ops (fun g h v => (mulVec_mulVec v g h).symm) a b ha hb v

/-- C25.  Rotating framed vectors composes, for SE3. -/
theorem c25_se3_rotate_composition (a b : Framed Pose) (ha : a.into ≠ Frame.null ∧ a.src ≠ Frame.null)
    (hb : b.into ≠ Frame.null ∧ b.src ≠ Frame.null) (v : FramedVector V3) :
    (∀ w, ((Framed.mul SE3.ops a b) >>= fun ab => rotateFramed SE3.ops ab v) = .ok w ↔
      ((rotateFramed SE3.ops b v) >>= fun bv => rotateFramed SE3.ops a bv) = .ok w) ∧
    (((Framed.mul SE3.ops a b) >>= fun ab => rotateFramed SE3.ops ab v).IsThrow ↔
      ((rotateFramed SE3.ops b v) >>= fun bv => rotateFramed SE3.ops a bv).IsThrow) :=
  c25_rotate_composition SE3.ops (fun g h v => (mulVec_mulVec v g.1 h.1).symm) a b ha hb v

example : rotateFramed SO3.ops ⟨quarterTurn, exFrame 1, exFrame 2⟩ ⟨![1, 2, 3], exFrame 2⟩ =
    .ok ⟨SO3.act quarterTurn ![1, 2, 3], exFrame 1⟩ := (c25_rotate SO3.ops _ _).1 (by decide)

/-! ## C26: adjoints -/

/-- C26 for SO3. -/
theorem c26_so3_adjoint (a b : M3) (ha : IsRotation a) (x y z : V3) :
    SO3.adjointMatrix a *ᵥ x = SO3.adjointTimes a x ∧
    SO3.crossMatrix (SO3.adjointTimes a x) = a * SO3.crossMatrix x * a⁻¹ ∧
    SO3.adjointTimes (SO3.ops.mul a b) x = SO3.adjointTimes a (SO3.adjointTimes b x) ∧
    SO3.adjointTimes (SO3.ops.inv a) (SO3.adjointTimes a x) = x ∧
    SO3.algAdjointMatrix x *ᵥ y = SO3.bracket x y ∧
    SO3.crossMatrix (SO3.bracket x y) = SO3.crossMatrix x * SO3.crossMatrix y - SO3.crossMatrix y * SO3.crossMatrix x ∧
    SO3.bracket x y = -SO3.bracket y x ∧
    SO3.bracket x (SO3.bracket y z) + SO3.bracket y (SO3.bracket z x) + SO3.bracket z (SO3.bracket x y) = 0 ∧
    SO3.adjointTimes a (SO3.bracket x y) = SO3.bracket (SO3.adjointTimes a x) (SO3.adjointTimes a y) ∧
    SO3.ops.exp (SO3.adjointTimes a x) = SO3.ops.mul (SO3.ops.mul a (SO3.ops.exp x)) (SO3.ops.inv a) := by
  have hinv : a⁻¹ = a.transpose := inv_eq_left_inv ha.orth
  refine ⟨rfl, ?_, (mulVec_mulVec x a b).symm, so3Laws.Ad_inv_Ad ha x, SO3.crossMatrix_mulVec x y, SO3.crossMatrix_bracket x y,
    so3Laws.ad_antisymm x y, so3Laws.jacobi x y z, so3Laws.Ad_ad ha x y, SO3.exp_conj ha x⟩
  rw [hinv]
  exact SO3.crossMatrix_conj ha x

/-- A tangent vector of SE3 as one vector of six numbers, rotation part first. -/
def six (x : Twist) : Fin 3 ⊕ Fin 3 → ℝ := Sum.elim x.1 x.2

/-- C26 for SE3.  The last clause (group conjugation) is for angles outside the small-angle region, where `exp` is exact. -/
theorem c26_se3_adjoint (a b : Pose) (ha : IsRotation a.1) (hb : IsRotation b.1) (x y z : Twist) :
    SE3.adjointMatrix a *ᵥ six x = six (SE3.adjointTimes a x) ∧
    twistMatrix (SE3.adjointTimes a x).1 (SE3.adjointTimes a x).2 =
      homogeneous a.1 a.2 * twistMatrix x.1 x.2 * (homogeneous a.1 a.2)⁻¹ ∧
    SE3.adjointTimes (SE3.ops.mul a b) x = SE3.adjointTimes a (SE3.adjointTimes b x) ∧
    SE3.adjointMatrix (SE3.ops.mul a b) = SE3.adjointMatrix a * SE3.adjointMatrix b ∧
    SE3.adjointTimes (SE3.ops.inv a) (SE3.adjointTimes a x) = x ∧
    SE3.algAdjointMatrix x *ᵥ six y = six (SE3.bracket x y) ∧
    twistMatrix (SE3.bracket x y).1 (SE3.bracket x y).2 =
      twistMatrix x.1 x.2 * twistMatrix y.1 y.2 - twistMatrix y.1 y.2 * twistMatrix x.1 x.2 ∧
    SE3.bracket x y = -SE3.bracket y x ∧
    SE3.bracket x (SE3.bracket y z) + SE3.bracket y (SE3.bracket z x) + SE3.bracket z (SE3.bracket x y) = 0 ∧
    SE3.adjointTimes a (SE3.bracket x y) = SE3.bracket (SE3.adjointTimes a x) (SE3.adjointTimes a y) ∧
    (x.1 = 0 ∨ SO3.tinySquareAngle ≤ x.1 ⬝ᵥ x.1 →
      SE3.ops.exp (SE3.adjointTimes a x) = SE3.ops.mul (SE3.ops.mul a (SE3.ops.exp x)) (SE3.ops.inv a)) := by
  have hadj : ∀ (g : Pose) (x : Twist), SE3.adjointMatrix g *ᵥ six x = six (SE3.adjointTimes g x) := by
    intro g x
    unfold SE3.adjointMatrix six SE3.adjointTimes
    rw [fromBlocks_mulVec]
    simp [SO3.adjointMatrix, ← mulVec_mulVec, SO3.crossMatrix_mulVec]
  have hinv : (homogeneous a.1 a.2)⁻¹ = homogeneous (SE3.inv a).1 (SE3.inv a).2 := inv_eq_left_inv (SE3.H_inv (g := a) ha).1
  refine ⟨hadj a x, ?_, se3Laws.Ad_mul ha hb x, ?_, se3Laws.Ad_inv_Ad ha x, ?_, SE3.T_bracket x y, se3Laws.ad_antisymm x y,
    se3Laws.jacobi x y z, se3Laws.Ad_ad ha x y, SE3.exp_conj ha x⟩
  · rw [hinv]; exact SE3.T_conj (g := a) ha x
  · apply Matrix.ext_of_mulVec_single
    intro i
    obtain ⟨v, hv⟩ : ∃ v : Twist, Pi.single i 1 = six v :=
      ⟨(fun k => (Pi.single i 1 : Fin 3 ⊕ Fin 3 → ℝ) (.inl k), fun k => (Pi.single i 1 : Fin 3 ⊕ Fin 3 → ℝ) (.inr k)), by
        funext k; cases k <;> rfl⟩
    rw [hv, hadj, ← mulVec_mulVec, hadj, hadj]
    exact congrArg six (se3Laws.Ad_mul ha hb v)
  · unfold SE3.algAdjointMatrix six SE3.bracket
    rw [fromBlocks_mulVec]
    simp [SO3.algAdjointMatrix, SO3.crossMatrix_mulVec]

example : SE3.adjointTimes (quarterTurn, ![1, 0, 0]) (![1, 0, 0], ![0, 0, 0]) = (![0, 1, 0], ![0, 0, 1]) := by
  simp only [SE3.adjointTimes, Prod.mk.injEq]
  constructor <;> (ext i; fin_cases i <;> simp [quarterTurn, crossProduct, mulVec, dotProduct, Fin.sum_univ_three])

/-! ## C27: `exp` is the matrix exponential -/

/-- C27 for SO3: for every tangent vector. -/
theorem c27_so3_exp (w : V3) :
    SO3.ops.exp w = NormedSpace.exp !![0, -w 2, w 1; w 2, 0, -w 0; -w 1, w 0, 0] ∧ IsRotation (SO3.ops.exp w) :=
  ⟨SO3.exp_eq_matrix_exp w, SO3.isRotation_exp w⟩

/-- C27 for SE3: angle zero or at least the threshold 0.002. -/
theorem c27_se3_exp (w u : V3) (h : w = 0 ∨ 0.002 ^ 2 ≤ w ⬝ᵥ w) :
    homogeneous (SE3.ops.exp (w, u)).1 (SE3.ops.exp (w, u)).2 = NormedSpace.exp (twistMatrix w u) := by
  apply SE3.exp_eq_matrix_exp
  rcases h with h | h
  · exact .inl h
  · right
    unfold SO3.tinySquareAngle
    refine le_trans (le_of_eq ?_) h
    norm_num

example : (0.002 : ℝ) ^ 2 ≤ (![1, 2, 3] : V3) ⬝ᵥ ![1, 2, 3] := by
  simp [dotProduct, Fin.sum_univ_three]; norm_num

end Verif.Props
