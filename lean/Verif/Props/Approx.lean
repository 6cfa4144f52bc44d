import Verif.Proofs.Approx
import Verif.Props.Transform
/-! # C78: approximate equality of transforms; C79: framed vectors of different frames are kept apart -/
namespace Verif.Props
open Verif Verif.Spec Verif.Framed Matrix

/-- C78.  Everything is approximately equal to itself. -/
theorem c78_self (r : Framed M3) (g : Framed Pose) (a : TwoJetL M3 V3) (b : TwoJetL Pose Twist) (c : TwoJetR M3 V3) (d : TwoJetR Pose Twist) :
    Approx.so3 r r ∧ Approx.se3 g g ∧ Approx.so3JetL a a ∧ Approx.se3JetL b b ∧ Approx.so3JetR c c ∧ Approx.se3JetR d d := by
  have h3 : ∀ r, Approx.so3 r r := fun r => ⟨mat_refl _, (verifyFrames_iff _ _).mpr ⟨rfl, rfl⟩⟩
  have h6 : ∀ g, Approx.se3 g g := fun g => ⟨⟨mat_refl _, vec_refl _ _⟩, (verifyFrames_iff _ _).mpr ⟨rfl, rfl⟩⟩
  exact ⟨h3 r, h6 g, ⟨h3 _, vec_refl _ _, vec_refl _ _⟩, ⟨h6 _, twist_refl _, twist_refl _⟩, ⟨h3 _, vec_refl _ _, vec_refl _ _⟩,
    ⟨h6 _, twist_refl _, twist_refl _⟩⟩

/-- C78.  Approximate equality does not depend on which of the two is asked. -/
theorem c78_symmetric :
    (∀ a b, Approx.so3 a b → Approx.so3 b a) ∧ (∀ a b, Approx.se3 a b → Approx.se3 b a) ∧
    (∀ a b, Approx.so3JetL a b → Approx.so3JetL b a) ∧ (∀ a b, Approx.se3JetL a b → Approx.se3JetL b a) ∧
    (∀ a b, Approx.so3JetR a b → Approx.so3JetR b a) ∧ (∀ a b, Approx.se3JetR a b → Approx.se3JetR b a) := by
  have h3 : ∀ a b, Approx.so3 a b → Approx.so3 b a := fun a b h =>
    ⟨mat_symm h.1, (verifyFrames_iff _ _).mpr (((verifyFrames_iff _ _).mp h.2).imp Eq.symm Eq.symm)⟩
  have h6 : ∀ a b, Approx.se3 a b → Approx.se3 b a := fun a b h =>
    ⟨⟨mat_symm h.1.1, vec_symm h.1.2⟩, (verifyFrames_iff _ _).mpr (((verifyFrames_iff _ _).mp h.2).imp Eq.symm Eq.symm)⟩
  exact ⟨h3, h6, fun a b h => ⟨h3 _ _ h.1, vec_symm h.2.1, vec_symm h.2.2⟩, fun a b h => ⟨h6 _ _ h.1, twist_symm h.2.1, twist_symm h.2.2⟩,
    fun a b h => ⟨h3 _ _ h.1, vec_symm h.2.1, vec_symm h.2.2⟩, fun a b h => ⟨h6 _ _ h.1, twist_symm h.2.1, twist_symm h.2.2⟩⟩

/-- C78.  `is_approx` is `is_approx_transform` together with equal frames; `is_approx_transform` does not look at frames. -/
theorem c78_frames (a b : Framed M3) (p q : Framed Pose) (i s i' s' : Frame) :
    (Approx.so3 a b ↔ Approx.so3Transform a b ∧ a.into = b.into ∧ a.src = b.src) ∧
    (Approx.se3 p q ↔ Approx.se3Transform p q ∧ p.into = q.into ∧ p.src = q.src) ∧
    (Approx.so3Transform a b ↔ Approx.so3Transform ⟨a.val, i, s⟩ ⟨b.val, i', s'⟩) ∧
    (Approx.se3Transform p q ↔ Approx.se3Transform ⟨p.val, i, s⟩ ⟨q.val, i', s'⟩) :=
  ⟨and_congr_right' (verifyFrames_iff _ _), and_congr_right' (verifyFrames_iff _ _), Iff.rfl, Iff.rfl⟩

/-- C78.  Rotations are approximately equal exactly if the frames agree and the angle θ of the rotation from one to the other satisfies
8 sin²(θ/2) ≤ 3e-24, that is θ is at most about 1.2e-12. -/
theorem c78_rotation_angle (a b : Framed M3) (ha : IsRotation a.val) (hb : IsRotation b.val) :
    Approx.so3 a b ↔
      8 * Real.sin (SO3.eucNorm (SO3.log (SO3.mul (SO3.inv a.val) b.val)) / 2) ^ 2 ≤ 3e-24 ∧ a.into = b.into ∧ a.src = b.src := by
  rw [(c78_frames a b (unframed 0) (unframed 0) Frame.null Frame.null Frame.null Frame.null).1, Approx.so3Transform, Approx.mat, Approx.matSq_rotation ha,
    Approx.matSq_rotation hb, Approx.matSq_sub_angle ha hb, min_self]
  norm_num [SO3.mul, SO3.inv]

/-- C78.  Approximately equal transforms move each point to nearly the same place: up to 1.8e-12 times its distance from the origin, and for poses
1e-12 times the shorter translation in addition. -/
theorem c78_points (a b : Framed M3) (ha : IsRotation a.val) (hb : IsRotation b.val) (p q : Framed Pose) (hp : IsRotation p.val.1) (hq : IsRotation q.val.1)
    (v : V3) :
    (Approx.so3 a b → SO3.eucNorm (SO3.act a.val v - SO3.act b.val v) ≤ 1.8e-12 * SO3.eucNorm v) ∧
    (Approx.se3 p q → SO3.eucNorm (SE3.act p.val v - SE3.act q.val v) ≤
      1.8e-12 * SO3.eucNorm v + 1e-12 * min (SO3.eucNorm p.val.2) (SO3.eucNorm q.val.2)) := by
  refine ⟨fun h => mat_bound ha hb h.1 v, fun h => ?_⟩
  have e : SE3.act p.val v - SE3.act q.val v = (p.val.1 *ᵥ v - q.val.1 *ᵥ v) + (p.val.2 - q.val.2) := by
    simp only [SE3.act, SO3.act]
    abel
  rw [e]
  exact (SO3.eucNorm_add_le _ _).trans (add_le_add (mat_bound hp hq h.1.1 v) (Approx.vec_of_sq h.1.2 (by norm_num)))

/-- C78, rotations.  Whether two rotations are approximately equal does not depend on the reference frame they are expressed in: composing both with the
same rotation, on either side, or inverting both, does not change it.  For poses this fails (`c78_pose_reference`). -/
theorem c78_reference_partial (a b c : Framed M3) (hc : IsRotation c.val) :
    (Approx.so3Transform a b ↔ Approx.so3Transform (unframed (SO3.mul c.val a.val)) (unframed (SO3.mul c.val b.val))) ∧
    (Approx.so3Transform a b ↔ Approx.so3Transform (unframed (SO3.mul a.val c.val)) (unframed (SO3.mul b.val c.val))) ∧
    (Approx.so3Transform a b ↔ Approx.so3Transform (unframed (SO3.inv a.val)) (unframed (SO3.inv b.val))) ∧
    (∀ x y, Framed.mul SO3.ops c a = .ok x → Framed.mul SO3.ops c b = .ok y → Approx.so3 a b → Approx.so3 x y) ∧
    (∀ x y, Framed.mul SO3.ops a c = .ok x → Framed.mul SO3.ops b c = .ok y → Approx.so3 a b → Approx.so3 x y) ∧
    (∀ x y, Framed.inverse SO3.ops a = .ok x → Framed.inverse SO3.ops b = .ok y → Approx.so3 a b → Approx.so3 x y) := by
  have hi : Approx.mat a.val b.val ↔ Approx.mat (a.val)ᵀ (b.val)ᵀ := by
    rw [Approx.mat, Approx.mat, ← transpose_sub, Approx.matSq_transpose, Approx.matSq_transpose, Approx.matSq_transpose]
  refine ⟨(mat_mul_left hc).symm, (mat_mul_right hc).symm, hi, fun x y hx hy h => ?_, fun x y hx hy h => ?_, fun x y hx hy h => ?_⟩
  · have hv := framed_mul_ok hx
    have hw := framed_mul_ok hy
    refine ⟨?_, (verifyFrames_iff _ _).mpr (mul_frames rfl rfl ((verifyFrames_iff _ _).mp h.2).1 ((verifyFrames_iff _ _).mp h.2).2 hx hy)⟩
    rw [Approx.so3Transform, hv, hw]
    exact (mat_mul_left hc).mpr h.1
  · have hv := framed_mul_ok hx
    have hw := framed_mul_ok hy
    refine ⟨?_, (verifyFrames_iff _ _).mpr (mul_frames ((verifyFrames_iff _ _).mp h.2).1 ((verifyFrames_iff _ _).mp h.2).2 rfl rfl hx hy)⟩
    rw [Approx.so3Transform, hv, hw]
    exact (mat_mul_right hc).mpr h.1
  · obtain ⟨-, rfl⟩ := mk'_eq_ok_iff.mp hx
    obtain ⟨-, rfl⟩ := mk'_eq_ok_iff.mp hy
    exact ⟨hi.mp h.1, (verifyFrames_iff _ _).mpr ⟨((verifyFrames_iff _ _).mp h.2).2, ((verifyFrames_iff _ _).mp h.2).1⟩⟩

/-- C78.  Zero is approximately equal to nothing but zero, whatever the scale of the problem: a pose without translation only to poses without
translation, a two-jet at rest only to two-jets at rest. -/
theorem c78_zero (v : V3) : (Approx.vec 1e-12 0 v ↔ v = 0) ∧ (Approx.vec 1e-12 v 0 ↔ v = 0) := by
  have h : ∀ v, Approx.vec 1e-12 0 v ↔ v = 0 := fun v => by
    have e0 : SO3.sqNorm 0 = 0 := by simp [SO3.sqNorm]
    refine ⟨fun h => ?_, fun h => h ▸ vec_refl _ _⟩
    rw [Approx.vec, e0, min_eq_left (SO3.sqNorm_nonneg v), mul_zero, sqNorm_sub_comm, sub_zero] at h
    have := le_antisymm h (SO3.sqNorm_nonneg v)
    exact SO3.eucNorm_eq_zero.mp (by rw [SO3.eucNorm, this, Real.sqrt_zero])
  exact ⟨h v, ⟨fun k => (h v).mp (vec_symm k), fun k => vec_symm ((h v).mpr k)⟩⟩

/-- C78, negative.  Approximate equality is not transitive. -/
theorem c78_not_transitive : ∃ a b c : Framed M3, IsRotation a.val ∧ IsRotation b.val ∧ IsRotation c.val ∧
    Approx.so3 a b ∧ Approx.so3 b c ∧ ¬ Approx.so3 a c := by
  have key : ∀ s t : ℝ, Approx.mat (turn s) (turn t) ↔ 8 * (s - t) ^ 2 / ((1 + s ^ 2) * (1 + t ^ 2)) ≤ 3e-24 := fun s t => by
    have hs : (1 + s ^ 2) ≠ 0 := by positivity
    have ht : (1 + t ^ 2) ≠ 0 := by positivity
    rw [mat_rotation_iff (isRotation_turn s) (isRotation_turn t)]
    have : Approx.matSq (turn s - turn t) = 8 * (s - t) ^ 2 / ((1 + s ^ 2) * (1 + t ^ 2)) := by
      simp [turn, Approx.matSq, Fin.sum_univ_three]
      field_simp
      ring
    rw [this]
  refine ⟨unframed (turn 0), unframed (turn 6e-13), unframed (turn 12e-13), isRotation_turn _, isRotation_turn _, isRotation_turn _,
    ⟨(key _ _).mpr ?_, by simp [unframed, verifyFrames, verifyInto, verifyFrom]⟩, ⟨(key _ _).mpr ?_, by simp [unframed, verifyFrames, verifyInto, verifyFrom]⟩,
    fun h => absurd ((key _ _).mp h.1) ?_⟩ <;> norm_num

/-- C78, negative.  Two poses that are approximately equal in one reference frame need not be in another one: moving both by the same translation changes it. -/
theorem c78_pose_reference : ∃ a b c : Framed Pose, IsRotation a.val.1 ∧ IsRotation b.val.1 ∧ IsRotation c.val.1 ∧ Approx.se3 a b ∧
    ∃ x y, Framed.mul SE3.ops c a = .ok x ∧ Framed.mul SE3.ops c b = .ok y ∧ ¬ Approx.se3 x y := by
  have h1 := SO3.isRotation_one
  refine ⟨unframed (1, ![1, 0, 0]), unframed (1, ![1 + 5e-13, 0, 0]), unframed (1, ![-1, 0, 0]), h1, h1, h1,
    ⟨⟨mat_refl _, ?_⟩, by simp [unframed, verifyFrames, verifyInto, verifyFrom]⟩, _, _, rfl, rfl, fun h => ?_⟩
  · simp only [unframed, Approx.vec, SO3.sqNorm, dotProduct, Fin.sum_univ_three, Pi.sub_apply, cons_val_zero, cons_val_one, cons_val]
    norm_num
  · have h2 := h.1.2
    revert h2
    simp [unframed, SE3.ops, SE3.mul, Approx.vec, SO3.sqNorm, SO3.act, dotProduct, Fin.sum_univ_three]
    norm_num

/-! ## C79 -/

/-- C79.  Framed vectors are equal exactly if vector and frame agree, approximately equal as const arguments exactly if the frames agree and
the vectors are approximately equal. -/
theorem c79_compare_partial (p : ℝ) (v w : FramedVector V3) :
    (FramedVector.eq v w = true ↔ v.vector = w.vector ∧ v.frame = w.frame) ∧
    (Approx.framedVector .const p v w ↔ Approx.vec p v.vector w.vector ∧ v.frame = w.frame) := by
  constructor
  · simp [FramedVector.eq]
  · simp [Approx.framedVector]

/-- C79.  The sum of framed vectors of different frames is refused; of equal frames it is in that frame. -/
theorem c79_add_partial {A : Type} [Add A] (v w : FramedVector A) :
    (v.frame ≠ w.frame → (FramedVector.add v w).IsThrow) ∧ (∀ u, FramedVector.add v w = .ok u → u.frame = v.frame ∧ u.frame = w.frame) := by
  refine ⟨(c25_add v w).2, fun u h => ?_⟩
  by_cases e : v.frame = w.frame
  · rw [(c25_add v w).1 e] at h
    cases h
    exact ⟨rfl, e⟩
  · obtain ⟨m, hm⟩ := (c25_add v w).2 e
    rw [hm] at h
    cases h

/-- C79, negative.  `isApprox` ignores the frame of an argument that is not const: any framed vector is approximately equal to the same vector in any
other frame, although it is not if passed as const. -/
theorem c79_approx_ignores_frame (v : FramedVector V3) (f : Frame) (h : v.frame ≠ f) :
    Approx.framedVector .mutable 1e-12 v (v.setFrame f) ∧ Approx.framedVector .temporary 1e-12 v (v.setFrame f) ∧
    ¬ Approx.framedVector .const 1e-12 v (v.setFrame f) :=
  ⟨vec_refl _ _, vec_refl _ _, fun k => h ((c79_compare_partial _ _ _).2.mp k).2⟩

/-- C79, negative.  `v += w` accepts any frame and says that the sum is in the frame of `v`, where `v + w` throws. -/
theorem c79_add_in_place_unchecked {A : Type} [Add A] (v w : FramedVector A) (h : v.frame ≠ w.frame) :
    (FramedVector.add v w).IsThrow ∧ FramedVector.addAssign v w = ⟨v.vector + w.vector, v.frame⟩ := ⟨(c25_add v w).2 h, rfl⟩

/-- Two different rotations with frames that are approximately equal, and stay so after a quarter turn. -/
theorem exClose : ∃ a b : Framed M3, IsRotation a.val ∧ IsRotation b.val ∧ a.val ≠ b.val ∧ a.into = exFrame 1 ∧ Approx.so3 a b ∧
    Approx.so3Transform (unframed (SO3.mul quarterTurn a.val)) (unframed (SO3.mul quarterTurn b.val)) := by
  have h : Approx.mat (turn 0) (turn 6e-13) := by
    rw [mat_rotation_iff (isRotation_turn _) (isRotation_turn _)]
    simp [turn, Approx.matSq, Fin.sum_univ_three]
    norm_num
  refine ⟨⟨turn 0, exFrame 1, exFrame 2⟩, ⟨turn 6e-13, exFrame 1, exFrame 2⟩, isRotation_turn _, isRotation_turn _, fun e => ?_, rfl,
    ⟨h, (verifyFrames_iff _ _).mpr ⟨rfl, rfl⟩⟩, (mat_mul_left quarterTurn_isRotation).mpr h⟩
  have := congrFun (congrFun e 1) 0
  simp [turn] at this
  norm_num at this

example : (⟨![1, 2, 3], exFrame 1⟩ : FramedVector V3).frame ≠ exFrame 2 := by decide
example : ¬ Approx.vec 1e-12 ![1, 0, 0] ![0, 1, 0] := by
  simp only [Approx.vec, SO3.sqNorm, dotProduct, Fin.sum_univ_three, Pi.sub_apply, cons_val_zero, cons_val_one, cons_val]
  norm_num

/-! ## Instances of the theorems above -/

/-- Approximate equality of two different rotations, the other way round (`c78_symmetric`), bounds their angle (`c78_rotation_angle`) and how far they
take a point of norm 5 apart (`c78_points`), and holds of their inverses (`c78_reference_partial`). -/
example : ∃ a b : Framed M3, a.val ≠ b.val ∧ Approx.so3 b a ∧
    8 * Real.sin (SO3.eucNorm (SO3.log (SO3.mul (SO3.inv a.val) b.val)) / 2) ^ 2 ≤ 3e-24 ∧
    SO3.eucNorm (SO3.act a.val ![3, 4, 0] - SO3.act b.val ![3, 4, 0]) ≤ 1.8e-12 * SO3.eucNorm ![3, 4, 0] ∧
    Approx.so3Transform (unframed (SO3.inv a.val)) (unframed (SO3.inv b.val)) := by
  obtain ⟨a, b, ha, hb, hne, -, h, -⟩ := exClose
  exact ⟨a, b, hne, c78_symmetric.1 a b h, ((c78_rotation_angle a b ha hb).mp h).1,
    (c78_points a b ha hb ⟨(1, 0), exFrame 1, exFrame 2⟩ ⟨(1, 0), exFrame 1, exFrame 2⟩ SO3.isRotation_one SO3.isRotation_one _).1 h,
    (c78_reference_partial a b ⟨quarterTurn, exFrame 3, exFrame 1⟩ quarterTurn_isRotation).2.2.1.mp h.1⟩

/-- `c79_add_partial`: vectors in different frames do not add, in the same frame they do and keep it. -/
example : (FramedVector.add (⟨![1, 2, 3], exFrame 1⟩ : FramedVector V3) ⟨![4, 5, 6], exFrame 2⟩).IsThrow ∧
    ∃ u, FramedVector.add (⟨![1, 2, 3], exFrame 1⟩ : FramedVector V3) ⟨![4, 5, 6], exFrame 1⟩ = .ok u ∧ u.frame = exFrame 1 := by
  refine ⟨(c79_add_partial _ _).1 (by decide), ⟨![1, 2, 3] + ![4, 5, 6], exFrame 1⟩, ?_, rfl⟩
  exact (c25_add _ _).1 rfl

/-- `c79_approx_ignores_frame`: a vector and the same numbers in another frame. -/
example : Approx.framedVector .mutable 1e-12 ⟨![1, 2, 3], exFrame 1⟩ ⟨![1, 2, 3], exFrame 2⟩ ∧
    ¬ Approx.framedVector .const 1e-12 ⟨![1, 2, 3], exFrame 1⟩ ⟨![1, 2, 3], exFrame 2⟩ := by
  obtain ⟨h1, -, h2⟩ := c79_approx_ignores_frame ⟨![1, 2, 3], exFrame 1⟩ (exFrame 2) (by decide)
  exact ⟨h1, h2⟩

end Verif.Props
