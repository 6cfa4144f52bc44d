import Verif.Proofs.Frame
/-! # Properties C20, C21, C23, C25: frame bookkeeping, for every Lie group class -/
namespace Verif.Props
open Verif.Framed
variable {R G A V H : Type}

/-- The transforms a client can get hold of through the public interface of a group class; `build` stands for the ways to make group
data from the data of another class (`SE3` from `SO3`). -/
inductive Obtainable (L : LieOps R G A V) (build : H → G) : Framed G → Prop
  | construct (g) : Obtainable L build (unframed g)
  | constructFramed (g i s a) : mk' g i s = .ok a → Obtainable L build a
  | fromRotation (r) : Obtainable L build (fromRotation build r)
  | fromRotationFramed (r i s a) : fromRotationFramed build r i s = .ok a → Obtainable L build a
  | identity : Obtainable L build (identityUnframed L)
  | identityFramed (i s a) : Framed.identity L i s = .ok a → Obtainable L build a
  | setFrames (a i s b) : Obtainable L build a → Framed.setFrames a i s = .ok b → Obtainable L build b
  | setUnframed (a) : Obtainable L build a → Obtainable L build (Framed.setUnframed a)
  | mul (a b c) : Obtainable L build a → Obtainable L build b → Framed.mul L a b = .ok c → Obtainable L build c
  | inverse (a b) : Obtainable L build a → Framed.inverse L a = .ok b → Obtainable L build b
  | exp (x) : Obtainable L build (expUnframed L x)
  | expFramed (x i s a) : Framed.exp L x i s = .ok a → Obtainable L build a
  | interp (a f b) : Obtainable L build a → Framed.interp L a f = .ok b → Obtainable L build b
  | interpNewFrom (a f n b) : Obtainable L build a → Framed.interpNewFrom L a f n = .ok b → Obtainable L build b

/-- C20.  No obtainable transform has exactly one null frame. -/
theorem c20_never_half_framed (L : LieOps R G A V) (build : H → G) (a : Framed G) (h : Obtainable L build a) :
    a.into = Frame.null ↔ a.src = Frame.null := by
  have viaMk : ∀ {g : G} {i s : Frame} {a : Framed G}, mk' g i s = .ok a → (a.into = Frame.null ↔ a.src = Frame.null) := by
    intro g i s a h
    obtain ⟨h1, rfl⟩ := mk'_eq_ok_iff.mp h
    exact h1
  induction h with
  | construct g => simp [unframed]
  | constructFramed g i s a h => exact viaMk h
  | fromRotation r => simp [Framed.fromRotation, unframed]
  | fromRotationFramed r i s a h => exact viaMk h
  | identity => simp [identityUnframed, unframed]
  | identityFramed i s a h => exact viaMk h
  | setFrames a i s b _ h _ =>
    unfold Framed.setFrames at h
    split_ifs at h with hc
    simp only [Outcome.ok.injEq] at h
    subst h
    simp at hc
    simp [hc]
  | setUnframed a _ _ => simp [Framed.setUnframed]
  | mul a b c _ _ h _ _ =>
    unfold Framed.mul at h
    split_ifs at h with h1 h2
    · simp only [Outcome.ok.injEq] at h
      subst h
      simp [unframed]
    · exact viaMk h
  | inverse a b _ h _ => exact viaMk h
  | exp x => simp [expUnframed, unframed]
  | expFramed x i s a h => exact viaMk h
  | interp a f b _ h _ => exact viaMk h
  | interpNewFrom a f n b _ h _ =>
    unfold Framed.interpNewFrom at h
    split_ifs at h with h1
    exact viaMk h

/-- C20.  Asking for exactly one null frame is refused by the constructor. -/
theorem c20_half_framed_refused (g : G) (i s : Frame) (h : ¬ (i = Frame.null ↔ s = Frame.null)) :
    (mk' g i s).IsThrow := by
  rw [mk'_throw h]; simp

/-- C20.  A transform made from a rotation has exactly the frames asked for, never those of the rotation, and the constructor throws exactly if one of
them is null and the other is not. -/
theorem c20_from_rotation (build : H → G) (r : Framed H) (i s : Frame) :
    fromRotation build r = ⟨build r.val, Frame.null, Frame.null⟩ ∧
    ((i = Frame.null ↔ s = Frame.null) → fromRotationFramed build r i s = .ok ⟨build r.val, i, s⟩) ∧
    (¬ (i = Frame.null ↔ s = Frame.null) → (fromRotationFramed build r i s).IsThrow) :=
  ⟨rfl, fun h => mk'_ok h, fun h => by rw [fromRotationFramed, mk'_throw h]; simp⟩

/-- C20.  Setting frames gives exactly these frames or throws, the latter exactly if one of them is null; removing them leaves both null. -/
theorem c20_set_frames (a : Framed G) (i s : Frame) :
    (i ≠ Frame.null → s ≠ Frame.null → setFrames a i s = .ok ⟨a.val, i, s⟩) ∧ (i = Frame.null ∨ s = Frame.null → (setFrames a i s).IsThrow) ∧
    setUnframed a = ⟨a.val, Frame.null, Frame.null⟩ := by
  unfold setFrames
  refine ⟨fun h1 h2 => ?_, fun h => ?_, rfl⟩
  · rw [if_pos (by simp [h1, h2])]
  · rw [if_neg (by simpa using fun h1 => h.resolve_left h1)]; simp

/-- Identifiers for examples: all bytes equal to `n`. -/
def exFrame (n : Fin 256) : Frame := ⟨⟨List.replicate 16 n, by simp⟩⟩

/-- A toy group class for examples: integers under addition. -/
def exOps : LieOps Int Int Int Int := ⟨0, (· + ·), (- ·), id, id, fun _ x => x, fun _ _ => 0, (· * ·), fun g v => v + g⟩

example : Obtainable exOps (id : Int → Int) ⟨5, exFrame 1, exFrame 2⟩ :=
  .constructFramed 5 (exFrame 1) (exFrame 2) _ (mk'_ok (by decide))
example : fromRotationFramed (fun x : Int => 2 * x) ⟨5, exFrame 1, exFrame 2⟩ (exFrame 3) (exFrame 4) = .ok ⟨10, exFrame 3, exFrame 4⟩ := by rfl
example : setFrames (⟨5, exFrame 1, exFrame 2⟩ : Framed Int) (exFrame 3) (exFrame 4) = .ok ⟨5, exFrame 3, exFrame 4⟩ := by rfl
example : mk' (5 : Int) (exFrame 1) Frame.null = .throw semiFramedErr := by rfl

/-- C21.  Composition of framed transforms succeeds exactly if the inner frames agree, and carries the outer frames; with an
unframed operand it always succeeds and is unframed; the inverse always exists and swaps the frames. -/
theorem c21_composition_frames (L : LieOps R G A V) (a b : Framed G) (ha : a.into = Frame.null ↔ a.src = Frame.null)
    (hb : b.into = Frame.null ↔ b.src = Frame.null) :
    (a.isFramed = true → b.isFramed = true → a.src = b.into → Framed.mul L a b = .ok ⟨L.mul a.val b.val, a.into, b.src⟩) ∧
    (a.isFramed = true → b.isFramed = true → a.src ≠ b.into → (Framed.mul L a b).IsThrow) ∧
    (a.isFramed = false ∨ b.isFramed = false → Framed.mul L a b = .ok ⟨L.mul a.val b.val, Frame.null, Frame.null⟩) ∧
    Framed.inverse L a = .ok ⟨L.inv a.val, a.src, a.into⟩ := by
  refine ⟨?_, ?_, ?_, ?_⟩
  · intro h1 h2 h
    rw [isFramed_iff] at h1 h2
    exact mul_framed L h1 h2 (fun e => h2 (hb.mpr e)) h
  · intro h1 h2 h
    rw [isFramed_iff] at h1 h2
    rw [mul_mismatch L h1 h2 h]; simp
  · intro h
    rw [isFramed_false_iff, isFramed_false_iff] at h
    exact mul_unframed L h
  · exact mk'_ok ha.symm

example : Framed.mul exOps ⟨5, exFrame 1, exFrame 2⟩ ⟨6, exFrame 2, exFrame 3⟩ = .ok ⟨11, exFrame 1, exFrame 3⟩ := by rfl
example : (Framed.mul exOps ⟨5, exFrame 1, exFrame 2⟩ ⟨6, exFrame 3, exFrame 3⟩).IsThrow := ⟨_, rfl⟩

/-- C23, for transforms that are all framed or all unframed.  Missing: mixtures, for which the statement is false, see
`c23_mixed_bracketing_differs`. -/
theorem c23_bracketing_partial (L : LieOps R G A V) (a b c : Framed G)
    (hb : b.into = Frame.null ↔ b.src = Frame.null) (hc : c.into = Frame.null ↔ c.src = Frame.null)
    (hh : (a.isFramed = true ∧ b.isFramed = true ∧ c.isFramed = true) ∨
      (a.isFramed = false ∧ b.isFramed = false ∧ c.isFramed = false)) :
    ((Framed.mul L a b) >>= fun ab => Framed.mul L ab c).IsThrow ↔
      ((Framed.mul L b c) >>= fun bc => Framed.mul L a bc).IsThrow := by
  rcases hh with ⟨h1, h2, h3⟩ | ⟨h1, h2, h3⟩
  · rw [isFramed_iff] at h1 h2 h3
    have hbs : b.src ≠ Frame.null := fun e => h2 (hb.mpr e)
    have hcs : c.src ≠ Frame.null := fun e => h3 (hc.mpr e)
    by_cases e1 : a.src = b.into
    · rw [mul_framed L h1 h2 hbs e1]
      by_cases e2 : b.src = c.into
      · rw [mul_framed L h2 h3 hcs e2]
        simp only [Outcome.ok_bind]
        rw [mul_framed L (a := ⟨L.mul a.val b.val, a.into, b.src⟩) h1 h3 hcs e2,
          mul_framed L (b := ⟨L.mul b.val c.val, b.into, c.src⟩) h1 h2 hcs e1]
        simp
      · rw [mul_mismatch L h2 h3 e2]
        simp only [Outcome.ok_bind]
        rw [mul_mismatch L (a := ⟨L.mul a.val b.val, a.into, b.src⟩) h1 h3 e2]
        simp
    · rw [mul_mismatch L h1 h2 e1]
      by_cases e2 : b.src = c.into
      · rw [mul_framed L h2 h3 hcs e2]
        simp only [Outcome.ok_bind]
        rw [mul_mismatch L (b := ⟨L.mul b.val c.val, b.into, c.src⟩) h1 h2 e1]
        simp
      · rw [mul_mismatch L h2 h3 e2]
        simp
  · rw [isFramed_false_iff] at h1 h2 h3
    rw [mul_unframed L (Or.inl h1), mul_unframed L (Or.inl h2)]
    simp only [Outcome.ok_bind]
    rw [mul_unframed L (Or.inr h3), mul_unframed L (Or.inl h1)]
    simp

/-- C23 fails for mixtures: an unframed first factor hides a frame mismatch in one bracketing only. -/
theorem c23_mixed_bracketing_differs (L : LieOps R G A V) (g : G) :
    ∃ a b c : Framed G, (∃ bld : G → G, Obtainable L bld a ∧ Obtainable L bld b ∧ Obtainable L bld c) ∧
      ((Framed.mul L a b) >>= fun ab => Framed.mul L ab c).IsOk ∧ ((Framed.mul L b c) >>= fun bc => Framed.mul L a bc).IsThrow := by
  refine ⟨unframed g, ⟨g, exFrame 1, exFrame 2⟩, ⟨g, exFrame 3, exFrame 4⟩, ⟨id, ?_, ?_, ?_⟩, ?_, ?_⟩
  · exact .construct g
  · exact .constructFramed g _ _ _ (mk'_ok (by decide))
  · exact .constructFramed g _ _ _ (mk'_ok (by decide))
  · rw [mul_unframed L (Or.inl rfl)]
    simp only [Outcome.ok_bind]
    rw [mul_unframed L (Or.inl rfl)]
    exact ⟨_, rfl⟩
  · rw [mul_mismatch L (show exFrame 1 ≠ Frame.null by decide) (show exFrame 3 ≠ Frame.null by decide)
      (show exFrame 2 ≠ exFrame 3 by decide)]
    exact ⟨_, rfl⟩

example : (⟨5, exFrame 1, exFrame 2⟩ : Framed Int).isFramed = true := by rfl

/-- C25.  Rotating a framed vector succeeds exactly if the transform is framed and its from frame is the vector's; the result
is the rotated vector in the into frame. -/
theorem c25_rotate (L : LieOps R G A V) (a : Framed G) (v : FramedVector V) :
    (a.into ≠ Frame.null ∧ a.src = v.frame → rotateFramed L a v = .ok ⟨L.rotate a.val v.vector, a.into⟩) ∧
    (¬ (a.into ≠ Frame.null ∧ a.src = v.frame) → (rotateFramed L a v).IsThrow) := by
  constructor
  · rintro ⟨h1, h2⟩
    unfold rotateFramed
    rw [if_pos ((isFramed_iff a).mpr h1), if_pos ((Frame.eq_iff _ _).mpr h2)]
  · intro h
    unfold rotateFramed
    split_ifs with h1 h2
    · exact absurd ⟨(isFramed_iff a).mp h1, (Frame.eq_iff _ _).mp h2⟩ h
    · simp
    · simp

/-- C25.  Adding framed vectors succeeds exactly if the frames agree and keeps the frame; scaling keeps the frame. -/
theorem c25_add {A : Type} [Add A] (v w : FramedVector A) :
    (v.frame = w.frame → FramedVector.add v w = .ok ⟨v.vector + w.vector, v.frame⟩) ∧
    (v.frame ≠ w.frame → (FramedVector.add v w).IsThrow) := by
  unfold FramedVector.add
  constructor
  · intro h; rw [if_pos ((Frame.eq_iff _ _).mpr h)]
  · intro h; rw [if_neg (by simpa using h)]; simp

/-- C25.  Scaling keeps the frame and scales the vector; setting a frame keeps the vector. -/
theorem c25_scale {A K : Type} [SMul K A] (d : K) (v : FramedVector A) (f : Frame) :
    FramedVector.scale d v = ⟨d • v.vector, v.frame⟩ ∧ FramedVector.setFrame v f = ⟨v.vector, f⟩ := ⟨rfl, rfl⟩

/-- C25.  Rotating and scaling can be exchanged, and rotating a sum is the sum of the rotated vectors, including which calls throw, if rotation without frames
is linear (`c25_so3_rotate_linear`, `c25_se3_rotate_linear`). -/
theorem c25_rotate_linear {K : Type} [SMul K V] [Add V] (L : LieOps R G A V) (a : Framed G) (hs : ∀ (d : K) x, L.rotate a.val (d • x) = d • L.rotate a.val x)
    (ha : ∀ x y, L.rotate a.val (x + y) = L.rotate a.val x + L.rotate a.val y) (d : K) (v w : FramedVector V) :
    rotateFramed L a (FramedVector.scale d v) = FramedVector.scale d <$> rotateFramed L a v ∧
    (∀ u, (FramedVector.add v w >>= rotateFramed L a) = .ok u ↔
      (rotateFramed L a v >>= fun x => rotateFramed L a w >>= fun y => FramedVector.add x y) = .ok u) ∧
    ((FramedVector.add v w >>= rotateFramed L a).IsThrow ↔
      (rotateFramed L a v >>= fun x => rotateFramed L a w >>= fun y => FramedVector.add x y).IsThrow) := by
  refine ⟨?_, ?_⟩
  · unfold rotateFramed FramedVector.scale
    split
    · split
      · simp [hs]
      · simp
    · simp
  · by_cases h : v.frame = w.frame
    · rw [(c25_add v w).1 h, Outcome.ok_bind]
      by_cases h1 : a.into ≠ Frame.null ∧ a.src = v.frame
      · rw [(c25_rotate L a ⟨v.vector + w.vector, v.frame⟩).1 h1, (c25_rotate L a v).1 h1, (c25_rotate L a w).1 (h ▸ h1)]
        simp only [Outcome.ok_bind]
        rw [(c25_add ⟨L.rotate a.val v.vector, a.into⟩ ⟨L.rotate a.val w.vector, a.into⟩).1 rfl, ha]
        simp
      · obtain ⟨m, hm⟩ := (c25_rotate L a ⟨v.vector + w.vector, v.frame⟩).2 h1
        obtain ⟨m', hm'⟩ := (c25_rotate L a v).2 h1
        rw [hm, hm']
        simp
    · obtain ⟨m, hm⟩ := (c25_add v w).2 h
      rw [hm]
      by_cases h1 : a.into ≠ Frame.null ∧ a.src = v.frame
      · rw [(c25_rotate L a v).1 h1]
        obtain ⟨m', hm'⟩ := (c25_rotate L a w).2 (fun h2 => h (h1.2.symm.trans h2.2))
        rw [Outcome.ok_bind, hm']
        simp
      · obtain ⟨m', hm'⟩ := (c25_rotate L a v).2 h1
        rw [hm']
        simp

/-- C25.  Framed vectors are equal exactly if vector and frame agree. -/
theorem c25_eq {A : Type} (v w : FramedVector A) : FramedVector.eq v w = true ↔ v = w := by
  obtain ⟨x, f⟩ := v
  obtain ⟨y, g⟩ := w
  simp [FramedVector.eq]

/-- C25.  For framed transforms, rotating by a composition is the same as rotating in turn: same result, and one throws
exactly if the other does.  `hrot` is supplied for SO3 and SE3 in `Props/Transform`. -/
theorem c25_rotate_composition (L : LieOps R G A V) (hrot : ∀ g h v, L.rotate (L.mul g h) v = L.rotate g (L.rotate h v))
    (a b : Framed G) (ha : a.into ≠ Frame.null ∧ a.src ≠ Frame.null) (hb : b.into ≠ Frame.null ∧ b.src ≠ Frame.null)
    (v : FramedVector V) :
    (∀ w, ((Framed.mul L a b) >>= fun ab => rotateFramed L ab v) = .ok w ↔
      ((rotateFramed L b v) >>= fun bv => rotateFramed L a bv) = .ok w) ∧
    (((Framed.mul L a b) >>= fun ab => rotateFramed L ab v).IsThrow ↔
      ((rotateFramed L b v) >>= fun bv => rotateFramed L a bv).IsThrow) := by
  by_cases e1 : a.src = b.into
  · rw [mul_framed L ha.1 hb.1 hb.2 e1]
    simp only [Outcome.ok_bind]
    by_cases e2 : b.src = v.frame
    · rw [(c25_rotate L b v).1 ⟨hb.1, e2⟩, (c25_rotate L ⟨L.mul a.val b.val, a.into, b.src⟩ v).1 ⟨ha.1, e2⟩]
      simp only [Outcome.ok_bind]
      rw [(c25_rotate L a ⟨L.rotate b.val v.vector, b.into⟩).1 ⟨ha.1, e1⟩]
      simp [hrot]
    · obtain ⟨m, hm⟩ := (c25_rotate L b v).2 (fun h => e2 h.2)
      obtain ⟨m', hm'⟩ := (c25_rotate L ⟨L.mul a.val b.val, a.into, b.src⟩ v).2 (fun h => e2 h.2)
      rw [hm, hm']
      simp
  · rw [mul_mismatch L ha.1 hb.1 e1]
    by_cases e2 : b.src = v.frame
    · rw [(c25_rotate L b v).1 ⟨hb.1, e2⟩]
      simp only [Outcome.ok_bind, Outcome.throw_bind]
      obtain ⟨m, hm⟩ := (c25_rotate L a ⟨L.rotate b.val v.vector, b.into⟩).2 (fun h => e1 h.2)
      rw [hm]
      simp
    · obtain ⟨m, hm⟩ := (c25_rotate L b v).2 (fun h => e2 h.2)
      rw [hm]
      simp

example : rotateFramed exOps ⟨5, exFrame 1, exFrame 2⟩ ⟨7, exFrame 2⟩ = .ok ⟨12, exFrame 1⟩ := by rfl
example : (FramedVector.add (⟨5, exFrame 1⟩ : FramedVector Int) ⟨7, exFrame 2⟩).IsThrow := ⟨_, rfl⟩

/-! ## Instances of the theorems above -/

/-- `c20_never_half_framed` and `c23_bracketing_partial` on elements with frames, and on a product that both bracketings refuse. -/
example : (exFrame 1 = Frame.null ↔ exFrame 2 = Frame.null) ∧
    ((Framed.mul exOps ⟨5, exFrame 1, exFrame 2⟩ ⟨6, exFrame 2, exFrame 3⟩ >>= fun ab => Framed.mul exOps ab ⟨7, exFrame 4, exFrame 5⟩).IsThrow ↔
      (Framed.mul exOps ⟨6, exFrame 2, exFrame 3⟩ ⟨7, exFrame 4, exFrame 5⟩ >>= fun bc => Framed.mul exOps ⟨5, exFrame 1, exFrame 2⟩ bc).IsThrow) :=
  ⟨c20_never_half_framed exOps (id : Int → Int) ⟨5, exFrame 1, exFrame 2⟩ (.constructFramed 5 (exFrame 1) (exFrame 2) _ (mk'_ok (by decide))),
    c23_bracketing_partial exOps _ _ _ (by decide) (by decide) (.inl (by decide))⟩

/-- `c20_half_framed_refused` and `c20_from_rotation` with one frame missing. -/
example : (mk' (5 : Int) Frame.null (exFrame 2)).IsThrow ∧
    (fromRotationFramed (fun x : Int => 2 * x) ⟨5, exFrame 1, exFrame 2⟩ (exFrame 3) Frame.null).IsThrow :=
  ⟨c20_half_framed_refused _ _ _ (by decide), (c20_from_rotation _ _ _ _).2.2 (by decide)⟩

/-- `c25_rotate` and `c25_add` where they answer and where they throw. -/
example : rotateFramed exOps ⟨5, exFrame 1, exFrame 2⟩ ⟨7, exFrame 2⟩ = .ok ⟨12, exFrame 1⟩ ∧
    (rotateFramed exOps ⟨5, exFrame 1, exFrame 2⟩ ⟨7, exFrame 3⟩).IsThrow ∧
    FramedVector.add (⟨5, exFrame 1⟩ : FramedVector Int) ⟨7, exFrame 1⟩ = .ok ⟨12, exFrame 1⟩ :=
  ⟨(c25_rotate _ _ _).1 (by decide), (c25_rotate _ _ _).2 (by decide), (c25_add _ _).1 rfl⟩

/-- `c25_rotate_linear` for a rotation that flips the sign. -/
example : ∀ (a : Framed Int) (d : Int) (v : FramedVector Int),
    rotateFramed (⟨0, (· + ·), (- ·), id, id, fun _ x => x, fun _ _ => 0, (· * ·), fun _ v => -v⟩ : LieOps Int Int Int Int) a (FramedVector.scale d v) =
    FramedVector.scale d <$> rotateFramed (⟨0, (· + ·), (- ·), id, id, fun _ x => x, fun _ _ => 0, (· * ·), fun _ v => -v⟩ : LieOps Int Int Int Int) a v :=
  fun a d v => (c25_rotate_linear _ a (fun d x => (Int.mul_neg d x).symm) (fun _ _ => Int.neg_add) d v v).1

end Verif.Props
