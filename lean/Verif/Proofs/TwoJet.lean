import Verif.Model.TwoJet
import Verif.Proofs.LieLaws
/-! # Algebra of two-jets -/
namespace Verif

namespace Framed
variable {R G A V : Type}

instance (a : Framed G) : Decidable (Whole a) := inferInstanceAs (Decidable (_ ↔ _))

/-- Composition of two transforms that are both framed or both unframed. -/
theorem mul_uniform (L : LieOps R G A V) {a b : Framed G} (ha : Whole a) (hb : Whole b) (h : a.into = Frame.null ↔ b.into = Frame.null) :
    Framed.mul L a b = if a.src = b.into then .ok ⟨L.mul a.val b.val, a.into, b.src⟩ else
      .throw "Inner frames must match for valid composition" := by
  unfold Whole at ha hb
  by_cases h0 : a.into = Frame.null
  · have hb0 := h.mp h0
    rw [mul_unframed L (Or.inl h0), if_pos (by rw [ha.mp h0, hb0]), h0, hb.mp hb0]
    rfl
  · have hb0 : b.into ≠ Frame.null := fun e => h0 (h.mpr e)
    by_cases e : a.src = b.into
    · rw [mul_framed L h0 hb0 (fun e => hb0 (hb.mpr e)) e, if_pos e]
    · rw [mul_mismatch L h0 hb0 e, if_neg e]

theorem inverse_whole (L : LieOps R G A V) {a : Framed G} (ha : Whole a) : Framed.inverse L a = .ok ⟨L.inv a.val, a.src, a.into⟩ :=
  mk'_ok ha.symm

theorem identity_same (L : LieOps R G A V) (f : Frame) : Framed.identity L f f = .ok ⟨L.one, f, f⟩ := mk'_ok Iff.rfl

end Framed

open Framed
variable {G A V : Type} [AddCommGroup A]

namespace TwoJetL

theorem mul_uniform (L : LieOps ℝ G A V) {j k : TwoJetL G A} (ha : Whole j.g) (hb : Whole k.g)
    (h : j.g.into = Frame.null ↔ k.g.into = Frame.null) :
    mul L j k = if j.g.src = k.g.into then .ok ⟨⟨L.mul j.g.val k.g.val, j.g.into, k.g.src⟩, j.d + L.Ad j.g.val k.d,
      j.d2 + L.Ad j.g.val k.d2 + L.ad j.d (L.Ad j.g.val k.d)⟩ else .throw "Inner frames must match for valid composition" := by
  unfold mul
  rw [Framed.mul_uniform L ha hb h]
  split <;> rfl

theorem inverse_whole (L : LieOps ℝ G A V) {j : TwoJetL G A} (h : Whole j.g) :
    inverse L j = .ok ⟨⟨L.inv j.g.val, j.g.src, j.g.into⟩, -L.Ad (L.inv j.g.val) j.d, -L.Ad (L.inv j.g.val) j.d2⟩ := by
  unfold inverse
  rw [Framed.inverse_whole L h]
  rfl

theorem right_whole (L : LieOps ℝ G A V) {j : TwoJetL G A} (h : Whole j.g) :
    right L j = .ok ⟨⟨L.inv j.g.val, j.g.src, j.g.into⟩, -j.d, -j.d2⟩ := by
  unfold right
  rw [Framed.inverse_whole L h]
  rfl

theorem identity_same (L : LieOps ℝ G A V) (f : Frame) : identity L f f = .ok (⟨⟨L.one, f, f⟩, 0, 0⟩ : TwoJetL G A) := by
  unfold identity
  rw [Framed.identity_same]
  rfl

end TwoJetL

namespace TwoJetR

theorem mul_uniform (L : LieOps ℝ G A V) {j k : TwoJetR G A} (ha : Whole j.g) (hb : Whole k.g)
    (h : j.g.into = Frame.null ↔ k.g.into = Frame.null) :
    mul L j k = if j.g.src = k.g.into then .ok ⟨⟨L.mul j.g.val k.g.val, j.g.into, k.g.src⟩, k.d + L.Ad (L.inv k.g.val) j.d,
      k.d2 + L.Ad (L.inv k.g.val) j.d2 - L.ad k.d (L.Ad (L.inv k.g.val) j.d)⟩ else
      .throw "Inner frames must match for valid composition" := by
  unfold mul
  rw [Framed.mul_uniform L ha hb h, Framed.inverse_whole L hb]
  split <;> rfl

theorem inverse_whole (L : LieOps ℝ G A V) {j : TwoJetR G A} (h : Whole j.g) :
    inverse L j = .ok ⟨⟨L.inv j.g.val, j.g.src, j.g.into⟩, -L.Ad j.g.val j.d, -L.Ad j.g.val j.d2⟩ := by
  unfold inverse
  rw [Framed.inverse_whole L h]
  rfl

theorem left_whole (L : LieOps ℝ G A V) {j : TwoJetR G A} (h : Whole j.g) :
    left L j = .ok ⟨⟨L.inv j.g.val, j.g.src, j.g.into⟩, -j.d, -j.d2⟩ := by
  unfold left
  rw [Framed.inverse_whole L h]
  rfl

theorem identity_same (L : LieOps ℝ G A V) (f : Frame) : identity L f f = .ok (⟨⟨L.one, f, f⟩, 0, 0⟩ : TwoJetR G A) := by
  unfold identity
  rw [Framed.identity_same]
  rfl

end TwoJetR
section
variable {G A V : Type}

theorem framed_inverse_ok {R : Type} {L : LieOps R G A V} {a b : Framed G} (h : Framed.inverse L a = .ok b) : b.val = L.inv a.val := by
  obtain ⟨-, rfl⟩ := Framed.mk'_eq_ok_iff.mp h
  rfl

theorem framed_mul_ok {R : Type} {L : LieOps R G A V} {a b c : Framed G} (h : Framed.mul L a b = .ok c) :
    c.val = L.mul a.val b.val := by
  unfold Framed.mul at h
  split_ifs at h
  · simp only [Outcome.ok.injEq] at h; subst h; rfl
  · obtain ⟨-, rfl⟩ := Framed.mk'_eq_ok_iff.mp h; rfl

theorem bind_ok {α β : Type} {x : Outcome α} {f : α → Outcome β} {b : β} (h : x >>= f = .ok b) : ∃ a, x = .ok a ∧ f a = .ok b := by
  cases x with
  | ok a => exact ⟨a, rfl, h⟩
  | throw m => cases h
  | ub m => cases h

end

end Verif
