import Verif.Model.Frame
import Mathlib.Tactic.SplitIfs
/-! # Lemmas about frames -/
namespace Verif

@[simp] theorem Uuid.isNull_iff (u : Uuid) : u.isNull = true ↔ u = Uuid.null := by
  obtain ⟨b, h⟩ := u
  unfold Uuid.isNull
  rw [decide_eq_true_iff]
  simp only [Uuid.null, Uuid.mk.injEq]

@[simp] theorem Uuid.eq_iff (a b : Uuid) : a.eq b = true ↔ a = b := by
  obtain ⟨x, h⟩ := a
  obtain ⟨y, h'⟩ := b
  simp [Uuid.eq]

@[simp] theorem Frame.isNull_iff (f : Frame) : f.isNull = true ↔ f = Frame.null := by
  obtain ⟨u⟩ := f
  simp [Frame.isNull, Frame.null]

@[simp] theorem Frame.isNull_false_iff (f : Frame) : f.isNull = false ↔ f ≠ Frame.null := by
  rw [← Bool.not_eq_true, Frame.isNull_iff]

@[simp] theorem Frame.eq_iff (a b : Frame) : a.eq b = true ↔ a = b := by
  obtain ⟨u⟩ := a
  obtain ⟨v⟩ := b
  simp [Frame.eq]

theorem Frame.isNull_eq_iff (a b : Frame) : a.isNull = b.isNull ↔ (a = Frame.null ↔ b = Frame.null) := by
  rw [← Frame.isNull_iff, ← Frame.isNull_iff]
  cases a.isNull <;> cases b.isNull <;> simp

namespace Framed
variable {R G A V : Type}

@[simp] theorem isFramed_iff (a : Framed G) : a.isFramed = true ↔ a.into ≠ Frame.null := by
  simp [isFramed]

theorem isFramed_false_iff (a : Framed G) : a.isFramed = false ↔ a.into = Frame.null := by
  simp [isFramed]

/-- Both or neither frame null. -/
def Whole (a : Framed G) : Prop := a.into = Frame.null ↔ a.src = Frame.null

theorem mk'_ok {g : G} {i s : Frame} (h : i = Frame.null ↔ s = Frame.null) : mk' g i s = .ok ⟨g, i, s⟩ := by
  unfold mk'
  rw [if_pos ((Frame.isNull_eq_iff i s).mpr h)]

theorem mk'_eq_ok_iff {g : G} {i s : Frame} {a : Framed G} :
    mk' g i s = .ok a ↔ (i = Frame.null ↔ s = Frame.null) ∧ a = ⟨g, i, s⟩ := by
  unfold mk'
  split_ifs with h
  · rw [Frame.isNull_eq_iff] at h
    simp [h, eq_comm]
  · rw [Frame.isNull_eq_iff] at h
    simp [h]

theorem mk'_throw {g : G} {i s : Frame} (h : ¬ (i = Frame.null ↔ s = Frame.null)) : mk' g i s = .throw semiFramedErr := by
  unfold mk'
  rw [if_neg (fun e => h ((Frame.isNull_eq_iff i s).mp e))]

theorem mul_unframed (L : LieOps R G A V) {a b : Framed G} (h : a.into = Frame.null ∨ b.into = Frame.null) :
    mul L a b = .ok (unframed (L.mul a.val b.val)) := by
  unfold mul
  rw [if_pos (by simpa [isFramed] using h)]

theorem mul_framed (L : LieOps R G A V) {a b : Framed G} (ha : a.into ≠ Frame.null) (hb : b.into ≠ Frame.null)
    (hbs : b.src ≠ Frame.null) (h : a.src = b.into) : mul L a b = .ok ⟨L.mul a.val b.val, a.into, b.src⟩ := by
  unfold mul
  rw [if_neg (by simp [isFramed, ha, hb]), if_pos ((Frame.eq_iff _ _).mpr h)]
  exact mk'_ok (by simp [ha, hbs])

theorem mul_mismatch (L : LieOps R G A V) {a b : Framed G} (ha : a.into ≠ Frame.null) (hb : b.into ≠ Frame.null)
    (h : a.src ≠ b.into) : mul L a b = .throw "Inner frames must match for valid composition" := by
  unfold mul
  rw [if_neg (by simp [isFramed, ha, hb]), if_neg (by simpa using h)]

end Framed
end Verif
