import Verif.Props.SO3Construct
import Verif.Props.Approx
/-! # C79, C80: frames of differences and of constructed rotations -/
namespace Verif.Props
open Framed

/-- C79, negative.  The difference of framed vectors is a plain vector, whatever the frames: added to the second it gives the first, and no frame changes it. -/
theorem c79_difference_unchecked {A : Type} [AddGroup A] (v w : FramedVector A) (f g : Frame) :
    FramedVector.sub v w + w.vector = v.vector ∧ FramedVector.sub (v.setFrame f) (w.setFrame g) = FramedVector.sub v w := ⟨sub_add_cancel _ _, rfl⟩

/-- C80.  The constructors with frames make what the ones without make, from and into the frames asked for; they throw exactly if just one frame is missing. -/
theorem c80_frames (m : M3) (q : SO3.Quat) (t : ℝ) (n : V3) (into src : Frame) :
    ((into = Frame.null ↔ src = Frame.null) →
      (∃ g, SO3.ofMatrixFramed m into src = .ok g ∧ (∀ p, SO3.act g.val p = m.mulVec p) ∧ g.into = into ∧ g.src = src) ∧
      (∃ g, SO3.ofQuaternionFramed q into src = .ok g ∧ g.val = (SO3.ofQuaternion q).val ∧ g.into = into ∧ g.src = src) ∧
      (∃ g, SO3.ofAngleAxisFramed t n into src = .ok g ∧ g.val = (SO3.ofAngleAxis t n).val ∧ g.into = into ∧ g.src = src)) ∧
    (¬(into = Frame.null ↔ src = Frame.null) →
      (SO3.ofMatrixFramed m into src).IsThrow ∧ (SO3.ofQuaternionFramed q into src).IsThrow ∧ (SO3.ofAngleAxisFramed t n into src).IsThrow) ∧
    (SO3.ofMatrix m).into = Frame.null ∧ (SO3.ofMatrix m).src = Frame.null ∧ ∀ p, SO3.act (SO3.ofMatrix m).val p = m.mulVec p := by
  have ht : ∀ x : M3, ¬(into = Frame.null ↔ src = Frame.null) → (mk' x into src).IsThrow := fun x h =>
    ⟨semiFramedErr, by rw [mk', if_neg (fun h' => h ((Frame.isNull_eq_iff into src).mp h'))]⟩
  exact ⟨fun h => ⟨⟨_, mk'_ok h, fun p => rfl, rfl, rfl⟩, ⟨_, mk'_ok h, rfl, rfl, rfl⟩, ⟨_, mk'_ok h, rfl, rfl, rfl⟩⟩,
    fun h => ⟨ht _ h, ht _ h, ht _ h⟩, rfl, rfl, fun p => rfl⟩

example : (exFrame 1 = Frame.null ↔ exFrame 2 = Frame.null) ∧ ¬(exFrame 1 = Frame.null ↔ Frame.null = Frame.null) := by decide

end Verif.Props
