import Verif.Props.TwoJet
/-! # C33: identity two-jets between any two frames -/
namespace Verif.Props
open Framed

/-- C33.  An identity two-jet, left or right, between two frames that are both there or both missing has the identity of the group, these frames in this order and
zero derivatives; if just one frame is missing the call throws. -/
theorem c33_identity_frames {G A V : Type} [AddCommGroup A] [Module ℝ A] (L : LieOps ℝ G A V) (into src : Frame) :
    ((into = Frame.null ↔ src = Frame.null) →
      TwoJetL.identity L into src = .ok ⟨⟨L.one, into, src⟩, 0, 0⟩ ∧ TwoJetR.identity L into src = .ok ⟨⟨L.one, into, src⟩, 0, 0⟩) ∧
    (¬(into = Frame.null ↔ src = Frame.null) → (TwoJetL.identity L into src : Outcome (TwoJetL G A)).IsThrow ∧
      (TwoJetR.identity L into src : Outcome (TwoJetR G A)).IsThrow) := by
  constructor
  · intro h
    have e : Framed.identity L into src = .ok ⟨L.one, into, src⟩ := mk'_ok h
    rw [TwoJetL.identity, TwoJetR.identity, e]
    exact ⟨rfl, rfl⟩
  · intro h
    have e : Framed.identity L into src = .throw semiFramedErr := by
      rw [Framed.identity, mk', if_neg (fun h' => h ((Frame.isNull_eq_iff into src).mp h'))]
    rw [TwoJetL.identity, TwoJetR.identity, e]
    exact ⟨⟨_, rfl⟩, ⟨_, rfl⟩⟩

example : (exFrame 1 = Frame.null ↔ exFrame 2 = Frame.null) ∧ exFrame 1 ≠ exFrame 2 ∧ ¬(exFrame 1 = Frame.null ↔ Frame.null = Frame.null) := by decide

end Verif.Props
