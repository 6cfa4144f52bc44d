import Verif.Proofs.Transport
/-! # Queries depend on neighbouring controls only -/
namespace Verif
open Framed

namespace TCurve
variable {G A V : Type} [AddCommGroup A] [Module ℝ A]

theorem pointAt_on (L : LieOps ℝ G A V) {c : TCurve G A} (hc : Inv c) {i : Nat} (hi : i + 1 < c.controls.length) {t : ℝ}
    (h : i = 0 ∨ c.controls[i].time < t) (h0 : c.controls[i].time ≤ t) (h1 : t ≤ c.controls[i + 1].time) :
    pointAt L c t = onPiece L c.controls[i] c.controls[i + 1] t := by
  obtain ⟨j, hj, f0, f1, f2, f3⟩ := pointAt_inside L hc (by omega) t ((hc.time_le (i := 0) (by omega) (by omega)).trans h0)
    (h1.trans (hc.time_le (by omega) (by omega)))
  have hij : i = j := by
    rcases Nat.lt_trichotomy i j with hl | hl | hl
    · rcases f0 with rfl | f0
      · omega
      · have := hc.time_le (i := i + 1) (j := j) (by omega) (by omega)
        linarith
    · exact hl
    · rcases h with rfl | h
      · omega
      · have := hc.time_le (i := j + 1) (j := i) (by omega) (by omega)
        linarith
  subst hij
  exact f3

theorem ok_inside (L : LieOps ℝ G A V) {c : TCurve G A} (hc : Inv c) {t : ℝ} {p : TwoJetL G A} (h : pointAt L c t = .ok p) :
    ∃ (i : Nat) (hi : i + 1 < c.controls.length), (i = 0 ∨ c.controls[i].time < t) ∧ c.controls[i].time ≤ t ∧ t ≤ c.controls[i + 1].time ∧
      pointAt L c t = onPiece L c.controls[i] c.controls[i + 1] t := by
  have thr : ¬ (pointAtImpl c t).IsThrow := by
    rintro ⟨m, e⟩
    unfold pointAt at h
    rw [e] at h
    cases h
  by_cases h2 : 2 ≤ c.controls.length
  · by_cases hin : c.controls[0].time ≤ t ∧ t ≤ c.controls[c.controls.length - 1].time
    · exact pointAt_inside L hc h2 t hin.1 hin.2
    · exact absurd (pointAtImpl_outside hc h2 t hin) thr
  · exact absurd (pointAtImpl_short hc (not_le.mp h2) t) thr

end TCurve

namespace DCurve
variable {G A V : Type}

/-- What a query on the piece from `a` to `b` gives, including a piece without length. -/
noncomputable def pieceAnswer (L : LieOps ℝ G A V) (a b : DControl G) (s : ℝ) : Outcome (Framed G) :=
  open Classical in if a.arcLength = b.arcLength then .ub "division by zero" else onPiece L a b s

theorem pointAt_answer (L : LieOps ℝ G A V) (arc : G → ℝ) (harc : ∀ g, 0 ≤ arc g) {c : DCurve G} (hc : Inv L arc c) (h2 : 2 ≤ c.controls.length)
    {s : ℝ} (h0 : 0 ≤ s) (h1 : s ≤ curveLength c) :
    ∃ (i : Nat) (hi : i + 1 < c.controls.length), c.controls[i].arcLength ≤ s ∧ s ≤ c.controls[i + 1].arcLength ∧
      (i = 0 ∨ c.controls[i].arcLength < s) ∧ pointAt L c s = pieceAnswer L c.controls[i] c.controls[i + 1] s := by
  obtain ⟨i, hi, e1, e2, e3, e4, e5⟩ := pointAt_inside L arc hc h2 h0 h1
  refine ⟨i, hi, e1, e2, e3, ?_⟩
  unfold pieceAnswer
  rcases (hc.le L arc harc hi (Nat.le_succ i)).lt_or_eq with hlt | heq
  · rw [if_neg hlt.ne, e4 hlt]
  · rw [if_pos heq, e5 heq]

theorem pointAt_on (L : LieOps ℝ G A V) (arc : G → ℝ) (harc : ∀ g, 0 ≤ arc g) {c : DCurve G} (hc : Inv L arc c) {i : Nat}
    (hi : i + 1 < c.controls.length) {s : ℝ} (h : i = 0 ∨ c.controls[i].arcLength < s) (h0 : c.controls[i].arcLength ≤ s)
    (h1 : s ≤ c.controls[i + 1].arcLength) : pointAt L c s = pieceAnswer L c.controls[i] c.controls[i + 1] s := by
  have hne : c.controls ≠ [] := List.length_pos_iff.mp (by omega)
  have hz : 0 ≤ s := by
    have := hc.le L arc harc (i := 0) (j := i) (by omega) (by omega)
    rw [hc.zero L arc (by omega)] at this
    linarith
  obtain ⟨j, hj, f1, f2, f0, f3⟩ := pointAt_answer L arc harc hc (by omega) hz
    (by rw [curveLength_eq hne]; exact h1.trans (hc.le L arc harc (by omega) (by omega)))
  have hij : i = j := by
    rcases Nat.lt_trichotomy i j with hl | hl | hl
    · rcases f0 with rfl | f0
      · omega
      · have := hc.le L arc harc (i := i + 1) (j := j) (by omega) (by omega)
        linarith
    · exact hl
    · rcases h with rfl | h
      · omega
      · have := hc.le L arc harc (i := j + 1) (j := i) (by omega) (by omega)
        linarith
  subst hij
  exact f3

theorem ok_inside (L : LieOps ℝ G A V) (arc : G → ℝ) (harc : ∀ g, 0 ≤ arc g) {c : DCurve G} (hc : Inv L arc c) {s : ℝ}
    (h : ¬ (pointAt L c s).IsThrow) :
    ∃ (i : Nat) (hi : i + 1 < c.controls.length), c.controls[i].arcLength ≤ s ∧ s ≤ c.controls[i + 1].arcLength ∧
      (i = 0 ∨ c.controls[i].arcLength < s) ∧ pointAt L c s = pieceAnswer L c.controls[i] c.controls[i + 1] s := by
  by_cases h2 : 2 ≤ c.controls.length
  · by_cases hs : 0 ≤ s ∧ s ≤ curveLength c
    · exact pointAt_answer L arc harc hc h2 hs.1 hs.2
    · exact absurd (pointAt_outside L c hs) h
  · exact absurd (pointAt_short L arc hc (not_le.mp h2) s) h

/-- On a piece only the distance from its start matters. -/
theorem pieceAnswer_shift (L : LieOps ℝ G A V) {a b a' b' : DControl G} (ha : a'.pose = a.pose) (hb : b'.pose = b.pose)
    (hd : b'.arcLength - a'.arcLength = b.arcLength - a.arcLength) (u : ℝ) :
    pieceAnswer L a' b' (a'.arcLength + u) = pieceAnswer L a b (a.arcLength + u) := by
  unfold pieceAnswer
  have e : a'.arcLength = b'.arcLength ↔ a.arcLength = b.arcLength := by
    constructor <;> intro h <;> linarith
  simp only [e]
  unfold onPiece
  rw [ha, hb, hd]
  simp

end DCurve
end Verif
