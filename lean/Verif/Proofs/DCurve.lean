import Verif.Model.DCurve
import Verif.Proofs.TCurve
/-! # Distance curves: the invariant and the point query -/
namespace Verif
open Framed

namespace DCurve
variable {G A V : Type}

/-- The transform between two neighbouring controls. -/
noncomputable def rel (L : LieOps ℝ G A V) (a b : Framed G) : Framed G :=
  if a.into = Frame.null ∨ b.into = Frame.null then unframed (L.mul (L.inv a.val) b.val) else ⟨L.mul (L.inv a.val) b.val, a.src, b.src⟩

@[simp] theorem rel_val (L : LieOps ℝ G A V) (a b : Framed G) : (rel L a b).val = L.mul (L.inv a.val) b.val := by
  unfold rel; split_ifs <;> rfl

/-- Two neighbours can be composed. -/
def Fits (a b : Framed G) : Prop := a.into = Frame.null ∨ b.into = Frame.null ∨ a.into = b.into

theorem step_eq (L : LieOps ℝ G A V) {a b : Framed G} (ha : Whole a) (hb : Whole b) :
    (do let i ← Framed.inverse L a; Framed.mul L i b) =
      open Classical in if Fits a b then .ok (rel L a b) else .throw "Inner frames must match for valid composition" := by
  rw [inverse_whole L ha, Outcome.ok_bind]
  unfold Fits rel
  have ha' : a.into = Frame.null ↔ a.src = Frame.null := ha
  have hb' : b.into = Frame.null ↔ b.src = Frame.null := hb
  by_cases h1 : a.into = Frame.null ∨ b.into = Frame.null
  · rw [if_pos (by tauto), if_pos h1, mul_unframed L (by rw [← ha']; exact h1)]
  · rw [not_or] at h1
    by_cases h2 : a.into = b.into
    · rw [if_pos (by tauto), if_neg (by tauto), mul_framed L (by rw [Ne, ← ha']; exact h1.1) h1.2 (by rw [Ne, ← hb']; exact h1.2) h2]
    · rw [if_neg (by tauto), mul_mismatch L (by rw [Ne, ← ha']; exact h1.1) h1.2 h2]

/-- The piece between two neighbouring controls. -/
noncomputable def piece (L : LieOps ℝ G A V) (a b : DControl G) : DSegment G := ⟨a.arcLength, b.arcLength, a.pose, b.pose, rel L a.pose b.pose⟩

/-- What every curve built by appending satisfies. -/
structure Inv (L : LieOps ℝ G A V) (arc : G → ℝ) (c : DCurve G) : Prop where
  whole : ∀ p ∈ c.controls, Whole p.pose
  first : ∀ p, c.controls.head? = some p → p.arcLength = 0
  chain : ∀ (i : Nat) (hi : i + 1 < c.controls.length),
    c.controls[i + 1].arcLength = c.controls[i].arcLength + arc (L.mul (L.inv c.controls[i].pose.val) c.controls[i + 1].pose.val)
  segments : c.segments = List.zipWith (piece L) c.controls c.controls.tail
  frames : ∀ p, c.controls.head? = some p → p.pose.into ≠ Frame.null → ∀ q ∈ c.controls, q.pose.into = p.pose.into ∧ q.pose.src = p.pose.src

variable (L : LieOps ℝ G A V) (arc : G → ℝ)

theorem inv_empty : Inv L arc (empty : DCurve G) :=
  ⟨by simp [empty], by simp [empty], by simp [empty], rfl, by simp [empty]⟩

/-- The curve accepts this pose next. -/
def Accepts (c : DCurve G) (p : Framed G) : Prop :=
  (∀ f, c.controls.head? = some f → f.pose.into ≠ Frame.null → p.into = f.pose.into ∧ p.src = f.pose.src) ∧
  (∀ b, c.controls.getLast? = some b → Fits b.pose p)

theorem checkFrames_eq (c : DCurve G) (p : Framed G) : checkFrames c p =
    open Classical in if ∀ f, c.controls.head? = some f → f.pose.into ≠ Frame.null → p.into = f.pose.into ∧ p.src = f.pose.src then .ok ()
      else .throw "Control points must have the same reference and point frames." := by
  unfold checkFrames isFramed referenceFrame pointFrame
  cases hl : c.controls with
  | nil => simp
  | cons f t =>
    simp only [List.isEmpty_cons, List.head?_cons, Outcome.ok_bind, Bool.false_eq_true, if_false, Option.some.injEq, forall_eq']
    by_cases hf : f.pose.into = Frame.null
    · have : f.pose.isFramed = false := (isFramed_false_iff _).mpr hf
      simp [this, hf]
    · have : f.pose.isFramed = true := by
        rw [← Bool.not_eq_false, isFramed_false_iff]; exact hf
      simp only [this, if_true]
      have hv : p.verifyFrames f.pose.into f.pose.src = true ↔ p.into = f.pose.into ∧ p.src = f.pose.src := by
        simp [Framed.verifyFrames, Framed.verifyInto, Framed.verifyFrom, Frame.eq_iff]
      by_cases h : p.into = f.pose.into ∧ p.src = f.pose.src
      · rw [if_pos (fun _ => h), Outcome.reassert_true (hv.mpr h)]
      · rw [if_neg (fun h' => h (h' hf)), Outcome.reassert_false (by rw [hv]; exact h)]

theorem append_accept {c : DCurve G} (hc : Inv L arc c) {p : Framed G} (hp : Whole p) (h : Accepts c p) :
    (append L arc c p).2 = .ok () ∧ (∃ len, (append L arc c p).1.controls = c.controls ++ [⟨len, p⟩]) ∧ Inv L arc (append L arc c p).1 := by
  unfold append
  rw [checkFrames_eq, if_pos h.1]
  simp only
  cases hl : c.controls.getLast? with
  | none =>
    have hn : c.controls = [] := by simpa using hl
    simp only [hn, List.nil_append]
    refine ⟨trivial, ⟨0, rfl⟩, ?_⟩
    have hs := hc.segments
    rw [hn] at hs
    exact ⟨by simpa using hp, by simp, by simp, by simpa using hs, by simp⟩
  | some b =>
    have hb := List.mem_of_getLast? hl
    simp only
    rw [step_eq L (hc.whole b hb) hp, if_pos (h.2 b hl)]
    simp only
    refine ⟨trivial, ⟨_, rfl⟩, ?_⟩
    have hne : c.controls ≠ [] := List.ne_nil_of_mem hb
    have hpos : 0 < c.controls.length := List.length_pos_iff.mpr hne
    have hhead : ∀ x : DControl G, (c.controls ++ [x]).head? = c.controls.head? := by
      intro x
      cases hcc : c.controls with
      | nil => exact absurd hcc hne
      | cons y t => rfl
    have hbe : c.controls[c.controls.length - 1] = b := by
      rw [List.getLast?_eq_getElem?, List.getElem?_eq_getElem (by omega)] at hl
      exact Option.some.inj hl
    refine ⟨?_, ?_, ?_, ?_, ?_⟩
    · intro q hq
      simp only [List.mem_append, List.mem_singleton] at hq
      rcases hq with hq | rfl
      · exact hc.whole q hq
      · exact hp
    · intro q hq
      simp only [hhead] at hq
      exact hc.first q hq
    · intro i hi
      simp only [List.length_append, List.length_singleton] at hi
      by_cases h1 : i + 1 < c.controls.length
      · simp only [List.getElem_append_left h1, List.getElem_append_left (show i < c.controls.length by omega)]
        exact hc.chain i h1
      · have hi' : i = c.controls.length - 1 := by omega
        subst hi'
        have e1 : ∀ (x : DControl G) (h : c.controls.length - 1 + 1 < (c.controls ++ [x]).length),
            (c.controls ++ [x])[c.controls.length - 1 + 1] = x := by
          intro x h
          rw [List.getElem_append_right (by omega)]
          simp
        simp only [e1, List.getElem_append_left (show c.controls.length - 1 < c.controls.length by omega), hbe, rel_val]
    · have := TCurve.zipWith_tail_append (piece L) c.controls b ⟨b.arcLength + arc (rel L b.pose p).val, p⟩ hl
      simp only
      rw [this, ← hc.segments]
      rfl
    · intro f hf hfn q hq
      simp only [hhead] at hf
      simp only [List.mem_append, List.mem_singleton] at hq
      rcases hq with hq | rfl
      · exact hc.frames f hf hfn q hq
      · exact h.1 f hf hfn

theorem append_reject {c : DCurve G} (hc : Inv L arc c) {p : Framed G} (hp : Whole p) (h : ¬ Accepts c p) :
    (append L arc c p).2.IsThrow ∧ (append L arc c p).1 = c := by
  unfold append
  rw [checkFrames_eq]
  by_cases h1 : ∀ f, c.controls.head? = some f → f.pose.into ≠ Frame.null → p.into = f.pose.into ∧ p.src = f.pose.src
  · rw [if_pos h1]
    simp only
    have h2 : ¬ ∀ b, c.controls.getLast? = some b → Fits b.pose p := fun h2 => h ⟨h1, h2⟩
    cases hl : c.controls.getLast? with
    | none => exact absurd (by simp [hl]) h2
    | some b =>
      simp only
      rw [step_eq L (hc.whole b (List.mem_of_getLast? hl)) hp, if_neg (by simpa [hl] using h2)]
      exact ⟨by simp, rfl⟩
  · rw [if_neg h1]
    exact ⟨by simp, rfl⟩

theorem Inv.length {c : DCurve G} (hc : Inv L arc c) : c.segments.length = c.controls.length - 1 := by
  rw [hc.segments, List.length_zipWith, List.length_tail]; omega

theorem Inv.segment {c : DCurve G} (hc : Inv L arc c) {i : Nat} (hi : i + 1 < c.controls.length) (h : i < c.segments.length) :
    c.segments[i] = piece L c.controls[i] c.controls[i + 1] := by
  have : c.segments[i]? = some (piece L c.controls[i] c.controls[i + 1]) := by
    rw [hc.segments, List.getElem?_eq_getElem (by rw [List.length_zipWith, List.length_tail]; omega), List.getElem_zipWith, List.getElem_tail]
  rw [List.getElem?_eq_getElem h] at this
  exact Option.some.inj this

theorem Inv.le {c : DCurve G} (hc : Inv L arc c) (harc : ∀ g, 0 ≤ arc g) {i j : Nat} (hj : j < c.controls.length) (hij : i ≤ j) :
    c.controls[i].arcLength ≤ c.controls[j].arcLength := by
  induction j with
  | zero => obtain rfl : i = 0 := by omega
            exact le_refl _
  | succ j ih =>
    rcases Nat.lt_or_ge i (j + 1) with h | h
    · have := ih (by omega) (by omega)
      have h2 := hc.chain j hj
      have h3 := harc (L.mul (L.inv c.controls[j].pose.val) c.controls[j + 1].pose.val)
      linarith
    · obtain rfl : i = j + 1 := by omega
      exact le_refl _

theorem curveLength_eq {c : DCurve G} (h : c.controls ≠ []) :
    curveLength c = (c.controls[c.controls.length - 1]'(by have := List.length_pos_iff.mpr h; omega)).arcLength := by
  have := List.length_pos_iff.mpr h
  unfold curveLength
  rw [List.getLast?_eq_getElem?, List.getElem?_eq_getElem (by omega)]

theorem Inv.zero {c : DCurve G} (hc : Inv L arc c) (h : 0 < c.controls.length) : c.controls[0].arcLength = 0 :=
  hc.first _ (by rw [List.head?_eq_getElem?, List.getElem?_eq_getElem h])

/-- The segment search finds the first piece whose end is not before `s`. -/
theorem find_spec {c : DCurve G} (hc : Inv L arc c) (h2 : 2 ≤ c.controls.length) {s : ℝ} (h0 : 0 ≤ s)
    (h1 : s ≤ curveLength c) :
    ∃ (i : Nat) (hi : i + 1 < c.controls.length),
      c.segments.find? (fun g => decide (s ≤ g.destArcLength)) = some (piece L c.controls[i] c.controls[i + 1]) ∧
      c.controls[i].arcLength ≤ s ∧ s ≤ c.controls[i + 1].arcLength ∧ (i = 0 ∨ c.controls[i].arcLength < s) := by
  classical
  have hlen := hc.length
  rw [curveLength_eq (List.length_pos_iff.mp (by omega))] at h1
  have hex : ∃ i, ∃ (hi : i + 1 < c.controls.length), s ≤ c.controls[i + 1].arcLength := by
    refine ⟨c.controls.length - 2, by omega, ?_⟩
    have e : c.controls[c.controls.length - 2 + 1]'(by omega) = c.controls[c.controls.length - 1]'(by omega) := by congr 1; omega
    rw [e]; exact h1
  obtain ⟨hi, hs⟩ := Nat.find_spec hex
  generalize hidx : Nat.find hex = i at *
  have hmin : ∀ j, j < i → ∀ hj : j + 1 < c.controls.length, ¬ s ≤ c.controls[j + 1].arcLength := by
    intro j hj hj2 hcon
    rw [← hidx] at hj
    exact Nat.find_min hex hj ⟨hj2, hcon⟩
  have hbot : i = 0 ∨ c.controls[i].arcLength < s := by
    rcases Nat.eq_zero_or_pos i with h | h
    · exact .inl h
    · right
      have := hmin (i - 1) (by omega) (by omega)
      have e : c.controls[i - 1 + 1]'(by omega) = c.controls[i] := by congr 1; omega
      rw [e] at this
      exact not_le.mp this
  refine ⟨i, hi, ?_, ?_, hs, hbot⟩
  · rw [List.find?_eq_some_iff_getElem]
    refine ⟨decide_eq_true (p := s ≤ (piece L c.controls[i] c.controls[i + 1]).destArcLength) hs, i, by omega, hc.segment L arc hi (by omega), ?_⟩
    intro j hj
    rw [hc.segment L arc (i := j) (by omega) (by omega)]
    rw [decide_eq_false (p := s ≤ (piece L c.controls[j] c.controls[j + 1]).destArcLength) (hmin j hj (by omega))]
    rfl
  · rcases hbot with rfl | h
    · rw [hc.zero L arc (by omega)]; exact h0
    · exact h.le

/-- The value on one piece as a function of arc length. -/
noncomputable def onPiece (a b : DControl G) (s : ℝ) : Outcome (Framed G) := do
  let q ← Framed.interp L (rel L a.pose b.pose) ((s - a.arcLength) / (b.arcLength - a.arcLength))
  Framed.mul L a.pose q

theorem pointAt_inside {c : DCurve G} (hc : Inv L arc c) (h2 : 2 ≤ c.controls.length) {s : ℝ} (h0 : 0 ≤ s)
    (h1 : s ≤ curveLength c) :
    ∃ (i : Nat) (hi : i + 1 < c.controls.length), c.controls[i].arcLength ≤ s ∧ s ≤ c.controls[i + 1].arcLength ∧
      (i = 0 ∨ c.controls[i].arcLength < s) ∧
      (c.controls[i].arcLength < c.controls[i + 1].arcLength → pointAt L c s = onPiece L c.controls[i] c.controls[i + 1] s) ∧
      (c.controls[i].arcLength = c.controls[i + 1].arcLength → pointAt L c s = .ub "division by zero") := by
  obtain ⟨i, hi, hfind, e1, e2, e3⟩ := find_spec L arc hc h2 h0 h1
  refine ⟨i, hi, e1, e2, e3, ?_, ?_⟩
  · intro hlt
    unfold pointAt pointAtImpl
    rw [Outcome.reassert_true h0, Outcome.reassert_true h1, Outcome.ok_bind, Outcome.ok_bind, hfind]
    have h : ¬ ((piece L c.controls[i] c.controls[i + 1]).destArcLength - (piece L c.controls[i] c.controls[i + 1]).origArcLength = 0) :=
      sub_ne_zero.mpr hlt.ne'
    simp only [if_neg h]
    rfl
  · intro heq
    unfold pointAt pointAtImpl
    rw [Outcome.reassert_true h0, Outcome.reassert_true h1, Outcome.ok_bind, Outcome.ok_bind, hfind]
    have h : (piece L c.controls[i] c.controls[i + 1]).destArcLength - (piece L c.controls[i] c.controls[i + 1]).origArcLength = 0 :=
      sub_eq_zero.mpr heq.symm
    simp only [if_pos h]
    rfl

theorem pointAt_outside (c : DCurve G) {s : ℝ} (h : ¬ (0 ≤ s ∧ s ≤ curveLength c)) : (pointAt L c s).IsThrow := by
  unfold pointAt pointAtImpl
  by_cases h0 : 0 ≤ s
  · rw [Outcome.reassert_true h0, Outcome.reassert_false (fun h1 => h ⟨h0, h1⟩)]
    simp
  · rw [Outcome.reassert_false h0]
    simp

theorem pointAt_short {c : DCurve G} (hc : Inv L arc c) (h : c.controls.length < 2) (s : ℝ) : (pointAt L c s).IsThrow := by
  by_cases h1 : 0 ≤ s ∧ s ≤ curveLength c
  · have : c.segments = [] := by
      have := hc.length
      exact List.length_eq_zero_iff.mp (by omega)
    unfold pointAt pointAtImpl
    rw [Outcome.reassert_true h1.1, Outcome.reassert_true h1.2, this]
    simp
  · exact pointAt_outside L c h1

theorem rel_whole {a b : Framed G} (ha : Whole a) (hb : Whole b) : Whole (rel L a b) := by
  have ha' : a.into = Frame.null ↔ a.src = Frame.null := ha
  have hb' : b.into = Frame.null ↔ b.src = Frame.null := hb
  unfold rel
  split_ifs with h
  · exact Iff.rfl
  · change a.src = Frame.null ↔ b.src = Frame.null
    rw [← ha', ← hb']; tauto

/-- On a piece the query always succeeds. -/
theorem onPiece_eq {a b : DControl G} (ha : Whole a.pose) (hb : Whole b.pose) (s : ℝ) :
    ∃ f1 f2, onPiece L a b s = .ok ⟨L.mul a.pose.val (L.exp (L.smul ((s - a.arcLength) / (b.arcLength - a.arcLength))
      (L.log (L.mul (L.inv a.pose.val) b.pose.val)))), f1, f2⟩ ∧
      (a.pose.into = b.pose.into → a.pose.src = b.pose.src → f1 = a.pose.into ∧ f2 = a.pose.src) := by
  have hw := rel_whole L ha hb
  have ha' : a.pose.into = Frame.null ↔ a.pose.src = Frame.null := ha
  unfold onPiece Framed.interp Framed.exp
  rw [mk'_ok hw, Outcome.ok_bind, rel_val]
  by_cases h : a.pose.into = Frame.null ∨ b.pose.into = Frame.null
  · have hr : (rel L a.pose b.pose).into = Frame.null := by unfold rel; rw [if_pos h]; rfl
    rw [mul_unframed L (b := ⟨L.exp (L.smul ((s - a.arcLength) / (b.arcLength - a.arcLength)) (L.log (L.mul (L.inv a.pose.val) b.pose.val))),
      (rel L a.pose b.pose).into, (rel L a.pose b.pose).src⟩) (.inr hr)]
    refine ⟨_, _, rfl, fun e1 e2 => ?_⟩
    have : a.pose.into = Frame.null := by rcases h with h | h; exact h; rw [e1, h]
    exact ⟨this.symm, (ha'.mp this).symm⟩
  · have hr : (rel L a.pose b.pose).into = a.pose.src := by unfold rel; rw [if_neg h]
    have hr2 : (rel L a.pose b.pose).src = b.pose.src := by unfold rel; rw [if_neg h]
    rw [not_or] at h
    have hb' : b.pose.into = Frame.null ↔ b.pose.src = Frame.null := hb
    rw [mul_framed L h.1 (b := ⟨_, _, _⟩) (by simp only [hr]; rw [Ne, ← ha']; exact h.1) (by simp only [hr2]; rw [Ne, ← hb']; exact h.2)
      (by simp only [hr])]
    exact ⟨_, _, rfl, fun e1 e2 => ⟨rfl, by simp only [hr2, e2]⟩⟩

end DCurve
end Verif
