import Verif.Model.Trajectory
import Verif.Props.TCurve
import Verif.Props.Binary64
/-! # Helper lemmas about trajectories -/
namespace Verif
open Matrix Spec Verif.Framed Binary64

namespace Binary64

theorem log_cast {q : ℚ} (hq : 0 < q) : Int.log 2 (q : ℝ) = Int.log 2 q := by
  have hr : (0 : ℝ) < q := by exact_mod_cast hq
  apply le_antisymm
  · rw [← Int.zpow_le_iff_le_log (by norm_num) hq]
    have := Int.zpow_log_le_self (b := 2) (by norm_num) hr
    rw [← Rat.cast_le (K := ℝ)]
    push_cast at this ⊢
    exact this
  · rw [← Int.zpow_le_iff_le_log (by norm_num) hr]
    have := Int.zpow_log_le_self (b := 2) (by norm_num) hq
    rw [← Rat.cast_le (K := ℝ)] at this
    push_cast at this ⊢
    exact this

theorem roundEvenR_cast (q : ℚ) : roundEvenR (q : ℝ) = roundEven q := by
  unfold roundEvenR roundEven
  have hf : ⌊(q : ℝ)⌋ = ⌊q⌋ := Rat.floor_cast q
  simp only [hf]
  have e1 : ((q : ℝ) - ((⌊q⌋ : ℤ) : ℝ) < 1 / 2) ↔ (q - ((⌊q⌋ : ℤ) : ℚ) < 1 / 2) := by
    rw [show ((q : ℝ) - ((⌊q⌋ : ℤ) : ℝ)) = ((q - ((⌊q⌋ : ℤ) : ℚ) : ℚ) : ℝ) by push_cast; ring,
      show (1 / 2 : ℝ) = ((1 / 2 : ℚ) : ℝ) by norm_num, Rat.cast_lt]
  have e2 : (1 / 2 < (q : ℝ) - ((⌊q⌋ : ℤ) : ℝ)) ↔ (1 / 2 < q - ((⌊q⌋ : ℤ) : ℚ)) := by
    rw [show ((q : ℝ) - ((⌊q⌋ : ℤ) : ℝ)) = ((q - ((⌊q⌋ : ℤ) : ℚ) : ℚ) : ℝ) by push_cast; ring,
      show (1 / 2 : ℝ) = ((1 / 2 : ℚ) : ℝ) by norm_num, Rat.cast_lt]
  simp only [e1, e2]

theorem flR_cast (q : ℚ) : flR (q : ℝ) = (fl q : ℝ) := by
  unfold flR fl
  by_cases h : q = 0
  · simp [h]
  · have h' : (q : ℝ) ≠ 0 := by exact_mod_cast h
    rw [if_neg h, if_neg h']
    have e : Int.log 2 |(q : ℝ)| - 52 = ulpExp q := by
      unfold ulpExp
      rw [← Rat.cast_abs, log_cast (abs_pos.mpr h)]
    rw [e, show (q : ℝ) / 2 ^ ulpExp q = ((q / 2 ^ ulpExp q : ℚ) : ℝ) by push_cast; ring, roundEvenR_cast]
    push_cast
    ring

theorem asDurationR_cast (q : ℚ) : asDurationR (q : ℝ) = asDuration q := by
  unfold asDurationR asDuration
  rw [show (q : ℝ) * 1000000000 = ((q * 1000000000 : ℚ) : ℝ) by push_cast; ring, flR_cast]
  congr 1
  unfold truncR trunc
  have h1 : (0 : ℝ) ≤ ((fl (q * 1000000000) : ℚ) : ℝ) ↔ 0 ≤ fl (q * 1000000000) := Rat.cast_nonneg
  simp only [h1, Rat.floor_cast, Rat.ceil_cast]

end Binary64

/-- Inside its range a curve's point has the curve's frames. -/
theorem TCurve.pointAt_frames {G A V : Type} [NormedAddCommGroup A] [NormedSpace ℝ A] (L : LieOps ℝ G A V) {c : TCurve G A} (hc : TCurve.Inv c)
    (hw : ∀ p ∈ c.controls, Whole p.point.g) (h : 2 ≤ c.controls.length) (t : ℝ) (h0 : c.controls[0].time ≤ t)
    (h1 : t ≤ c.controls[c.controls.length - 1].time) :
    ∃ p, TCurve.pointAt L c t = .ok p ∧ p.g.into = c.controls[0].point.g.into ∧ p.g.src = c.controls[0].point.g.src := by
  obtain ⟨i, hi, -, -, -, e⟩ := TCurve.pointAt_inside L hc h t h0 h1
  rw [e, onPiece_formula L (TCurve.good_piece hc hw hi)]
  obtain ⟨f1, f2⟩ := hc.frames c.controls[i] (List.getElem_mem _) c.controls[0] (List.getElem_mem _)
  exact ⟨_, rfl, f1, f2⟩

namespace Trajectory

/-- The curve control made of a trajectory control. -/
noncomputable def toControl (start : Int) (p : TrajControl) : TControl Pose Twist :=
  ⟨(asSeconds (p.atTime - start) : ℝ), ⟨⟨SE3.ops.inv p.state.refFromBody.val, p.state.refFromBody.src, p.state.refFromBody.into⟩,
    -p.state.twoJet.d, -p.state.twoJet.d2⟩⟩

/-- Invariant: what the trajectory holds after the controls `acc` were accepted. -/
structure Inv (T : Trajectory) (acc : List TrajControl) : Prop where
  built : Props.Built T.curve
  controls : T.curve.controls = acc.map (toControl T.startTime)
  start : ∀ p ∈ acc.head?, p.atTime = T.startTime
  fits : ∀ p ∈ acc, InI64 (p.atTime - T.startTime)
  whole : ∀ p ∈ acc, Whole p.state.refFromBody

theorem inv_empty : Inv empty [] := ⟨Props.Built.empty, rfl, by simp, by simp, by simp⟩

theorem left_eq {s : RBState} (h : Whole s.refFromBody) : TwoJetR.left SE3.ops s.twoJet =
    .ok ⟨⟨SE3.ops.inv s.refFromBody.val, s.refFromBody.src, s.refFromBody.into⟩, -s.twoJet.d, -s.twoJet.d2⟩ :=
  TwoJetR.left_whole SE3.ops h

theorem push_eq {T : Trajectory} {p : TrajControl} (hw : Whole p.state.refFromBody) (hf : InI64 (p.atTime - T.startTime)) :
    push T p = ({ T with curve := (TCurve.append T.curve (toControl T.startTime p)).1 },
      (TCurve.append T.curve (toControl T.startTime p)).2) := by
  unfold push
  rw [i64_ok hf, left_eq hw]
  rfl

theorem push_ub {T : Trajectory} {p : TrajControl} (hf : ¬ InI64 (p.atTime - T.startTime)) :
    push T p = (T, .ub "signed overflow") := by
  unfold push i64
  rw [if_neg hf]

/-- The condition on a new control relative to a list of curve controls. -/
theorem mayFollow_iff {start : Int} {acc : List TrajControl} {p : TrajControl} :
    Props.MayFollow (acc.map (toControl start)) (toControl start p) ↔
      ∀ q ∈ acc, asSeconds (q.atTime - start) < asSeconds (p.atTime - start) ∧
        q.state.refFromBody.src = p.state.refFromBody.src ∧ q.state.refFromBody.into = p.state.refFromBody.into := by
  unfold Props.MayFollow
  simp only [List.mem_map, forall_exists_index, and_imp, forall_apply_eq_imp_iff₂, toControl, Rat.cast_lt]

theorem append_nil {T : Trajectory} (h : Inv T []) {p : TrajControl} (hw : Whole p.state.refFromBody) :
    (append T p).2 = .ok () ∧ Inv (append T p).1 [p] ∧ (append T p).1.startTime = p.atTime := by
  have h0 : T.curve.controls = [] := h.controls
  have hf : InI64 (p.atTime - p.atTime) := by rw [sub_self]; decide
  have e : append T p = push { T with startTime := p.atTime } p := by
    unfold append
    rw [if_pos (by rw [h0]; rfl)]
  rw [e, push_eq hw hf]
  obtain ⟨h1, -, h3, -⟩ := Props.c40_append T.curve h.built (toControl p.atTime p)
  have hm : Props.MayFollow T.curve.controls (toControl p.atTime p) := by rw [h0]; simp [Props.MayFollow]
  refine ⟨h1.mpr hm, ⟨Props.Built.append h.built _, ?_, by simp, ?_, ?_⟩, rfl⟩
  · simp only
    rw [h3 hm, h0]
    rfl
  · intro q hq
    rw [List.mem_singleton] at hq
    subst hq
    exact hf
  · intro q hq
    rw [List.mem_singleton] at hq
    subst hq
    exact hw

theorem bodyFrame_eq {T : Trajectory} {acc : List TrajControl} (h : Inv T acc) (hne : acc ≠ []) :
    bodyFrame T = .ok (acc.getLast hne).state.refFromBody.src := by
  unfold bodyFrame
  rw [h.controls, List.getLast?_map, List.getLast?_eq_getLast_of_ne_nil hne]
  rfl

theorem frames_eq {T : Trajectory} {acc : List TrajControl} (h : Inv T acc) {p q : TrajControl} (hp : p ∈ acc) (hq : q ∈ acc) :
    p.state.refFromBody.src = q.state.refFromBody.src ∧ p.state.refFromBody.into = q.state.refFromBody.into := by
  have := (Props.c40_invariant T.curve h.built).2
  rw [h.controls] at this
  exact this _ (List.mem_map_of_mem hp) _ (List.mem_map_of_mem hq)

theorem append_cons {T : Trajectory} {acc : List TrajControl} (h : Inv T acc) (hne : acc ≠ []) (p : TrajControl) :
    append T p = if p.state.refFromBody.src = (acc.getLast hne).state.refFromBody.src then push T p
      else (T, .throw "All control points must have the same body frame") := by
  unfold append
  have hl : T.curve.controls.length ≠ 0 := by
    rw [h.controls, List.length_map]
    exact fun e => hne (List.length_eq_zero_iff.mp e)
  rw [if_neg hl, bodyFrame_eq h hne]

/-- The condition for acceptance. -/
def Follows (start : Int) (acc : List TrajControl) (p : TrajControl) : Prop :=
  ∀ q ∈ acc, asSeconds (q.atTime - start) < asSeconds (p.atTime - start) ∧
    q.state.refFromBody.src = p.state.refFromBody.src ∧ q.state.refFromBody.into = p.state.refFromBody.into

theorem append_spec {T : Trajectory} {acc : List TrajControl} (h : Inv T acc) (hne : acc ≠ []) {p : TrajControl} (hw : Whole p.state.refFromBody)
    (hf : InI64 (p.atTime - T.startTime)) :
    (Follows T.startTime acc p → (append T p).2 = .ok () ∧ Inv (append T p).1 (acc ++ [p]) ∧ (append T p).1.startTime = T.startTime) ∧
    (¬ Follows T.startTime acc p → (append T p).2.IsThrow ∧ (append T p).1 = T) := by
  rw [append_cons h hne]
  have hlast := List.getLast_mem hne
  by_cases hs : p.state.refFromBody.src = (acc.getLast hne).state.refFromBody.src
  · rw [if_pos hs, push_eq hw hf]
    obtain ⟨h1, h2, h3, h4⟩ := Props.c40_append T.curve h.built (toControl T.startTime p)
    rw [h.controls, mayFollow_iff] at h1 h2 h3 h4
    refine ⟨fun hm => ⟨h1.mpr hm, ⟨Props.Built.append h.built _, ?_, ?_, ?_, ?_⟩, rfl⟩, fun hm => ⟨h2.mpr hm, ?_⟩⟩
    · simp only
      rw [h3 hm, List.map_append]
      rfl
    · intro q hq
      refine h.start q ?_
      rw [List.head?_append_of_ne_nil _ hne] at hq
      exact hq
    · intro q hq
      rcases List.mem_append.mp hq with hq | hq
      · exact h.fits q hq
      · rw [List.mem_singleton] at hq; subst hq; exact hf
    · intro q hq
      rcases List.mem_append.mp hq with hq | hq
      · exact h.whole q hq
      · rw [List.mem_singleton] at hq; subst hq; exact hw
    · simp only
      rw [h4 hm]
  · rw [if_neg hs]
    refine ⟨fun hm => absurd (hm _ hlast).2.1.symm hs, fun _ => ⟨by simp, rfl⟩⟩

theorem append_overflow {T : Trajectory} {acc : List TrajControl} (h : Inv T acc) (hne : acc ≠ []) {p : TrajControl}
    (hf : ¬ InI64 (p.atTime - T.startTime)) :
    (append T p).1 = T ∧ ((∀ q ∈ acc, q.state.refFromBody.src = p.state.refFromBody.src) → (append T p).2.IsUB) ∧
    ((¬ ∀ q ∈ acc, q.state.refFromBody.src = p.state.refFromBody.src) → (append T p).2.IsThrow) := by
  rw [append_cons h hne]
  have hlast := List.getLast_mem hne
  by_cases hs : p.state.refFromBody.src = (acc.getLast hne).state.refFromBody.src
  · rw [if_pos hs, push_ub hf]
    refine ⟨rfl, fun _ => by simp, fun hn => absurd (fun q hq => ?_) hn⟩
    rw [hs]
    exact (frames_eq h hq hlast).1
  · rw [if_neg hs]
    exact ⟨rfl, fun ha => absurd (ha _ hlast).symm hs, fun _ => by simp⟩

end Trajectory
end Verif
