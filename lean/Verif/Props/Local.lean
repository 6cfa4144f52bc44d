import Verif.Proofs.Local
import Verif.Props.Trajectory
import Verif.Props.DCurve
import Verif.Props.OneAxis
/-! # C84: answers depend on neighbouring controls only, and later appends do not change them -/
namespace Verif.Props
open Verif.Framed Verif.Spec

section
variable {G A V : Type} [AddCommGroup A] [Module ℝ A]

/-- C84 for time curves.  A query that succeeded gives the same answer on every curve that has more controls after the ones it had. -/
theorem c84_later_controls (L : LieOps ℝ G A V) (c c' : TCurve G A) (h : Built c) (h' : Built c') (hpre : c.controls <+: c'.controls) (t : ℝ)
    (p : TwoJetL G A) (hp : TCurve.pointAt L c t = .ok p) : TCurve.pointAt L c' t = .ok p := by
  obtain ⟨i, hi, e0, e1, e2, e3⟩ := TCurve.ok_inside L (inv_of_built h) hp
  have hl := hpre.length_le
  have g0 : c'.controls[i]'(by omega) = c.controls[i] := (hpre.getElem (by omega)).symm
  have g1 : c'.controls[i + 1]'(by omega) = c.controls[i + 1] := (hpre.getElem hi).symm
  rw [TCurve.pointAt_on L (inv_of_built h') (i := i) (by omega) (by rw [g0]; exact e0) (by rw [g0]; exact e1) (by rw [g1]; exact e2), g0, g1, ← e3, hp]

/-- C84 for time curves.  In particular an append, of one control or of a list, accepted or refused, never changes an answer already given. -/
theorem c84_append (L : LieOps ℝ G A V) (c : TCurve G A) (h : Built c) (t : ℝ) (p : TwoJetL G A) (hp : TCurve.pointAt L c t = .ok p) :
    (∀ q, TCurve.pointAt L (TCurve.append c q).1 t = .ok p) ∧ ∀ qs, TCurve.pointAt L (TCurve.appendList c qs).1 t = .ok p := by
  have h1 : ∀ (c : TCurve G A) (_ : Built c) (q), c.controls <+: (TCurve.append c q).1.controls := by
    intro c h q
    obtain ⟨-, -, a3, a4⟩ := c40_append c h q
    by_cases hm : MayFollow c.controls q
    · rw [a3 hm]; exact List.prefix_append _ _
    · rw [a4 hm]
  refine ⟨fun q => c84_later_controls L c _ h (.append h q) (h1 c h q) t p hp, fun qs => ?_⟩
  induction qs generalizing c with
  | nil => exact hp
  | cons q qs ih =>
    rw [TCurve.appendList]
    have := c84_later_controls L c _ h (.append h q) (h1 c h q) t p hp
    split
    · rename_i c1 e
      rw [e] at this
      have hb := Built.append h q
      rw [e] at hb
      exact ih c1 hb this
    · rename_i c1 o e
      rw [e] at this
      exact this

/-- C84 for time curves.  Between two neighbouring controls the answer depends on these two only: it is the same on all curves where they are
neighbours. -/
theorem c84_neighbours (L : LieOps ℝ G A V) (c c' : TCurve G A) (h : Built c) (h' : Built c') (a b : TControl G A) (pre post pre' post')
    (e : c.controls = pre ++ a :: b :: post) (e' : c'.controls = pre' ++ a :: b :: post') (t : ℝ) (ha : a.time < t) (hb : t ≤ b.time) :
    TCurve.pointAt L c t = TCurve.pointAt L c' t := by
  have key : ∀ (c : TCurve G A) (_ : Built c) pre post, c.controls = pre ++ a :: b :: post → TCurve.pointAt L c t = TCurve.onPiece L a b t := by
    intro c h pre post e
    have g0 : c.controls[pre.length]'(by rw [e]; simp) = a := by simp [e]
    have g1 : c.controls[pre.length + 1]'(by rw [e]; simp) = b := by simp [e]
    rw [TCurve.pointAt_on L (inv_of_built h) (i := pre.length) (by rw [e]; simp) (.inr (by rw [g0]; exact ha)) (by rw [g0]; exact ha.le)
      (by rw [g1]; exact hb), g0, g1]
  rw [key c h _ _ e, key c' h' _ _ e']

end

/-- Any sampled motion, and the curve of its first two controls: the answer half-way is not changed by the third, which answers further times. -/
example (f : ℝ → M3 × V3 × V3) : ∃ (c c' : TCurve M3 V3) (p p' : TwoJetL M3 V3), Built c ∧ Built c' ∧ c.controls.length = 2 ∧ c'.controls.length = 3 ∧
    TCurve.pointAt SO3.ops c (1 / 2) = .ok p ∧ TCurve.pointAt SO3.ops c' (1 / 2) = .ok p ∧ TCurve.pointAt SO3.ops c' (3 / 2) = .ok p' := by
  obtain ⟨c, hb, hw, hc⟩ := sampled f [0, 1] (by simp)
  obtain ⟨c', hb', hw', hc'⟩ := sampled f [0, 1, 2] (by simp)
  obtain ⟨p, hp⟩ := (c41_domain SO3.ops c hb hw (1 / 2)).1.mpr ⟨by rw [hc]; simp, 0, 1, by unfold TCurve.startTime; rw [hc]; simp,
    by unfold TCurve.endTime; rw [hc]; simp, by norm_num, by norm_num⟩
  obtain ⟨p', hp'⟩ := (c41_domain SO3.ops c' hb' hw' (3 / 2)).1.mpr ⟨by rw [hc']; simp, 0, 2, by unfold TCurve.startTime; rw [hc']; simp,
    by unfold TCurve.endTime; rw [hc']; simp, by norm_num, by norm_num⟩
  refine ⟨c, c', p, p', hb, hb', by rw [hc]; simp, by rw [hc']; simp, hp, c84_later_controls SO3.ops c c' hb hb' ?_ _ p hp, hp'⟩
  rw [hc, hc']
  simp

/-- Two sampled curves that share two neighbouring controls agree between these, although the others differ. -/
example (f : ℝ → M3 × V3 × V3) : ∃ c c' : TCurve M3 V3, Built c ∧ Built c' ∧ (∀ p ∈ c.controls, 0 ≤ p.time) ∧ (∀ p ∈ c'.controls, p.time ≤ 2) ∧
    ∀ t, 1 < t → t ≤ 2 → TCurve.pointAt SO3.ops c t = TCurve.pointAt SO3.ops c' t := by
  obtain ⟨c, hb, hw, hc⟩ := sampled f [1, 2, 5] (by norm_num)
  obtain ⟨c', hb', hw', hc'⟩ := sampled f [-3, 0, 1, 2] (by norm_num)
  refine ⟨c, c', hb, hb', by rw [hc]; simp, by rw [hc']; simp; norm_num, fun t h1 h2 => ?_⟩
  exact c84_neighbours SO3.ops c c' hb hb' ⟨1, ⟨(f 1).1, exFrame 1, exFrame 2⟩, (f 1).2.1, (f 1).2.2⟩ ⟨2, ⟨(f 2).1, exFrame 1, exFrame 2⟩, (f 2).2.1, (f 2).2.2⟩
    [] _ [_, _] [] (by rw [hc]; rfl) (by rw [hc']; rfl) t h1 h2

section
variable {G A V : Type}

/-- C84 for distance curves.  A query that was not refused ends the same way on every curve with more poses after the ones it had. -/
theorem c84_later_poses (L : LieOps ℝ G A V) (arc : G → ℝ) (harc : ∀ g, 0 ≤ arc g) (c c' : DCurve G) (h : DBuilt L arc c) (h' : DBuilt L arc c')
    (hpre : c.controls <+: c'.controls) (s : ℝ) (hs : ¬ (DCurve.pointAt L c s).IsThrow) : DCurve.pointAt L c' s = DCurve.pointAt L c s := by
  obtain ⟨i, hi, e1, e2, e0, e3⟩ := DCurve.ok_inside L arc harc (dInv_of_built h) hs
  have hl := hpre.length_le
  have g0 : c'.controls[i]'(by omega) = c.controls[i] := (hpre.getElem (by omega)).symm
  have g1 : c'.controls[i + 1]'(by omega) = c.controls[i + 1] := (hpre.getElem hi).symm
  rw [DCurve.pointAt_on L arc harc (dInv_of_built h') (i := i) (by omega) (by rw [g0]; exact e0) (by rw [g0]; exact e1) (by rw [g1]; exact e2), g0, g1, ← e3]

/-- C84 for distance curves.  An append, accepted or refused, never changes an answer already given, and never shortens the curve. -/
theorem c84_append_pose (L : LieOps ℝ G A V) (arc : G → ℝ) (harc : ∀ g, 0 ≤ arc g) (c : DCurve G) (h : DBuilt L arc c) (q : Framed G)
    (hq : q.into = Frame.null ↔ q.src = Frame.null) :
    (∀ s g, DCurve.pointAt L c s = .ok g → DCurve.pointAt L (DCurve.append L arc c q).1 s = .ok g) ∧
    DCurve.curveLength c ≤ DCurve.curveLength (DCurve.append L arc c q).1 := by
  obtain ⟨-, -, a3, a4⟩ := c42_append L arc c h q hq
  have hpre : c.controls <+: (DCurve.append L arc c q).1.controls := by
    by_cases hm : DMayFollow c.controls q
    · exact (a3 hm).2
    · rw [a4 hm]
  have hi := dInv_of_built h
  have hi' := dInv_of_built (h.append q hq)
  refine ⟨fun s g hg => ?_, ?_⟩
  · rw [c84_later_poses L arc harc c _ h (h.append q hq) hpre s (by rw [hg]; simp), hg]
  · by_cases hn : c.controls = []
    · have h0 : DCurve.curveLength c = 0 := by unfold DCurve.curveLength; rw [hn]; rfl
      rw [h0]
      by_cases hn' : (DCurve.append L arc c q).1.controls = []
      · have : DCurve.curveLength (DCurve.append L arc c q).1 = 0 := by unfold DCurve.curveLength; rw [hn']; rfl
        rw [this]
      · rw [DCurve.curveLength_eq hn']
        have hpos := List.length_pos_iff.mpr hn'
        rw [← hi'.zero L arc hpos]
        exact hi'.le L arc harc (by omega) (by omega)
    · have hpos := List.length_pos_iff.mpr hn
      have hl := hpre.length_le
      have hn' : (DCurve.append L arc c q).1.controls ≠ [] := List.length_pos_iff.mp (by omega)
      rw [DCurve.curveLength_eq hn, DCurve.curveLength_eq hn', hpre.getElem (by omega)]
      exact hi'.le L arc harc (by omega) (by omega)

/-- C84 for distance curves.  Between two neighbouring poses the answer depends on these two and the distance from the first only: it is the same on
all curves where they are neighbours. -/
theorem c84_neighbouring_poses (L : LieOps ℝ G A V) (arc : G → ℝ) (harc : ∀ g, 0 ≤ arc g) (c c' : DCurve G) (h : DBuilt L arc c) (h' : DBuilt L arc c')
    (a b a' b' : DControl G) (pre post pre' post') (e : c.controls = pre ++ a :: b :: post) (e' : c'.controls = pre' ++ a' :: b' :: post')
    (ha : a'.pose = a.pose) (hb : b'.pose = b.pose) (u : ℝ) (h0 : 0 < u) (h1 : u ≤ b.arcLength - a.arcLength) :
    DCurve.pointAt L c (a.arcLength + u) = DCurve.pointAt L c' (a'.arcLength + u) := by
  have key : ∀ (c : DCurve G) (_ : DBuilt L arc c) (a b : DControl G) pre post, c.controls = pre ++ a :: b :: post → u ≤ b.arcLength - a.arcLength →
      DCurve.pointAt L c (a.arcLength + u) = DCurve.pieceAnswer L a b (a.arcLength + u) := by
    intro c h a b pre post e hu
    have g0 : c.controls[pre.length]'(by rw [e]; simp) = a := by simp [e]
    have g1 : c.controls[pre.length + 1]'(by rw [e]; simp) = b := by simp [e]
    rw [DCurve.pointAt_on L arc harc (dInv_of_built h) (i := pre.length) (by rw [e]; simp) (.inr (by rw [g0]; linarith)) (by rw [g0]; linarith)
      (by rw [g1]; linarith), g0, g1]
  have hd : b'.arcLength - a'.arcLength = b.arcLength - a.arcLength := by
    rw [(c42_arc_lengths L arc c h).2.1 a b pre post e, (c42_arc_lengths L arc c' h').2.1 a' b' pre' post' e', ha, hb]
    ring
  rw [key c h a b _ _ e h1, key c' h' a' b' _ _ e' (by rw [hd]; exact h1), DCurve.pieceAnswer_shift L ha hb hd]

end

/-- The same two poses five metres apart, alone and after another pose: the points between them are the same. -/
example : ∃ c c' : DCurve Pose, DBuilt SE3.ops SE3.arcLength c ∧ DBuilt SE3.ops SE3.arcLength c' ∧ DCurve.curveLength c = 5 ∧ c'.controls.length = 3 ∧
    ∃ x, ∀ u, 0 < u → u ≤ 5 → DCurve.pointAt SE3.ops c (0 + u) = DCurve.pointAt SE3.ops c' (x + u) := by
  obtain ⟨c, hb, hc⟩ := framed_built [(1, 0), (1, ![3, 4, 0])]
  obtain ⟨c', hb', hc'⟩ := framed_built [(quarterTurn, ![7, 7, 7]), (1, 0), (1, ![3, 4, 0])]
  obtain ⟨a, b, e⟩ : ∃ a b, c.controls = [a, b] := by
    have := congrArg List.length hc
    simp only [List.length_map, List.length_cons, List.length_nil] at this
    exact List.length_eq_two.mp this
  obtain ⟨z, a', b', e'⟩ : ∃ z a b, c'.controls = [z, a, b] := by
    have := congrArg List.length hc'
    simp only [List.length_map, List.length_cons, List.length_nil] at this
    exact List.length_eq_three.mp this
  rw [e] at hc
  rw [e'] at hc'
  simp only [List.map_cons, List.map_nil, List.cons.injEq, and_true] at hc hc'
  have hz : a.arcLength = 0 := (c42_arc_lengths _ _ c hb).1 a (by rw [e]; rfl)
  have hl : b.arcLength = 5 := by
    rw [(c42_arc_lengths _ _ c hb).2.1 a b [] [] e, hz, hc.1, hc.2]
    have hm : SE3.ops.mul (SE3.ops.inv ((1, 0) : Pose)) (1, ![3, 4, 0]) = (1, ![3, 4, 0]) := by
      simp [SE3.ops, SE3.mul, SE3.inv, SO3.mul, SO3.inv, SO3.act]
    have hlog : SO3.log (1 : M3) = 0 := by rw [← SO3.exp_zero, SO3.log_exp (by rw [SO3.eucNorm_zero]; exact Real.pi_pos)]
    simp only
    rw [hm, zero_add]
    unfold SE3.arcLength SE3.log
    simp only [hlog, map_zero, smul_zero, sub_zero, add_zero, LinearMap.zero_apply]
    rw [SO3.eucNorm, SO3.sqNorm_eq]
    simp only [Matrix.cons_val_zero, Matrix.cons_val_one, Matrix.cons_val]
    rw [show (3 : ℝ) ^ 2 + 4 ^ 2 + 0 ^ 2 = 5 ^ 2 by norm_num]
    exact Real.sqrt_sq (by norm_num)
  refine ⟨c, c', hb, hb', ?_, by rw [e']; rfl, a'.arcLength, fun u h0 h1 => ?_⟩
  · unfold DCurve.curveLength
    rw [e]
    exact hl
  · have := c84_neighbouring_poses SE3.ops SE3.arcLength (fun _ => SO3.eucNorm_nonneg _) c c' hb hb' a b a' b' [] [] [z] [] e e' (by rw [hc.1, hc'.2.1])
      (by rw [hc.2, hc'.2.2]) u h0 (by rw [hl, hz]; linarith)
    rw [hz] at this
    exact this

/-! ## Trajectories -/

/-- C84 for trajectories.  An append, accepted or refused, never changes an answer already given, nor the start time. -/
theorem c84_append_state (T : Trajectory) (acc : List TrajControl) (h : Reached T acc) (q : TrajControl) (hq : Whole q.state.refFromBody) (t : Int)
    (s : RBState) (hs : Trajectory.pointAt T t = .ok s) :
    Trajectory.pointAt (Trajectory.append T q).1 t = .ok s ∧ (Trajectory.append T q).1.startTime = T.startTime := by
  have hI := inv_of_reached h
  have hne : acc ≠ [] := by
    rintro rfl
    have h0 : T.curve.controls = [] := hI.controls
    unfold Trajectory.pointAt at hs
    obtain ⟨d, hd, hs⟩ := bind_ok hs
    obtain ⟨j, hj, hs⟩ := bind_ok hs
    obtain ⟨i, hi, -⟩ := TCurve.ok_inside SE3.ops (inv_of_built hI.built) hj
    rw [h0] at hi
    simp at hi
  by_cases hf : InI64 (q.atTime - T.startTime)
  · obtain ⟨h1, h2⟩ := Trajectory.append_spec hI hne hq hf
    by_cases hm : Trajectory.Follows T.startTime acc q
    · obtain ⟨-, hI', hst⟩ := h1 hm
      refine ⟨?_, hst⟩
      unfold Trajectory.pointAt at hs ⊢
      rw [hst]
      obtain ⟨d, hd, hs⟩ := bind_ok hs
      obtain ⟨j, hj, hs⟩ := bind_ok hs
      have := c84_later_controls SE3.ops T.curve _ hI.built hI'.built (by
        rw [hI.controls, hI'.controls, hst, List.map_append]
        exact List.prefix_append _ _) _ j hj
      rw [hd, Outcome.ok_bind, this, Outcome.ok_bind]
      exact hs
    · rw [(h2 hm).2]
      exact ⟨hs, rfl⟩
  · rw [(Trajectory.append_overflow hI hne hf).1]
    exact ⟨hs, rfl⟩

/-- C84 for trajectories with the same first control.  Between two neighbouring controls the answer depends on these two only.  Times are within
2^52 ns (52 days) after the first control, so that they stay apart when rounded to seconds. -/
theorem c84_neighbouring_states (T T' : Trajectory) (acc acc' : List TrajControl) (h : Reached T acc) (h' : Reached T' acc') (a b : TrajControl)
    (pre post pre' post') (e : acc = pre ++ a :: b :: post) (e' : acc' = pre' ++ a :: b :: post') (hst : T.startTime = T'.startTime) (t : Int)
    (ha : a.atTime < t) (hb : t ≤ b.atTime) (hspan : |a.atTime - T.startTime| ≤ 2 ^ 52) (hspan' : |t - T.startTime| ≤ 2 ^ 52) :
    Trajectory.pointAt T t = Trajectory.pointAt T' t := by
  have hI := inv_of_reached h
  have hI' := inv_of_reached h'
  have hc := c84_neighbours SE3.ops T.curve T'.curve hI.built hI'.built (Trajectory.toControl T.startTime a) (Trajectory.toControl T.startTime b)
    (pre.map (Trajectory.toControl T.startTime)) (post.map (Trajectory.toControl T.startTime)) (pre'.map (Trajectory.toControl T.startTime))
    (post'.map (Trajectory.toControl T.startTime)) (by rw [hI.controls, e]; simp) (by rw [hI'.controls, e', ← hst]; simp)
    (Binary64.asSeconds (t - T.startTime) : ℝ) (Rat.cast_lt.mpr (c11_as_seconds_strict _ _ hspan hspan' (by omega)))
    (Rat.cast_le.mpr (c11_as_seconds_mono _ _ (by omega)))
  unfold Trajectory.pointAt
  rw [← hst]
  by_cases hi : InI64 (t - T.startTime)
  · rw [i64_ok hi, Outcome.ok_bind, Outcome.ok_bind, hc]
  · unfold i64
    rw [if_neg hi]
    rfl

/-- Three states 100 ns apart, and the first two alone: the state 50 ns after the start is the same, and is found. -/
example : ∃ T T' acc acc' s, Reached T acc ∧ Reached T' acc' ∧ acc.length = 2 ∧ acc'.length = 3 ∧ Trajectory.pointAt T 150 = .ok s ∧
    Trajectory.pointAt T' 150 = .ok s := by
  obtain ⟨T, hT⟩ := exReached (fun t => exAt quarterTurn ![(t : ℝ), 2, 3]) (fun _ => ⟨exAt_whole _ _, rfl, rfl⟩) 100 (by decide) [200] (by decide)
    (by decide) (by decide)
  obtain ⟨T', hT'⟩ := exReached (fun t => exAt quarterTurn ![(t : ℝ), 2, 3]) (fun _ => ⟨exAt_whole _ _, rfl, rfl⟩) 100 (by decide) [200, 300] (by decide)
    (by decide) (by decide)
  have hs : T.startTime = 100 := c50_start_time _ _ _ hT
  have hs' : T'.startTime = 100 := c50_start_time _ _ _ hT'
  have hok : ∃ s, Trajectory.pointAt T 150 = .ok s := by
    obtain ⟨s, h1, -⟩ := c51_inside T _ ⟨200, exAt quarterTurn ![((200 : Int) : ℝ), 2, 3]⟩ [] hT 150 (by decide) (by decide)
    exact ⟨s, h1⟩
  obtain ⟨s, hok⟩ := hok
  refine ⟨T, T', _, _, s, hT, hT', rfl, rfl, hok, ?_⟩
  rw [← hok]
  exact (c84_neighbouring_states T T' _ _ hT hT' _ _ [] [] [] _ rfl rfl (by rw [hs, hs']) 150 (by decide) (by decide) (by rw [hs]; decide)
    (by rw [hs]; decide)).symm

end Verif.Props
