import Verif.Proofs.TCurve
import Verif.Props.Segment
/-! # C39 to C41 and C70: time curves -/
namespace Verif.Props
open Verif.Framed Verif.Spec SO3

section
variable {G A V : Type} [AddCommGroup A] [Module ℝ A]

/-- The curves a client can hold: anything made from the empty curve by append calls, whether these succeed or throw. -/
inductive Built : TCurve G A → Prop
  | empty : Built TCurve.empty
  | append {c : TCurve G A} (h : Built c) (p : TControl G A) : Built (TCurve.append c p).1

/-- A control point may follow the given ones: it is later than all of them and has the same frames as all of them. -/
def MayFollow (l : List (TControl G A)) (p : TControl G A) : Prop :=
  ∀ q ∈ l, q.time < p.time ∧ q.point.g.into = p.point.g.into ∧ q.point.g.src = p.point.g.src

theorem inv_of_built {c : TCurve G A} (h : Built c) : TCurve.Inv c := by
  induction h with
  | empty => exact TCurve.inv_empty
  | append h p ih => exact (TCurve.append_spec ih p).2.2

/-! ## C40 -/

/-- C40.  In every reachable curve times increase strictly and all frames are equal. -/
theorem c40_invariant (c : TCurve G A) (h : Built c) :
    c.controls.Pairwise (fun a b => a.time < b.time) ∧
    ∀ a ∈ c.controls, ∀ b ∈ c.controls, a.point.g.into = b.point.g.into ∧ a.point.g.src = b.point.g.src :=
  ⟨(inv_of_built h).times, (inv_of_built h).frames⟩

/-- C40.  An append is accepted exactly when the control may follow all present ones; then it is added at the end.  Otherwise the call throws
and the curve is unchanged.  It is never undefined. -/
theorem c40_append (c : TCurve G A) (h : Built c) (p : TControl G A) :
    ((TCurve.append c p).2 = .ok () ↔ MayFollow c.controls p) ∧
    ((TCurve.append c p).2.IsThrow ↔ ¬ MayFollow c.controls p) ∧
    (MayFollow c.controls p → (TCurve.append c p).1.controls = c.controls ++ [p]) ∧
    (¬ MayFollow c.controls p → (TCurve.append c p).1 = c) := by
  obtain ⟨h1, h2, -⟩ := TCurve.append_spec (inv_of_built h) p
  by_cases hm : MayFollow c.controls p
  · obtain ⟨e1, e2⟩ := h1 hm
    rw [e1]
    simp [hm, e2]
  · obtain ⟨e1, e2⟩ := h2 hm
    have : (TCurve.append c p).2 ≠ .ok () := by intro e; rw [e] at e1; simp at e1
    simp [hm, this, e1, e2]

/-- C40.  Appending a list keeps exactly the controls before the first one that may not follow, and throws if there is such a one. -/
theorem c40_append_list (c : TCurve G A) (h : Built c) (ps : List (TControl G A)) :
    ∃ k, k ≤ ps.length ∧ (TCurve.appendList c ps).1.controls = c.controls ++ ps.take k ∧
      (∀ (i : Nat) (hi : i < ps.length), i < k → MayFollow (c.controls ++ ps.take i) ps[i]) ∧
      (∀ hk : k < ps.length, ¬ MayFollow (c.controls ++ ps.take k) ps[k]) ∧
      ((TCurve.appendList c ps).2 = .ok () ↔ k = ps.length) ∧ ((TCurve.appendList c ps).2.IsThrow ↔ k < ps.length) ∧
      Built (TCurve.appendList c ps).1 := by
  induction ps generalizing c with
  | nil => exact ⟨0, by simp, by simp [TCurve.appendList], by simp, by simp, by simp [TCurve.appendList], by simp [TCurve.appendList], h⟩
  | cons p ps ih =>
    obtain ⟨a1, a2, a3, a4⟩ := c40_append c h p
    by_cases hm : MayFollow c.controls p
    · obtain ⟨k, k1, k2, k3, k4, k5, k6, k7⟩ := ih _ (Built.append h p)
      have e : TCurve.appendList c (p :: ps) = TCurve.appendList (TCurve.append c p).1 ps := by
        rw [TCurve.appendList]
        have := a1.mpr hm
        revert this
        cases TCurve.append c p with
        | mk x y => intro this; simp only at this; subst this; rfl
      rw [e]
      rw [a3 hm] at k2 k3 k4
      refine ⟨k + 1, by simp; omega, by simp [k2], ?_, ?_, by rw [k5]; simp, by rw [k6]; simp, k7⟩
      · intro i hi hik
        cases i with
        | zero => simpa using hm
        | succ i => simpa using k3 i (by simpa using hi) (by omega)
      · intro hk
        simpa using k4 (by simpa using hk)
    · refine ⟨0, by simp, ?_, by simp, fun _ => by simpa using hm, ?_, ?_, ?_⟩ <;>
      · have e : (TCurve.appendList c (p :: ps)) = TCurve.append c p := by
          rw [TCurve.appendList]
          have := a2.mpr hm
          revert this
          cases TCurve.append c p with
          | mk x y =>
            intro this
            cases y with
            | ok u => simp at this
            | throw m => rfl
            | ub w => rfl
        rw [e]
        first
        | (rw [a4 hm]; simp)
        | (rw [a1]; simp [hm])
        | (rw [a2]; simp [hm])
        | exact Built.append h p

/-- C40.  The constructor succeeds exactly for lists in which every control may follow those before it, and holds that list. -/
theorem c40_construct (ps : List (TControl G A)) :
    ((∃ c, TCurve.make ps = .ok c) ↔ ∀ (i : Nat) (hi : i < ps.length), MayFollow (ps.take i) ps[i]) ∧
    (∀ c, TCurve.make ps = .ok c → Built c ∧ c.controls = ps) ∧ ¬ (TCurve.make ps).IsUB := by
  obtain ⟨k, k1, k2, k3, k4, k5, k6, k7⟩ := c40_append_list (TCurve.empty : TCurve G A) Built.empty ps
  have hnil : (TCurve.empty : TCurve G A).controls = [] := rfl
  rw [hnil] at k2 k3 k4
  simp only [List.nil_append] at k2 k3 k4
  unfold TCurve.make
  revert k2 k5 k6 k7
  cases TCurve.appendList TCurve.empty ps with
  | mk x y =>
    intro k2 k5 k6 k7
    simp only at k2 k5 k6 k7
    cases y with
    | ok u =>
      have hk : k = ps.length := k5.mp rfl
      refine ⟨⟨fun _ i hi => k3 i hi (by omega), fun _ => ⟨x, rfl⟩⟩, ?_, by simp⟩
      intro c hc
      rw [Outcome.ok.injEq] at hc
      subst hc
      exact ⟨k7, by rw [k2, hk, List.take_length]⟩
    | throw m =>
      have hk : k < ps.length := k6.mp (by simp)
      exact ⟨⟨fun ⟨c, hc⟩ => by simp at hc, fun h => absurd (h k hk) (k4 hk)⟩, by simp, by simp⟩
    | ub w =>
      exfalso
      rcases k1.lt_or_eq with h | h
      · have := k6.mpr h; simp at this
      · have := k5.mpr h; simp at this

/-- C40.  The frames and times a curve reports are those of its controls; an empty curve has none and throws. -/
theorem c40_reported (c : TCurve G A) (h : Built c) :
    (∀ p ∈ c.controls, TCurve.referenceFrame c = .ok p.point.g.src ∧ TCurve.pointFrame c = .ok p.point.g.into ∧
      TCurve.isFramed c = .ok (p.point.g.into ≠ Frame.null)) ∧
    (∀ p, c.controls.head? = some p → TCurve.startTime c = .ok p.time) ∧ (∀ p, c.controls.getLast? = some p → TCurve.endTime c = .ok p.time) ∧
    (c.controls = [] → (TCurve.referenceFrame c).IsThrow ∧ (TCurve.pointFrame c).IsThrow ∧ (TCurve.isFramed c).IsThrow ∧
      (TCurve.startTime c).IsThrow ∧ (TCurve.endTime c).IsThrow) := by
  obtain ⟨-, hf⟩ := c40_invariant c h
  refine ⟨fun p hp => ?_, fun p hp => by simp [TCurve.startTime, hp], fun p hp => by simp [TCurve.endTime, hp], fun h0 => ?_⟩
  · have fr : ∀ b ∈ c.controls, b.point.g.isFramed = decide (p.point.g.into ≠ Frame.null) ∧ b.point.g.src = p.point.g.src ∧ b.point.g.into = p.point.g.into := by
      intro b hb
      obtain ⟨f1, f2⟩ := hf b hb p hp
      refine ⟨?_, f2, f1⟩
      rw [← f1]
      by_cases hn : b.point.g.into = Frame.null
      · rw [(isFramed_false_iff _).mpr hn]; simp [hn]
      · have : b.point.g.isFramed = true := by rw [← Bool.not_eq_false, isFramed_false_iff]; exact hn
        simp [this, hn]
    obtain ⟨l, hl⟩ : ∃ l, c.controls.getLast? = some l := by
      rw [List.getLast?_eq_getLast_of_ne_nil (List.ne_nil_of_mem hp)]
      exact ⟨_, rfl⟩
    have ml := fr l (List.mem_of_mem_getLast? hl)
    simp [TCurve.referenceFrame, TCurve.pointFrame, TCurve.isFramed, hl, ml]
  · simp [TCurve.referenceFrame, TCurve.pointFrame, TCurve.isFramed, TCurve.startTime, TCurve.endTime, h0]

end

/-- A three-point SO3 curve: controls with different times and equal frames can be appended. -/
noncomputable def exCurve : List (TControl M3 V3) :=
  [⟨0, ⟨1, exFrame 1, exFrame 2⟩, ![1, 0, 0], 0⟩, ⟨2, ⟨quarterTurn, exFrame 1, exFrame 2⟩, 0, ![0, 0, 1]⟩,
    ⟨5 / 2, ⟨1, exFrame 1, exFrame 2⟩, 0, 0⟩]

theorem exCurve_ok : ∃ c, TCurve.make exCurve = .ok c := by
  rw [(c40_construct exCurve).1]
  intro i hi q hq
  simp only [exCurve, List.length_cons, List.length_nil] at hi
  obtain rfl | rfl | rfl : i = 0 ∨ i = 1 ∨ i = 2 := by omega
  · simp [exCurve] at hq
  · simp only [exCurve, List.take_succ_cons, List.take_zero, List.mem_singleton] at hq; subst hq
    simp [exCurve]
  · simp only [exCurve, List.take_succ_cons, List.take_zero, List.mem_cons, List.not_mem_nil, or_false] at hq
    rcases hq with rfl | rfl
    · simp [exCurve]
    · simp [exCurve]; norm_num

/-- A control at the time of the last one may not follow. -/
example : ¬ MayFollow exCurve ⟨5 / 2, ⟨1, exFrame 1, exFrame 2⟩, 0, 0⟩ := by
  intro h
  have := (h ⟨5 / 2, ⟨1, exFrame 1, exFrame 2⟩, 0, 0⟩ (by simp [exCurve])).1
  exact lt_irrefl _ this

/-! ## C41 -/

section
variable {G A V : Type} [AddCommGroup A] [Module ℝ A]

/-- The frames of all controls are both null or both set, as the transform constructors ensure. -/
def WholeFrames (c : TCurve G A) : Prop := ∀ p ∈ c.controls, p.point.g.into = Frame.null ↔ p.point.g.src = Frame.null

/-- C41.  `point_at` succeeds exactly when there are two controls and the time is in range, throws otherwise and is never undefined; the start
and end times are those of the first and last control. -/
theorem c41_domain (L : LieOps ℝ G A V) (c : TCurve G A) (h : Built c) (hw : WholeFrames c) (t : ℝ) :
    ((∃ p, TCurve.pointAt L c t = .ok p) ↔ 2 ≤ c.controls.length ∧ ∃ s e, TCurve.startTime c = .ok s ∧ TCurve.endTime c = .ok e ∧ s ≤ t ∧ t ≤ e) ∧
    ((TCurve.pointAt L c t).IsThrow ↔ ¬ ∃ p, TCurve.pointAt L c t = .ok p) := by
  have hc := inv_of_built h
  by_cases h2 : 2 ≤ c.controls.length
  · have h1 : TCurve.startTime c = .ok c.controls[0].time := by
      unfold TCurve.startTime
      rw [List.head?_eq_getElem?, List.getElem?_eq_getElem (by omega)]
    have h3 : TCurve.endTime c = .ok c.controls[c.controls.length - 1].time := by
      unfold TCurve.endTime
      rw [List.getLast?_eq_getElem?, List.getElem?_eq_getElem (by omega)]
    simp only [h1, h3, Outcome.ok.injEq, exists_and_left, exists_eq_left', h2, true_and]
    by_cases ht : c.controls[0].time ≤ t ∧ t ≤ c.controls[c.controls.length - 1].time
    · obtain ⟨i, hi, -, -, -, e⟩ := TCurve.pointAt_inside L hc h2 t ht.1 ht.2
      unfold TCurve.onPiece at e
      rw [TSegment.pointAt_eq L (TCurve.good_piece hc hw hi), Outcome.ok_bind] at e
      rw [e]
      simp [ht]
    · have := TCurve.pointAtImpl_outside hc h2 t ht
      have e : (TCurve.pointAt L c t).IsThrow := by
        unfold TCurve.pointAt
        revert this
        cases TCurve.pointAtImpl c t <;> simp
      have e2 : ¬ ∃ p, TCurve.pointAt L c t = .ok p := by rintro ⟨p, hp⟩; rw [hp] at e; simp at e
      simp [e, e2, ht]
  · have := TCurve.pointAtImpl_short hc (not_le.mp h2) t
    have e : (TCurve.pointAt L c t).IsThrow := by
      unfold TCurve.pointAt
      revert this
      cases TCurve.pointAtImpl c t <;> simp
    have e2 : ¬ ∃ p, TCurve.pointAt L c t = .ok p := by rintro ⟨p, hp⟩; rw [hp] at e; simp at e
    simp [e, e2, h2]

/-- C41.  A successful query evaluates, at the fraction of elapsed time, a segment between two neighbouring controls whose time span contains
the query time; the end two-jets of this segment are the controls with derivatives with respect to that fraction, and the result's
derivatives are turned back into time derivatives. -/
theorem c41_segment (L : LieOps ℝ G A V) (c : TCurve G A) (h : Built c) (t : ℝ) (p : TwoJetL G A)
    (hp : TCurve.pointAt L c t = .ok p) :
    ∃ a b pre post, c.controls = pre ++ a :: b :: post ∧ a.time ≤ t ∧ t ≤ b.time ∧
      ∃ q, TSegment.pointAt L ⟨⟨a.point.g, (b.time - a.time) • a.point.d, (b.time - a.time) ^ 2 • a.point.d2⟩,
          ⟨b.point.g, (b.time - a.time) • b.point.d, (b.time - a.time) ^ 2 • b.point.d2⟩⟩ ((t - a.time) / (b.time - a.time)) = .ok q ∧
        p = ⟨q.g, (b.time - a.time)⁻¹ • q.d, ((b.time - a.time) ^ 2)⁻¹ • q.d2⟩ := by
  have hc := inv_of_built h
  have hnt : ¬ (TCurve.pointAtImpl c t).IsThrow := by
    intro e
    unfold TCurve.pointAt at hp
    revert hp e
    cases TCurve.pointAtImpl c t <;> simp
  have h2 : 2 ≤ c.controls.length := by
    by_contra hcon
    exact hnt (TCurve.pointAtImpl_short hc (not_le.mp hcon) t)
  have ht : c.controls[0].time ≤ t ∧ t ≤ c.controls[c.controls.length - 1].time := by
    by_contra hcon
    exact hnt (TCurve.pointAtImpl_outside hc h2 t hcon)
  obtain ⟨i, hi, -, e1, e2, e3⟩ := TCurve.pointAt_inside L hc h2 t ht.1 ht.2
  refine ⟨c.controls[i], c.controls[i + 1], c.controls.take i, c.controls.drop (i + 2), ?_, e1, e2, ?_⟩
  · rw [← List.drop_eq_getElem_cons, ← List.drop_eq_getElem_cons, List.take_append_drop]
  · rw [hp] at e3
    obtain ⟨q, hq, hp'⟩ := bind_ok e3.symm
    refine ⟨q, ?_, ?_⟩
    · rw [← hq]
      simp only [TCurve.piece, TCurve.scaled, smul_smul, pow_two]
      congr 1
      rw [one_div, inv_mul_eq_div]
    · rw [Outcome.ok.injEq] at hp'
      rw [← hp']
      simp only [TCurve.unnormalize, smul_smul, one_div, pow_two, mul_inv]

end

/-! ## C39 -/

/-- What C39 says about a curve: at every control time the query returns the control, and the reported pose and derivatives are continuous in
time at every control time (one-sided at the two ends). -/
def InterpolatesC2 {G A V : Type} [TopologicalSpace G] [NormedAddCommGroup A] [NormedSpace ℝ A] (L : LieOps ℝ G A V) (c : TCurve G A) : Prop :=
  (∀ p ∈ c.controls, TCurve.pointAt L c p.time = .ok p.point) ∧
  ∀ s e, TCurve.startTime c = .ok s → TCurve.endTime c = .ok e → ∀ f : ℝ → TwoJetL G A,
    (∀ r, s ≤ r → r ≤ e → TCurve.pointAt L c r = .ok (f r)) →
    ∀ p ∈ c.controls, ContinuousWithinAt (fun r => ((f r).g.val, (f r).d, (f r).d2)) (Set.Icc s e) p.time

section
variable {G A : Type}

theorem startTime_eq {c : TCurve G A} (h2 : 2 ≤ c.controls.length) {s : ℝ} (h : TCurve.startTime c = .ok s) : s = c.controls[0].time := by
  unfold TCurve.startTime at h
  rw [List.head?_eq_getElem?, List.getElem?_eq_getElem (by omega)] at h
  exact (Outcome.ok.inj h).symm

theorem endTime_eq {c : TCurve G A} (h2 : 2 ≤ c.controls.length) {e : ℝ} (h : TCurve.endTime c = .ok e) :
    e = c.controls[c.controls.length - 1].time := by
  unfold TCurve.endTime at h
  rw [List.getLast?_eq_getElem?, List.getElem?_eq_getElem (by omega)] at h
  exact (Outcome.ok.inj h).symm
end

theorem so3_hlog {c : TCurve M3 V3} (hv : ∀ p ∈ c.controls, IsRotation p.point.g.val) (i : Nat) (hi : i + 1 < c.controls.length) :
    SO3.ops.exp (SO3.ops.log (SO3.ops.mul c.controls[i + 1].point.g.val (SO3.ops.inv c.controls[i].point.g.val))) =
    SO3.ops.mul c.controls[i + 1].point.g.val (SO3.ops.inv c.controls[i].point.g.val) :=
  (SO3.exp_log (so3Laws.valid_mul (hv _ (List.getElem_mem _)) (so3Laws.valid_inv (hv _ (List.getElem_mem _))))).1

/-- C39 for SO3. -/
theorem c39_so3 (c : TCurve M3 V3) (h : Built c) (hw : WholeFrames c) (h2 : 2 ≤ c.controls.length)
    (hv : ∀ p ∈ c.controls, IsRotation p.point.g.val) : InterpolatesC2 SO3.ops c := by
  have hc := inv_of_built h
  refine ⟨?_, ?_⟩
  · intro p hp
    obtain ⟨i, hi, rfl⟩ := List.getElem_of_mem hp
    exact TCurve.pointAt_control so3Laws SO3.exp_zero hc hw hv (so3_hlog hv) hi h2
  · intro s e hs he f hf p hp
    rw [startTime_eq h2 hs, endTime_eq h2 he] at hf ⊢
    exact TCurve.pointAt_cont so3Cont so3Laws SO3.exp_zero hc hw hv (so3_hlog hv) h2 f hf _ fun i hi _ _ => SO3.termsCont _ _

/-- C39 for SO3, more strongly: continuous at every time of the curve, not just at the controls. -/
theorem c39_so3_everywhere (c : TCurve M3 V3) (h : Built c) (hw : WholeFrames c) (h2 : 2 ≤ c.controls.length)
    (hv : ∀ p ∈ c.controls, IsRotation p.point.g.val) (s e : ℝ) (hs : TCurve.startTime c = .ok s) (he : TCurve.endTime c = .ok e)
    (f : ℝ → TwoJetL M3 V3) (hf : ∀ r, s ≤ r → r ≤ e → TCurve.pointAt SO3.ops c r = .ok (f r)) :
    ContinuousOn (fun r => ((f r).g.val, (f r).d, (f r).d2)) (Set.Icc s e) := by
  rw [startTime_eq h2 hs, endTime_eq h2 he] at hf ⊢
  intro τ _
  exact TCurve.pointAt_cont so3Cont so3Laws SO3.exp_zero (inv_of_built h) hw hv (so3_hlog hv) h2 f hf _ fun i hi _ _ => SO3.termsCont _ _

/-- Neighbouring controls differ by no rotation or by an angle above 0.002, so that SE3's exponential is exact between them. -/
def WellRotated (c : TCurve Pose Twist) : Prop :=
  ∀ (i : Nat) (hi : i + 1 < c.controls.length), relativeRotation c.controls[i].point.g.val c.controls[i + 1].point.g.val = 0 ∨
    0.002 < eucNorm (relativeRotation c.controls[i].point.g.val c.controls[i + 1].point.g.val)

theorem se3_hlog {c : TCurve Pose Twist} (hv : ∀ p ∈ c.controls, IsRotation p.point.g.val.1) (hr : WellRotated c) (i : Nat)
    (hi : i + 1 < c.controls.length) :
    SE3.ops.exp (SE3.ops.log (SE3.ops.mul c.controls[i + 1].point.g.val (SE3.ops.inv c.controls[i].point.g.val))) =
    SE3.ops.mul c.controls[i + 1].point.g.val (SE3.ops.inv c.controls[i].point.g.val) :=
  SE3.exp_log (se3Laws.valid_mul (hv _ (List.getElem_mem _)) (se3Laws.valid_inv (hv _ (List.getElem_mem _))))
    (goodAngle_iff ((hr i hi).imp id le_of_lt))

/-- At a control time every piece that contains it is at one of its ends. -/
theorem exactAt_control {c : TCurve Pose Twist} (hc : TCurve.Inv c) (hr : WellRotated c) {k : Nat} (hk : k < c.controls.length) (i : Nat)
    (hi : i + 1 < c.controls.length) (h0 : c.controls[i].time ≤ c.controls[k].time) (h1 : c.controls[k].time ≤ c.controls[i + 1].time) :
    ExactAt (TCurve.piece c.controls[i] c.controls[i + 1]).curve
      (1 / (c.controls[i + 1].time - c.controls[i].time) * (c.controls[k].time - c.controls[i].time)) := by
  have hki : k = i ∨ k = i + 1 := by
    by_contra hcon
    rcases Nat.lt_or_ge k i with h | h
    · exact absurd (hc.time_lt (by omega) h) (not_lt.mpr h0)
    · exact absurd (hc.time_lt (i := i + 1) (j := k) hk (by omega)) (not_lt.mpr h1)
  rcases hki with rfl | rfl
  · rw [sub_self, mul_zero]
    exact exactAt_zero _
  · rw [one_div_mul_cancel (sub_ne_zero.mpr (hc.time_lt hi (by omega)).ne')]
    exact exactAt_one _ (hr i hi)

theorem ExactAt.termsCont {seg : TSegment Pose Twist} {t : ℝ} (h : ExactAt seg t) : TermsCont SE3.ops seg t := by
  obtain ⟨h1, h2, h3, h4, h5⟩ := h.termsJet
  exact ⟨SE3.termCont h1, SE3.termCont h2, SE3.termCont h3, SE3.termCont h4, SE3.termCont h5⟩

/-- C39 for SE3 when neighbouring controls differ by no rotation or by more than 0.002.  Missing: smaller relative rotations, for which the
end of a segment misses its control by up to 1e-15 of the distance (C37). -/
theorem c39_se3_partial (c : TCurve Pose Twist) (h : Built c) (hw : WholeFrames c) (h2 : 2 ≤ c.controls.length)
    (hv : ∀ p ∈ c.controls, IsRotation p.point.g.val.1) (hr : WellRotated c) : InterpolatesC2 SE3.ops c := by
  have hc := inv_of_built h
  refine ⟨?_, ?_⟩
  · intro p hp
    obtain ⟨i, hi, rfl⟩ := List.getElem_of_mem hp
    exact TCurve.pointAt_control se3Laws SE3.exp_zero hc hw hv (se3_hlog hv hr) hi h2
  · intro s e hs he f hf p hp
    obtain ⟨k, hk, rfl⟩ := List.getElem_of_mem hp
    rw [startTime_eq h2 hs, endTime_eq h2 he] at hf ⊢
    exact TCurve.pointAt_cont se3Cont se3Laws SE3.exp_zero hc hw hv (se3_hlog hv hr) h2 f hf _ fun i hi h0 h1 =>
      (exactAt_control hc hr hk i hi h0 h1).termsCont

theorem exCurve_built : ∃ c : TCurve M3 V3, Built c ∧ WholeFrames c ∧ 2 ≤ c.controls.length ∧ ∀ p ∈ c.controls, IsRotation p.point.g.val := by
  obtain ⟨c, hc⟩ := exCurve_ok
  obtain ⟨hb, he⟩ := (c40_construct exCurve).2.1 c hc
  have h1 : IsRotation (1 : M3) := so3Laws.valid_one
  refine ⟨c, hb, ?_, by rw [he]; simp [exCurve], ?_⟩ <;> intro p hp <;> rw [he] at hp <;>
    simp only [exCurve, List.mem_cons, List.not_mem_nil, or_false] at hp <;> rcases hp with rfl | rfl | rfl
  · decide
  · decide
  · decide
  · exact h1
  · exact quarterTurn_isRotation
  · exact h1

/-- The same for SE3: a straight move that ends spinning. -/
noncomputable def exCurveSE3 : List (TControl Pose Twist) :=
  [⟨0, ⟨(1, 0), exFrame 1, exFrame 2⟩, 0, 0⟩, ⟨2, ⟨(1, ![1, 2, 3]), exFrame 1, exFrame 2⟩, (![1, 0, 0], ![5, 0, 0]), 0⟩]

theorem exCurveSE3_ok : ∃ c, TCurve.make exCurveSE3 = .ok c := by
  rw [(c40_construct exCurveSE3).1]
  intro i hi q hq
  simp only [exCurveSE3, List.length_cons, List.length_nil] at hi
  obtain rfl | rfl : i = 0 ∨ i = 1 := by omega
  · simp [exCurveSE3] at hq
  · simp only [exCurveSE3, List.take_succ_cons, List.take_zero, List.mem_singleton] at hq; subst hq
    simp [exCurveSE3]

theorem exCurveSE3_meets : ∃ c : TCurve Pose Twist, Built c ∧ WholeFrames c ∧ 2 ≤ c.controls.length ∧ (∀ p ∈ c.controls, IsRotation p.point.g.val.1) ∧
    WellRotated c := by
  obtain ⟨c, hc⟩ := exCurveSE3_ok
  obtain ⟨hb, he⟩ := (c40_construct exCurveSE3).2.1 c hc
  have h1 : IsRotation (1 : M3) := so3Laws.valid_one
  refine ⟨c, hb, ?_, by rw [he]; simp [exCurveSE3], ?_, ?_⟩
  · intro p hp
    rw [he] at hp
    simp only [exCurveSE3, List.mem_cons, List.not_mem_nil, or_false] at hp
    rcases hp with rfl | rfl <;> decide
  · intro p hp
    rw [he] at hp
    simp only [exCurveSE3, List.mem_cons, List.not_mem_nil, or_false] at hp
    rcases hp with rfl | rfl <;> exact h1
  · intro i hi
    obtain rfl : i = 0 := by simp only [he, exCurveSE3, List.length_cons, List.length_nil] at hi; omega
    left
    simp only [he, exCurveSE3, relativeRotation, List.getElem_cons_zero, List.getElem_cons_succ, Matrix.transpose_one, Matrix.mul_one]
    rw [← SO3.exp_zero]
    exact SO3.log_exp (by simpa [eucNorm, sqNorm_eq] using Real.pi_pos)

/-! ## C70 -/

/-- What C70 says: at every time strictly inside the curve at which `ok` holds, the reported derivatives are the time derivatives of the
reported pose. -/
def ReportsDerivatives {n : Type} [Fintype n] {G A V : Type} [NormedAddCommGroup A] [NormedSpace ℝ A] (L : LieOps ℝ G A V)
    (M : G → Matrix n n ℝ) (hat : A → Matrix n n ℝ) (c : TCurve G A) (ok : ℝ → Prop) : Prop :=
  ∀ s e, TCurve.startTime c = .ok s → TCurve.endTime c = .ok e → ∀ f : ℝ → TwoJetL G A,
    (∀ r, s ≤ r → r ≤ e → TCurve.pointAt L c r = .ok (f r)) →
    ∀ t, s < t → t < e → ok t → HasLeftJet M hat (fun r => (f r).g.val) t (f t).d (f t).d2

/-- C70 for SO3. -/
theorem c70_so3 (c : TCurve M3 V3) (h : Built c) (hw : WholeFrames c) (h2 : 2 ≤ c.controls.length)
    (hv : ∀ p ∈ c.controls, IsRotation p.point.g.val) :
    ReportsDerivatives SO3.ops (fun R : M3 => R) rotHat c (fun _ => True) := by
  intro s e hs he f hf t h0 h1 _
  rw [startTime_eq h2 hs] at hf h0
  rw [endTime_eq h2 he] at hf h1
  exact TCurve.pointAt_jet so3Rep (fun x => SO3.isRotation_exp x) SO3.exp_zero (inv_of_built h) hw hv (so3_hlog hv) h2 f hf t h0 h1
    fun i hi _ _ => SO3.termsJet _ _

/-- A time at which no term of the segment formula is inside the small-angle region. -/
def ExactTime (c : TCurve Pose Twist) (t : ℝ) : Prop :=
  ∀ (i : Nat) (hi : i + 1 < c.controls.length), c.controls[i].time ≤ t → t ≤ c.controls[i + 1].time →
    ExactAt (TCurve.piece c.controls[i] c.controls[i + 1]).curve (1 / (c.controls[i + 1].time - c.controls[i].time) * (t - c.controls[i].time))

/-- C70 for SE3, at control times and at times when no term is inside the small-angle region, for neighbouring controls that differ by no
rotation or by more than 0.002.  The other times and controls are missing, as in C38 and C39. -/
theorem c70_se3_partial (c : TCurve Pose Twist) (h : Built c) (hw : WholeFrames c) (h2 : 2 ≤ c.controls.length)
    (hv : ∀ p ∈ c.controls, IsRotation p.point.g.val.1) (hr : WellRotated c) :
    ReportsDerivatives SE3.ops poseMatrix twistHat c (fun t => (∃ p ∈ c.controls, p.time = t) ∨ ExactTime c t) := by
  have hc := inv_of_built h
  intro s e hs he f hf t h0 h1 ht
  rw [startTime_eq h2 hs] at hf h0
  rw [endTime_eq h2 he] at hf h1
  refine TCurve.pointAt_jet se3Rep (fun x => SO3.isRotation_exp x.1) SE3.exp_zero hc hw hv (se3_hlog hv hr) h2 f hf t h0 h1
    fun i hi t0 t1 => ExactAt.termsJet ?_
  rcases ht with ⟨p, hp, rfl⟩ | ht
  · obtain ⟨k, hk, rfl⟩ := List.getElem_of_mem hp
    exact exactAt_control hc hr hk i hi t0 t1
  · exact ht i hi t0 t1

/-! ## Instances of the theorems above -/

/-- C40 for `exCurve`: its times increase, a control later than the last is accepted and one at its time is refused. -/
example : ∃ c : TCurve M3 V3, c.controls = exCurve ∧ c.controls.Pairwise (fun a b => a.time < b.time) ∧
    (TCurve.append c ⟨3, ⟨quarterTurn, exFrame 1, exFrame 2⟩, 0, 0⟩).2 = .ok () ∧
    (TCurve.append c ⟨5 / 2, ⟨1, exFrame 1, exFrame 2⟩, 0, 0⟩).2.IsThrow ∧
    ∃ k, k ≤ 2 ∧ (TCurve.appendList c [⟨3, ⟨1, exFrame 1, exFrame 2⟩, 0, 0⟩, ⟨3, ⟨1, exFrame 1, exFrame 2⟩, 0, 0⟩]).1.controls =
      c.controls ++ [⟨3, ⟨1, exFrame 1, exFrame 2⟩, 0, 0⟩, ⟨3, ⟨1, exFrame 1, exFrame 2⟩, 0, 0⟩].take k := by
  obtain ⟨c, hc⟩ := exCurve_ok
  obtain ⟨hb, he⟩ := (c40_construct exCurve).2.1 c hc
  obtain ⟨k, k1, k2, -⟩ := c40_append_list c hb [⟨3, ⟨1, exFrame 1, exFrame 2⟩, 0, 0⟩, ⟨3, ⟨1, exFrame 1, exFrame 2⟩, 0, 0⟩]
  refine ⟨c, he, (c40_invariant c hb).1, (c40_append c hb _).1.mpr ?_, (c40_append c hb _).2.1.mpr ?_, k, k1, k2⟩
  · rw [he]
    intro q hq
    simp only [exCurve, List.mem_cons, List.not_mem_nil, or_false] at hq
    rcases hq with rfl | rfl | rfl <;> exact ⟨by norm_num, rfl, rfl⟩
  · rw [he]
    intro h
    exact lt_irrefl _ (h ⟨5 / 2, ⟨1, exFrame 1, exFrame 2⟩, 0, 0⟩ (by simp [exCurve])).1

/-- C39, C41 and C70 for it: answers between the ends, exceptions outside, its controls at their times, continuity and the reported derivatives. -/
example : ∃ c : TCurve M3 V3, c.controls = exCurve ∧ (∃ p, TCurve.pointAt SO3.ops c 1 = .ok p) ∧ (TCurve.pointAt SO3.ops c 3).IsThrow ∧
    (∃ a b pre post, c.controls = pre ++ a :: b :: post ∧ a.time ≤ 1 ∧ 1 ≤ b.time) ∧
    InterpolatesC2 SO3.ops c ∧ ReportsDerivatives SO3.ops (fun R : M3 => R) rotHat c (fun _ => True) ∧
    ∃ f : ℝ → TwoJetL M3 V3, (f 0).g.val = 1 ∧ ContinuousOn (fun r => ((f r).g.val, (f r).d, (f r).d2)) (Set.Icc 0 (5 / 2)) := by
  obtain ⟨c, hc⟩ := exCurve_ok
  obtain ⟨hb, he⟩ := (c40_construct exCurve).2.1 c hc
  have hw : WholeFrames c := by
    intro p hp
    rw [he] at hp
    simp only [exCurve, List.mem_cons, List.not_mem_nil, or_false] at hp
    rcases hp with rfl | rfl | rfl <;> decide
  have hv : ∀ p ∈ c.controls, IsRotation p.point.g.val := by
    intro p hp
    rw [he] at hp
    simp only [exCurve, List.mem_cons, List.not_mem_nil, or_false] at hp
    rcases hp with rfl | rfl | rfl
    · exact so3Laws.valid_one
    · exact quarterTurn_isRotation
    · exact so3Laws.valid_one
  have h2 : 2 ≤ c.controls.length := by rw [he]; simp [exCurve]
  have hs : TCurve.startTime c = .ok 0 := ((c40_reported c hb).2.1 _ (by rw [he]; rfl))
  have hE : TCurve.endTime c = .ok (5 / 2) := ((c40_reported c hb).2.2.1 _ (by rw [he]; rfl))
  have hd := c41_domain SO3.ops c hb hw
  have ok : ∀ t, 0 ≤ t → t ≤ 5 / 2 → ∃ p, TCurve.pointAt SO3.ops c t = .ok p := fun t h0 h1 => (hd t).1.mpr ⟨h2, 0, 5 / 2, hs, hE, h0, h1⟩
  obtain ⟨p, hp⟩ := ok 1 (by norm_num) (by norm_num)
  obtain ⟨a, b, pre, post, s1, s2, s3, -⟩ := c41_segment SO3.ops c hb 1 p hp
  have hi := c39_so3 c hb hw h2 hv
  refine ⟨c, he, ⟨p, hp⟩, (hd 3).2.mpr ?_, ⟨a, b, pre, post, s1, s2, s3⟩, hi, c70_so3 c hb hw h2 hv, ?_⟩
  · rw [(hd 3).1]
    rintro ⟨-, s, e, -, e2, -, e4⟩
    rw [hE] at e2
    cases e2
    norm_num at e4
  · classical
    choose f hf using ok
    refine ⟨fun r => if h : 0 ≤ r ∧ r ≤ 5 / 2 then f r h.1 h.2 else p, ?_, c39_so3_everywhere c hb hw h2 hv 0 (5 / 2) hs hE _ fun r h0 h1 => ?_⟩
    · have e1 := hf 0 (le_refl _) (by norm_num)
      have e2 := hi.1 ⟨0, ⟨1, exFrame 1, exFrame 2⟩, ![1, 0, 0], 0⟩ (by rw [he]; simp [exCurve])
      rw [e1] at e2
      have h0 : (0 : ℝ) ≤ 0 ∧ (0 : ℝ) ≤ 5 / 2 := ⟨le_refl _, by norm_num⟩
      beta_reduce
      rw [dif_pos h0, Outcome.ok.inj e2]
    · rw [dif_pos ⟨h0, h1⟩]
      exact hf r h0 h1

/-- C70 for a curve of poses. -/
example : ∃ c : TCurve Pose Twist, 2 ≤ c.controls.length ∧
    ReportsDerivatives SE3.ops poseMatrix twistHat c (fun t => (∃ p ∈ c.controls, p.time = t) ∨ ExactTime c t) := by
  obtain ⟨c, h1, h2, h3, h4, h5⟩ := exCurveSE3_meets
  exact ⟨c, h3, c70_se3_partial c h1 h2 h3 h4 h5⟩

end Verif.Props
