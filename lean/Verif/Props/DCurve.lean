import Verif.Proofs.DCurveSE3
import Verif.Props.Segment
import Mathlib.Analysis.Calculus.FDeriv.Measurable
import Mathlib.MeasureTheory.Integral.IntervalIntegral.Basic
/-! # C42 to C46: distance curves -/
namespace Verif.Props
open Verif.Framed Verif.Spec SO3 MeasureTheory
open scoped Matrix

section
variable {G A V : Type}

/-- The curves a client can hold: anything made from the empty curve by append calls, whether these succeed or throw, of transforms with
both or no frames set (which the transform constructors ensure). -/
inductive DBuilt (L : LieOps ℝ G A V) (arc : G → ℝ) : DCurve G → Prop
  | empty : DBuilt L arc DCurve.empty
  | append {c : DCurve G} (h : DBuilt L arc c) (p : Framed G) (hp : p.into = Frame.null ↔ p.src = Frame.null) :
      DBuilt L arc (DCurve.append L arc c p).1

/-- A pose may be appended: it has the frames of the first control if that is framed, and its reference frame is that of the last control if
both are framed. -/
def DMayFollow (l : List (DControl G)) (p : Framed G) : Prop :=
  (∀ f, l.head? = some f → f.pose.into ≠ Frame.null → p.into = f.pose.into ∧ p.src = f.pose.src) ∧
  (∀ b, l.getLast? = some b → b.pose.into ≠ Frame.null → p.into ≠ Frame.null → b.pose.into = p.into)

theorem dMayFollow_iff (c : DCurve G) (p : Framed G) : DMayFollow c.controls p ↔ DCurve.Accepts c p := by
  unfold DMayFollow DCurve.Accepts DCurve.Fits
  refine and_congr Iff.rfl (forall_congr' fun b => forall_congr' fun _ => ?_)
  tauto

theorem dInv_of_built {L : LieOps ℝ G A V} {arc : G → ℝ} {c : DCurve G} (h : DBuilt L arc c) : DCurve.Inv L arc c := by
  induction h with
  | empty => exact DCurve.inv_empty L arc
  | @append c h p hp ih =>
    by_cases ha : DCurve.Accepts c p
    · exact (DCurve.append_accept L arc ih hp ha).2.2
    · rw [(DCurve.append_reject L arc ih hp ha).2]; exact ih

/-! ## C42 -/

/-- C42.  The stored arc lengths start at zero, grow by the length of each step, so never decrease if lengths are not negative, and
`curve_length` is the last of them (zero for the empty curve). -/
theorem c42_arc_lengths (L : LieOps ℝ G A V) (arc : G → ℝ) (c : DCurve G) (h : DBuilt L arc c) :
    (∀ p, c.controls.head? = some p → p.arcLength = 0) ∧
    (∀ a b pre post, c.controls = pre ++ a :: b :: post → b.arcLength = a.arcLength + arc (L.mul (L.inv a.pose.val) b.pose.val)) ∧
    ((∀ g, 0 ≤ arc g) → c.controls.Pairwise fun a b => a.arcLength ≤ b.arcLength) ∧
    (∀ p, c.controls.getLast? = some p → DCurve.curveLength c = p.arcLength) ∧
    (c.controls = [] → DCurve.curveLength c = 0) := by
  have hc := dInv_of_built h
  refine ⟨hc.first, ?_, ?_, ?_, ?_⟩
  · intro a b pre post e
    have hlen : pre.length + 1 < c.controls.length := by rw [e]; simp
    have := hc.chain pre.length hlen
    have e0 : c.controls[pre.length] = a := by simp [e]
    have e1 : c.controls[pre.length + 1] = b := by simp [e]
    rw [e0, e1] at this
    exact this
  · intro harc
    rw [List.pairwise_iff_getElem]
    intro i j hi hj hij
    exact hc.le L arc harc hj hij.le
  · intro p hp
    unfold DCurve.curveLength
    rw [hp]
  · intro hn
    unfold DCurve.curveLength
    rw [hn]
    rfl

/-- C42 for SE3: the length of a step is the length of the translation part of its logarithm, so arc lengths never decrease. -/
theorem c42_se3_arc_lengths (c : DCurve Pose) (h : DBuilt SE3.ops SE3.arcLength c) :
    (c.controls.Pairwise fun a b => a.arcLength ≤ b.arcLength) ∧
    ∀ a b pre post, c.controls = pre ++ a :: b :: post →
      b.arcLength = a.arcLength + eucNorm (SE3.log (SE3.mul (SE3.inv a.pose.val) b.pose.val)).2 :=
  ⟨(c42_arc_lengths _ _ c h).2.2.1 fun _ => eucNorm_nonneg _, (c42_arc_lengths _ _ c h).2.1⟩

/-- C42.  An append is accepted exactly when the pose may follow; then it is added at the end.  Otherwise the call throws and the curve is
unchanged.  It is never undefined. -/
theorem c42_append (L : LieOps ℝ G A V) (arc : G → ℝ) (c : DCurve G) (h : DBuilt L arc c) (p : Framed G)
    (hp : p.into = Frame.null ↔ p.src = Frame.null) :
    ((DCurve.append L arc c p).2 = .ok () ↔ DMayFollow c.controls p) ∧
    ((DCurve.append L arc c p).2.IsThrow ↔ ¬ DMayFollow c.controls p) ∧
    (DMayFollow c.controls p → (DCurve.append L arc c p).1.controls.map (·.pose) = c.controls.map (·.pose) ++ [p] ∧
      c.controls <+: (DCurve.append L arc c p).1.controls) ∧
    (¬ DMayFollow c.controls p → (DCurve.append L arc c p).1 = c) := by
  have hc := dInv_of_built h
  rw [dMayFollow_iff]
  by_cases hm : DCurve.Accepts c p
  · obtain ⟨e1, ⟨len, e2⟩, -⟩ := DCurve.append_accept L arc hc hp hm
    rw [e1]
    simp [hm, e2]
  · obtain ⟨e1, e2⟩ := DCurve.append_reject L arc hc hp hm
    have : (DCurve.append L arc c p).2 ≠ .ok () := by intro e; rw [e] at e1; simp at e1
    simp [hm, this, e1, e2]

/-- C42.  Appending a list stops at the first pose that may not follow, keeping the ones before it. -/
theorem c42_append_list (L : LieOps ℝ G A V) (arc : G → ℝ) (c : DCurve G) (h : DBuilt L arc c) (ps : List (Framed G))
    (hp : ∀ p ∈ ps, p.into = Frame.null ↔ p.src = Frame.null) :
    ∃ k, k ≤ ps.length ∧ (DCurve.appendList L arc c ps).1.controls.map (·.pose) = c.controls.map (·.pose) ++ ps.take k ∧
      ((DCurve.appendList L arc c ps).2 = .ok () ↔ k = ps.length) ∧ ((DCurve.appendList L arc c ps).2.IsThrow ↔ k < ps.length) ∧
      DBuilt L arc (DCurve.appendList L arc c ps).1 := by
  induction ps generalizing c with
  | nil => exact ⟨0, by simp, by simp [DCurve.appendList], by simp [DCurve.appendList], by simp [DCurve.appendList], h⟩
  | cons p ps ih =>
    have hp1 := hp p (by simp)
    obtain ⟨a1, a2, a3, a4⟩ := c42_append L arc c h p hp1
    by_cases hm : DMayFollow c.controls p
    · obtain ⟨k, k1, k2, k5, k6, k7⟩ := ih _ (DBuilt.append h p hp1) fun q hq => hp q (by simp [hq])
      have e : DCurve.appendList L arc c (p :: ps) = DCurve.appendList L arc (DCurve.append L arc c p).1 ps := by
        rw [DCurve.appendList]
        have := a1.mpr hm
        revert this
        cases DCurve.append L arc c p with
        | mk x y => intro this; simp only at this; subst this; rfl
      rw [e]
      rw [(a3 hm).1] at k2
      exact ⟨k + 1, by simp; omega, by simp [k2], by rw [k5]; simp, by rw [k6]; simp, k7⟩
    · have e : (DCurve.appendList L arc c (p :: ps)) = DCurve.append L arc c p := by
        rw [DCurve.appendList]
        have := a2.mpr hm
        revert this
        cases DCurve.append L arc c p with
        | mk x y =>
          intro this
          cases y with
          | ok u => simp at this
          | throw m => rfl
          | ub w => rfl
      rw [e]
      exact ⟨0, by simp, by rw [a4 hm]; simp, by rw [a1]; simp [hm], by rw [a2]; simp [hm], DBuilt.append h p hp1⟩

/-- C42.  The constructor succeeds exactly for lists in which every pose may follow those before it, and holds that list. -/
theorem c42_construct (L : LieOps ℝ G A V) (arc : G → ℝ) (ps : List (Framed G)) (hp : ∀ p ∈ ps, p.into = Frame.null ↔ p.src = Frame.null) :
    (∀ c, DCurve.make L arc ps = .ok c → DBuilt L arc c ∧ c.controls.map (·.pose) = ps) ∧ ¬ (DCurve.make L arc ps).IsUB ∧
    ((DCurve.make L arc ps).IsThrow ↔ ∃ (k : Nat) (hk : k < ps.length) (c : DCurve G), DCurve.make L arc (ps.take k) = .ok c ∧
      (DCurve.append L arc c ps[k]).2.IsThrow) := by
  have key : ∀ (ps : List (Framed G)) (hp : ∀ p ∈ ps, p.into = Frame.null ↔ p.src = Frame.null) (c : DCurve G), DBuilt L arc c →
      ((DCurve.appendList L arc c ps).2.IsThrow ↔ ∃ (k : Nat) (hk : k < ps.length), (DCurve.appendList L arc c (ps.take k)).2 = .ok () ∧
        (DCurve.append L arc (DCurve.appendList L arc c (ps.take k)).1 ps[k]).2.IsThrow) := by
    intro ps hp
    induction ps with
    | nil => intro c _; simp [DCurve.appendList]
    | cons p ps ih =>
      intro c hc
      have hp1 := hp p (by simp)
      have hb := DBuilt.append (L := L) (arc := arc) hc p hp1
      obtain ⟨a1, a2, a3, a4⟩ := c42_append L arc c hc p hp1
      rcases ho : DCurve.append L arc c p with ⟨x, y⟩
      rw [ho] at hb a1 a2
      have e0 : ∀ qs, DCurve.appendList L arc c (p :: qs) = match (x, y) with
          | (c', .ok ()) => DCurve.appendList L arc c' qs
          | (c', o) => (c', o) := fun qs => by rw [DCurve.appendList, ho]; rcases y with u | m | w <;> rfl
      cases y with
      | ok u =>
        have ih' := ih (fun q hq => hp q (by simp [hq])) x hb
        rw [e0]
        simp only
        rw [ih']
        constructor
        · rintro ⟨k, hk, k1, k2⟩
          exact ⟨k + 1, by simpa using hk, by rw [List.take_succ_cons, e0]; exact k1, by rw [List.take_succ_cons, e0]; exact k2⟩
        · rintro ⟨k, hk, k1, k2⟩
          cases k with
          | zero =>
            simp only [List.take_zero, DCurve.appendList, List.getElem_cons_zero, ho] at k2
            simp at k2
          | succ k =>
            rw [List.take_succ_cons, e0] at k1 k2
            exact ⟨k, by simpa using hk, k1, k2⟩
      | throw m =>
        rw [e0]
        simp only [Outcome.isThrow_throw, true_iff]
        exact ⟨0, by simp, by simp [DCurve.appendList], by simp [DCurve.appendList, ho]⟩
      | ub w =>
        exfalso
        simp at a1 a2
        exact a1 a2
  obtain ⟨k, k1, k2, k5, k6, k7⟩ := c42_append_list L arc (DCurve.empty : DCurve G) DBuilt.empty ps hp
  have hkey := key ps hp DCurve.empty DBuilt.empty
  have hnil : (DCurve.empty : DCurve G).controls = [] := rfl
  rw [hnil] at k2
  have e2 : ((DCurve.make L arc ps).IsThrow ↔ (DCurve.appendList L arc DCurve.empty ps).2.IsThrow) ∧ ¬ (DCurve.make L arc ps).IsUB ∧
      (∀ c, DCurve.make L arc ps = .ok c → DBuilt L arc c ∧ c.controls.map (·.pose) = ps) := by
    unfold DCurve.make
    revert k2 k5 k6 k7
    rcases DCurve.appendList L arc DCurve.empty ps with ⟨x, y⟩
    intro k2 k5 k6 k7
    simp only at k2 k5 k6 k7
    cases y with
    | ok u =>
      refine ⟨by simp, by simp, fun c hc => ?_⟩
      obtain rfl := Outcome.ok.inj hc
      exact ⟨k7, by rw [k2, k5.mp rfl]; simp⟩
    | throw m => simp
    | ub w =>
      exfalso
      rcases k1.lt_or_eq with h | h
      · have := k6.mpr h; simp at this
      · have := k5.mpr h; simp at this
  refine ⟨e2.2.2, e2.2.1, ?_⟩
  rw [e2.1, hkey]
  constructor
  · rintro ⟨k, hk, h1, h2⟩
    refine ⟨k, hk, _, ?_, h2⟩
    unfold DCurve.make
    revert h1
    rcases DCurve.appendList L arc DCurve.empty (ps.take k) with ⟨x, y⟩
    rintro rfl
    rfl
  · rintro ⟨k, hk, c, h1, h2⟩
    unfold DCurve.make at h1
    revert h1 h2
    refine fun h1 h2 => ⟨k, hk, ?_⟩
    revert h1 h2
    rcases DCurve.appendList L arc DCurve.empty (ps.take k) with ⟨x, y⟩
    cases y with
    | ok u => intro h1 h2; obtain rfl := Outcome.ok.inj h1; exact ⟨rfl, h2⟩
    | throw m => intro h1; simp at h1
    | ub w => intro h1; simp at h1

end

/-- A framed curve of three poses, straight and then turning, can be built. -/
noncomputable def exDCurve : List (Framed Pose) :=
  [⟨(1, 0), exFrame 1, exFrame 2⟩, ⟨(1, ![3, 4, 0]), exFrame 1, exFrame 2⟩, ⟨(quarterTurn, ![3, 4, 5]), exFrame 1, exFrame 2⟩]

/-- Any poses between two fixed frames can be put on a curve. -/
theorem framed_built (poses : List Pose) :
    ∃ c, DBuilt SE3.ops SE3.arcLength c ∧ c.controls.map (·.pose) = poses.map (fun v => ⟨v, exFrame 1, exFrame 2⟩) := by
  have s0 := DBuilt.empty (L := SE3.ops) (arc := SE3.arcLength)
  have w : ∀ v : Pose, (⟨v, exFrame 1, exFrame 2⟩ : Framed Pose).into = Frame.null ↔ (⟨v, exFrame 1, exFrame 2⟩ : Framed Pose).src = Frame.null := by
    intro v; simp only; decide
  have step : ∀ (c : DCurve Pose) (v : Pose) (l : List Pose), DBuilt SE3.ops SE3.arcLength c →
      c.controls.map (·.pose) = l.map (fun v => ⟨v, exFrame 1, exFrame 2⟩) →
      ∃ c', DBuilt SE3.ops SE3.arcLength c' ∧ c'.controls.map (·.pose) = (l ++ [v]).map (fun v => ⟨v, exFrame 1, exFrame 2⟩) := by
    intro c v l hb hl
    have hall : ∀ f ∈ c.controls, f.pose.into = exFrame 1 ∧ f.pose.src = exFrame 2 := by
      intro f hf
      have : f.pose ∈ c.controls.map (·.pose) := List.mem_map_of_mem hf
      rw [hl] at this
      obtain ⟨v', -, e⟩ := List.mem_map.mp this
      rw [← e]; simp
    have hm : DMayFollow c.controls ⟨v, exFrame 1, exFrame 2⟩ := by
      refine ⟨fun f hf _ => ?_, fun b hb2 _ _ => ?_⟩
      · have := hall f (List.mem_of_mem_head? hf)
        exact ⟨this.1.symm, this.2.symm⟩
      · exact (hall b (List.mem_of_getLast? hb2)).1
    refine ⟨_, DBuilt.append hb ⟨v, exFrame 1, exFrame 2⟩ (w v), ?_⟩
    rw [((c42_append _ _ c hb _ (w v)).2.2.1 hm).1, hl]
    simp
  induction poses using List.reverseRecOn with
  | nil => exact ⟨_, s0, rfl⟩
  | append_singleton l v ih =>
    obtain ⟨c, hb, hl⟩ := ih
    exact step c v l hb hl

theorem exDCurve_built : ∃ c, DBuilt SE3.ops SE3.arcLength c ∧ c.controls.map (·.pose) = exDCurve :=
  framed_built [(1, 0), (1, ![3, 4, 0]), (quarterTurn, ![3, 4, 5])]

/-! ## C45 -/

section
variable {G A V : Type}

/-- C45.  The full statement is false (`c45_single_control_fails`, `c45_zero_length_fails`).  What holds: a query succeeds exactly when there
are two controls, the arc length is between zero and the curve length, and it is not zero on a curve whose first step has no length; it
throws exactly when there are fewer than two controls or the arc length is outside the range.  The remaining case divides by zero. -/
theorem c45_domain_partial (L : LieOps ℝ G A V) (arc : G → ℝ) (harc : ∀ g, 0 ≤ arc g) (c : DCurve G) (h : DBuilt L arc c) (s : ℝ) :
    ((∃ g, DCurve.pointAt L c s = .ok g) ↔ 2 ≤ c.controls.length ∧ 0 ≤ s ∧ s ≤ DCurve.curveLength c ∧
      ¬ (s = 0 ∧ ∃ p, c.controls[1]? = some p ∧ p.arcLength = 0)) ∧
    ((DCurve.pointAt L c s).IsThrow ↔ c.controls.length < 2 ∨ s < 0 ∨ DCurve.curveLength c < s) := by
  have hc := dInv_of_built h
  by_cases h2 : 2 ≤ c.controls.length
  · by_cases hs : 0 ≤ s ∧ s ≤ DCurve.curveLength c
    · obtain ⟨i, hi, e1, e2, e3, e4, e5⟩ := DCurve.pointAt_inside L arc hc h2 hs.1 hs.2
      have hn : ¬ (c.controls.length < 2 ∨ s < 0 ∨ DCurve.curveLength c < s) := by
        rintro (h | h | h)
        · omega
        · linarith
        · linarith
      rcases (hc.le L arc harc hi (Nat.le_succ i)).lt_or_eq with hlt | heq
      · obtain ⟨f1, f2, e, -⟩ := DCurve.onPiece_eq L (hc.whole _ (List.getElem_mem (show i < c.controls.length by omega)))
          (hc.whole _ (List.getElem_mem hi)) s
        have hok := (e4 hlt).trans e
        rw [hok]
        refine ⟨⟨fun _ => ⟨h2, hs.1, hs.2, ?_⟩, fun _ => ⟨_, rfl⟩⟩, ⟨fun h => by simp at h, fun h => absurd h hn⟩⟩
        rintro ⟨rfl, p, hp, hp0⟩
        rw [List.getElem?_eq_getElem (by omega), Option.some.injEq] at hp
        subst hp
        rcases e3 with rfl | h3
        · rw [hc.zero L arc (by omega)] at hlt
          exact absurd hp0 hlt.ne'
        · have := hc.le L arc harc (i := 0) (j := i) (by omega) (by omega)
          rw [hc.zero L arc (by omega)] at this
          linarith
      · rw [e5 heq]
        refine ⟨⟨fun ⟨g, hg⟩ => by simp at hg, fun ⟨_, _, _, h4⟩ => absurd ?_ h4⟩, ⟨fun h => by simp at h, fun h => absurd h hn⟩⟩
        rcases e3 with rfl | h3
        · have h0 := hc.zero L arc (show 0 < c.controls.length by omega)
          refine ⟨le_antisymm (by rw [← heq, h0] at e2; exact e2) hs.1, c.controls[0 + 1], by simp, by rw [← heq, h0]⟩
        · linarith
    · have ht := DCurve.pointAt_outside L c hs
      have hno : ¬ ∃ g, DCurve.pointAt L c s = .ok g := by rintro ⟨g, hg⟩; rw [hg] at ht; simp at ht
      refine ⟨⟨fun h => absurd h hno, fun h => absurd ⟨h.2.1, h.2.2.1⟩ hs⟩, ⟨fun _ => ?_, fun _ => ht⟩⟩
      rw [not_and_or, not_le, not_le] at hs
      exact .inr hs
  · have ht := DCurve.pointAt_short L arc hc (not_le.mp h2) s
    have hno : ¬ ∃ g, DCurve.pointAt L c s = .ok g := by rintro ⟨g, hg⟩; rw [hg] at ht; simp at ht
    exact ⟨⟨fun h => absurd h hno, fun h => absurd h.1 h2⟩, ⟨fun _ => .inl (not_le.mp h2), fun _ => ht⟩⟩

end

/-- C45 fails for a curve with one control: the query at zero throws although zero is in the range. -/
theorem c45_single_control_fails : ∃ c : DCurve Pose, DBuilt SE3.ops SE3.arcLength c ∧ c.controls ≠ [] ∧ 0 ≤ DCurve.curveLength c ∧
    (DCurve.pointAt SE3.ops c 0).IsThrow := by
  have hb := DBuilt.append (DBuilt.empty (L := SE3.ops) (arc := SE3.arcLength)) ⟨(1, 0), exFrame 1, exFrame 2⟩ (by decide)
  have hp := ((c42_append SE3.ops SE3.arcLength _ DBuilt.empty ⟨(1, 0), exFrame 1, exFrame 2⟩ (by decide)).2.2.1 (by simp [DMayFollow, DCurve.empty])).1
  have hlen : (DCurve.append SE3.ops SE3.arcLength DCurve.empty ⟨(1, 0), exFrame 1, exFrame 2⟩).1.controls.length = 1 := by
    have := congrArg List.length hp
    simpa [DCurve.empty] using this
  refine ⟨_, hb, ?_, ?_, ?_⟩
  · intro h; rw [h] at hlen; simp at hlen
  · obtain ⟨h1, -, -, h4, -⟩ := c42_arc_lengths _ _ _ hb
    obtain ⟨p, hpe⟩ := List.length_eq_one_iff.mp hlen
    rw [h4 p (by rw [hpe]; rfl), h1 p (by rw [hpe]; rfl)]
  · exact (c45_domain_partial SE3.ops SE3.arcLength (fun _ => eucNorm_nonneg _) _ hb 0).2.mpr (.inl (by omega))

/-- C45 fails for a curve that starts with a turn on the spot: the query at zero divides zero by zero. -/
theorem c45_zero_length_fails : ∃ c : DCurve Pose, DBuilt SE3.ops SE3.arcLength c ∧ 2 ≤ c.controls.length ∧ 0 ≤ DCurve.curveLength c ∧
    (DCurve.pointAt SE3.ops c 0).IsUB := by
  obtain ⟨p, hp⟩ : ∃ p : Framed Pose, p = ⟨(1, 0), exFrame 1, exFrame 2⟩ := ⟨_, rfl⟩
  obtain ⟨q, hq⟩ : ∃ q : Framed Pose, q = ⟨(quarterTurn, 0), exFrame 1, exFrame 2⟩ := ⟨_, rfl⟩
  have wp : p.into = Frame.null ↔ p.src = Frame.null := by rw [hp]; simp only; decide
  have wq : q.into = Frame.null ↔ q.src = Frame.null := by rw [hq]; simp only; decide
  have hb1 := DBuilt.append (DBuilt.empty (L := SE3.ops) (arc := SE3.arcLength)) p wp
  have e1 := ((c42_append SE3.ops SE3.arcLength _ DBuilt.empty p wp).2.2.1 (by simp [DMayFollow, DCurve.empty])).1
  obtain ⟨a, ha⟩ : ∃ a, (DCurve.append SE3.ops SE3.arcLength DCurve.empty p).1.controls = [a] := by
    have := congrArg List.length e1
    exact List.length_eq_one_iff.mp (by simpa [DCurve.empty] using this)
  have hap : a.pose = p := by rw [ha] at e1; simpa [DCurve.empty] using e1
  have hm2 : DMayFollow (DCurve.append SE3.ops SE3.arcLength DCurve.empty p).1.controls q := by
    rw [ha]
    refine ⟨fun f hf _ => ?_, fun b hb _ _ => ?_⟩
    · simp only [List.head?_cons, Option.some.injEq] at hf; subst hf; rw [hap, hp, hq]; simp
    · simp only [List.getLast?_singleton, Option.some.injEq] at hb; subst hb; rw [hap, hp, hq]
  have hb2 := DBuilt.append hb1 q wq
  have e2 := (c42_append _ _ _ hb1 q wq).2.2.1 hm2
  obtain ⟨c, hc⟩ : ∃ c, c = (DCurve.append SE3.ops SE3.arcLength (DCurve.append SE3.ops SE3.arcLength DCurve.empty p).1 q).1 := ⟨_, rfl⟩
  rw [← hc] at hb2 e2
  obtain ⟨rest, hrest⟩ := e2.2
  rw [ha] at hrest
  obtain ⟨b, hbb⟩ : ∃ b, c.controls = [a, b] := by
    have := congrArg List.length e2.1
    rw [ha] at this
    rw [← hrest] at this ⊢
    obtain ⟨b, hb⟩ := List.length_eq_one_iff.mp (show rest.length = 1 by simpa using this)
    exact ⟨b, by simp [hb]⟩
  have hbq : b.pose = q := by
    have := e2.1
    rw [ha, hbb] at this
    simpa using this
  obtain ⟨g1, -, -, g4, -⟩ := c42_arc_lengths _ _ c hb2
  have g2 := (c42_se3_arc_lengths c hb2).2 a b [] [] hbb
  have ha0 := g1 a (by rw [hbb]; rfl)
  have hzero : b.arcLength = 0 := by
    rw [g2, ha0, hap, hbq, hp, hq]
    have : (SE3.log (SE3.mul (SE3.inv (1, 0)) (quarterTurn, 0))).2 = 0 := by
      simp [SE3.log, SE3.mul, SE3.inv, SO3.act]
    simp only [this]
    simp [eucNorm_zero]
  have hlen : DCurve.curveLength c = 0 := by rw [g4 b (by rw [hbb]; rfl), hzero]
  refine ⟨c, hb2, by rw [hbb]; simp, by rw [hlen], ?_⟩
  obtain ⟨d1, d2⟩ := c45_domain_partial SE3.ops SE3.arcLength (fun _ => eucNorm_nonneg _) c hb2 0
  have n1 : ¬ ∃ g, DCurve.pointAt SE3.ops c 0 = .ok g := by
    rw [d1]
    rintro ⟨-, -, -, h⟩
    exact h ⟨rfl, b, by rw [hbb]; rfl, hzero⟩
  have n2 : ¬ (DCurve.pointAt SE3.ops c 0).IsThrow := by
    rw [d2, hbb, hlen]; simp
  revert n1 n2
  cases DCurve.pointAt SE3.ops c 0 <;> simp

/-! ## C46 -/

/-- C46 for curves whose first control is framed.  Missing: curves that start unframed, for which it is false (`c46_unframed_first_fails`). -/
theorem c46_frames_partial {G A V : Type} (L : LieOps ℝ G A V) (arc : G → ℝ) (c : DCurve G) (h : DBuilt L arc c) (f : DControl G)
    (hf : c.controls.head? = some f) (hn : f.pose.into ≠ Frame.null) :
    ∀ p ∈ c.controls, p.pose.into = f.pose.into ∧ p.pose.src = f.pose.src :=
  (dInv_of_built h).frames f hf hn

/-- The frames a curve reports are those of its first control; the query throws for the empty curve. -/
theorem c46_reported {G : Type} (c : DCurve G) :
    (∀ f, c.controls.head? = some f → DCurve.referenceFrame c = .ok f.pose.into ∧ DCurve.pointFrame c = .ok f.pose.src ∧
      DCurve.isFramed c = .ok (f.pose.into ≠ Frame.null)) ∧
    (c.controls = [] → (DCurve.referenceFrame c).IsThrow ∧ (DCurve.pointFrame c).IsThrow ∧ (DCurve.isFramed c).IsThrow) := by
  unfold DCurve.referenceFrame DCurve.pointFrame DCurve.isFramed
  constructor
  · intro f hf
    rw [hf]
    refine ⟨rfl, rfl, ?_⟩
    simp only [Outcome.ok.injEq]
    by_cases h : f.pose.into = Frame.null
    · rw [(isFramed_false_iff _).mpr h]; simp [h]
    · have : f.pose.isFramed = true := by rw [← Bool.not_eq_false, isFramed_false_iff]; exact h
      rw [this]; simp [h]
  · intro h
    rw [h]
    simp

/-- C46 fails when the first control is unframed: framed poses with different point frames are then accepted. -/
theorem c46_unframed_first_fails : ∃ c : DCurve Pose, DBuilt SE3.ops SE3.arcLength c ∧
    c.controls.map (fun p => (p.pose.into, p.pose.src)) = [(Frame.null, Frame.null), (exFrame 1, exFrame 2), (exFrame 1, exFrame 3)] := by
  have step : ∀ (c : DCurve Pose) (p : Framed Pose), DBuilt SE3.ops SE3.arcLength c → (p.into = Frame.null ↔ p.src = Frame.null) →
      DMayFollow c.controls p → ∃ c', DBuilt SE3.ops SE3.arcLength c' ∧ c'.controls.map (·.pose) = c.controls.map (·.pose) ++ [p] :=
    fun c p hb hp hm => ⟨_, DBuilt.append hb p hp, ((c42_append _ _ c hb p hp).2.2.1 hm).1⟩
  obtain ⟨c1, b1, l1⟩ := step DCurve.empty ⟨(1, 0), Frame.null, Frame.null⟩ DBuilt.empty (by simp) (by simp [DMayFollow, DCurve.empty])
  simp only [DCurve.empty, List.map_nil, List.nil_append] at l1
  have hd : ∀ (c : DCurve Pose) (l : List (Framed Pose)), c.controls.map (·.pose) = l → ∀ f, c.controls.head? = some f → l.head? = some f.pose := by
    intro c l h f hf; rw [← h, List.head?_map, hf]; rfl
  have lt : ∀ (c : DCurve Pose) (l : List (Framed Pose)), c.controls.map (·.pose) = l → ∀ f, c.controls.getLast? = some f → l.getLast? = some f.pose := by
    intro c l h f hf; rw [← h, List.getLast?_map, hf]; rfl
  obtain ⟨c2, b2, l2⟩ := step c1 ⟨(1, ![1, 0, 0]), exFrame 1, exFrame 2⟩ b1 (by simp only; decide) (by
    refine ⟨fun f hf hn => ?_, fun b hb hn _ => ?_⟩
    · have := hd c1 _ l1 f hf
      simp only [List.head?_cons, Option.some.injEq] at this
      rw [← this] at hn; exact absurd rfl hn
    · have := lt c1 _ l1 b hb
      simp only [List.getLast?_singleton, Option.some.injEq] at this
      rw [← this] at hn; exact absurd rfl hn)
  rw [l1] at l2
  obtain ⟨c3, b3, l3⟩ := step c2 ⟨(1, ![2, 0, 0]), exFrame 1, exFrame 3⟩ b2 (by simp only; decide) (by
    refine ⟨fun f hf hn => ?_, fun b hb hn _ => ?_⟩
    · have := hd c2 _ l2 f hf
      simp only [List.cons_append, List.head?_cons, Option.some.injEq] at this
      rw [← this] at hn; exact absurd rfl hn
    · have := lt c2 _ l2 b hb
      simp only [List.getLast?_append, List.getLast?_singleton, Option.some_or, Option.some.injEq] at this
      rw [← this])
  refine ⟨c3, b3, ?_⟩
  rw [l2] at l3
  have := congrArg (List.map fun p : Framed Pose => (p.into, p.src)) l3
  simpa [Function.comp_def] using this

/-! ## C43 -/

/-- The rotation vector of the step from one pose to the next. -/
noncomputable def stepRotation (a b : Pose) : V3 := SO3.log (a.1.transpose * b.1)

/-- All steps have positive length. -/
def PositiveSteps (c : DCurve Pose) : Prop :=
  ∀ (i : Nat) (hi : i + 1 < c.controls.length), c.controls[i].arcLength < c.controls[i + 1].arcLength

/-- C43 for curves with equal frames (which framed curves always have, C46) whose steps do not turn or turn by more than 0.002: at the arc
length of a control the query returns the control, and the pose is continuous in the arc length there (one-sided at the two ends).
Missing: steps that turn by less, whose end misses the control by up to 1e-15 of the distance (C30). -/
theorem c43_through_controls_partial (c : DCurve Pose) (h : DBuilt SE3.ops SE3.arcLength c) (h2 : 2 ≤ c.controls.length)
    (hu : ∀ p ∈ c.controls, ∀ q ∈ c.controls, p.pose.into = q.pose.into ∧ p.pose.src = q.pose.src)
    (hv : ∀ p ∈ c.controls, IsRotation p.pose.val.1) (hp : PositiveSteps c)
    (hr : ∀ (i : Nat) (hi : i + 1 < c.controls.length), stepRotation c.controls[i].pose.val c.controls[i + 1].pose.val = 0 ∨
      0.002 < eucNorm (stepRotation c.controls[i].pose.val c.controls[i + 1].pose.val)) :
    (∀ p ∈ c.controls, DCurve.pointAt SE3.ops c p.arcLength = .ok p.pose) ∧
    ∀ f : ℝ → Framed Pose, (∀ s, 0 ≤ s → s ≤ DCurve.curveLength c → DCurve.pointAt SE3.ops c s = .ok (f s)) →
      ∀ p ∈ c.controls, ContinuousWithinAt (fun s => (f s).val) (Set.Icc 0 (DCurve.curveLength c)) p.arcLength := by
  have hc := dInv_of_built h
  have hlog : ∀ (i : Nat) (hi : i + 1 < c.controls.length),
      SE3.ops.exp (SE3.ops.log (SE3.ops.mul (SE3.ops.inv c.controls[i].pose.val) c.controls[i + 1].pose.val)) =
      SE3.ops.mul (SE3.ops.inv c.controls[i].pose.val) c.controls[i + 1].pose.val := fun i hi =>
    SE3.exp_log (se3Laws.valid_mul (se3Laws.valid_inv (hv _ (List.getElem_mem _))) (hv _ (List.getElem_mem _)))
      (goodAngle_iff ((hr i hi).imp id le_of_lt))
  have on : ∀ {i : Nat} (hi : i + 1 < c.controls.length) {s : ℝ}, c.controls[i].arcLength ≤ s → s ≤ c.controls[i + 1].arcLength → _ :=
    fun {i} hi {s} h0 h1 => DCurve.pointAt_on_piece se3Laws SE3.exp_zero hc hu hv hp hlog hi (s := s) h0 h1
  have hlt : ∀ {i j : Nat} (hj : j < c.controls.length) (hij : i < j), c.controls[i].arcLength < c.controls[j].arcLength := by
    intro i j hj hij
    exact (hp i (by omega)).trans_le (hc.le SE3.ops SE3.arcLength (fun _ => eucNorm_nonneg _) hj hij)
  refine ⟨?_, ?_⟩
  · intro p hpm
    obtain ⟨k, hk, rfl⟩ := List.getElem_of_mem hpm
    by_cases hk1 : k + 1 < c.controls.length
    · rw [on hk1 (le_refl _) (hp k hk1).le, DCurve.valueOn_orig se3Laws SE3.exp_zero]
    · obtain ⟨i, rfl⟩ : ∃ i, k = i + 1 := ⟨k - 1, by omega⟩
      rw [on hk (hp i hk).le (le_refl _), DCurve.valueOn_dest se3Laws _ _ (hp i hk) (hv _ (List.getElem_mem _)) (hlog i hk)]
      have hf := hu _ (List.getElem_mem (show i < c.controls.length by omega)) _ (List.getElem_mem hk)
      rw [hf.1, hf.2]
  · intro f hf p hpm
    obtain ⟨k, hk, rfl⟩ := List.getElem_of_mem hpm
    let times : Nat → ℝ := fun i => if hi : i < c.controls.length then c.controls[i].arcLength else 0
    have htimes : ∀ i (hi : i < c.controls.length), times i = c.controls[i].arcLength := fun i hi => dif_pos hi
    have e0 : (0 : ℝ) = times 0 := by rw [htimes 0 (by omega), hc.zero SE3.ops SE3.arcLength (by omega)]
    have e1 : DCurve.curveLength c = times (c.controls.length - 1) := by
      rw [htimes _ (by omega), DCurve.curveLength_eq (List.length_pos_iff.mp (by omega))]
    have fin := continuousWithinAt_Icc_of_pieces (fun s => (f s).val) c.controls[k].arcLength times (c.controls.length - 1) (by
      intro i hi h0 h1
      have hi1 : i + 1 < c.controls.length := by omega
      rw [htimes i (by omega)] at h0 ⊢
      rw [htimes (i + 1) hi1] at h1 ⊢
      have hki : k = i ∨ k = i + 1 := by
        by_contra hcon
        rcases Nat.lt_or_ge k i with h | h
        · exact absurd (hlt (by omega) h) (not_lt.mpr h0)
        · exact absurd (hlt (i := i + 1) (j := k) hk (by omega)) (not_lt.mpr h1)
      obtain ⟨a, ha⟩ : ∃ a, a = c.controls[i] := ⟨_, rfl⟩
      obtain ⟨b, hb⟩ : ∃ b, b = c.controls[i + 1] := ⟨_, rfl⟩
      have hval : ∀ s, a.arcLength ≤ s → s ≤ b.arcLength → (f s).val = DCurve.valueOn SE3.ops a b s := by
        intro s s0 s1
        rw [ha] at s0 ⊢
        rw [hb] at s1 ⊢
        have q1 := hf s (by rw [e0, htimes 0 (by omega)]; exact (hc.le SE3.ops SE3.arcLength (fun _ => eucNorm_nonneg _) (by omega) (by omega)).trans s0)
          (by rw [e1, htimes _ (by omega)]; exact s1.trans (hc.le SE3.ops SE3.arcLength (fun _ => eucNorm_nonneg _) (by omega) (by omega)))
        rw [on hi1 s0 s1, Outcome.ok.injEq] at q1
        rw [← q1]
      have hpos := hp i hi1
      rw [← ha, ← hb] at hpos
      have hri := hr i hi1
      rw [← ha, ← hb] at hri
      have hcont : ContinuousAt (DCurve.valueOn SE3.ops a b) c.controls[k].arcLength := by
        have hd : ∀ r, HasDerivAt (fun r => (r - a.arcLength) / (b.arcLength - a.arcLength)) (b.arcLength - a.arcLength)⁻¹ r := fun r => by
          simpa using ((hasDerivAt_id r).sub_const a.arcLength).div_const (b.arcLength - a.arcLength)
        have hexp := SE3.exp_cont (t := c.controls[k].arcLength) (SE3.log (SE3.mul (SE3.inv a.pose.val) b.pose.val)) (by
          rcases hki with rfl | rfl
          · right; left; rw [← ha, sub_self, zero_div]
          · rcases hri with hri | hri
            · exact .inl hri
            · right; right
              rw [← hb, div_self (sub_ne_zero.mpr hpos.ne'), one_smul, ← eucNorm_sq]
              unfold tinySquareAngle
              have : 0.002 < eucNorm (SE3.log (SE3.mul (SE3.inv a.pose.val) b.pose.val)).1 := hri
              nlinarith) hd
        have hm : Continuous (fun q : Pose => SE3.mul a.pose.val q) := by
          unfold SE3.mul SO3.mul SO3.act
          fun_prop
        exact hm.continuousAt.comp hexp
      rw [← ha] at h0 ⊢
      rw [← hb] at h1 ⊢
      exact hcont.continuousWithinAt.congr (fun s hs => hval s hs.1 hs.2) (hval _ h0 h1)) (by
      intro i hi
      rw [htimes i (by omega), htimes (i + 1) (by omega)]
      exact (hp i (by omega)).le) (by omega)
    rwa [← e0, ← e1] at fin

/-- The hypotheses of C43 are met by the curve that first moves straight and then turns by a quarter while climbing. -/
theorem exDCurve_positive : ∃ c, DBuilt SE3.ops SE3.arcLength c ∧ 2 ≤ c.controls.length ∧
    (∀ p ∈ c.controls, ∀ q ∈ c.controls, p.pose.into = q.pose.into ∧ p.pose.src = q.pose.src) ∧
    (∀ p ∈ c.controls, IsRotation p.pose.val.1) ∧ PositiveSteps c := by
  obtain ⟨c, hb, hl⟩ := exDCurve_built
  have hlen : c.controls.length = 3 := by simpa [exDCurve] using congrArg List.length hl
  have hmem : ∀ p ∈ c.controls, p.pose ∈ exDCurve := fun p hp => hl ▸ List.mem_map_of_mem (f := fun x : DControl Pose => x.pose) hp
  have hget : ∀ (i : Nat) (hi : i < c.controls.length), c.controls[i].pose = exDCurve[i]'(by simp [exDCurve]; omega) := by
    intro i hi
    have := congrArg (fun l : List (Framed Pose) => l[i]?) hl
    simp only [List.getElem?_map, List.getElem?_eq_getElem hi, Option.map_some] at this
    rw [List.getElem?_eq_getElem (by simp [exDCurve]; omega), Option.some.injEq] at this
    exact this
  have hfr : ∀ p ∈ c.controls, p.pose.into = exFrame 1 ∧ p.pose.src = exFrame 2 := by
    intro p hp
    have := hmem p hp
    simp only [exDCurve, List.mem_cons, List.not_mem_nil, or_false] at this
    rcases this with e | e | e <;> rw [e] <;> exact ⟨rfl, rfl⟩
  have h1 : IsRotation (1 : M3) := so3Laws.valid_one
  refine ⟨c, hb, by omega, fun p hp q hq => ?_, ?_, ?_⟩
  · rw [(hfr p hp).1, (hfr p hp).2, (hfr q hq).1, (hfr q hq).2]; exact ⟨rfl, rfl⟩
  · intro p hp
    have := hmem p hp
    simp only [exDCurve, List.mem_cons, List.not_mem_nil, or_false] at this
    rcases this with e | e | e <;> rw [e]
    · exact h1
    · exact h1
    · exact quarterTurn_isRotation
  · intro i hi
    have hch := (dInv_of_built hb).chain i hi
    rw [hch, lt_add_iff_pos_right]
    have hne : ∀ (a b : Pose), (SE3.log (SE3.mul (SE3.inv a) b)).2 ≠ 0 → 0 < SE3.arcLength (SE3.ops.mul (SE3.ops.inv a) b) :=
      fun a b h => eucNorm_pos h
    obtain rfl | rfl : i = 0 ∨ i = 1 := by omega
    · rw [hget 0 (by omega), hget 1 (by omega)]
      apply hne
      have hw : SO3.log (1 : M3) = 0 := by
        rw [← SO3.exp_zero]; exact SO3.log_exp (by simpa [eucNorm_zero] using Real.pi_pos)
      simp only [exDCurve, List.getElem_cons_zero, List.getElem_cons_succ, SE3.mul, SE3.inv, SO3.mul, SO3.inv, SO3.act, SE3.log,
        Matrix.transpose_one, Matrix.mul_one, hw]
      intro h0
      have := congrFun h0 0
      simp at this
    · rw [hget 1 (by omega), hget 2 (by omega)]
      apply hne
      obtain ⟨w, hw⟩ : ∃ w, w = SO3.log quarterTurn := ⟨_, rfl⟩
      simp only [exDCurve, List.getElem_cons_zero, List.getElem_cons_succ, SE3.mul, SE3.inv, SO3.mul, SO3.inv, SO3.act, SE3.log,
        Matrix.transpose_one, Matrix.one_mul, Matrix.one_mulVec, ← hw]
      have ht : (![3, 4, 5] + -![3, 4, 0] : V3) = ![0, 0, 5] := by
        funext k; fin_cases k <;> simp
      rw [ht]
      intro h0
      -- the turn fixes the climb: w is parallel to the z axis
      have hfix : quarterTurn *ᵥ w = w := by
        have he := (SO3.exp_log quarterTurn_isRotation).1
        rw [← hw] at he
        have hcomm : quarterTurn * crossMatrix w = crossMatrix w * quarterTurn := by
          rw [← he, SO3.exp_eq_matrix_exp]
          exact ((Commute.refl (crossMatrix w)).exp_left)
        have hconj := SO3.crossMatrix_conj quarterTurn_isRotation w
        rw [hcomm, Matrix.mul_assoc, mul_eq_one_comm.mp quarterTurn_isRotation.orth, Matrix.mul_one] at hconj
        funext k
        fin_cases k
        · exact congrFun (congrFun hconj 2) 1
        · exact congrFun (congrFun hconj 0) 2
        · exact congrFun (congrFun hconj 1) 0
      rw [quarterTurn_mulVec] at hfix
      have w0 := congrFun hfix 0
      have w1 := congrFun hfix 1
      simp at w0 w1
      have w00 : w 0 = 0 := by linarith
      have w10 : w 1 = 0 := by linarith
      have := congrFun h0 2
      simp only [cross_apply] at this
      simp [w00, w10] at this

/-! ## C44 -/

/-- How far the current step has turned at arc length `s`. -/
noncomputable def turnedAt (a b : DControl Pose) (s : ℝ) : ℝ :=
  (s - a.arcLength) / (b.arcLength - a.arcLength) * eucNorm (stepRotation a.pose.val b.pose.val)

/-- C44.  Strictly inside a step the position has a derivative with respect to the arc length.  Its length is one when the step does not turn
or has already turned by more than 0.002, and within 1e-24 of one before that.  The one point at which the angle turned is 0.002,
where exp switches formulas, is in `c44_switch`.  Missing: an exact value before it. -/
theorem c44_unit_speed_partial (c : DCurve Pose) (h : DBuilt SE3.ops SE3.arcLength c) (hv : ∀ p ∈ c.controls, IsRotation p.pose.val.1)
    (i : Nat) (hi : i + 1 < c.controls.length) (s : ℝ) (h0 : c.controls[i].arcLength < s) (h1 : s < c.controls[i + 1].arcLength)
    (pos : ℝ → V3) (hpos : ∀ r, c.controls[i].arcLength < r → r < c.controls[i + 1].arcLength →
      ∃ g, DCurve.pointAt SE3.ops c r = .ok g ∧ pos r = g.val.2) :
    (stepRotation c.controls[i].pose.val c.controls[i + 1].pose.val = 0 ∨ 0.002 < turnedAt c.controls[i] c.controls[i + 1] s →
      ∃ v, HasDerivAt pos v s ∧ eucNorm v = 1) ∧
    (turnedAt c.controls[i] c.controls[i + 1] s < 0.002 → ∃ v, HasDerivAt pos v s ∧ 1 ≤ eucNorm v ∧ eucNorm v ≤ 1 + 1e-24) := by
  have hc := dInv_of_built h
  have hch := hc.chain i hi
  obtain ⟨a, ha⟩ : ∃ a, a = c.controls[i] := ⟨_, rfl⟩
  obtain ⟨b, hb⟩ : ∃ b, b = c.controls[i + 1] := ⟨_, rfl⟩
  have hva : IsRotation a.pose.val.1 := ha ▸ hv _ (List.getElem_mem _)
  have heq : pos =ᶠ[nhds s] fun r => (DCurve.valueOn SE3.ops a b r).2 := by
    filter_upwards [lt_mem_nhds h0, gt_mem_nhds h1] with r r0 r1
    obtain ⟨g, hg, hg2⟩ := hpos r r0 r1
    obtain ⟨g', hg', hv'⟩ := DCurve.pointAt_strict hc (fun _ => eucNorm_nonneg _) hi r0 r1
    rw [hg, Outcome.ok.injEq] at hg'
    rw [hg2, hg', hv', ha, hb]
  rw [← ha] at h0 hch ⊢
  rw [← hb] at h1 hch ⊢
  have hlen : 0 < b.arcLength - a.arcLength := by linarith
  have hf : 0 ≤ (s - a.arcLength) / (b.arcLength - a.arcLength) := div_nonneg (by linarith) hlen.le
  have hturn : turnedAt a b s = eucNorm (((s - a.arcLength) / (b.arcLength - a.arcLength)) • stepRotation a.pose.val b.pose.val) := by
    rw [eucNorm_smul, abs_of_nonneg hf]; rfl
  obtain ⟨k1, k2⟩ := DCurve.valueOn_vel hva hlen (by rw [hch]; ring) (s := s) rfl rfl
  have hsq : sqNorm (((s - a.arcLength) / (b.arcLength - a.arcLength)) • stepRotation a.pose.val b.pose.val) = turnedAt a b s ^ 2 := by
    rw [hturn, eucNorm_sq]
  have hn0 : 0 ≤ turnedAt a b s := by rw [hturn]; exact eucNorm_nonneg _
  constructor
  · intro hh
    obtain ⟨v, v1, v2⟩ := k1 (hh.imp id fun h => by
      change tinySquareAngle < sqNorm (_ • stepRotation a.pose.val b.pose.val)
      rw [hsq]; unfold tinySquareAngle; nlinarith)
    exact ⟨v, v1.congr_of_eventuallyEq heq, v2⟩
  · intro hh
    obtain ⟨v, v1, v2⟩ := k2 (by
      change sqNorm (_ • stepRotation a.pose.val b.pose.val) < tinySquareAngle
      rw [hsq]; unfold tinySquareAngle; nlinarith)
    exact ⟨v, v1.congr_of_eventuallyEq heq, v2⟩

/-- C44.  The distance travelled up to arc length `s`, that is the integral of the speed, is `s` up to a factor of at most 1 + 1e-24. -/
theorem c44_travelled_partial (c : DCurve Pose) (h : DBuilt SE3.ops SE3.arcLength c) (h2 : 2 ≤ c.controls.length)
    (hv : ∀ p ∈ c.controls, IsRotation p.pose.val.1) (pos : ℝ → V3)
    (hpos : ∀ r, 0 < r → r ≤ DCurve.curveLength c → ∃ g, DCurve.pointAt SE3.ops c r = .ok g ∧ pos r = g.val.2)
    (s : ℝ) (h0 : 0 ≤ s) (h1 : s ≤ DCurve.curveLength c) :
    s ≤ ∫ r in (0 : ℝ)..s, eucNorm (deriv pos r) ∧ ∫ r in (0 : ℝ)..s, eucNorm (deriv pos r) ≤ (1 + 1e-24) * s := by
  have hc := dInv_of_built h
  have harc : ∀ g, 0 ≤ SE3.arcLength g := fun _ => eucNorm_nonneg _
  let A : Nat → ℝ := fun i => if hi : i < c.controls.length then c.controls[i].arcLength else 0
  let B : Nat → ℝ := fun i => if hi : i + 1 < c.controls.length then c.controls[i].arcLength +
    0.002 * (c.controls[i + 1].arcLength - c.controls[i].arcLength) / eucNorm (stepRotation c.controls[i].pose.val c.controls[i + 1].pose.val) else 0
  have hS : (Set.range A ∪ Set.range B).Countable := (Set.countable_range A).union (Set.countable_range B)
  have hbound : ∀ r, 0 < r → r < s → r ∉ Set.range A ∪ Set.range B → 1 ≤ eucNorm (deriv pos r) ∧ eucNorm (deriv pos r) ≤ 1 + 1e-24 := by
    intro r r0 r1 hr
    obtain ⟨i, hi, e1, e2, -⟩ := DCurve.pointAt_inside SE3.ops SE3.arcLength hc h2 r0.le (r1.le.trans h1)
    have n1 : c.controls[i].arcLength ≠ r := fun e => hr (.inl ⟨i, by simp only [A]; rw [dif_pos (by omega), e]⟩)
    have n2 : c.controls[i + 1].arcLength ≠ r := fun e => hr (.inl ⟨i + 1, by simp only [A]; rw [dif_pos hi, e]⟩)
    have l1 := lt_of_le_of_ne e1 n1
    have l2 := lt_of_le_of_ne e2 n2.symm
    have hl : 0 < c.controls[i + 1].arcLength - c.controls[i].arcLength := by linarith
    obtain ⟨k1, k2⟩ := c44_unit_speed_partial c h hv i hi r l1 l2 pos (fun q q0 q1 => hpos q
      (by have := hc.le _ _ harc (i := 0) (j := i) (by omega) (by omega); rw [hc.zero _ _ (by omega)] at this; linarith)
      (by rw [DCurve.curveLength_eq (List.length_pos_iff.mp (by omega))]
          exact q1.le.trans (hc.le _ _ harc (by omega) (by omega))))
    rcases lt_trichotomy (turnedAt c.controls[i] c.controls[i + 1] r) 0.002 with ht | ht | ht
    · obtain ⟨v, v1, v2⟩ := k2 ht
      rw [v1.deriv]; exact v2
    · exfalso
      apply hr
      right
      refine ⟨i, ?_⟩
      simp only [B]
      rw [dif_pos hi]
      unfold turnedAt at ht
      have hne : eucNorm (stepRotation c.controls[i].pose.val c.controls[i + 1].pose.val) ≠ 0 := by
        intro h0; rw [h0, mul_zero] at ht; norm_num at ht
      rw [← ht]
      field_simp
      ring
    · obtain ⟨v, v1, v2⟩ := k1 (.inr ht)
      rw [v1.deriv, v2]; norm_num
  have hae : ∀ᵐ r ∂(volume.restrict (Set.Ioc 0 s)), 1 ≤ eucNorm (deriv pos r) ∧ eucNorm (deriv pos r) ≤ 1 + 1e-24 := by
    rw [ae_restrict_iff' measurableSet_Ioc]
    have hS2 : (insert s (Set.range A ∪ Set.range B)).Countable := hS.insert s
    filter_upwards [hS2.ae_notMem volume] with r hr hr2
    rw [Set.mem_insert_iff, not_or] at hr
    exact hbound r hr2.1 (lt_of_le_of_ne hr2.2 hr.1) hr.2
  have hcont : Continuous (eucNorm : V3 → ℝ) := by
    unfold eucNorm sqNorm
    fun_prop
  have hmeas : Measurable (fun r => eucNorm (deriv pos r)) := hcont.measurable.comp (measurable_deriv pos)
  have hint : IntegrableOn (fun r => eucNorm (deriv pos r)) (Set.Ioc 0 s) volume := by
    refine Measure.integrableOn_of_bounded (M := 1 + 1e-24) (by simp) hmeas.aestronglyMeasurable ?_
    filter_upwards [hae] with r hr
    rw [Real.norm_of_nonneg (eucNorm_nonneg _)]; exact hr.2
  have hii : IntervalIntegrable (fun r => eucNorm (deriv pos r)) volume 0 s := by
    rw [intervalIntegrable_iff_integrableOn_Ioc_of_le h0]; exact hint
  have hae2 : ∀ {P : ℝ → Prop}, (∀ᵐ r ∂(volume.restrict (Set.Ioc 0 s)), P r) → ∀ᵐ r ∂(volume.restrict (Set.Icc 0 s)), P r := by
    intro P hP
    rwa [restrict_Ioc_eq_restrict_Icc] at hP
  constructor
  · have := intervalIntegral.integral_mono_ae_restrict h0 (intervalIntegrable_const (c := (1 : ℝ))) hii (hae2 (hae.mono fun r hr => hr.1))
    simpa using this
  · have := intervalIntegral.integral_mono_ae_restrict h0 hii (intervalIntegrable_const (c := (1 + 1e-24 : ℝ))) (hae2 (hae.mono fun r hr => hr.2))
    rw [intervalIntegral.integral_const, sub_zero, smul_eq_mul, mul_comm] at this
    exact this

/-! ## Instances of the theorems above -/

/-- C42 and C46 for `exDCurve`: the distances start at zero and do not decrease, the frames are those of the first control, a control in the same frames is
accepted and one in others refused. -/
example : ∃ c : DCurve Pose, c.controls.map (·.pose) = exDCurve ∧ (∀ p, c.controls.head? = some p → p.arcLength = 0) ∧
    (c.controls.Pairwise fun a b => a.arcLength ≤ b.arcLength) ∧ (∀ p ∈ c.controls, p.pose.into = exFrame 1 ∧ p.pose.src = exFrame 2) ∧
    DCurve.referenceFrame c = .ok (exFrame 1) ∧
    (DCurve.append SE3.ops SE3.arcLength c ⟨(1, ![7, 8, 9]), exFrame 1, exFrame 2⟩).2 = .ok () ∧
    (DCurve.append SE3.ops SE3.arcLength c ⟨(1, ![7, 8, 9]), exFrame 1, exFrame 3⟩).2.IsThrow := by
  obtain ⟨c, hb, hl⟩ := exDCurve_built
  obtain ⟨f, rest, hc⟩ : ∃ f rest, c.controls = f :: rest := by
    rcases h : c.controls with _ | ⟨f, rest⟩
    · rw [h] at hl; simp [exDCurve] at hl
    · exact ⟨f, rest, rfl⟩
  have hf : f.pose = ⟨(1, 0), exFrame 1, exFrame 2⟩ := by
    rw [hc] at hl
    simp only [exDCurve, List.map_cons, List.cons.injEq] at hl
    exact hl.1
  have hh : c.controls.head? = some f := by rw [hc]; rfl
  have hall := c46_frames_partial SE3.ops SE3.arcLength c hb f hh (by rw [hf]; simp only; decide)
  have hall' : ∀ p ∈ c.controls, p.pose.into = exFrame 1 ∧ p.pose.src = exFrame 2 := fun p hp => by
    have := hall p hp
    rwa [hf] at this
  refine ⟨c, hl, (c42_arc_lengths SE3.ops SE3.arcLength c hb).1, (c42_se3_arc_lengths c hb).1, hall', ?_, ?_, ?_⟩
  · rw [((c46_reported c).1 f hh).1, hf]
  · rw [(c42_append SE3.ops SE3.arcLength c hb _ (by simp only; decide)).1]
    refine ⟨fun g hg _ => ?_, fun b hb' _ _ => (hall' b (List.mem_of_getLast? hb')).1⟩
    have := hall' g (List.mem_of_mem_head? hg)
    exact ⟨this.1.symm, this.2.symm⟩
  · rw [(c42_append SE3.ops SE3.arcLength c hb _ (by simp only; decide)).2.1]
    intro h
    have := (h.1 f hh (by rw [hf]; simp only; decide)).2
    rw [hf] at this
    exact absurd this (by decide)

/-- C42 for lists: the third pose has a frame of its own, so it and what follows is left out, and the constructor throws. -/
example : (∃ k, k ≤ 2 ∧ (DCurve.appendList SE3.ops SE3.arcLength DCurve.empty [⟨(1, 0), exFrame 1, exFrame 2⟩, ⟨(1, 0), exFrame 3, exFrame 2⟩]).1.controls.map
      (·.pose) = [⟨(1, 0), exFrame 1, exFrame 2⟩, ⟨(1, 0), exFrame 3, exFrame 2⟩].take k) ∧
    ¬(DCurve.make SE3.ops SE3.arcLength [⟨(1, 0), exFrame 1, exFrame 2⟩, ⟨(1, 0), exFrame 3, exFrame 2⟩]).IsUB := by
  have hw : ∀ p ∈ ([⟨(1, 0), exFrame 1, exFrame 2⟩, ⟨(1, 0), exFrame 3, exFrame 2⟩] : List (Framed Pose)), p.into = Frame.null ↔ p.src = Frame.null := by
    intro p hp
    simp only [List.mem_cons, List.not_mem_nil, or_false] at hp
    rcases hp with rfl | rfl <;> (simp only; decide)
  obtain ⟨k, k1, k2, -⟩ := c42_append_list SE3.ops SE3.arcLength DCurve.empty DBuilt.empty _ hw
  exact ⟨⟨k, k1, k2⟩, (c42_construct SE3.ops SE3.arcLength _ hw).2.1⟩

/-- C44 and C45 for the curve of `exDCurve_positive`: it answers on its whole length and not outside, and the distance travelled is the argument up to the
stated error. -/
example : ∃ (c : DCurve Pose) (pos : ℝ → V3), 0 < DCurve.curveLength c ∧ (DCurve.pointAt SE3.ops c (-1)).IsThrow ∧
    (∀ s, 0 ≤ s → s ≤ DCurve.curveLength c → ∃ g, DCurve.pointAt SE3.ops c s = .ok g ∧ pos s = g.val.2) ∧
    DCurve.curveLength c ≤ ∫ r in (0 : ℝ)..DCurve.curveLength c, eucNorm (deriv pos r) ∧
    ∃ s v, HasDerivAt pos v s ∧ 1 ≤ eucNorm v ∧ eucNorm v ≤ 1 + 1e-24 := by
  obtain ⟨c, hb, h2, -, hv, hp⟩ := exDCurve_positive
  have hdom := c45_domain_partial SE3.ops SE3.arcLength (fun g => SO3.eucNorm_nonneg _) c hb
  have h0 : c.controls[0].arcLength = 0 := (c42_arc_lengths SE3.ops SE3.arcLength c hb).1 _ (by rw [List.head?_eq_getElem?, List.getElem?_eq_getElem (by omega)])
  have h01 : c.controls[0].arcLength < c.controls[1].arcLength := hp 0 (by omega)
  have hlast : DCurve.curveLength c = c.controls[c.controls.length - 1].arcLength :=
    (c42_arc_lengths SE3.ops SE3.arcLength c hb).2.2.2.1 _ (by rw [List.getLast?_eq_getElem?, List.getElem?_eq_getElem (by omega)])
  have hle : c.controls[1].arcLength ≤ DCurve.curveLength c := by
    rw [hlast]
    rcases Nat.eq_or_lt_of_le (show 1 ≤ c.controls.length - 1 by omega) with e | e
    · simp only [← e]; exact le_refl _
    · exact List.pairwise_iff_getElem.mp (c42_se3_arc_lengths c hb).1 1 (c.controls.length - 1) (by omega) (by omega) e
  have hL : 0 < DCurve.curveLength c := lt_of_lt_of_le (h0 ▸ h01) hle
  have ok : ∀ s, 0 ≤ s → s ≤ DCurve.curveLength c → ∃ g, DCurve.pointAt SE3.ops c s = .ok g := fun s hs hs' => (hdom s).1.mpr ⟨h2, hs, hs', by
    rintro ⟨-, p, hp1, hp2⟩
    rw [List.getElem?_eq_getElem (by omega), Option.some.injEq] at hp1
    rw [← hp1] at hp2
    linarith⟩
  classical
  choose f hf using ok
  obtain ⟨pos, hpos⟩ : ∃ pos : ℝ → V3, ∀ s, 0 ≤ s → s ≤ DCurve.curveLength c → ∃ g, DCurve.pointAt SE3.ops c s = .ok g ∧ pos s = g.val.2 := by
    refine ⟨fun s => if h : 0 ≤ s ∧ s ≤ DCurve.curveLength c then (f s h.1 h.2).val.2 else 0, fun s hs hs' => ⟨f s hs hs', hf s hs hs', ?_⟩⟩
    beta_reduce
    rw [dif_pos ⟨hs, hs'⟩]
  have ht := c44_travelled_partial c hb h2 hv pos (fun r hr hr' => hpos r hr.le hr') _ hL.le (le_refl _)
  refine ⟨c, pos, hL, (hdom (-1)).2.mpr (.inr (.inl (by norm_num))), hpos, ht.1, ?_⟩
  obtain ⟨n, hn⟩ : ∃ n, n = eucNorm (stepRotation c.controls[0].pose.val c.controls[1].pose.val) := ⟨_, rfl⟩
  have hn0 : 0 ≤ n := hn ▸ SO3.eucNorm_nonneg _
  obtain ⟨q, hq0, hq1, hqn⟩ : ∃ q : ℝ, 0 < q ∧ q < 1 ∧ q * n < 0.002 := by
    refine ⟨0.001 / (n + 1), by positivity, ?_, ?_⟩
    · rw [div_lt_one (by linarith)]; linarith
    · rw [div_mul_eq_mul_div, div_lt_iff₀ (by linarith)]; linarith
  have ha : (0 : ℝ) < c.controls[1].arcLength := by linarith
  refine ⟨q * c.controls[1].arcLength, ?_⟩
  refine (c44_unit_speed_partial c hb hv 0 (by omega) (q * c.controls[1].arcLength) ?_ ?_ pos fun r hr hr' => ?_).2 ?_
  · rw [h0]; positivity
  · exact mul_lt_of_lt_one_left ha hq1
  · exact hpos r (by rw [h0] at hr; exact hr.le) (hr'.le.trans hle)
  · unfold turnedAt
    rw [h0, sub_zero, sub_zero, mul_div_assoc, div_self ha.ne', mul_one, ← hn]
    exact hqn

end Verif.Props
