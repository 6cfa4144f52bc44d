import Verif.Spec.DCurveValue
/-! # A curve with pointers and the curve of poses it stands for -/
namespace Verif.DHeap
open Verif Verif.Spec
variable {G A V : Type}

/-- Curve `c` in heap `m` stands for the curve of poses `v`. -/
structure Sees (m : Heap G) (c : Curve G) (v : DCurve G) : Prop where
  controls : c.controls.map (fun a => (a.arcLength, m[a.ptr]?)) = v.controls.map (fun b => (b.arcLength, some b.pose))
  segments : c.segments.map (fun a => (a.origArcLength, a.destArcLength, m[a.refFromOrig]?, m[a.refFromDest]?, a.origFromDest)) =
    v.segments.map (fun b => (b.origArcLength, b.destArcLength, some b.refFromOrig, some b.refFromDest, b.origFromDest))

theorem getElem?_grow {m : Heap G} {p : Nat} {g : Framed G} (n : Heap G) (h : m[p]? = some g) : (m ++ n)[p]? = some g := by
  rw [List.getElem?_append_left (List.getElem?_eq_some_iff.mp h).1, h]

theorem sees_grow {m : Heap G} {c : Curve G} {v : DCurve G} (h : Sees m c v) (n : Heap G) : Sees (m ++ n) c v := by
  constructor
  · rw [← h.controls]
    refine List.map_congr_left fun a ha => ?_
    have : (a.arcLength, m[a.ptr]?) ∈ v.controls.map (fun b => (b.arcLength, some b.pose)) := h.controls ▸ List.mem_map_of_mem ha
    obtain ⟨b, -, hb⟩ := List.mem_map.mp this
    simp only [Prod.mk.injEq] at hb
    rw [getElem?_grow n hb.2.symm, ← hb.2]
  · rw [← h.segments]
    refine List.map_congr_left fun a ha => ?_
    have : (a.origArcLength, a.destArcLength, m[a.refFromOrig]?, m[a.refFromDest]?, a.origFromDest) ∈
        v.segments.map (fun b => (b.origArcLength, b.destArcLength, some b.refFromOrig, some b.refFromDest, b.origFromDest)) :=
      h.segments ▸ List.mem_map_of_mem ha
    obtain ⟨b, -, hb⟩ := List.mem_map.mp this
    simp only [Prod.mk.injEq] at hb
    rw [getElem?_grow n hb.2.2.1.symm, getElem?_grow n hb.2.2.2.1.symm, ← hb.2.2.1, ← hb.2.2.2.1]

theorem sees_empty (m : Heap G) : Sees m empty DCurve.empty := ⟨rfl, rfl⟩

theorem sees_head {m : Heap G} {c : Curve G} {v : DCurve G} (h : Sees m c v) :
    (c.controls.head? = none ∧ v.controls.head? = none) ∨
    ∃ a b, c.controls.head? = some a ∧ v.controls.head? = some b ∧ a.arcLength = b.arcLength ∧ read m a.ptr = .ok b.pose := by
  have := congrArg List.head? h.controls
  rw [List.head?_map, List.head?_map] at this
  cases hc : c.controls.head? <;> cases hv : v.controls.head? <;> rw [hc, hv] at this <;> simp at this
  · exact .inl ⟨rfl, rfl⟩
  · exact .inr ⟨_, _, rfl, rfl, this.1, by rw [read, this.2]⟩

theorem sees_last {m : Heap G} {c : Curve G} {v : DCurve G} (h : Sees m c v) :
    (c.controls.getLast? = none ∧ v.controls.getLast? = none) ∨
    ∃ a b, c.controls.getLast? = some a ∧ v.controls.getLast? = some b ∧ a.arcLength = b.arcLength ∧ m[a.ptr]? = some b.pose := by
  have := congrArg List.getLast? h.controls
  rw [List.getLast?_map, List.getLast?_map] at this
  cases hc : c.controls.getLast? <;> cases hv : v.controls.getLast? <;> rw [hc, hv] at this <;> simp at this
  · exact .inl ⟨rfl, rfl⟩
  · exact .inr ⟨_, _, rfl, rfl, this.1, this.2⟩

theorem sees_isFramed {m : Heap G} {c : Curve G} {v : DCurve G} (h : Sees m c v) : isFramed m c = DCurve.isFramed v := by
  unfold isFramed DCurve.isFramed
  rcases sees_head h with ⟨e1, e2⟩ | ⟨a, b, e1, e2, -, e3⟩ <;> rw [e1, e2]
  simp [e3]

theorem sees_pointFrame {m : Heap G} {c : Curve G} {v : DCurve G} (h : Sees m c v) : pointFrame m c = DCurve.pointFrame v := by
  unfold pointFrame DCurve.pointFrame
  rcases sees_head h with ⟨e1, e2⟩ | ⟨a, b, e1, e2, -, e3⟩ <;> rw [e1, e2]
  simp [e3]

theorem sees_referenceFrame {m : Heap G} {c : Curve G} {v : DCurve G} (h : Sees m c v) : referenceFrame m c = DCurve.referenceFrame v := by
  unfold referenceFrame DCurve.referenceFrame
  rcases sees_head h with ⟨e1, e2⟩ | ⟨a, b, e1, e2, -, e3⟩ <;> rw [e1, e2]
  simp [e3]

theorem sees_curveLength {m : Heap G} {c : Curve G} {v : DCurve G} (h : Sees m c v) : curveLength c = DCurve.curveLength v := by
  unfold curveLength DCurve.curveLength
  rcases sees_last h with ⟨e1, e2⟩ | ⟨a, b, e1, e2, e3, -⟩ <;> rw [e1, e2]
  simp [e3]

theorem sees_checkFrames {m : Heap G} {c : Curve G} {v : DCurve G} (h : Sees m c v) (p : Framed G) : checkFrames m c p = DCurve.checkFrames v p := by
  unfold checkFrames DCurve.checkFrames
  have : c.controls.isEmpty = v.controls.isEmpty := by
    have := congrArg List.isEmpty h.controls
    simpa using this
  rw [this, sees_isFramed h, sees_referenceFrame h, sees_pointFrame h]

theorem sees_append (L : LieOps ℝ G A V) (arc : G → ℝ) {m : Heap G} {c : Curve G} {v : DCurve G} (h : Sees m c v) (p : Framed G) :
    (append L arc m c p).2.2 = (DCurve.append L arc v p).2 ∧ Sees (append L arc m c p).1 (append L arc m c p).2.1 (DCurve.append L arc v p).1 ∧
    ∃ n, (append L arc m c p).1 = m ++ n := by
  unfold append DCurve.append
  rw [sees_checkFrames h]
  cases DCurve.checkFrames v p with
  | throw e => exact ⟨rfl, h, [], by simp⟩
  | ub w => exact ⟨rfl, h, [], by simp⟩
  | ok u =>
    have hg := sees_grow h [p]
    have hnew : (m ++ [p])[m.length]? = some p := by simp
    rcases sees_last h with ⟨e1, e2⟩ | ⟨a, b, e1, e2, e3, e4⟩
    · simp only [e1, e2]
      refine ⟨trivial, ⟨?_, hg.segments⟩, [p], rfl⟩
      rw [List.map_append, List.map_append, hg.controls]
      simp
    · simp only [e1, e2, read, getElem?_grow [p] e4, hnew, Outcome.ok_bind, e3]
      cases (do let i ← Framed.inverse L b.pose; Framed.mul L i p) with
      | throw e => exact ⟨rfl, hg, [p], rfl⟩
      | ub w => exact ⟨rfl, hg, [p], rfl⟩
      | ok rel =>
        refine ⟨rfl, ⟨?_, ?_⟩, [p], rfl⟩
        · rw [List.map_append, List.map_append, hg.controls]
          simp
        · rw [List.map_append, List.map_append, hg.segments]
          simp [getElem?_grow [p] e4]

theorem sees_pointAt (L : LieOps ℝ G A V) {m : Heap G} {c : Curve G} {v : DCurve G} (h : Sees m c v) (s : ℝ) :
    pointAt L m c s = DCurve.pointAt L v s := by
  classical
  unfold pointAt DCurve.pointAt pointAtImpl DCurve.pointAtImpl
  rw [sees_curveLength h]
  unfold Outcome.reassert
  split_ifs with h1 h2 <;> simp only [Outcome.ok_bind, Outcome.throw_bind]
  · have e := congrArg (List.find? fun x => decide (s ≤ x.2.1)) h.segments
    rw [List.find?_map, List.find?_map] at e
    have f1 : ((fun x : ℝ × ℝ × Option (Framed G) × Option (Framed G) × Framed G => decide (s ≤ x.2.1)) ∘
      fun a : Segment G => (a.origArcLength, a.destArcLength, m[a.refFromOrig]?, m[a.refFromDest]?, a.origFromDest)) = fun g => decide (s ≤ g.destArcLength) := rfl
    have f2 : ((fun x : ℝ × ℝ × Option (Framed G) × Option (Framed G) × Framed G => decide (s ≤ x.2.1)) ∘
      fun b : DSegment G => (b.origArcLength, b.destArcLength, some b.refFromOrig, some b.refFromDest, b.origFromDest)) = fun g => decide (s ≤ g.destArcLength) := rfl
    rw [f1, f2] at e
    cases hc : List.find? (fun g => decide (s ≤ g.destArcLength)) c.segments <;> cases hv : List.find? (fun g => decide (s ≤ g.destArcLength)) v.segments <;>
      rw [hc, hv] at e <;> simp at e
    · rfl
    · obtain ⟨e1, e2, e3, e4, e5⟩ := e
      simp only [e1, e2]
      split_ifs
      · rfl
      · simp only [Outcome.ok_bind, read, e3, e5]

theorem sees_control {m : Heap G} {c : Curve G} {v : DCurve G} (h : Sees m c v) (k : Nat) :
    controlPose m c k = match v.controls[k]? with
      | none => .throw "vector::_M_range_check"
      | some b => .ok b.pose := by
  unfold controlPose
  have := congrArg (fun l => l[k]?) h.controls
  simp only [List.getElem?_map] at this
  cases hc : c.controls[k]? <;> cases hv : v.controls[k]? <;> rw [hc, hv] at this <;> simp at this
  simp [read, this.2]

/-- All variables stand for their values. -/
def SeesAll (s : State G) (vars : List (DCurve G)) : Prop := List.Forall₂ (Sees s.heap) s.vars vars

theorem seesAll_get {s : State G} {vars : List (DCurve G)} (h : SeesAll s vars) (i : Nat) :
    (s.vars[i]? = none ∧ vars[i]? = none) ∨ ∃ c v, s.vars[i]? = some c ∧ vars[i]? = some v ∧ Sees s.heap c v := by
  have hl := h.length_eq
  by_cases hi : i < s.vars.length
  · exact .inr ⟨s.vars[i], vars[i]'(hl ▸ hi), List.getElem?_eq_getElem hi, List.getElem?_eq_getElem _, h.get hi (hl ▸ hi)⟩
  · exact .inl ⟨List.getElem?_eq_none (by omega), List.getElem?_eq_none (by omega)⟩

theorem forall₂_set {α β : Type} {R : α → β → Prop} {l : List α} {k : List β} (h : List.Forall₂ R l k) (i : Nat) {a : α} {b : β} (hab : R a b) :
    List.Forall₂ R (l.set i a) (k.set i b) := by
  induction h generalizing i with
  | nil => exact .nil
  | cons h t ih =>
    cases i with
    | zero => exact .cons hab t
    | succ i => exact .cons h (ih i)

theorem seesAll_step (L : LieOps ℝ G A V) (arc : G → ℝ) {s : State G} {vars : List (DCurve G)} (h : SeesAll s vars) (op : Op G) (hp : Plain op) :
    (step L arc s op).2 = (valueStep L arc vars op).2 ∧ SeesAll (step L arc s op).1 (valueStep L arc vars op).1 := by
  cases op with
  | declare => exact ⟨rfl, List.rel_append h (.cons (sees_empty _) .nil)⟩
  | copy i =>
    unfold step valueStep
    rcases seesAll_get h i with ⟨e1, e2⟩ | ⟨c, v, e1, e2, e3⟩
    · simp only [e1, e2]
      exact ⟨trivial, h⟩
    · simp only [e1, e2]
      exact ⟨trivial, List.rel_append h (.cons e3 .nil)⟩
  | append i p =>
    unfold step valueStep
    rcases seesAll_get h i with ⟨e1, e2⟩ | ⟨c, v, e1, e2, e3⟩
    · simp only [e1, e2]
      exact ⟨trivial, h⟩
    · simp only [e1, e2]
      obtain ⟨h1, h2, n, h3⟩ := sees_append L arc e3 p
      refine ⟨h1, ?_⟩
      refine forall₂_set (h.imp fun a b hab => ?_) i h2
      rw [h3]
      exact sees_grow hab n
  | write i k g => exact hp.elim

theorem seesAll_run (L : LieOps ℝ G A V) (arc : G → ℝ) {s : State G} {vars : List (DCurve G)} (h : SeesAll s vars) (ops : List (Op G))
    (hp : ∀ op ∈ ops, Plain op) :
    (run L arc s ops).2 = (valueRun L arc vars ops).2 ∧ SeesAll (run L arc s ops).1 (valueRun L arc vars ops).1 := by
  induction ops generalizing s vars with
  | nil => exact ⟨rfl, h⟩
  | cons op ops ih =>
    obtain ⟨h1, h2⟩ := seesAll_step L arc h op (hp op (by simp))
    obtain ⟨h3, h4⟩ := ih h2 (fun o ho => hp o (by simp [ho]))
    exact ⟨by simp only [run, valueRun, h1, h3], h4⟩

end Verif.DHeap
