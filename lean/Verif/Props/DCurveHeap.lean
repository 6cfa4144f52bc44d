import Verif.Proofs.DCurveHeap
import Verif.Props.Transform
/-! # C81: distance curves are values -/
namespace Verif.Props
open Verif Verif.Spec Verif.DHeap Matrix
variable {G A V : Type}

/-- C81, as long as nobody writes through a pointer that a curve hands out.  With curves in variables, copied and appended to in any order, every call
ends, and every query answers, as if each variable held a curve of its own.  Missing: writes through the pointers (`c81_write_shared`). -/
theorem c81_values_partial (L : LieOps ℝ G A V) (arc : G → ℝ) (ops : List (Op G)) (hp : ∀ op ∈ ops, Plain op) :
    (run L arc ⟨[], []⟩ ops).2 = (valueRun L arc [] ops).2 ∧
    (run L arc ⟨[], []⟩ ops).1.vars.length = (valueRun L arc [] ops).1.length ∧
    ∀ (i : Nat) (c : Curve G) (v : DCurve G), (run L arc ⟨[], []⟩ ops).1.vars[i]? = some c → (valueRun L arc [] ops).1[i]? = some v →
      let m := (run L arc ⟨[], []⟩ ops).1.heap
      (∀ s, pointAt L m c s = DCurve.pointAt L v s) ∧ curveLength c = DCurve.curveLength v ∧
      isFramed m c = DCurve.isFramed v ∧ referenceFrame m c = DCurve.referenceFrame v ∧ pointFrame m c = DCurve.pointFrame v ∧
      c.controls.map (·.arcLength) = v.controls.map (·.arcLength) ∧
      ∀ k, controlPose m c k = match v.controls[k]? with
        | none => .throw "vector::_M_range_check"
        | some b => .ok b.pose := by
  obtain ⟨h1, h2⟩ := seesAll_run L arc (s := ⟨[], []⟩) (vars := []) .nil ops hp
  refine ⟨h1, h2.length_eq, fun i c v hc hv => ?_⟩
  rcases seesAll_get h2 i with ⟨e1, -⟩ | ⟨c', v', e1, e2, e3⟩
  · rw [hc] at e1; cases e1
  · rw [hc] at e1
    rw [hv] at e2
    cases e1
    cases e2
    refine ⟨fun s => sees_pointAt L e3 s, sees_curveLength e3, sees_isFramed e3, sees_referenceFrame e3, sees_pointFrame e3, ?_, fun k => sees_control e3 k⟩
    have := congrArg (List.map Prod.fst) e3.controls
    rwa [List.map_map, List.map_map] at this

/-- C81, with the same restriction.  Appending to one curve changes no answer of any other, copies included. -/
theorem c81_append_elsewhere_partial (L : LieOps ℝ G A V) (arc : G → ℝ) (ops : List (Op G)) (hp : ∀ op ∈ ops, Plain op) (i j : Nat) (hij : i ≠ j)
    (g : Framed G) (c : Curve G) (hc : (run L arc ⟨[], []⟩ ops).1.vars[j]? = some c) :
    (step L arc (run L arc ⟨[], []⟩ ops).1 (.append i g)).1.vars[j]? = some c ∧
    (∀ s, pointAt L (step L arc (run L arc ⟨[], []⟩ ops).1 (.append i g)).1.heap c s = pointAt L (run L arc ⟨[], []⟩ ops).1.heap c s) ∧
    (∀ k, controlPose (step L arc (run L arc ⟨[], []⟩ ops).1 (.append i g)).1.heap c k = controlPose (run L arc ⟨[], []⟩ ops).1.heap c k) := by
  obtain ⟨-, h2⟩ := seesAll_run L arc (s := ⟨[], []⟩) (vars := []) .nil ops hp
  generalize run L arc ⟨[], []⟩ ops = r at *
  generalize (valueRun L arc [] ops).1 = vars at *
  rcases seesAll_get h2 j with ⟨e1, -⟩ | ⟨c', v, e1, -, e3⟩
  · rw [hc] at e1; cases e1
  rw [hc] at e1
  cases e1
  unfold step
  rcases seesAll_get h2 i with ⟨e1, e2⟩ | ⟨c', v', e1, e2, e4⟩
  · simp only [e1]
    exact ⟨hc, fun _ => trivial, fun _ => trivial⟩
  · obtain ⟨-, -, n, hn⟩ := sees_append L arc e4 g
    simp only [e1, hn]
    have hg := sees_grow e3 n
    refine ⟨by rw [List.getElem?_set_ne hij, hc], fun s => ?_, fun k => ?_⟩
    · rw [sees_pointAt L hg, sees_pointAt L e3]
    · rw [sees_control hg, sees_control e3]

/-- C81, negative.  Writing a pose through the pointer of a copy changes the original: after any program, copy curve `i` and assign to the pose of control
`k` of the copy; then control `k` of the original has the new pose. -/
theorem c81_write_shared (L : LieOps ℝ G A V) (arc : G → ℝ) (ops : List (Op G)) (hp : ∀ op ∈ ops, Plain op) (i k : Nat) (g : Framed G)
    (c : Curve G) (hc : (run L arc ⟨[], []⟩ ops).1.vars[i]? = some c) (hk : k < c.controls.length) :
    let s := (run L arc (run L arc ⟨[], []⟩ ops).1 [.copy i, .write (run L arc ⟨[], []⟩ ops).1.vars.length k g]).1
    s.vars[i]? = some c ∧ controlPose s.heap c k = .ok g := by
  obtain ⟨-, h2⟩ := seesAll_run L arc (s := ⟨[], []⟩) (vars := []) .nil ops hp
  generalize run L arc ⟨[], []⟩ ops = r at *
  generalize (valueRun L arc [] ops).1 = vars at *
  rcases seesAll_get h2 i with ⟨e1, -⟩ | ⟨c', v, e1, -, e3⟩
  · rw [hc] at e1; cases e1
  rw [hc] at e1
  cases e1
  have hp := congrArg (fun l => l[k]?) e3.controls
  simp only [List.getElem?_map, List.getElem?_eq_getElem hk, Option.map_some] at hp
  have hb : c.controls[k].ptr < r.1.heap.length := by
    by_contra hb
    rw [List.getElem?_eq_none (by omega)] at hp
    cases hv : v.controls[k]? <;> rw [hv] at hp <;> simp at hp
  have hi := (List.getElem?_eq_some_iff.mp hc).1
  simp only [run, step, hc, List.getElem?_append_right (Nat.le_refl _), Nat.sub_self, List.getElem?_cons_zero, List.getElem?_eq_getElem hk]
  refine ⟨by rw [List.getElem?_append_left hi, hc], ?_⟩
  simp [controlPose, List.getElem?_eq_getElem hk, DHeap.read, hb]

/-- C81, negative.  Such a write leaves the curve inconsistent: the step stored in a segment is no longer the one between its two poses. -/
theorem c81_stale : ∃ (p q g : Framed Pose) (s : State Pose) (c : Curve Pose) (seg : Segment Pose) (o d rel : Framed Pose),
    s = (run SE3.ops SE3.arcLength ⟨[], []⟩ [.declare, .append 0 p, .append 0 q, .write 0 0 g]).1 ∧
    s.vars = [c] ∧ c.segments = [seg] ∧ read s.heap seg.refFromOrig = .ok o ∧ read s.heap seg.refFromDest = .ok d ∧
    (do let i ← Framed.inverse SE3.ops o; Framed.mul SE3.ops i d) = .ok rel ∧ rel.val ≠ seg.origFromDest.val := by
  refine ⟨Framed.unframed (1, 0), Framed.unframed (1, ![1, 0, 0]), Framed.unframed (1, ![0, 5, 0]), _, _, _, _, _, _, rfl, rfl, rfl, rfl, rfl, rfl, fun h => ?_⟩
  have := congrFun (congrArg Prod.snd h) 1
  revert this
  simp [Framed.unframed, SE3.ops, SE3.mul, SE3.inv, SO3.act, SO3.inv]

/-- A program with a copy that then grows on its own. -/
example : ∀ op ∈ ([.declare, .append 0 (Framed.unframed (1, 0)), .copy 0, .append 1 (Framed.unframed (quarterTurn, ![1, 2, 3])), .append 0 (Framed.unframed (1, ![4, 0, 0]))] :
    List (Op Pose)), Plain op := by
  intro op h
  simp only [List.mem_cons, List.not_mem_nil, or_false] at h
  rcases h with rfl | rfl | rfl | rfl | rfl <;> trivial

/-! ## Instances of the theorems above -/

/-- A program of a curve with one pose and a copy of it, as in the examples below. -/
theorem exCopied_plain (p : Framed Pose) : ∀ op ∈ ([.declare, .append 0 p, .copy 0] : List (Op Pose)), Plain op := by
  intro op h
  simp only [List.mem_cons, List.not_mem_nil, or_false] at h
  rcases h with rfl | rfl | rfl <;> trivial

/-- `c81_values_partial`, `c81_append_elsewhere_partial` and `c81_write_shared` on the copied curve: both variables exist, appending to the first leaves
the second as it is, and the second is what a write through the first changes. -/
example : ∃ c : Curve Pose,
    (run SE3.ops SE3.arcLength ⟨[], []⟩ [.declare, .append 0 (Framed.unframed (quarterTurn, ![1, 2, 3])), .copy 0]).1.vars[1]? = some c ∧
    c.controls.length = 1 ∧
    (step SE3.ops SE3.arcLength
      (run SE3.ops SE3.arcLength ⟨[], []⟩ [.declare, .append 0 (Framed.unframed (quarterTurn, ![1, 2, 3])), .copy 0]).1
      (.append 0 (Framed.unframed (1, 0)))).1.vars[1]? = some c := by
  have hp := exCopied_plain (Framed.unframed (quarterTurn, ![1, 2, 3]))
  have hl := (c81_values_partial SE3.ops SE3.arcLength _ hp).2.1
  obtain ⟨c, hc, hn⟩ : ∃ c : Curve Pose,
      (run SE3.ops SE3.arcLength ⟨[], []⟩ [.declare, .append 0 (Framed.unframed (quarterTurn, ![1, 2, 3])), .copy 0]).1.vars[1]? = some c ∧
      c.controls.length = 1 := ⟨_, rfl, rfl⟩
  exact ⟨c, hc, hn, (c81_append_elsewhere_partial SE3.ops SE3.arcLength _ hp 0 1 (by decide) _ c hc).1⟩

end Verif.Props
