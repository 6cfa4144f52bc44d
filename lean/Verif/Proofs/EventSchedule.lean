import Verif.Spec.EventSchedule
import Mathlib.Data.List.Basic
import Mathlib.Data.Multiset.AddSub
import Mathlib.Tactic.Linarith
/-! # Refinement of the event schedule -/
namespace Verif.EventSchedule
open Verif.Spec.Schedule (insertStable Event)

variable {P : Type}

/-- `a` is delivered strictly before `b`. -/
def Before (a b : IndexedEvent P) : Prop := a.time < b.time ∨ a.time = b.time ∧ a.count < b.count

theorem compare_false_iff (a b : IndexedEvent P) :
    compareEvents a b = false ↔ a.time < b.time ∨ a.time = b.time ∧ a.count ≤ b.count := by
  unfold compareEvents
  by_cases h : a.time > b.time
  · simp [h]; omega
  · simp [h]
    omega

/-- Insert in delivery order. -/
def insertIdx (e : IndexedEvent P) : List (IndexedEvent P) → List (IndexedEvent P)
  | [] => [e]
  | x :: xs => if x.time ≤ e.time then x :: insertIdx e xs else e :: x :: xs

theorem insertIdx_perm (e : IndexedEvent P) (l : List (IndexedEvent P)) : (insertIdx e l).Perm (e :: l) := by
  induction l with
  | nil => exact List.Perm.refl _
  | cons x xs ih =>
    unfold insertIdx
    split_ifs
    · exact (List.Perm.cons x ih).trans (List.Perm.swap e x xs)
    · exact List.Perm.refl _

theorem insertIdx_map (e : IndexedEvent P) (l : List (IndexedEvent P)) :
    (insertIdx e l).map (fun x => (x.time, x.payload)) =
      insertStable (e.time, e.payload) (l.map (fun x => (x.time, x.payload))) := by
  induction l with
  | nil => rfl
  | cons x xs ih =>
    unfold insertIdx
    simp only [List.map_cons, insertStable]
    split_ifs
    · simp [ih]
    · simp

theorem insertIdx_pairwise (e : IndexedEvent P) (l : List (IndexedEvent P)) (h : l.Pairwise Before)
    (hc : ∀ x ∈ l, x.count < e.count) : (insertIdx e l).Pairwise Before := by
  induction l with
  | nil => simp [insertIdx]
  | cons x xs ih =>
    rw [List.pairwise_cons] at h
    unfold insertIdx
    split_ifs with hx
    · rw [List.pairwise_cons]
      refine ⟨?_, ih h.2 (fun y hy => hc y (List.mem_cons_of_mem _ hy))⟩
      intro y hy
      rw [(insertIdx_perm e xs).mem_iff, List.mem_cons] at hy
      rcases hy with rfl | hy
      · have := hc x List.mem_cons_self
        unfold Before; omega
      · exact h.1 y hy
    · rw [List.pairwise_cons]
      refine ⟨?_, List.pairwise_cons.mpr h⟩
      intro y hy
      rw [List.mem_cons] at hy
      rcases hy with rfl | hy
      · left; omega
      · have h1 := h.1 y hy
        unfold Before at *; omega

/-- Refinement relation: the abstract pending list is the queue content in delivery order. -/
structure Rel (Q : PriorityQueue (IndexedEvent P) compareEvents) (s : State Q) (a : Spec.Schedule.State P) : Prop where
  count : s.insertionCount = a.accepted
  content : ∃ l : List (IndexedEvent P), (l : Multiset (IndexedEvent P)) = Q.elems s.queue ∧ l.Pairwise Before ∧
    (∀ x ∈ l, x.count < s.insertionCount) ∧ (l.map (fun x => x.count)).Nodup ∧ l.map (fun x => (x.time, x.payload)) = a.pending

theorem rel_init (Q : PriorityQueue (IndexedEvent P) compareEvents) : Rel Q (init Q) ⟨0, []⟩ :=
  ⟨rfl, [], by simp [init, Q.elems_empty], by simp, by simp, by simp, by simp⟩

/-- The top of the queue is the head of the ordered list. -/
theorem top_eq_head (Q : PriorityQueue (IndexedEvent P) compareEvents) (q : Q.Carrier) (x : IndexedEvent P)
    (xs : List (IndexedEvent P)) (hc : ((x :: xs : List _) : Multiset (IndexedEvent P)) = Q.elems q)
    (hp : (x :: xs).Pairwise Before) : Q.top q = some x := by
  cases ht : Q.top q with
  | none =>
    rw [Q.top_none, ← hc] at ht
    simp at ht
  | some a =>
    obtain ⟨hm, hb⟩ := Q.top_best q a ht
    rw [← hc] at hm hb
    rw [List.pairwise_cons] at hp
    have hm' : a ∈ x :: xs := hm
    rcases List.mem_cons.mp hm' with rfl | hin
    · rfl
    · exfalso
      have h1 := hp.1 a hin
      have h2 := (compare_false_iff a x).mp (hb x (by simp))
      unfold Before at h1
      omega

theorem pop_tail (Q : PriorityQueue (IndexedEvent P) compareEvents) (q : Q.Carrier) (x : IndexedEvent P)
    (xs : List (IndexedEvent P)) (hc : ((x :: xs : List _) : Multiset (IndexedEvent P)) = Q.elems q)
    (hp : (x :: xs).Pairwise Before) : ∃ q', Q.pop q = some q' ∧ (xs : Multiset (IndexedEvent P)) = Q.elems q' := by
  obtain ⟨q', h1, h2⟩ := Q.pop_top q x (top_eq_head Q q x xs hc hp)
  refine ⟨q', h1, ?_⟩
  rw [← hc, ← Multiset.cons_coe] at h2
  exact (Multiset.cons_inj_right x).mp h2

/-- One call preserves the relation and gives the same outcome. -/
theorem step_refines (Q : PriorityQueue (IndexedEvent P) compareEvents) (N : Nat) (s : State Q) (a : Spec.Schedule.State P)
    (r : Rel Q s a) (op : Op P) :
    (step Q N s op).2 = (Spec.Schedule.step N a op).2 ∧ Rel Q (step Q N s op).1 (Spec.Schedule.step N a op).1 := by
  obtain ⟨hcount, l, hl, hp, hlt, hnd, hmap⟩ := r
  cases op with
  | schedule t p =>
    unfold step Spec.Schedule.step scheduleEvent
    by_cases h : s.insertionCount < N
    · have h' : a.accepted < N := by omega
      rw [Outcome.reassert_true h]
      simp only [Outcome.ok_bind, Outcome.pure_eq, h', if_true]
      refine ⟨trivial, by simp only; omega, insertIdx ⟨t, p, s.insertionCount⟩ l, ?_, ?_, ?_, ?_, ?_⟩
      · rw [Q.elems_push, ← hl, Multiset.cons_coe]
        exact Multiset.coe_eq_coe.mpr (insertIdx_perm _ _)
      · exact insertIdx_pairwise _ _ hp hlt
      · intro x hx
        rw [(insertIdx_perm _ l).mem_iff, List.mem_cons] at hx
        rcases hx with rfl | hx
        · simp
        · have := hlt x hx
          simp only; omega
      · rw [((insertIdx_perm _ l).map _).nodup_iff, List.map_cons, List.nodup_cons]
        refine ⟨?_, hnd⟩
        intro hm
        obtain ⟨x, hx, hxe⟩ := List.mem_map.mp hm
        have := hlt x hx
        simp only at hxe
        omega
      · rw [insertIdx_map, hmap]
    · have h' : ¬ a.accepted < N := by omega
      rw [Outcome.reassert_false h]
      simp only [Outcome.throw_bind, h', if_false]
      exact ⟨trivial, hcount, l, hl, hp, hlt, hnd, hmap⟩
  | top =>
    unfold step Spec.Schedule.step topEvent
    cases l with
    | nil =>
      simp only [List.map_nil] at hmap
      have : Q.top s.queue = none := by rw [Q.top_none, ← hl]; rfl
      rw [this, ← hmap]
      exact ⟨rfl, hcount, [], hl, hp, hlt, hnd, by simp [hmap]⟩
    | cons x xs =>
      rw [top_eq_head Q _ x xs hl hp, ← hmap]
      exact ⟨rfl, hcount, x :: xs, hl, hp, hlt, hnd, hmap⟩
  | pop =>
    unfold step Spec.Schedule.step popEvent
    cases l with
    | nil =>
      simp only [List.map_nil] at hmap
      have : Q.pop s.queue = none := by rw [Q.pop_none, ← hl]; rfl
      rw [this, ← hmap]
      exact ⟨rfl, hcount, [], hl, hp, hlt, hnd, by simp [hmap]⟩
    | cons x xs =>
      obtain ⟨q', e1, e2⟩ := pop_tail Q _ x xs hl hp
      rw [e1, ← hmap]
      refine ⟨rfl, hcount, xs, e2, (List.pairwise_cons.mp hp).2, ?_, (List.nodup_cons.mp hnd).2, rfl⟩
      intro y hy
      exact hlt y (List.mem_cons_of_mem _ hy)
  | size =>
    unfold step Spec.Schedule.step size
    refine ⟨?_, hcount, l, hl, hp, hlt, hnd, hmap⟩
    rw [Q.size_eq, ← hl, ← hmap]
    simp

/-- The relation is preserved by whole histories. -/
theorem final_refines (Q : PriorityQueue (IndexedEvent P) compareEvents) (N : Nat) (ops : List (Op P)) :
    ∀ (s : State Q) (a : Spec.Schedule.State P), Rel Q s a →
      Rel Q (Spec.Schedule.final (step Q N) s ops) (Spec.Schedule.final (Spec.Schedule.step N) a ops) := by
  induction ops with
  | nil => intro s a r; exact r
  | cons op ops ih => intro s a r; exact ih _ _ (step_refines Q N s a r op).2

theorem run_refines (Q : PriorityQueue (IndexedEvent P) compareEvents) (N : Nat) (ops : List (Op P)) :
    ∀ (s : State Q) (a : Spec.Schedule.State P), Rel Q s a →
      Spec.Schedule.run (step Q N) s ops = Spec.Schedule.run (Spec.Schedule.step N) a ops := by
  induction ops with
  | nil => intro s a _; rfl
  | cons op ops ih =>
    intro s a r
    obtain ⟨e, r'⟩ := step_refines Q N s a r op
    unfold Spec.Schedule.run
    cases h1 : step Q N s op with
    | mk s' o =>
      cases h2 : Spec.Schedule.step N a op with
      | mk a' o' =>
        rw [h1, h2] at e r'
        simp only at e r'
        subst e
        cases o with
        | ok v => simp only; rw [ih s' a' r']
        | throw m => simp only; rw [ih s' a' r']
        | ub w => rfl

end Verif.EventSchedule
