import Verif.Proofs.EventSchedule
/-! # Facts about the abstract schedule, and their transfer -/
namespace Verif.EventSchedule
open Verif.Spec.Schedule

variable {P : Type}

theorem insertStable_perm (e : Event P) (l : List (Event P)) : (insertStable e l).Perm (e :: l) := by
  induction l with
  | nil => exact List.Perm.refl _
  | cons x xs ih =>
    unfold insertStable
    split_ifs
    · exact (List.Perm.cons x ih).trans (List.Perm.swap e x xs)
    · exact List.Perm.refl _

theorem insertStable_sorted (e : Event P) (l : List (Event P)) (h : l.Pairwise (fun a b => a.1 ≤ b.1)) :
    (insertStable e l).Pairwise (fun a b => a.1 ≤ b.1) := by
  induction l with
  | nil => simp [insertStable]
  | cons x xs ih =>
    rw [List.pairwise_cons] at h
    unfold insertStable
    split_ifs with hx
    · rw [List.pairwise_cons]
      refine ⟨?_, ih h.2⟩
      intro y hy
      rw [(insertStable_perm e xs).mem_iff, List.mem_cons] at hy
      rcases hy with rfl | hy
      · exact hx
      · exact h.1 y hy
    · rw [List.pairwise_cons]
      refine ⟨?_, List.pairwise_cons.mpr h⟩
      intro y hy
      rw [List.mem_cons] at hy
      rcases hy with rfl | hy
      · omega
      · have := h.1 y hy; omega

/-- Inserting keeps arrival order within every time. -/
theorem insertStable_filter (e : Event P) (l : List (Event P)) (h : l.Pairwise (fun a b => a.1 ≤ b.1)) (t : Int) :
    (insertStable e l).filter (fun x => x.1 = t) = l.filter (fun x => x.1 = t) ++ [e].filter (fun x => x.1 = t) := by
  induction l with
  | nil => simp [insertStable]
  | cons x xs ih =>
    rw [List.pairwise_cons] at h
    unfold insertStable
    split_ifs with hx
    · by_cases hxt : x.1 = t
      · simp [List.filter_cons, hxt, ih h.2]
      · simp [List.filter_cons, hxt, ih h.2]
    · by_cases he : e.1 = t
      · have hno : (x :: xs).filter (fun x => x.1 = t) = [] := by
          rw [List.filter_eq_nil_iff]
          intro y hy
          rcases List.mem_cons.mp hy with rfl | hy
          · simp; omega
          · have := h.1 y hy; simp; omega
        rw [List.filter_cons, hno]; simp [he]
      · rw [List.filter_cons]; simp [he]

/-- The abstract machine conserves events. -/
theorem spec_conserve (N : Nat) (ops : List (Op P)) : ∀ a : Spec.Schedule.State P,
    (a.pending ++ accepted (Spec.Schedule.step N) a ops).Perm
      (delivered (Spec.Schedule.step N) a ops ++ (final (Spec.Schedule.step N) a ops).pending) := by
  induction ops with
  | nil => intro a; simp [accepted, delivered, final]
  | cons op ops ih =>
    intro a
    cases op with
    | schedule t p =>
      by_cases h : a.accepted < N
      · have := ih ⟨a.accepted + 1, insertStable (t, p) a.pending⟩
        simp only [accepted, delivered, final, Spec.Schedule.step, h, if_true]
        refine List.Perm.trans ?_ this
        refine List.Perm.trans List.perm_middle ?_
        exact ((insertStable_perm (t, p) a.pending).symm).append_right _
      · have := ih a
        simpa only [accepted, delivered, final, Spec.Schedule.step, h, if_false] using this
    | top =>
      have := ih a
      unfold accepted delivered final
      cases hp : a.pending with
      | nil => simpa [Spec.Schedule.step, hp] using this
      | cons x xs => simpa [Spec.Schedule.step, hp] using this
    | pop =>
      unfold accepted delivered final
      cases hp : a.pending with
      | nil =>
        have := ih a
        simpa [Spec.Schedule.step, hp, peek] using this
      | cons x xs =>
        have := ih ⟨a.accepted, xs⟩
        simpa [Spec.Schedule.step, hp, peek] using this
    | size =>
      have := ih a
      simpa [accepted, delivered, final, Spec.Schedule.step] using this

theorem spec_drain (N : Nat) (l : List (Event P)) : ∀ k,
    drain (Spec.Schedule.step N) ⟨k, l⟩ l.length = l := by
  induction l with
  | nil => intro k; rfl
  | cons x xs ih =>
    intro k
    have := ih k
    simp only [drain, List.length_cons, List.replicate_succ, delivered, peek, Spec.Schedule.step] at *
    simp [this]

/-- Pending events stay sorted. -/
theorem spec_sorted (N : Nat) (ops : List (Op P)) : ∀ a : Spec.Schedule.State P,
    a.pending.Pairwise (fun x y => x.1 ≤ y.1) → (final (Spec.Schedule.step N) a ops).pending.Pairwise (fun x y => x.1 ≤ y.1) := by
  induction ops with
  | nil => intro a h; exact h
  | cons op ops ih =>
    intro a h
    apply ih
    cases op with
    | schedule t p =>
      simp only [Spec.Schedule.step]
      split_ifs
      · exact insertStable_sorted _ _ h
      · exact h
    | top => simp only [Spec.Schedule.step]; split <;> exact h
    | pop =>
      simp only [Spec.Schedule.step]
      split
      · exact h
      · rename_i hp
        rw [hp] at h
        exact (List.pairwise_cons.mp h).2
    | size => exact h

/-- The count of accepted events. -/
theorem spec_count (N : Nat) (ops : List (Op P)) : ∀ a : Spec.Schedule.State P, a.accepted ≤ N →
    (final (Spec.Schedule.step N) a ops).accepted = min N (a.accepted + scheduleCalls ops) := by
  induction ops with
  | nil => intro a h; simp [final, scheduleCalls, h]
  | cons op ops ih =>
    intro a h
    cases op with
    | schedule t p =>
      simp only [final, scheduleCalls, Spec.Schedule.step]
      split_ifs with h1
      · rw [ih _ (by simp only; omega)]
        congr 1; simp only; omega
      · rw [ih a h]; omega
    | top =>
      simp only [final, scheduleCalls]
      have : (Spec.Schedule.step N a .top).1 = a := by simp only [Spec.Schedule.step]; split <;> rfl
      rw [this, ih a h]
    | pop =>
      simp only [final, scheduleCalls]
      have : (Spec.Schedule.step N a .pop).1.accepted = a.accepted := by simp only [Spec.Schedule.step]; split <;> rfl
      rw [ih _ (by rw [this]; exact h), this]
    | size => simp only [final, scheduleCalls, Spec.Schedule.step]; rw [ih a h]

/-- Scheduling a list of events: the result is a stable rearrangement. -/
theorem spec_schedule_all (N : Nat) (evs : List (Event P)) : ∀ a : Spec.Schedule.State P, a.accepted + evs.length ≤ N →
    a.pending.Pairwise (fun x y => x.1 ≤ y.1) →
    ∀ t : Int, (final (Spec.Schedule.step N) a (evs.map fun e => .schedule e.1 e.2)).pending.filter (fun x => x.1 = t) =
      a.pending.filter (fun x => x.1 = t) ++ evs.filter (fun x => x.1 = t) := by
  induction evs with
  | nil => intro a _ _ t; simp [final]
  | cons e evs ih =>
    intro a hN hs t
    simp only [List.length_cons] at hN
    have hlt : a.accepted < N := by omega
    simp only [List.map_cons, final, Spec.Schedule.step, hlt, if_true]
    rw [ih _ (by simp only; omega) (insertStable_sorted _ _ hs)]
    simp only
    rw [insertStable_filter _ _ hs, List.append_assoc, ← List.filter_append]
    rfl

theorem spec_schedule_all_length (N : Nat) (evs : List (Event P)) : ∀ a : Spec.Schedule.State P, a.accepted + evs.length ≤ N →
    (final (Spec.Schedule.step N) a (evs.map fun e => .schedule e.1 e.2)).pending.length = a.pending.length + evs.length := by
  induction evs with
  | nil => intro a _; simp [final]
  | cons e evs ih =>
    intro a hN
    simp only [List.length_cons] at hN
    have hlt : a.accepted < N := by omega
    simp only [List.map_cons, final, Spec.Schedule.step, hlt, if_true]
    rw [ih _ (by simp only; omega)]
    simp only [(insertStable_perm _ _).length_eq, List.length_cons]
    omega

/-! Transfer of the client-side observations along the refinement. -/

theorem peek_refines (Q : PriorityQueue (IndexedEvent P) compareEvents) (N : Nat) (s : State Q) (a : Spec.Schedule.State P)
    (r : Rel Q s a) : peek (step Q N) s = peek (Spec.Schedule.step N) a := by
  unfold peek
  rw [(step_refines Q N s a r .top).1]

theorem delivered_refines (Q : PriorityQueue (IndexedEvent P) compareEvents) (N : Nat) (ops : List (Op P)) :
    ∀ (s : State Q) (a : Spec.Schedule.State P), Rel Q s a →
      delivered (step Q N) s ops = delivered (Spec.Schedule.step N) a ops := by
  induction ops with
  | nil => intro s a _; rfl
  | cons op ops ih =>
    intro s a r
    cases op <;> simp only [delivered] <;> first
      | rw [peek_refines Q N s a r, ih _ _ (step_refines Q N s a r _).2]
      | rw [ih _ _ (step_refines Q N s a r _).2]

theorem accepted_refines (Q : PriorityQueue (IndexedEvent P) compareEvents) (N : Nat) (ops : List (Op P)) :
    ∀ (s : State Q) (a : Spec.Schedule.State P), Rel Q s a →
      accepted (step Q N) s ops = accepted (Spec.Schedule.step N) a ops := by
  induction ops with
  | nil => intro s a _; rfl
  | cons op ops ih =>
    intro s a r
    cases op <;> simp only [accepted] <;> first
      | rw [(step_refines Q N s a r _).1, ih _ _ (step_refines Q N s a r _).2]
      | rw [ih _ _ (step_refines Q N s a r _).2]

theorem reportedSize_refines (Q : PriorityQueue (IndexedEvent P) compareEvents) (N : Nat) (s : State Q)
    (a : Spec.Schedule.State P) (r : Rel Q s a) : reportedSize (step Q N) s = a.pending.length := by
  unfold reportedSize
  rw [(step_refines Q N s a r .size).1]
  rfl

/-! A concrete conforming queue: an unordered list searched for its best element. -/

/-- Split off the best element of `x :: l`. -/
def selectBest (x : IndexedEvent P) : List (IndexedEvent P) → IndexedEvent P × List (IndexedEvent P)
  | [] => (x, [])
  | y :: ys =>
    if compareEvents x y then ((selectBest y ys).1, x :: (selectBest y ys).2)
    else ((selectBest x ys).1, y :: (selectBest x ys).2)

theorem selectBest_perm (l : List (IndexedEvent P)) : ∀ x, ((selectBest x l).1 :: (selectBest x l).2).Perm (x :: l) := by
  induction l with
  | nil => intro x; exact List.Perm.refl _
  | cons y ys ih =>
    intro x
    unfold selectBest
    split_ifs
    · exact (List.Perm.swap _ _ _).trans (List.Perm.cons x (ih y))
    · exact ((List.Perm.swap _ _ _).trans (List.Perm.cons y (ih x))).trans (List.Perm.swap _ _ _)

theorem selectBest_best (l : List (IndexedEvent P)) : ∀ x, ∀ z ∈ x :: l, compareEvents (selectBest x l).1 z = false := by
  induction l with
  | nil =>
    intro x z hz
    simp only [List.mem_cons, List.not_mem_nil, or_false] at hz
    subst hz
    rw [compare_false_iff]; right; exact ⟨rfl, le_refl _⟩
  | cons y ys ih =>
    intro x z hz
    unfold selectBest
    split_ifs with h
    · have hy := ih y y (by simp)
      rcases List.mem_cons.mp hz with rfl | hz
      · have hn : ¬ (compareEvents z y = false) := by simp [h]
        rw [compare_false_iff] at hn
        simp only
        rw [compare_false_iff] at hy ⊢
        omega
      · exact ih y z hz
    · have hx := ih x x (by simp)
      have h' : compareEvents x y = false := by simpa using h
      rcases List.mem_cons.mp hz with rfl | hz
      · exact hx
      · rcases List.mem_cons.mp hz with rfl | hz
        · simp only
          rw [compare_false_iff] at hx h' ⊢
          omega
        · exact ih x z (List.mem_cons_of_mem _ hz)

/-- A conforming priority queue. -/
def listQueue (P : Type) : PriorityQueue (IndexedEvent P) compareEvents where
  Carrier := List (IndexedEvent P)
  elems l := (l : Multiset _)
  empty := []
  push a l := a :: l
  top
    | [] => none
    | x :: xs => some (selectBest x xs).1
  pop
    | [] => none
    | x :: xs => some (selectBest x xs).2
  size l := l.length
  elems_empty := rfl
  elems_push _ _ := rfl
  top_none q := by cases q <;> simp
  top_best q a h := by
    cases q with
    | nil => simp at h
    | cons x xs =>
      simp only [Option.some.injEq] at h
      subst h
      refine ⟨?_, ?_⟩
      · have := (selectBest_perm xs x).mem_iff (a := (selectBest x xs).1)
        simpa using this
      · intro b hb
        exact selectBest_best xs x b (by simpa using hb)
  pop_top q a h := by
    cases q with
    | nil => simp at h
    | cons x xs =>
      simp only [Option.some.injEq] at h
      subst h
      refine ⟨_, rfl, ?_⟩
      exact (Multiset.coe_eq_coe.mpr (selectBest_perm xs x)).symm
  pop_none q := by cases q <;> simp
  size_eq q := rfl

end Verif.EventSchedule
