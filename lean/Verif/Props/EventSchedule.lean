import Verif.Proofs.EventSchedule2
import Mathlib.Data.Multiset.UnionInter
import Mathlib.Data.Multiset.MapFold
/-! # Properties C12 to C16: event schedules -/
namespace Verif.Props
open Verif.EventSchedule
open Verif.Spec.Schedule (run final accepted delivered drain reportedSize scheduleCalls StableByTime Event)

variable {P : Type}

/-- C12.  Over every history of calls, with every conforming priority queue and every counter limit, a client sees exactly what
the abstract stable sorted list shows: same top events, same sizes, same exceptions, undefined behaviour at the same call. -/
theorem c12_refines_stable_list (Q : PriorityQueue (IndexedEvent P) compareEvents) (N : Nat) (ops : List (Op P)) :
    run (step Q N) (init Q) ops = run (Spec.Schedule.step N) ⟨0, []⟩ ops :=
  run_refines Q N ops _ _ (rel_init Q)

/-- C12.  The comparator handed to the priority queue is a strict weak order, as the container requires. -/
theorem c12_comparator_strict_weak (a b c : IndexedEvent P) :
    compareEvents a a = false ∧ (compareEvents a b = true → compareEvents b c = true → compareEvents a c = true) ∧
    (compareEvents a b = false → compareEvents b c = false → compareEvents a c = false) := by
  refine ⟨?_, ?_, ?_⟩
  · rw [compare_false_iff]; omega
  · intro h1 h2
    have h1' : ¬ compareEvents a b = false := by simp [h1]
    have h2' : ¬ compareEvents b c = false := by simp [h2]
    by_contra h3
    have h3' : compareEvents a c = false := by simpa using h3
    rw [compare_false_iff] at h1' h2' h3'
    omega
  · simp only [compare_false_iff]; omega

example : run (step (listQueue String) 3) (init _)
      [.schedule 5 "a", .schedule 2 "b", .schedule 2 "c", .top, .pop, .top, .schedule 1 "d", .size, .pop, .pop, .top] =
    [.ok .unit, .ok .unit, .ok .unit, .ok (.event 2 "b"), .ok .unit, .ok (.event 2 "c"),
      .throw "Can't schedule in exhausted EventSchedule.", .ok (.count 2), .ok .unit, .ok .unit,
      .ub "top() of an empty priority_queue"] := by
  rw [c12_refines_stable_list]; rfl

/-- C13.  Accepted events are, as a collection, the events popped so far together with those a client would still pop, and
`size` is the difference of the two numbers. -/
theorem c13_conservation (Q : PriorityQueue (IndexedEvent P) compareEvents) (N : Nat) (ops : List (Op P)) :
    let s := final (step Q N) (init Q) ops
    (accepted (step Q N) (init Q) ops).Perm
      (delivered (step Q N) (init Q) ops ++ drain (step Q N) s (reportedSize (step Q N) s)) ∧
    reportedSize (step Q N) s + (delivered (step Q N) (init Q) ops).length = (accepted (step Q N) (init Q) ops).length := by
  intro s
  have r := final_refines Q N ops _ _ (rel_init Q)
  have h := spec_conserve N ops (⟨0, []⟩ : Spec.Schedule.State P)
  have e1 : reportedSize (step Q N) s = _ := reportedSize_refines Q N _ _ r
  have e2 : drain (step Q N) s (reportedSize (step Q N) s) =
      (final (Spec.Schedule.step N) (⟨0, []⟩ : Spec.Schedule.State P) ops).pending := by
    rw [e1]
    unfold drain
    rw [delivered_refines Q N _ _ _ r]
    exact spec_drain N _ _
  rw [e2, e1, accepted_refines Q N ops _ _ (rel_init Q), delivered_refines Q N ops _ _ (rel_init Q)]
  refine ⟨by simpa using h, ?_⟩
  have := h.length_eq
  simp only [List.nil_append, List.length_append] at this
  omega

example : accepted (step (listQueue String) 2) (init _) [.schedule 5 "a", .pop, .schedule 2 "b", .schedule 3 "c"] =
    [(5, "a"), (2, "b")] := by rfl

/-- C14.  Popping everything after scheduling a list of events yields the stable rearrangement of the list by time. -/
theorem c14_drain_stable (Q : PriorityQueue (IndexedEvent P) compareEvents) (N : Nat) (evs : List (Event P))
    (hN : evs.length ≤ N) :
    StableByTime evs
      (drain (step Q N) (final (step Q N) (init Q) (evs.map fun e => .schedule e.1 e.2)) evs.length) := by
  have r := final_refines Q N (evs.map fun e => .schedule e.1 e.2) _ _ (rel_init Q)
  have e : drain (step Q N) (final (step Q N) (init Q) (evs.map fun e => .schedule e.1 e.2)) evs.length =
      (final (Spec.Schedule.step N) (⟨0, []⟩ : Spec.Schedule.State P) (evs.map fun e => .schedule e.1 e.2)).pending := by
    unfold drain
    rw [delivered_refines Q N _ _ _ r]
    have hl := spec_schedule_all_length N evs (⟨0, []⟩ : Spec.Schedule.State P) (by simpa using hN)
    simp only [List.length_nil, Nat.zero_add] at hl
    rw [← hl]
    exact spec_drain N _ _
  rw [e]
  refine ⟨spec_sorted N _ _ (by simp), ?_⟩
  intro t
  have := spec_schedule_all N evs (⟨0, []⟩ : Spec.Schedule.State P) (by simpa using hN) (by simp) t
  simpa using this

/-- C14.  After any history whatsoever, what is left is delivered in time order. -/
theorem c14_drain_sorted (Q : PriorityQueue (IndexedEvent P) compareEvents) (N : Nat) (ops : List (Op P)) :
    (drain (step Q N) (final (step Q N) (init Q) ops)
      (reportedSize (step Q N) (final (step Q N) (init Q) ops))).Pairwise (fun a b => a.1 ≤ b.1) := by
  have r := final_refines Q N ops _ _ (rel_init Q)
  rw [reportedSize_refines Q N _ _ r]
  unfold drain
  rw [delivered_refines Q N _ _ _ r]
  have h : _ = _ := spec_drain N (final (Spec.Schedule.step N) (⟨0, []⟩ : Spec.Schedule.State P) ops).pending
    (final (Spec.Schedule.step N) (⟨0, []⟩ : Spec.Schedule.State P) ops).accepted
  unfold drain at h
  rw [h]
  exact spec_sorted N _ _ (by simp)

example : drain (step (listQueue String) 9) (final (step (listQueue String) 9) (init _)
      ([((5 : Int), "a"), (2, "b"), (5, "c"), (2, "d")].map fun e => .schedule e.1 e.2)) 4 =
    [(2, "b"), (2, "d"), (5, "a"), (5, "c")] := by rfl

/-- C15.  Whatever happened before, the next call of `schedule_event` succeeds exactly if fewer than `N` such calls were made;
otherwise it throws and changes nothing. -/
theorem c15_exhaustion (Q : PriorityQueue (IndexedEvent P) compareEvents) (N : Nat) (ops : List (Op P)) (t : Int) (p : P) :
    let s := final (step Q N) (init Q) ops
    (scheduleCalls ops < N → (step Q N s (.schedule t p)).2 = .ok .unit) ∧
    (N ≤ scheduleCalls ops → step Q N s (.schedule t p) = (s, .throw "Can't schedule in exhausted EventSchedule.")) := by
  intro s
  have r := final_refines Q N ops _ _ (rel_init Q)
  have hc := spec_count N ops (⟨0, []⟩ : Spec.Schedule.State P) (by simp)
  have hcnt : s.insertionCount = min N (scheduleCalls ops) := by
    have := r.count
    rw [hc] at this
    simpa using this
  constructor
  · intro h
    have : s.insertionCount < N := by omega
    simp [step, scheduleEvent, Outcome.reassert_true this]
  · intro h
    have : ¬ s.insertionCount < N := by omega
    simp [step, scheduleEvent, Outcome.reassert_false this]

/-- C15.  Sequence numbers of pending events never repeat, so ties are never decided wrongly. -/
theorem c15_sequence_numbers_distinct (Q : PriorityQueue (IndexedEvent P) compareEvents) (N : Nat) (ops : List (Op P)) :
    ((Q.elems (final (step Q N) (init Q) ops).queue).map (fun e => e.count)).Nodup ∧
    ∀ e ∈ Q.elems (final (step Q N) (init Q) ops).queue, e.count < N := by
  have r := final_refines Q N ops _ _ (rel_init Q)
  have hc := spec_count N ops (⟨0, []⟩ : Spec.Schedule.State P) (by simp)
  obtain ⟨hcnt, l, hl, hp, hlt, hnd, -⟩ := r
  rw [← hl]
  constructor
  · rw [Multiset.map_coe, Multiset.coe_nodup]
    exact hnd
  · intro e he
    have := hlt e (by simpa using he)
    omega

example : (step (listQueue String) 2 (final (step (listQueue String) 2) (init _)
      [.schedule 5 "a", .pop, .schedule 2 "b", .pop]) (.schedule 0 "x")).2 =
    .throw "Can't schedule in exhausted EventSchedule." := by rfl

/-- C16.  After any history, looking at or popping the schedule is undefined exactly when its size is zero; scheduling and
asking for the size never are. -/
theorem c16_ub_iff_empty (Q : PriorityQueue (IndexedEvent P) compareEvents) (N : Nat) (s : State Q) (t : Int) (p : P) :
    ((step Q N s .top).2.IsUB ↔ reportedSize (step Q N) s = 0) ∧
    ((step Q N s .pop).2.IsUB ↔ reportedSize (step Q N) s = 0) ∧
    ¬ (step Q N s (.schedule t p)).2.IsUB ∧ ¬ (step Q N s .size).2.IsUB := by
  have hz : reportedSize (step Q N) s = 0 ↔ Q.elems s.queue = 0 := by
    have : reportedSize (step Q N) s = (Q.elems s.queue).card := by
      simp [reportedSize, step, size, Q.size_eq]
    rw [this, Multiset.card_eq_zero]
  refine ⟨?_, ?_, ?_, ?_⟩
  · rw [hz, ← Q.top_none]
    simp only [step, topEvent]
    cases Q.top s.queue <;> simp
  · rw [hz, ← Q.pop_none]
    simp only [step, popEvent]
    cases Q.pop s.queue <;> simp
  · simp only [step, scheduleEvent]
    by_cases h : s.insertionCount < N
    · simp [Outcome.reassert_true h]
    · simp [Outcome.reassert_false h]
  · simp [step]

/-- C16.  A client that pops or looks only after seeing a positive size never meets undefined behaviour. -/
theorem c16_guarded_history_safe (Q : PriorityQueue (IndexedEvent P) compareEvents) (N : Nat) (ops : List (Op P))
    (guarded : ∀ pre op post, ops = pre ++ op :: post → (op = .top ∨ op = .pop) →
      0 < reportedSize (step Q N) (final (step Q N) (init Q) pre)) :
    ∀ o ∈ run (step Q N) (init Q) ops, ¬ o.IsUB := by
  have gen : ∀ (ops : List (Op P)) (s : State Q),
      (∀ pre op post, ops = pre ++ op :: post → (op = .top ∨ op = .pop) →
        0 < reportedSize (step Q N) (final (step Q N) s pre)) →
      ∀ o ∈ run (step Q N) s ops, ¬ o.IsUB := by
    intro ops
    induction ops with
    | nil => intro s _ o ho; simp [run] at ho
    | cons op ops ih =>
      intro s hg o ho
      have hnub : ¬ (step Q N s op).2.IsUB := by
        have c := c16_ub_iff_empty Q N s
        cases op with
        | schedule t p => exact (c t p).2.2.1
        | top =>
          have := hg [] .top ops rfl (Or.inl rfl)
          intro h
          cases e : Q.top s.queue with
          | none =>
            have h0 : reportedSize (step Q N) s = 0 := by
              simp [reportedSize, step, size, Q.size_eq, (Q.top_none _).mp e]
            simp only [final] at this
            omega
          | some v => simp [step, topEvent, e] at h
        | pop =>
          have := hg [] .pop ops rfl (Or.inr rfl)
          intro h
          cases e : Q.pop s.queue with
          | none =>
            have h0 : reportedSize (step Q N) s = 0 := by
              simp [reportedSize, step, size, Q.size_eq, (Q.pop_none _).mp e]
            simp only [final] at this
            omega
          | some v => simp [step, popEvent, e] at h
        | size => simp [step]
      have htail : ∀ o ∈ run (step Q N) (step Q N s op).1 ops, ¬ o.IsUB := by
        apply ih
        intro pre op' post he ho'
        exact hg (op :: pre) op' post (by simp [he]) ho'
      unfold run at ho
      cases hst : step Q N s op with
      | mk s' o' =>
        rw [hst] at ho hnub htail
        cases o' with
        | ub w => simp at hnub
        | ok v =>
          simp only [List.mem_cons] at ho
          rcases ho with rfl | ho
          · simp
          · exact htail o ho
        | throw m =>
          simp only [List.mem_cons] at ho
          rcases ho with rfl | ho
          · simp
          · exact htail o ho
  exact gen ops (init Q) guarded

example : reportedSize (step (listQueue String) 2) (final (step (listQueue String) 2) (init _) [.schedule 5 "a"]) = 1 := by rfl

end Verif.Props
