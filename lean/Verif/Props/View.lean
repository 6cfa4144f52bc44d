import Verif.Proofs.View
/-! # C59-C61, C71: View under threads, failures and client replacement

`run (init prog) sched` is the system after any schedule of any number of threads, each running its program; the statements are about its trace. -/
namespace Verif.Props
open Verif.View Verif.Spec.View
variable {α : Type}

/-! ## C59 -/

/-- Objects handed to the client, then those still waiting, are exactly the objects viewed, in the order they were viewed: nothing is lost, repeated,
reordered or invented.  Holds whatever the client replies. -/
theorem c59_exactly_once (prog : Nat → List (Op α)) (hp : ∀ t c, Op.setClient c ∉ prog t) (sched : List (Nat × Reply)) :
    sent (run (init prog) sched).log ++ (run (init prog) sched).prims = viewed (run (init prog) sched).log := by
  have hi := inv_run (inv_init prog) sched
  have hc := calm_run (calm_init False prog hp) sched (fun h => h.elim)
  rw [hi.ledger]
  exact sent_waiting _ hi.batches hc.noClear

/-- Every call of `flush`, and every call of `view`, returns normally, and everything viewed before it started has been delivered when it returns: the
sequence delivered starts with the sequence of objects viewed before. -/
theorem c59_flush_delivers (prog : Nat → List (Op α)) (hp : ∀ t c, Op.setClient c ∉ prog t) (sched : List (Nat × Reply))
    (hr : ∀ x ∈ sched, x.2 = .okay) (pre mid post : List (Event α)) (t : Nat) (op : Op α) (b : Bool)
    (hc : CallIn (run (init prog) sched).log pre t op mid b post) :
    b = true ∧ viewed pre <+: delivered (pre ++ .invoke t op :: mid) ∧ ∀ a, op = .view a → a ∈ delivered (pre ++ .invoke t op :: mid) := by
  have hi := inv_run (inv_init prog) sched
  have hm := calm_run (calm_init True prog hp) sched (fun _ => hr)
  have hn := hm.noClear
  have ho := hm.allOkay trivial
  rw [hc.1] at hn ho
  have hret : b = true := by
    cases b with
    | true => rfl
    | false => exact absurd (by rw [hc.1]; simp) (hm.returns trivial t)
  subst hret
  refine ⟨rfl, flush_delivers hi hc ?_ ?_ ?_⟩
  · rintro c rfl
    rcases call_cases (callIn hi hc) with ⟨_, _, h, _⟩ | ⟨_, _, _, _, h, _⟩ | ⟨_, h, _⟩ | ⟨_, h, _⟩ | ⟨_, _, _, h, _⟩ | ⟨h, _⟩ | ⟨c', -, hf, -⟩
    any_goals cases h
    obtain ⟨m1, m2, h1, -, -, -⟩ := List.filter_eq_cons_iff.mp hf
    exact hn t c' (by rw [h1]; simp)
  · intro u c hu
    refine hn u c ?_
    simp only [List.mem_append, List.mem_cons] at hu ⊢
    tauto
  · intro u c q hu
    refine ho u c q ?_
    simp only [List.mem_append, List.mem_cons] at hu ⊢
    tauto

/-- Each thread's objects are handed over in the order of its program, and when the thread is between calls all those of its completed calls have
been; `tag` tells whose object it is. -/
theorem c59_program_order (prog : Nat → List (Op α)) (hp : ∀ t c, Op.setClient c ∉ prog t) (tag : α → Nat) (ht : ∀ t, ∀ a ∈ objects (prog t), tag a = t)
    (sched : List (Nat × Reply)) (t : Nat) :
    (sent (run (init prog) sched).log).filter (fun a => tag a = t) <+: objects (prog t) := by
  have hi := inv_run (inv_init prog) sched
  have h1 := c59_exactly_once prog hp sched
  have h2 := viewed_tagged tag t (run (init prog) sched).log fun u a hm => ht u a (push_tag hi hm)
  refine List.IsPrefix.trans ?_ (traced_viewed (hi.traced t)).1
  rw [← h2, ← h1, List.filter_append]
  exact List.prefix_append _ _

/-- When every thread has finished, with a client that succeeds, each thread's objects have been delivered: exactly those of its program, each as often
as it was viewed, in program order. -/
theorem c59_all_finished (prog : Nat → List (Op α)) (hp : ∀ t c, Op.setClient c ∉ prog t) (tag : α → Nat) (ht : ∀ t, ∀ a ∈ objects (prog t), tag a = t)
    (sched : List (Nat × Reply)) (hr : ∀ x ∈ sched, x.2 = .okay)
    (hd : ∀ t, ((run (init prog) sched).threads t).pc = .idle ∧ ((run (init prog) sched).threads t).todo = []) (t : Nat) :
    (delivered (run (init prog) sched).log).filter (fun a => tag a = t) = objects (prog t) := by
  have hi := inv_run (inv_init prog) sched
  have hm := calm_run (calm_init True prog hp) sched (fun _ => hr)
  have h1 := c59_exactly_once prog hp sched
  have h2 := viewed_tagged tag t (run (init prog) sched).log fun u a hm => ht u a (push_tag hi hm)
  have h3 := (traced_viewed (hi.traced t)).2 (hd t).1
  rw [(hd t).2] at h3
  have h4 : objects (prog t) = viewed (ofThread t (run (init prog) sched).log) := by simpa [objects] using h3
  rw [delivered_eq_sent _ (hm.allOkay trivial), h4, ← h2, ← h1]
  -- nothing waits any more
  have h5 : (run (init prog) sched).prims = [] := nothing_waits hi (fun t => (hd t).1) (hm.returns trivial)
  rw [h5, List.append_nil]

/-- Two threads viewing, one of them also flushing. -/
def exProg : Nat → List (Op Nat)
  | 1 => [.view 10, .view 11]
  | 2 => [.flush, .view 20]
  | _ => []

/-- Thread 1 stores 10, thread 2 flushes it, both go on interleaved to the end. -/
def exSched : List (Nat × Reply) := [1, 1, 1, 1, 2, 2, 2, 2, 2, 2, 1, 2, 1, 2, 1, 2, 1, 2, 1, 1, 2, 2, 2, 2, 2, 2, 1, 1, 1, 1, 1, 1, 1, 1, 1, 2, 2, 1, 1, 1, 1, 1, 1, 1, 1].map (·, Reply.okay)

/-- The programs meet the hypotheses of the C59 theorems. -/
theorem exProg_plain : (∀ t c, Op.setClient c ∉ exProg t) ∧ ∀ t, ∀ a ∈ objects (exProg t), a / 10 = t := by
  constructor
  · intro t c
    match t with
    | 0 => simp [exProg]
    | 1 => simp [exProg]
    | 2 => simp [exProg]
    | n + 3 => simp [exProg]
  · intro t
    match t with
    | 0 => simp [exProg, objects]
    | 1 => simp [exProg, objects]
    | 2 => simp [exProg, objects]
    | n + 3 => simp [exProg, objects]

set_option maxRecDepth 20000 in
/-- The schedule is one where every thread finishes; the objects of thread 1 are sent in its order. -/
theorem exSched_done : sent (run (init exProg) exSched).log = [10, 20, 11] ∧ (∀ x ∈ exSched, x.2 = .okay) ∧
    ∀ t, ((run (init exProg) exSched).threads t).pc = .idle ∧ ((run (init exProg) exSched).threads t).todo = [] := by
  refine ⟨by decide, by decide, fun t => ?_⟩
  match t with
  | 0 => exact ⟨by decide, by decide⟩
  | 1 => exact ⟨by decide, by decide⟩
  | 2 => exact ⟨by decide, by decide⟩
  | n + 3 => exact empty_finished (inv_run (inv_init exProg) exSched) rfl

/-! ## C60 -/

/-- The property is false, across threads: thread 1 stores its object, thread 2's flush takes it and the client refuses it, thread 1's own flush then
sends an empty update, succeeds, and its `view` returns normally with the object never delivered. -/
theorem c60_false_threads : ∃ (prog : Nat → List (Op Nat)) (sched : List (Nat × Reply)) (pre mid post : List (Event Nat)),
    CallIn (run (init prog) sched).log pre 1 (.view 7) mid true post ∧ 7 ∉ delivered (run (init prog) sched).log := by
  refine ⟨fun t => if t = 1 then [.view 7] else if t = 2 then [.flush] else [],
    [(1, .okay), (1, .okay), (1, .okay), (1, .okay), (2, .okay), (2, .okay), (2, .okay), (2, .bad), (2, .okay),
      (1, .okay), (1, .okay), (1, .okay), (1, .okay), (1, .okay)],
    [], [.push 1 7, .invoke 2 .flush, .send 2 [7] .bad, .ret 2 false, .send 1 [] .okay], [], ⟨by decide, by simp⟩, by decide⟩

/-- It is false on one thread as well, if an object whose `view` threw counts as viewed: the failed update is not kept, and the next flush sends an empty
one and returns normally. -/
theorem c60_false_retry : ∃ (prog : Nat → List (Op Nat)) (sched : List (Nat × Reply)) (pre mid post : List (Event Nat)),
    (∀ x ∈ sched, x.1 = 1) ∧ CallIn (run (init prog) sched).log pre 1 .flush mid true post ∧ 7 ∈ viewed pre ∧
    7 ∉ delivered (run (init prog) sched).log := by
  refine ⟨fun t => if t = 1 then [.view 7, .flush] else [],
    [(1, .okay), (1, .okay), (1, .okay), (1, .okay), (1, .okay), (1, .okay), (1, .bad), (1, .okay),
      (1, .okay), (1, .okay), (1, .okay), (1, .okay), (1, .okay), (1, .okay)],
    [.invoke 1 (.view 7), .push 1 7, .send 1 [7] .bad, .ret 1 false], [.send 1 [] .okay], [], by decide, ⟨by decide, by simp⟩, by decide, by decide⟩

/-- The part that holds for every schedule and every pattern of failures: when `view` returns normally and the client was not replaced meanwhile, the
object was handed to the client during the call, by a send of this thread that succeeded or by a send of another thread.  What is missing from the full
property is that the other thread's send may have failed (`c60_false_threads`). -/
theorem c60_view_handed_over_partial (prog : Nat → List (Op α)) (sched : List (Nat × Reply)) (pre mid post : List (Event α)) (t : Nat) (a : α)
    (hc : CallIn (run (init prog) sched).log pre t (.view a) mid true post) (hn : NoClear mid) :
    ∃ u b r, Event.send u b r ∈ mid ∧ a ∈ b ∧ (u = t → r = .okay) := by
  have hi := inv_run (inv_init prog) sched
  obtain ⟨u, b, r, h1, h2⟩ := view_handed hi hc hn
  refine ⟨u, b, r, h1, h2, ?_⟩
  rintro rfl
  have hm : Event.send u b r ∈ ofThread u mid := List.mem_filter.mpr ⟨h1, by simp [tid]⟩
  rcases call_cases (callIn hi hc) with ⟨_, _, _, hf, _⟩ | ⟨_, _, _, _, _, _, h⟩ | ⟨_, _, _, h⟩ | ⟨_, _, hf, _⟩ | ⟨_, _, _, _, _, h⟩ | ⟨_, _, h⟩ | ⟨_, h, _⟩
  · rw [hf] at hm; simp at hm; exact hm.2
  · cases h
  · cases h
  · rw [hf] at hm; simp at hm; exact hm.2
  · cases h
  · cases h
  · cases h

/-- So if every send that happened during the call succeeded, the object is delivered. -/
theorem c60_view_delivered_partial (prog : Nat → List (Op α)) (sched : List (Nat × Reply)) (pre mid post : List (Event α)) (t : Nat) (a : α)
    (hc : CallIn (run (init prog) sched).log pre t (.view a) mid true post) (hn : NoClear mid) (ho : AllOkay mid) : a ∈ delivered mid := by
  obtain ⟨u, b, r, h1, h2, -⟩ := c60_view_handed_over_partial prog sched pre mid post t a hc hn
  have := ho u b r h1
  subst this
  unfold delivered
  rw [List.mem_flatMap]
  exact ⟨_, h1, h2⟩

/-- And a single thread, whatever the failures: when `view` returns normally the object has been delivered. -/
theorem c60_single_thread_partial (prog : Nat → List (Op α)) (t : Nat) (sched : List (Nat × Reply)) (ht : ∀ u, u ≠ t → prog u = [])
    (pre mid post : List (Event α)) (a : α) (hc : CallIn (run (init prog) sched).log pre t (.view a) mid true post) : a ∈ delivered mid := by
  have hi := inv_run (inv_init prog) sched
  -- every event is of this thread
  have hown : ∀ e ∈ mid, tid e = t := by
    intro e he
    by_contra hne
    obtain ⟨done, cur, tail, h1, h2, h3, h4⟩ := hi.traced (tid e)
    rw [ht _ hne] at h4
    have h5 := h4.symm
    simp only [List.append_eq_nil_iff, List.map_eq_nil_iff] at h5
    obtain ⟨⟨rfl, rfl⟩, -⟩ := h5
    have : e ∈ ofThread (tid e) (run (init prog) sched).log := List.mem_filter.mpr ⟨by rw [hc.1]; simp [he], by simp⟩
    rw [h1] at this
    generalize ((run (init prog) sched).threads (tid e)).pc = pc at h3
    cases h3
    simp at this
  have hmid : ofThread t mid = mid := by
    unfold ofThread
    rw [List.filter_eq_self]
    intro e he
    simpa using hown e he
  rcases call_cases (callIn hi hc) with ⟨_, _, _, hf, _⟩ | ⟨_, _, _, _, _, _, h⟩ | ⟨_, _, _, h⟩ | ⟨_, h, _⟩ | ⟨_, _, _, h, _⟩ | ⟨h, _⟩ | ⟨_, h, _⟩
  · rw [hmid] at hf
    exact c60_view_delivered_partial prog sched pre mid post t a hc (by rw [hf]; simp [NoClear]) (by
      rw [hf]; intro u c r hm; simp at hm; exact hm.2.2)
  · cases h
  · cases h
  · cases h
  · cases h
  · cases h
  · cases h

/-- And any threads, as long as no send has failed and the client has not been replaced yet: when `view` or `flush` returns normally everything viewed
before the call started has been delivered. -/
theorem c60_no_failure_partial (prog : Nat → List (Op α)) (sched : List (Nat × Reply)) (pre mid post : List (Event α)) (t : Nat) (op : Op α)
    (hc : CallIn (run (init prog) sched).log pre t op mid true post) (hop : ∀ c, op ≠ .setClient c) (hn : NoClear (pre ++ mid))
    (ho : AllOkay (pre ++ mid)) : viewed pre <+: delivered (pre ++ .invoke t op :: mid) :=
  (flush_delivers (inv_run (inv_init prog) sched) hc hop hn ho).1

set_option maxRecDepth 20000 in
/-- A call in a trace with another thread's send inside, as the theorems above and below require. -/
theorem exCall : ∃ pre mid post, CallIn (run (init exProg) exSched).log pre 1 (.view 10) mid true post ∧ NoClear mid ∧ AllOkay (pre ++ mid) ∧
    Event.send 2 [10] .okay ∈ mid := by
  refine ⟨[], [.push 1 10, .invoke 2 .flush, .send 2 [10] .okay, .ret 2 true, .invoke 2 (.view 20), .send 1 [] .okay],
    (run (init exProg) exSched).log.drop 8, ⟨by decide, by simp⟩, ?_, ?_, by simp⟩
  · intro t c; simp
  · intro t b r h; simp at h; rcases h with h | h <;> simp [h]

/-! ## C61 -/

/-- A call that called the client returns normally exactly if the client replied OKAY; otherwise it throws. -/
theorem c61_reports (prog : Nat → List (Op α)) (sched : List (Nat × Reply)) (pre mid post : List (Event α)) (t : Nat) (op : Op α) (b : Bool)
    (hc : CallIn (run (init prog) sched).log pre t op mid b post) (bt : List α) (r : Reply) (hs : Event.send t bt r ∈ mid) : b = true ↔ r = .okay := by
  have hi := inv_run (inv_init prog) sched
  have hm : Event.send t bt r ∈ ofThread t mid := List.mem_filter.mpr ⟨hs, by simp [tid]⟩
  rcases call_cases (callIn hi hc) with ⟨_, _, _, hf, h⟩ | ⟨_, _, _, hr, _, hf, h⟩ | ⟨_, _, hf, h⟩ | ⟨_, _, hf, h⟩ | ⟨_, _, hr, _, hf, h⟩ | ⟨_, hf, h⟩ |
    ⟨_, _, hf, h⟩ <;> rw [hf] at hm <;> simp at hm <;> simp_all

/-- A call of `view` or `flush` that did not call the client throws. -/
theorem c61_silent_throws (prog : Nat → List (Op α)) (sched : List (Nat × Reply)) (pre mid post : List (Event α)) (t : Nat) (op : Op α) (b : Bool)
    (hc : CallIn (run (init prog) sched).log pre t op mid b post) (hop : ∀ c, op ≠ .setClient c) (hs : ∀ bt r, Event.send t bt r ∉ mid) : b = false := by
  cases b with
  | false => rfl
  | true =>
    obtain ⟨m1, bt, m2, h, -⟩ := sends_in (inv_run (inv_init prog) sched) hc hop
    exact absurd (by rw [h]; simp) (hs bt .okay)

/-- In every history, with replaced clients and any failures, the objects handed to the client and those waiting are among the objects viewed, in order
and each at most as often as it was viewed.  So an object viewed once is sent at most once, and never again after it was sent. -/
theorem c61_no_duplicates (prog : Nat → List (Op α)) (sched : List (Nat × Reply)) :
    (sent (run (init prog) sched).log ++ (run (init prog) sched).prims).Sublist (viewed (run (init prog) sched).log) := by
  have hi := inv_run (inv_init prog) sched
  rw [hi.ledger]
  exact sent_waiting_sublist _ hi.batches

theorem c61_sent_once (prog : Nat → List (Op α)) (sched : List (Nat × Reply)) (h : (viewed (run (init prog) sched).log).Nodup) :
    (sent (run (init prog) sched).log ++ (run (init prog) sched).prims).Nodup := h.sublist (c61_no_duplicates prog sched)

/-- With no client set, a call of `view` or `flush` throws, nobody sends anything, and what was waiting still waits, followed by what was viewed
meanwhile. -/
theorem c61_no_client (prog : Nat → List (Op α)) (sched : List (Nat × Reply)) (pre mid : List (Event α)) (t : Nat) (op : Op α) (b : Bool)
    (hc : CallIn (run (init prog) sched).log pre t op mid b []) (hop : ∀ c, op ≠ .setClient c) (hn : NoClear mid) (hno : hasClient pre = false) :
    b = false ∧ (∀ u bt r, Event.send u bt r ∉ mid) ∧ (run (init prog) sched).prims = waiting pre ++ viewed mid := by
  have hi := inv_run (inv_init prog) sched
  have hcl := invClient_run (inv_init prog) (invClient_init prog) sched
  have hs : ∀ u bt r, Event.send u bt r ∉ mid := by
    intro u bt r hm
    obtain ⟨m1, m2, h⟩ := List.append_of_mem hm
    have := hcl.sends (pre ++ .invoke t op :: m1) u bt r (m2 ++ [.ret t b]) (by rw [hc.1, h]; simp)
    rw [hasClient_append _ _ (fun v c hv => ?_), hno] at this
    · cases this
    · rcases List.mem_cons.mp hv with hv | hv
      · cases hv
      · exact hn v c (by rw [h]; exact List.mem_append_left _ hv)
  refine ⟨c61_silent_throws prog sched pre mid [] t op b hc hop (hs t), hs, ?_⟩
  rw [hi.ledger, hc.1]
  rw [waiting_grows pre (Event.invoke t op :: (mid ++ [Event.ret t b]))]
  · simp [viewed]
  · intro u c hm
    simp at hm
    exact hn u c hm
  · intro u bt r hm
    simp at hm
    exact hs u bt r hm

/-- One thread: the client is removed, `view 7` throws and keeps its object, then a client is set, which drops it. -/
def exNoClient : Sys Nat := run (init fun t => if t = 1 then [.setClient false, .view 7, .view 8, .setClient true] else [])
  ((List.replicate 18 1).map (·, Reply.okay))

/-- The hypotheses of `c61_no_client` are met with something waiting. -/
theorem exNoClient_call : ∃ pre mid b, CallIn exNoClient.log pre 1 (.view 8) mid b [] ∧ NoClear mid ∧ hasClient pre = false ∧ waiting pre = [7] ∧
    exNoClient.prims = [7, 8] := by
  refine ⟨[.invoke 1 (.setClient false), .cleared 1 false, .ret 1 true, .invoke 1 (.view 7), .push 1 7, .ret 1 false], [.push 1 8], false,
    ⟨by decide, by simp⟩, by simp [NoClear], by decide, by decide, by decide⟩

/-! ## C71 -/

/-- No deadlock: in every reachable state, if some thread has not finished then some unfinished thread can take a step, whatever the client replies.  In
particular the mutex is released on the way out by exception. -/
theorem c71_no_deadlock (prog : Nat → List (Op α)) (sched : List (Nat × Reply)) (t : Nat) (ht : ¬((run (init prog) sched).threads t).finished) (r : Reply) :
    ∃ u, (step (run (init prog) sched) u r).isSome ∧ ¬((run (init prog) sched).threads u).finished :=
  progress (inv_run (inv_init prog) sched) ht r

/-- No livelock: a thread takes at most nine steps per call of its program, in every schedule. -/
theorem c71_bounded (prog : Nat → List (Op α)) (sched : List (Nat × Reply)) (h : Effective (init prog) sched) (t : Nat) :
    (sched.filter fun x => x.1 = t).length ≤ 9 * (prog t).length := by
  have := effective_cost _ sched h t
  have e : ((init prog).threads t).cost = 9 * (prog t).length := by simp [init, Thread.cost, Pc.cost]
  omega

/-- Every reachable state of finitely many threads can be completed, even if the client fails every time from now on, and then every call has returned. -/
theorem c71_completes (prog : Nat → List (Op α)) (n : Nat) (hn : ∀ t, n ≤ t → prog t = []) (sched : List (Nat × Reply)) (r : Reply) :
    ∃ more : List (Nat × Reply), (∀ x ∈ more, x.2 = r) ∧ ∀ t, ((run (init prog) (sched ++ more)).threads t).finished ∧
      ((ofThread t (run (init prog) (sched ++ more)).log).filter fun e => match e with
        | .ret _ _ => true
        | _ => false).length = (prog t).length := by
  have hi := inv_run (inv_init prog) sched
  obtain ⟨more, h1, h2, h3⟩ := finishes n r _ _ hi (fun t ht => empty_finished hi (hn t ht)) (le_refl _)
  refine ⟨more, h1, fun t => ?_⟩
  rw [run_append]
  exact ⟨h3 t, finished_returns ((inv_run hi more).traced t) (h3 t)⟩

/-- The schedule of the example, but for its last choice, is one in which every choice steps or waits; thread 2 is blocked at the start of it, while thread
1 is in its critical section. -/
example : (step (run (init exProg) [(1, .okay), (1, .okay), (2, .okay)]) 2 .okay).isSome = false ∧
    ¬((run (init exProg) [(1, .okay), (1, .okay), (2, .okay)]).threads 2).finished ∧
    Effective (init exProg) [(1, .okay), (1, .okay), (2, .okay), (1, .okay)] := by
  refine ⟨by decide, fun h => absurd h.1 (by decide), ?_⟩
  exact ⟨_, rfl, _, rfl, _, rfl, _, rfl, trivial⟩

/-! ## Instances of the theorems above -/

/-- C59 for two threads: everything viewed is sent, every call that returned has delivered what was viewed before, and each thread's objects arrive in its
program's order. -/
example : viewed (run (init exProg) exSched).log = [10, 20, 11] ++ (run (init exProg) exSched).prims ∧
    (delivered (run (init exProg) exSched).log).filter (fun a => a / 10 = 1) = [10, 11] ∧
    ((sent (run (init exProg) exSched).log).filter fun a => a / 10 = 1) <+: [10, 11] := by
  refine ⟨?_, ?_, ?_⟩
  · rw [← exSched_done.1]
    exact (c59_exactly_once exProg exProg_plain.1 exSched).symm
  · exact c59_all_finished exProg exProg_plain.1 (· / 10) exProg_plain.2 exSched exSched_done.2.1 exSched_done.2.2 1
  · exact c59_program_order exProg exProg_plain.1 (· / 10) exProg_plain.2 exSched 1

/-- C59 and C60 for the first call of `view`, during which the other thread sent the object. -/
example : ∃ pre mid post, CallIn (run (init exProg) exSched).log pre 1 (.view 10) mid true post ∧ 10 ∈ delivered (pre ++ .invoke 1 (.view 10) :: mid) ∧
    (∃ u b r, Event.send u b r ∈ mid ∧ 10 ∈ b ∧ (u = 1 → r = .okay)) ∧ 10 ∈ delivered mid ∧
    viewed pre <+: delivered (pre ++ .invoke 1 (.view 10) :: mid) := by
  obtain ⟨pre, mid, post, hc, hn, ho, -⟩ := exCall
  refine ⟨pre, mid, post, hc, (c59_flush_delivers exProg exProg_plain.1 exSched exSched_done.2.1 pre mid post 1 _ true hc).2.2 10 rfl,
    c60_view_handed_over_partial exProg exSched pre mid post 1 10 hc hn,
    c60_view_delivered_partial exProg exSched pre mid post 1 10 hc hn (fun t b r h => ho t b r (List.mem_append_right _ h)),
    (c59_flush_delivers exProg exProg_plain.1 exSched exSched_done.2.1 pre mid post 1 _ true hc).2.1⟩

/-- One thread views an object, the client fails, and the object viewed next is delivered. -/
def exRetry : List (Nat × Reply) := [(1, .okay), (1, .okay), (1, .okay), (1, .okay), (1, .okay), (1, .okay), (1, .bad), (1, .okay), (1, .okay), (1, .okay),
  (1, .okay), (1, .okay), (1, .okay), (1, .okay), (1, .okay), (1, .okay), (1, .okay), (1, .okay)]

/-- C60 and C61 on it: the second call returns normally and its object is delivered, the first throws because the client refused. -/
example : ∃ pre mid post, CallIn (run (init fun t => if t = 1 then [.view 7, .view 8] else []) exRetry).log pre 1 (.view 8) mid true post ∧ 8 ∈ delivered mid ∧
    (∀ b r, Event.send 1 b r ∈ mid → r = .okay) := by
  have hc : CallIn (run (init fun t => if t = 1 then [.view 7, .view 8] else []) exRetry).log [.invoke 1 (.view 7), .push 1 7, .send 1 [7] .bad, .ret 1 false] 1
      (.view 8) [.push 1 8, .send 1 [8] .okay] true [] := ⟨by decide, by simp⟩
  exact ⟨_, _, _, hc, c60_single_thread_partial _ 1 exRetry (fun u hu => by simp [hu]) _ _ _ 8 hc,
    fun b r h => (c61_reports _ exRetry _ _ _ 1 _ true hc b r h).mp rfl⟩

/-- C60 when nothing failed, for the last call of the two threads' run: the object viewed before it was delivered first. -/
example : ∃ pre mid post, viewed pre = [10] ∧ CallIn (run (init exProg) exSched).log pre 1 (.view 11) mid true post ∧
    viewed pre <+: delivered (pre ++ .invoke 1 (.view 11) :: mid) := by
  have hc : CallIn (run (init exProg) exSched).log [.invoke 1 (.view 10), .push 1 10, .invoke 2 .flush, .send 2 [10] .okay, .ret 2 true,
      .invoke 2 (.view 20), .send 1 [] .okay, .ret 1 true] 1 (.view 11) [.push 2 20, .send 2 [20] .okay, .ret 2 true, .push 1 11, .send 1 [11] .okay] true [] :=
    ⟨by decide +kernel, by simp⟩
  refine ⟨_, _, _, by decide, hc, c60_no_failure_partial exProg exSched _ _ _ 1 _ hc (by simp) ?_ ?_⟩
  · intro t c; simp
  · intro t b r h; simp at h; rcases h with h | h | h | h <;> simp [h]

/-- C61 without a client: the call did not send, throws, and its object waits behind the one viewed before. -/
example : ∃ pre mid b, CallIn exNoClient.log pre 1 (.view 8) mid b [] ∧ b = false ∧ (∀ u bt r, Event.send u bt r ∉ mid) ∧
    exNoClient.prims = waiting pre ++ viewed mid := by
  obtain ⟨pre, mid, b, hc, hn, hh, -, -⟩ := exNoClient_call
  have h := c61_no_client _ _ pre mid 1 (.view 8) b hc (by simp) hn hh
  have := c61_silent_throws _ _ pre mid [] 1 (.view 8) b hc (by simp) (h.2.1 1)
  exact ⟨pre, mid, b, hc, this, h.2⟩

/-- C61: with distinct objects nothing is sent twice. -/
example : (sent (run (init exProg) exSched).log ++ (run (init exProg) exSched).prims).Nodup :=
  c61_sent_once exProg exSched (by decide +kernel)

/-- C61 with a failure: the sent and the waiting objects are among the viewed ones. -/
example : (sent (run (init fun t => if t = 1 then [Op.view 7, .view 8] else []) exRetry).log).Sublist
    (viewed (run (init fun t => if t = 1 then [Op.view 7, .view 8] else []) exRetry).log) :=
  (List.sublist_append_left _ _).trans (c61_no_duplicates _ exRetry)

/-- C71: the second thread waits for the mutex, so another one can go on; and it took at most nine steps per call. -/
example : (∃ u, (step (run (init exProg) [(1, .okay), (1, .okay), (2, .okay)]) u .bad).isSome ∧
      ¬((run (init exProg) [(1, .okay), (1, .okay), (2, .okay)]).threads u).finished) ∧
    ([(1, Reply.okay), (1, .okay), (2, .okay), (1, .okay)].filter fun x => x.1 = 1).length ≤ 18 :=
  ⟨c71_no_deadlock exProg _ 2 (fun h => absurd h.1 (by decide)) .bad,
    c71_bounded exProg [(1, .okay), (1, .okay), (2, .okay), (1, .okay)] ⟨_, rfl, _, rfl, _, rfl, _, rfl, trivial⟩ 1⟩

end Verif.Props
