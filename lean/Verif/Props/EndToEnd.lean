import Verif.Proofs.EndToEnd
import Verif.Props.View
import Verif.Props.ViewClient
import Verif.Props.Proto
/-! # C72, C73: from `view` to the server

`run packBody (init base prog) sched` is the system of View and its own client after any schedule of any number of threads, with any behaviour of the server.
Bodies are messages: their wire format is protobuf's. -/
namespace Verif.Props
open Verif.EndToEnd Verif.Spec.EndToEnd Verif.Spec.View Verif.Proto

/-- Packing as the client does it, resim/visualization/client/view_client.cc:73-75. -/
noncomputable def packBody (u : List ViewPrimitive) : Outcome UpdateMsg := packUpdate u (some {})

/-- The updates acknowledged unpack to what was delivered, up to `R`, if batches of objects with `P` come back up to `R`. -/
theorem acks_decode (P : ViewPrimitive → Prop) (R : List ViewPrimitive → List ViewPrimitive → Prop)
    (hR : ∀ u, (∀ p ∈ u, P p) → ∃ v, (packUpdate u (some {}) >>= unpackUpdate) = .ok v ∧ R u v)
    (base : String) (prog : Nat → List (EndToEnd.Call ViewPrimitive)) (hv : ∀ t, ∀ p ∈ views (prog t), P p)
    (sched : List (Nat × ViewClient.Exchange × ViewClient.Exchange)) :
    ∃ batches decoded : List (List ViewPrimitive),
      (acks (run packBody (init base prog) sched).http).map (fun a => unpackUpdate a.2) = decoded.map Outcome.ok ∧
      List.Forall₂ R batches decoded ∧ batches.flatten = delivered (run packBody (init base prog) sched).view.log := by
  have hi := netInv_run (netInv_init packBody base prog) sched
  obtain ⟨batches, h1, h2⟩ := acked_delivered hi
  obtain ⟨⟨vs, h3⟩, -⟩ := hi
  have hgood : ∀ b ∈ batches, ∀ p ∈ b, P p := by
    intro b hb p hp
    have hm : p ∈ delivered (run packBody (init base prog) sched).view.log := by rw [← h2]; exact List.mem_flatten.mpr ⟨b, hb, hp⟩
    rw [h3] at hm
    have := ((delivered_sublist_sent _).trans ((List.sublist_append_left _ _).trans (c61_no_duplicates _ vs))).subset hm
    obtain ⟨t, ht⟩ := prims_mem vs (Or.inr this)
    exact hv t p ht
  suffices h : ∃ decoded : List (List ViewPrimitive), (acks (run packBody (init base prog) sched).http).map (fun a => unpackUpdate a.2) = decoded.map Outcome.ok ∧
      List.Forall₂ R batches decoded by
    obtain ⟨decoded, h4, h5⟩ := h
    exact ⟨batches, decoded, h4, h5, h2⟩
  clear h2
  generalize acks (run packBody (init base prog) sched).http = as at h1
  induction batches generalizing as with
  | nil =>
    cases as with
    | nil => exact ⟨[], rfl, .nil⟩
    | cons a as => simp at h1
  | cons b bs ih =>
    cases as with
    | nil => simp at h1
    | cons a as =>
      simp only [List.map_cons, List.cons.injEq] at h1
      obtain ⟨decoded, h4, h5⟩ := ih (fun b hb => hgood b (List.mem_cons_of_mem _ hb)) as h1.2
      obtain ⟨v, h6, h7⟩ := hR b (hgood b List.mem_cons_self)
      have h0 : packUpdate b (some {}) = .ok a.2 := h1.1
      rw [h0] at h6
      refine ⟨v :: decoded, ?_, .cons h7 h5⟩
      rw [List.map_cons, List.map_cons, h4]
      congr 1

/-- Exactly, for objects that come back exactly. -/
theorem acks_decode_exact (base : String) (prog : Nat → List (EndToEnd.Call ViewPrimitive)) (hv : ∀ t, ∀ p ∈ views (prog t), Exact p.payload ∧ p.name ≠ some "")
    (sched : List (Nat × ViewClient.Exchange × ViewClient.Exchange)) :
    ∃ decoded : List (List ViewPrimitive),
      (acks (run packBody (init base prog) sched).http).map (fun a => unpackUpdate a.2) = decoded.map Outcome.ok ∧
      decoded.flatten = delivered (run packBody (init base prog) sched).view.log := by
  obtain ⟨batches, decoded, h1, h2, h3⟩ := acks_decode (fun p => Exact p.payload ∧ p.name ≠ some "") Eq (fun u hu => ⟨u, c58_round_trip_partial u hu {}, rfl⟩)
    base prog hv sched
  rw [List.forall₂_eq_eq_eq] at h2
  subst h2
  exact ⟨batches, h1, h3⟩

/-- What the threads view can be packed. -/
theorem packable (prog : Nat → List (EndToEnd.Call ViewPrimitive)) (hv : ∀ t, ∀ p ∈ views (prog t), Valid p.payload)
    (u : List ViewPrimitive) (hu : ∀ a ∈ u, ∃ t, a ∈ views (prog t)) : ∃ body, packBody u = .ok body := by
  obtain ⟨v, h, -⟩ := c58_near u (fun p hp => let ⟨t, h⟩ := hu p hp; hv t p h) {}
  obtain ⟨body, h, -⟩ := bind_ok h
  exact ⟨body, h⟩

/-! ## C72 -/

/-- The updates acknowledged by the server unpack to batches of objects that were viewed: in the order viewed, and each at most as often as it was viewed; those of
one thread in the order of its calls.  Whatever the schedule, the server and the credentials do.  The unpacked objects equal those viewed up to what C58 allows: an
empty name is lost, and translations may change by rounding. -/
theorem c72_acknowledged (base : String) (prog : Nat → List (EndToEnd.Call ViewPrimitive)) (hv : ∀ t, ∀ p ∈ views (prog t), Valid p.payload)
    (sched : List (Nat × ViewClient.Exchange × ViewClient.Exchange)) :
    ∃ batches decoded : List (List ViewPrimitive),
      (acks (run packBody (init base prog) sched).http).map (fun a => unpackUpdate a.2) = decoded.map Outcome.ok ∧
      List.Forall₂ (List.Forall₂ NearPrimitive) batches decoded ∧
      batches.flatten.Sublist (viewed (run packBody (init base prog) sched).view.log) ∧
      ∀ tag : ViewPrimitive → Nat, (∀ t, ∀ p ∈ views (prog t), tag p = t) → ∀ t, (batches.flatten.filter fun p => tag p = t).Sublist (views (prog t)) := by
  obtain ⟨batches, decoded, h1, h4, h2⟩ := acks_decode (fun p => Valid p.payload) _ (fun u hu => c58_near u hu {}) base prog hv sched
  obtain ⟨⟨vs, h3⟩, -⟩ := netInv_run (netInv_init packBody base prog) sched
  have hvi := View.inv_run (View.inv_init fun t => (prog t).map Call.op) vs
  have hsub : batches.flatten.Sublist (viewed (run packBody (init base prog) sched).view.log) := by
    rw [h2, h3]
    exact (delivered_sublist_sent _).trans ((List.sublist_append_left _ _).trans (c61_no_duplicates _ vs))
  refine ⟨batches, decoded, h1, h4, hsub, fun tag ht t => (hsub.filter _).trans ?_⟩
  rw [h3, View.viewed_tagged tag t _ fun u a hm => ht u a (by rw [← objects_op]; exact View.push_tag hvi hm), ← objects_op]
  exact (View.traced_viewed (hvi.traced t)).1.sublist

/-- For objects that come back exactly, the unpacked objects themselves are among those viewed. -/
theorem c72_acknowledged_exact (base : String) (prog : Nat → List (EndToEnd.Call ViewPrimitive))
    (hv : ∀ t, ∀ p ∈ views (prog t), Exact p.payload ∧ p.name ≠ some "") (sched : List (Nat × ViewClient.Exchange × ViewClient.Exchange)) :
    ∃ decoded : List (List ViewPrimitive),
      (acks (run packBody (init base prog) sched).http).map (fun a => unpackUpdate a.2) = decoded.map Outcome.ok ∧
      decoded.flatten.Sublist (viewed (run packBody (init base prog) sched).view.log) := by
  obtain ⟨decoded, h1, h2⟩ := acks_decode_exact base prog hv sched
  obtain ⟨⟨vs, h3⟩, -⟩ := netInv_run (netInv_init packBody base prog) sched
  refine ⟨decoded, h1, ?_⟩
  rw [h2, h3]
  exact (delivered_sublist_sent _).trans ((List.sublist_append_left _ _).trans (c61_no_duplicates _ vs))

/-- No two updates are acknowledged at the same address. -/
theorem c72_addresses (base : String) (prog : Nat → List (EndToEnd.Call ViewPrimitive)) (sched : List (Nat × ViewClient.Exchange × ViewClient.Exchange))
    (hl : sched.length < 2 ^ 64) : ((acks (run packBody (init base prog) sched).http).map (·.1)).Nodup := by
  obtain ⟨-, h, -, h1, -⟩ := netInv_run (netInv_init packBody base prog) sched
  have hlen : h.length ≤ sched.length := by
    have := http_length packBody sched (init base prog)
    rw [h1] at this
    simpa [run_length, init] using this
  rw [h1]
  exact acks_nodup packBody h _ (c63_increasing packBody base h (by omega))

/-! ## C73 -/

/-- On one thread: when `view a` returns normally, the server has acknowledged an update that unpacks to objects with `a` among them, up to what C58 allows.
What is missing is several threads with failures, where it is false (`c60_false_threads`). -/
theorem c73_view_acknowledged_partial (base : String) (prog : Nat → List (EndToEnd.Call ViewPrimitive)) (hv : ∀ t, ∀ p ∈ views (prog t), Valid p.payload)
    (sched : List (Nat × ViewClient.Exchange × ViewClient.Exchange)) (t : Nat) (ht : ∀ u, u ≠ t → prog u = []) (a : ViewPrimitive)
    (pre mid : List (View.Event ViewPrimitive)) (hc : CallIn (run packBody (init base prog) sched).view.log pre t (.view a) mid true []) :
    ∃ url body batch, (url, body) ∈ acks (run packBody (init base prog) sched).http ∧ unpackUpdate body = .ok batch ∧ ∃ b ∈ batch, NearPrimitive a b := by
  obtain ⟨batches, decoded, h1, hf, h2⟩ := acks_decode (fun p => Valid p.payload) _ (fun u hu => c58_near u hu {}) base prog hv sched
  obtain ⟨⟨vs, h3⟩, -⟩ := netInv_run (netInv_init packBody base prog) sched
  have hm : a ∈ batches.flatten := by
    rw [h2, hc.1, View.delivered_append]
    refine List.mem_append_right _ ?_
    have := c60_single_thread_partial (fun t => (prog t).map Call.op) t vs (fun u hu => by rw [ht u hu]; rfl) pre mid [] a (by rwa [← h3])
    unfold delivered at this ⊢
    simp only [List.flatMap_cons, List.flatMap_append]
    exact List.mem_append_right _ (List.mem_append_left _ this)
  obtain ⟨batch, hb, hab⟩ := List.mem_flatten.mp hm
  obtain ⟨out, ho, hr⟩ := forall₂_mem hf hb
  obtain ⟨b, hb, hn⟩ := forall₂_mem hr hab
  have : Outcome.ok out ∈ (acks (run packBody (init base prog) sched).http).map (fun a => unpackUpdate a.2) := by
    rw [h1]; exact List.mem_map_of_mem ho
  obtain ⟨⟨url, body⟩, h4, h5⟩ := List.mem_map.mp this
  exact ⟨url, body, out, h4, h5, b, hb, hn⟩

/-- With a working server (every request is answered 201, perhaps after a 401 and a refresh), any number of threads: when all have finished, the updates acknowledged
unpack to exactly the objects viewed, up to what C58 allows; those of each thread are there as often as it viewed them and in its order. -/
theorem c73_all_acknowledged (base : String) (hb : base ≠ "") (prog : Nat → List (EndToEnd.Call ViewPrimitive))
    (hv : ∀ t, ∀ p ∈ views (prog t), Valid p.payload) (tag : ViewPrimitive → Nat) (ht : ∀ t, ∀ p ∈ views (prog t), tag p = t)
    (sched : List (Nat × ViewClient.Exchange × ViewClient.Exchange)) (ha : ∀ e ∈ sched, Answered e.2.1 ∧ Answered e.2.2)
    (hd : ∀ t, ((run packBody (init base prog) sched).view.threads t).pc = .idle ∧ ((run packBody (init base prog) sched).view.threads t).todo = []) :
    ∃ batches decoded : List (List ViewPrimitive),
      (acks (run packBody (init base prog) sched).http).map (fun a => unpackUpdate a.2) = decoded.map Outcome.ok ∧
      List.Forall₂ (List.Forall₂ NearPrimitive) batches decoded ∧
      ∀ t, (batches.flatten.filter fun p => tag p = t) = views (prog t) := by
  obtain ⟨batches, decoded, h1, hf, h2⟩ := acks_decode (fun p => Valid p.payload) _ (fun u hu => c58_near u hu {}) base prog hv sched
  have h3 := answered_run hb (packable prog hv) sched (init base prog) ha (netInv_init packBody base prog)
  refine ⟨batches, decoded, h1, hf, fun t => ?_⟩
  rw [h2, h3, ← objects_op]
  rw [h3] at hd
  exact c59_all_finished (fun t => (prog t).map Call.op) (no_setClient prog) tag (fun t a h => ht t a (by rwa [objects_op] at h)) _
    (by rintro _ h; obtain ⟨_, -, rfl⟩ := List.mem_map.mp h; rfl) hd t

/-! ## Examples -/

/-- Two frames to view. -/
def exObj (n : Nat) : ViewPrimitive := ⟨Uuid.null, .frame (exFrame (Fin.ofNat 256 n)), some "frame", "a.cc", n⟩

/-- Thread 1 views two objects, thread 2 flushes and views another. -/
def exCalls : Nat → List (EndToEnd.Call ViewPrimitive)
  | 1 => [.view (exObj 10), .view (exObj 11)]
  | 2 => [.flush, .view (exObj 20)]
  | _ => []

/-- The schedule of C59 with a server that answers 401 first each time. -/
def exNet : List (Nat × ViewClient.Exchange × ViewClient.Exchange) := exSched.map fun e => (e.1, secondTry 201 "s", secondTry 201 "")

theorem exCalls_meet : (∀ t, ∀ p ∈ views (exCalls t), Valid p.payload ∧ Exact p.payload ∧ p.name ≠ some "") ∧
    (∀ t, ∀ p ∈ views (exCalls t), p.lineNumber.toNat / 10 = t) ∧ ∀ e ∈ exNet, Answered e.2.1 ∧ Answered e.2.2 := by
  refine ⟨fun t => ?_, fun t => ?_, fun e he => ?_⟩
  · match t with
    | 0 => simp [exCalls, views]
    | 1 => simp [exCalls, views, exObj, Exact, Valid]
    | 2 => simp [exCalls, views, exObj, Exact, Valid]
    | n + 3 => simp [exCalls, views]
  · match t with
    | 0 => simp [exCalls, views]
    | 1 => simp [exCalls, views, exObj]
    | 2 => simp [exCalls, views, exObj]
    | n + 3 => simp [exCalls, views]
  · obtain ⟨x, -, rfl⟩ := List.mem_map.mp he
    exact ⟨⟨⟨_, rfl⟩, Or.inr ⟨rfl, rfl, ⟨_, rfl⟩, rfl⟩⟩, ⟨⟨_, rfl⟩, Or.inr ⟨rfl, rfl, ⟨_, rfl⟩, rfl⟩⟩⟩

set_option maxRecDepth 20000 in
/-- Every thread finishes, and three objects in three updates have been acknowledged. -/
theorem exNet_done : (∀ t, ((run packBody (init "b" exCalls) exNet).view.threads t).pc = .idle ∧ ((run packBody (init "b" exCalls) exNet).view.threads t).todo = []) ∧
    delivered (run packBody (init "b" exCalls) exNet).view.log = [exObj 10, exObj 20, exObj 11] := by
  rw [answered_run (by decide) (packable exCalls fun t p hp => (exCalls_meet.1 t p hp).1) exNet (init "b" exCalls) exCalls_meet.2.2 (netInv_init packBody "b" exCalls)]
  refine ⟨fun t => ?_, rfl⟩
  match t with
  | 0 => exact ⟨rfl, rfl⟩
  | 1 => exact ⟨rfl, rfl⟩
  | 2 => exact ⟨rfl, rfl⟩
  | n + 3 => exact View.empty_finished (View.inv_run (View.inv_init fun t => (exCalls t).map Call.op) _) rfl

/-- One thread that views an object, and the call in the trace, as C73 requires. -/
theorem exView_call : ∃ (sched : List (Nat × ViewClient.Exchange × ViewClient.Exchange)) (pre mid : List (View.Event ViewPrimitive)),
    CallIn (run packBody (init "b" fun t => if t = 1 then [.view (exObj 1)] else []) sched).view.log pre 1 (.view (exObj 1)) mid true [] := by
  refine ⟨List.replicate 9 (1, secondTry 201 "s", secondTry 201 ""), [], [.push 1 (exObj 1), .send 1 [exObj 1] .okay], ?_, by simp⟩
  rw [answered_run (by decide) (packable _ ?_) _ (init "b" _) ?_ (netInv_init packBody "b" _)]
  · rfl
  · intro t p hp
    split at hp
    · simp [views] at hp; subst hp; exact trivial
    · simp [views] at hp
  · intro e he
    rw [List.eq_of_mem_replicate he]
    exact ⟨⟨⟨_, rfl⟩, Or.inr ⟨rfl, rfl, ⟨_, rfl⟩, rfl⟩⟩, ⟨⟨_, rfl⟩, Or.inr ⟨rfl, rfl, ⟨_, rfl⟩, rfl⟩⟩⟩

/-! ## Instances of the theorems above -/

/-- C72 for the two threads: the acknowledged updates decode to objects viewed, exactly, and no address is used twice. -/
example : (∃ decoded : List (List ViewPrimitive),
      (acks (run packBody (init "b" exCalls) exNet).http).map (fun a => unpackUpdate a.2) = decoded.map Outcome.ok ∧
      decoded.flatten.Sublist (viewed (run packBody (init "b" exCalls) exNet).view.log)) ∧
    ((acks (run packBody (init "b" exCalls) exNet).http).map (·.1)).Nodup :=
  ⟨c72_acknowledged_exact "b" exCalls (fun t p hp => (exCalls_meet.1 t p hp).2) exNet, c72_addresses "b" exCalls exNet (by decide)⟩

/-- C72 with the order of each thread. -/
example : ∃ batches : List (List ViewPrimitive), ∀ t, (batches.flatten.filter fun p => p.lineNumber.toNat / 10 = t).Sublist (views (exCalls t)) := by
  obtain ⟨batches, -, -, -, -, h⟩ := c72_acknowledged "b" exCalls (fun t p hp => (exCalls_meet.1 t p hp).1) exNet
  exact ⟨batches, h (fun p => p.lineNumber.toNat / 10) exCalls_meet.2.1⟩

/-- C73 for the call of `exView_call`: its object is in an acknowledged update. -/
example : ∃ (sched : List (Nat × ViewClient.Exchange × ViewClient.Exchange)) (url : String) (body : UpdateMsg) (batch : List ViewPrimitive),
    (url, body) ∈ acks (run packBody (init "b" fun t => if t = 1 then [.view (exObj 1)] else []) sched).http ∧ unpackUpdate body = .ok batch ∧
    ∃ b ∈ batch, NearPrimitive (exObj 1) b := by
  obtain ⟨sched, pre, mid, hc⟩ := exView_call
  obtain ⟨url, body, batch, h⟩ := c73_view_acknowledged_partial "b" _ (fun t p hp => by
    split at hp
    · simp [views] at hp; subst hp; exact trivial
    · simp [views] at hp) sched 1 (fun u hu => if_neg hu) _ pre mid hc
  exact ⟨sched, url, body, batch, h⟩

end Verif.Props
