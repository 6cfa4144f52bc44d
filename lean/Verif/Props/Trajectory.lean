import Verif.Proofs.Trajectory
import Verif.Props.RigidBodyState
/-! # Properties C50-C52: trajectories -/
namespace Verif.Props
open Matrix Spec Verif.Framed Binary64
open SO3 (eucNorm)

/-- The trajectories reachable by appends that were defined, with the list of controls whose append succeeded.  Poses are framed on both sides or
on neither, as their constructors enforce; timestamps are `int64`. -/
inductive Reached : Trajectory → List TrajControl → Prop
  | empty : Reached Trajectory.empty []
  | accepted {T T' acc} (h : Reached T acc) (p : TrajControl) (hw : Whole p.state.refFromBody) (hi : InI64 p.atTime)
      (ho : Trajectory.append T p = (T', .ok ())) : Reached T' (acc ++ [p])
  | rejected {T T' acc} (h : Reached T acc) (p : TrajControl) (hw : Whole p.state.refFromBody) (hi : InI64 p.atTime) (m : String)
      (ho : Trajectory.append T p = (T', .throw m)) : Reached T' acc

theorem inv_of_reached {T : Trajectory} {acc : List TrajControl} (h : Reached T acc) : Trajectory.Inv T acc := by
  induction h with
  | empty => exact Trajectory.inv_empty
  | @accepted T T' acc h p hw hi ho ih =>
    by_cases hne : acc = []
    · subst hne
      have := (Trajectory.append_nil ih hw).2.1
      rwa [ho] at this
    · by_cases hf : InI64 (p.atTime - T.startTime)
      · obtain ⟨h1, h2⟩ := Trajectory.append_spec ih hne hw hf
        by_cases hm : Trajectory.Follows T.startTime acc p
        · have := (h1 hm).2.1
          rwa [ho] at this
        · have := (h2 hm).1
          rw [ho] at this
          simp at this
      · obtain ⟨-, h1, h2⟩ := Trajectory.append_overflow ih hne hf
        rw [ho] at h1 h2
        by_cases ha : ∀ q ∈ acc, q.state.refFromBody.src = p.state.refFromBody.src
        · simpa using h1 ha
        · simpa using h2 ha
  | @rejected T T' acc h p hw hi m ho ih =>
    by_cases hne : acc = []
    · subst hne
      have := (Trajectory.append_nil ih hw).1
      rw [ho] at this
      cases this
    · by_cases hf : InI64 (p.atTime - T.startTime)
      · obtain ⟨h1, h2⟩ := Trajectory.append_spec ih hne hw hf
        by_cases hm : Trajectory.Follows T.startTime acc p
        · have := (h1 hm).1
          rw [ho] at this
          cases this
        · have := (h2 hm).2
          rw [ho] at this
          simp only at this
          rwa [this]
      · have := (Trajectory.append_overflow ih hne hf).1
        rw [ho] at this
        simp only at this
        rwa [this]

/-! ## C50 -/

/-- C50.  The start time is the first control's timestamp. -/
theorem c50_start_time (T : Trajectory) (p : TrajControl) (acc : List TrajControl) (h : Reached T (p :: acc)) : T.startTime = p.atTime :=
  ((inv_of_reached h).start p (by simp)).symm

/-- C50.  The first control is always accepted. -/
theorem c50_first (T : Trajectory) (h : Reached T []) (p : TrajControl) (hw : Whole p.state.refFromBody) :
    (Trajectory.append T p).2 = .ok () ∧ (Trajectory.append T p).1.startTime = p.atTime :=
  ⟨(Trajectory.append_nil (inv_of_reached h) hw).1, (Trajectory.append_nil (inv_of_reached h) hw).2.2⟩

/-- C50.  With `first` the first control, a further control is accepted exactly when it agrees with all accepted ones in both frames and its
rounded time in seconds from the first control is larger than all of theirs.  Otherwise the append throws and the trajectory is unchanged.  The
distance from the first control must be an `int64`, see the next theorem. -/
theorem c50_append (T : Trajectory) (first : TrajControl) (rest : List TrajControl) (h : Reached T (first :: rest)) (p : TrajControl)
    (hw : Whole p.state.refFromBody) (hf : InI64 (p.atTime - first.atTime)) :
    ((Trajectory.append T p).2 = .ok () ↔
      ∀ q ∈ first :: rest, q.state.refFromBody.src = p.state.refFromBody.src ∧ q.state.refFromBody.into = p.state.refFromBody.into ∧
        asSeconds (q.atTime - first.atTime) < asSeconds (p.atTime - first.atTime)) ∧
    ((Trajectory.append T p).2 ≠ .ok () → (Trajectory.append T p).2.IsThrow ∧ (Trajectory.append T p).1 = T) := by
  have hs := c50_start_time T first rest h
  have hI := inv_of_reached h
  obtain ⟨h1, h2⟩ := Trajectory.append_spec hI (by simp) hw (by rw [hs]; exact hf)
  have e : Trajectory.Follows T.startTime (first :: rest) p ↔
      ∀ q ∈ first :: rest, q.state.refFromBody.src = p.state.refFromBody.src ∧ q.state.refFromBody.into = p.state.refFromBody.into ∧
        asSeconds (q.atTime - first.atTime) < asSeconds (p.atTime - first.atTime) := by
    unfold Trajectory.Follows
    rw [hs]
    exact forall_congr' fun q => imp_congr_right fun _ => ⟨fun ⟨a, b, c⟩ => ⟨b, c, a⟩, fun ⟨b, c, a⟩ => ⟨a, b, c⟩⟩
  rw [← e]
  by_cases hm : Trajectory.Follows T.startTime (first :: rest) p
  · exact ⟨iff_of_true (h1 hm).1 hm, fun hn => absurd (h1 hm).1 hn⟩
  · obtain ⟨m, em⟩ := (h2 hm).1
    exact ⟨iff_of_false (by rw [em]; simp) hm, fun _ => h2 hm⟩

/-- C50.  An append is undefined exactly when the body frame agrees and the distance from the first control is not an `int64`. -/
theorem c50_undefined_iff (T : Trajectory) (first : TrajControl) (rest : List TrajControl) (h : Reached T (first :: rest)) (p : TrajControl)
    (hw : Whole p.state.refFromBody) :
    (Trajectory.append T p).2.IsUB ↔ ¬ InI64 (p.atTime - first.atTime) ∧ ∀ q ∈ first :: rest, q.state.refFromBody.src = p.state.refFromBody.src := by
  have hs := c50_start_time T first rest h
  have hI := inv_of_reached h
  by_cases hf : InI64 (p.atTime - first.atTime)
  · obtain ⟨h1, h2⟩ := c50_append T first rest h p hw hf
    refine iff_of_false (fun hu => ?_) (fun hn => hn.1 hf)
    by_cases ho : (Trajectory.append T p).2 = .ok ()
    · rw [ho] at hu; simp at hu
    · obtain ⟨m, em⟩ := (h2 ho).1
      rw [em] at hu; simp at hu
  · obtain ⟨-, h1, h2⟩ := Trajectory.append_overflow (p := p) hI (by simp) (by rw [hs]; exact hf)
    by_cases ha : ∀ q ∈ first :: rest, q.state.refFromBody.src = p.state.refFromBody.src
    · exact iff_of_true (h1 ha) ⟨hf, ha⟩
    · obtain ⟨m, em⟩ := h2 ha
      exact iff_of_false (by rw [em]; simp) fun hn => ha hn.2

/-- C50.  While all timestamps stay within 2^52 ns (52 days) after the first, acceptance is exactly agreement of frames and a later timestamp. -/
theorem c50_later_exactly (T : Trajectory) (first : TrajControl) (rest : List TrajControl) (h : Reached T (first :: rest)) (p : TrajControl)
    (hw : Whole p.state.refFromBody) (hspan : ∀ q ∈ p :: first :: rest, |q.atTime - first.atTime| ≤ 2 ^ 52) :
    (Trajectory.append T p).2 = .ok () ↔
      ∀ q ∈ first :: rest, q.state.refFromBody.src = p.state.refFromBody.src ∧ q.state.refFromBody.into = p.state.refFromBody.into ∧
        q.atTime < p.atTime := by
  have hp := hspan p (by simp)
  have hf : InI64 (p.atTime - first.atTime) := by
    have := abs_le.mp hp
    simp only [InI64, I64MAX, I64MIN]
    omega
  rw [(c50_append T first rest h p hw hf).1]
  refine forall_congr' fun q => imp_congr_right fun hq => and_congr_right fun _ => and_congr_right fun _ => ?_
  have hq' := hspan q (List.mem_cons_of_mem _ hq)
  constructor
  · intro hlt
    by_contra hge
    exact absurd (c11_as_seconds_mono (p.atTime - first.atTime) (q.atTime - first.atTime) (by omega)) (not_le.mpr hlt)
  · intro hlt
    exact c11_as_seconds_strict _ _ hq' hp (by omega)

/-- C50.  In every reachable trajectory the accepted timestamps increase strictly and all states share both frames, which are what
`body_frame` and `reference_frame` return. -/
theorem c50_invariant (T : Trajectory) (acc : List TrajControl) (h : Reached T acc) :
    acc.Pairwise (fun a b => a.atTime < b.atTime) ∧
    (∀ p ∈ acc, Trajectory.bodyFrame T = .ok p.state.refFromBody.src ∧ Trajectory.referenceFrame T = .ok p.state.refFromBody.into) ∧
    (acc = [] → (Trajectory.bodyFrame T).IsThrow ∧ (Trajectory.referenceFrame T).IsThrow) := by
  have hI := inv_of_reached h
  refine ⟨?_, ?_, ?_⟩
  · have := (c40_invariant T.curve hI.built).1
    rw [hI.controls, List.pairwise_map] at this
    refine this.imp fun {a b} hab => ?_
    by_contra hge
    have h1 : asSeconds (a.atTime - T.startTime) < asSeconds (b.atTime - T.startTime) := Rat.cast_lt.mp hab
    exact absurd (c11_as_seconds_mono (b.atTime - T.startTime) (a.atTime - T.startTime) (by omega)) (not_le.mpr h1)
  · intro p hp
    have hne : acc ≠ [] := List.ne_nil_of_mem hp
    have hf := Trajectory.frames_eq hI (List.getLast_mem hne) hp
    refine ⟨by rw [Trajectory.bodyFrame_eq hI hne, hf.1], ?_⟩
    unfold Trajectory.referenceFrame
    rw [hI.controls, List.getLast?_map, List.getLast?_eq_getLast_of_ne_nil hne, ← hf.2]
    rfl
  · rintro rfl
    have h0 : T.curve.controls = [] := hI.controls
    simp [Trajectory.bodyFrame, Trajectory.referenceFrame, h0]

/-- C50.  Appending a list appends its controls one by one until one is refused; the controls before it stay. -/
theorem c50_append_list (T : Trajectory) (acc : List TrajControl) (h : Reached T acc) (ps : List TrajControl)
    (hw : ∀ p ∈ ps, Whole p.state.refFromBody) (hi : ∀ p ∈ ps, InI64 p.atTime) :
    ∃ k, k ≤ ps.length ∧ ((Trajectory.appendList T ps).2 = .ok () ↔ k = ps.length) ∧
      (¬ (Trajectory.appendList T ps).2.IsUB → Reached (Trajectory.appendList T ps).1 (acc ++ ps.take k)) := by
  induction ps generalizing T acc with
  | nil => exact ⟨0, le_refl _, by simp [Trajectory.appendList], fun _ => by simpa [Trajectory.appendList] using h⟩
  | cons p ps ih =>
    rcases ho : Trajectory.append T p with ⟨T', o⟩
    rcases o with u | m | w
    · obtain ⟨k, k1, k2, k3⟩ := ih T' (acc ++ [p]) (Reached.accepted h p (hw p (by simp)) (hi p (by simp)) ho)
        (fun q hq => hw q (by simp [hq])) (fun q hq => hi q (by simp [hq]))
      have e : Trajectory.appendList T (p :: ps) = Trajectory.appendList T' ps := by simp only [Trajectory.appendList, ho]
      rw [e]
      refine ⟨k + 1, by simpa using k1, by simpa using k2, fun hu => ?_⟩
      simpa using k3 hu
    · have e : Trajectory.appendList T (p :: ps) = (T', .throw m) := by simp only [Trajectory.appendList, ho]
      rw [e]
      exact ⟨0, by simp, by simp, fun _ => by simpa using Reached.rejected h p (hw p (by simp)) (hi p (by simp)) m ho⟩
    · have e : Trajectory.appendList T (p :: ps) = (T', .ub w) := by simp only [Trajectory.appendList, ho]
      rw [e]
      exact ⟨0, by simp, by simp, fun hu => by simp at hu⟩

/-- C50.  The constructor from a list succeeds exactly when every control is accepted, and then holds exactly these controls; otherwise it ends as the append
of the first control that is not accepted ends. -/
theorem c50_construct (ps : List TrajControl) (hw : ∀ p ∈ ps, Whole p.state.refFromBody) (hi : ∀ p ∈ ps, InI64 p.atTime) :
    (∀ T, Trajectory.make ps = .ok T → Reached T ps) ∧
    (∀ m, Trajectory.make ps = .throw m ↔ ∃ (k : Nat) (hk : k < ps.length) (T : Trajectory), Trajectory.make (ps.take k) = .ok T ∧
      (Trajectory.append T ps[k]).2 = .throw m) ∧
    (∀ w, Trajectory.make ps = .ub w ↔ ∃ (k : Nat) (hk : k < ps.length) (T : Trajectory), Trajectory.make (ps.take k) = .ok T ∧
      (Trajectory.append T ps[k]).2 = .ub w) := by
  have ok_iff : ∀ qs T, Trajectory.make qs = .ok T ↔ Trajectory.appendList Trajectory.empty qs = (T, .ok ()) := by
    intro qs T
    unfold Trajectory.make
    rcases Trajectory.appendList Trajectory.empty qs with ⟨x, u | m | w⟩ <;> simp
  have snd : ∀ qs (o : Outcome Unit), o ≠ .ok () → ((Trajectory.make qs).bind (fun _ => Outcome.ok ()) = o ↔ (Trajectory.appendList Trajectory.empty qs).2 = o) := by
    intro qs o ho
    unfold Trajectory.make
    rcases Trajectory.appendList Trajectory.empty qs with ⟨x, u | m | w⟩ <;> simp [Outcome.bind]
  have key : ∀ (ps : List TrajControl) (T : Trajectory) (o : Outcome Unit), o ≠ .ok () → ((Trajectory.appendList T ps).2 = o ↔
      ∃ (k : Nat) (hk : k < ps.length) (T' : Trajectory), Trajectory.appendList T (ps.take k) = (T', .ok ()) ∧ (Trajectory.append T' ps[k]).2 = o) := by
    intro ps
    induction ps with
    | nil => intro T o ho; simp [Trajectory.appendList, ho.symm]
    | cons p ps ih =>
      intro T o ho
      rcases hp : Trajectory.append T p with ⟨x, y⟩
      have e0 : ∀ qs, Trajectory.appendList T (p :: qs) = match (x, y) with
          | (c', .ok ()) => Trajectory.appendList c' qs
          | (c', o) => (c', o) := fun qs => by rw [Trajectory.appendList, hp]; rcases y with u | m | w <;> rfl
      by_cases hy : y = .ok ()
      · subst hy
        rw [e0]
        simp only
        rw [ih x o ho]
        constructor
        · rintro ⟨k, hk, T', k1, k2⟩
          exact ⟨k + 1, by simpa using hk, T', by rw [List.take_succ_cons, e0]; exact k1, k2⟩
        · rintro ⟨k, hk, T', k1, k2⟩
          cases k with
          | zero =>
            have : T = T' := by simpa [Trajectory.appendList] using k1
            subst this
            simp only [List.getElem_cons_zero, hp] at k2
            exact absurd k2.symm ho
          | succ k =>
            rw [List.take_succ_cons, e0] at k1
            exact ⟨k, by simpa using hk, T', k1, k2⟩
      · have e1 : ∀ qs, Trajectory.appendList T (p :: qs) = (x, y) := by
          intro qs
          rw [e0]
          rcases y with u | m | w
          · exact absurd rfl hy
          · rfl
          · rfl
        rw [e1]
        constructor
        · intro h
          exact ⟨0, by simp, T, by simp [Trajectory.appendList], by simpa [hp] using h⟩
        · rintro ⟨k, hk, T', k1, k2⟩
          cases k with
          | zero =>
            have : T = T' := by simpa [Trajectory.appendList] using k1
            subst this
            simpa [hp] using k2
          | succ k =>
            rw [List.take_succ_cons, e1] at k1
            exact absurd (Prod.ext_iff.mp k1).2 hy
  refine ⟨fun T hT => ?_, fun m => ?_, fun w => ?_⟩
  · rw [ok_iff] at hT
    obtain ⟨k, k1, k2, k3⟩ := c50_append_list Trajectory.empty [] Reached.empty ps hw hi
    rw [hT] at k2 k3
    have := k3 (by simp)
    rwa [k2.mp rfl, List.take_length, List.nil_append] at this
  · have h1 := snd ps (.throw m) (by simp)
    rw [key ps _ _ (by simp)] at h1
    simp only [ok_iff]
    rw [← h1]
    rcases Trajectory.make ps with T | m' | w <;> simp [Outcome.bind]
  · have h1 := snd ps (.ub w) (by simp)
    rw [key ps _ _ (by simp)] at h1
    simp only [ok_iff]
    rw [← h1]
    rcases Trajectory.make ps with T | m' | w <;> simp [Outcome.bind]

/-- C50.  The constructor from a list, if no two timestamps are more than 2^52 ns apart: it succeeds exactly if all controls have the same frames and every
control is later than all before it; otherwise it throws. -/
theorem c50_construct_iff (ps : List TrajControl) (hw : ∀ p ∈ ps, Whole p.state.refFromBody) (hi : ∀ p ∈ ps, InI64 p.atTime)
    (hspan : ∀ p ∈ ps, ∀ q ∈ ps, |p.atTime - q.atTime| ≤ 2 ^ 52) :
    ((Trajectory.make ps).IsOk ↔ ps.Pairwise fun a b => a.state.refFromBody.src = b.state.refFromBody.src ∧
      a.state.refFromBody.into = b.state.refFromBody.into ∧ a.atTime < b.atTime) ∧
    ((Trajectory.make ps).IsOk ∨ (Trajectory.make ps).IsThrow) := by
  obtain ⟨c1, c2, c3⟩ := c50_construct ps hw hi
  have pre : ∀ (k : Nat) (hk : k < ps.length) (T : Trajectory), Trajectory.make (ps.take k) = .ok T → Reached T (ps.take k) := fun k _ T hT =>
    (c50_construct (ps.take k) (fun p hp => hw p (List.mem_of_mem_take hp)) (fun p hp => hi p (List.mem_of_mem_take hp))).1 T hT
  have noub : ∀ w, Trajectory.make ps ≠ .ub w := by
    intro w hu
    obtain ⟨k, hk, T, hT, ha⟩ := (c3 w).mp hu
    have hr := pre k hk T hT
    have hm := List.getElem_mem hk
    rcases ht : ps.take k with _ | ⟨first, rest⟩
    · rw [ht] at hr
      rw [(c50_first T hr _ (hw _ hm)).1] at ha
      cases ha
    · rw [ht] at hr
      have hf : first ∈ ps := List.mem_of_mem_take (by rw [ht]; simp)
      have := ((c50_undefined_iff T first rest hr ps[k] (hw _ hm)).mp ⟨w, ha⟩).1
      apply this
      have := abs_le.mp (hspan _ hm _ hf)
      simp only [InI64, I64MAX, I64MIN]
      omega
  refine ⟨⟨?_, fun hp => ?_⟩, ?_⟩
  · rintro ⟨T, hT⟩
    obtain ⟨i1, i2, -⟩ := c50_invariant T ps (c1 T hT)
    refine List.Pairwise.imp_of_mem (fun {a b} ha hb hab => ⟨?_, ?_, hab⟩) i1
    · exact Outcome.ok.inj ((i2 a ha).1.symm.trans (i2 b hb).1)
    · exact Outcome.ok.inj ((i2 a ha).2.symm.trans (i2 b hb).2)
  · rcases hm : Trajectory.make ps with T | m | w
    · exact ⟨T, rfl⟩
    · obtain ⟨k, hk, T, hT, ha⟩ := (c2 m).mp hm
      have hr := pre k hk T hT
      have hm := List.getElem_mem hk
      rcases ht : ps.take k with _ | ⟨first, rest⟩
      · rw [ht] at hr
        rw [(c50_first T hr _ (hw _ hm)).1] at ha
        cases ha
      · rw [ht] at hr
        have hsub : ∀ q ∈ first :: rest, q ∈ ps := fun q hq => List.mem_of_mem_take (by rw [ht]; exact hq)
        have hok := (c50_later_exactly T first rest hr ps[k] (hw _ hm) (fun q hq => by
          rcases List.mem_cons.mp hq with rfl | hq
          · exact hspan _ hm _ (hsub _ (by simp))
          · exact hspan _ (hsub _ hq) _ (hsub _ (by simp)))).mpr (fun q hq => by
          rw [← ht, List.mem_take_iff_getElem] at hq
          obtain ⟨j, hj, rfl⟩ := hq
          exact List.pairwise_iff_getElem.mp hp j k (by omega) hk (by omega))
        rw [ha] at hok
        cases hok
    · exact absurd hm (noub w)
  · rcases hm : Trajectory.make ps with T | m | w
    · exact .inl ⟨T, rfl⟩
    · exact .inr ⟨m, rfl⟩
    · exact absurd hm (noub w)

/-- The state `exState` at a given position with the given turn, framed. -/
def exAt (R : M3) (x : V3) : RBState := ⟨⟨⟨(R, x), exFrame 1, exFrame 2⟩, (![1, 0, 0], ![0, 1, 0]), (![0, 0, 2], ![3, 0, 0])⟩⟩

theorem exAt_whole (R : M3) (x : V3) : Whole (exAt R x).refFromBody := by
  change exFrame 1 = Frame.null ↔ exFrame 2 = Frame.null
  decide

/-- Appending the listed times, all with states of one body. -/
theorem exReached (s : Int → RBState) (hs : ∀ t, Whole (s t).refFromBody ∧ (s t).refFromBody.src = exFrame 2 ∧ (s t).refFromBody.into = exFrame 1)
    (t₀ : Int) (h0 : InI64 t₀) (ts : List Int) (hi : ∀ t ∈ ts, InI64 t) (hspan : ∀ t ∈ ts, |t - t₀| ≤ 2 ^ 52)
    (hord : (t₀ :: ts).Pairwise (· < ·)) :
    ∃ T, Reached T ((t₀ :: ts).map fun t => ⟨t, s t⟩) := by
  induction ts using List.reverseRecOn with
  | nil => exact ⟨_, Reached.accepted Reached.empty ⟨t₀, s t₀⟩ (hs t₀).1 h0 (Prod.ext rfl (c50_first _ Reached.empty _ (hs t₀).1).1)⟩
  | append_singleton ts t ih =>
    obtain ⟨T, hT⟩ := ih (fun u hu => hi u (List.mem_append_left _ hu)) (fun u hu => hspan u (List.mem_append_left _ hu))
      (hord.sublist (List.Sublist.cons_cons _ (List.sublist_append_left _ _)))
    have hacc : (Trajectory.append T ⟨t, s t⟩).2 = .ok () := by
      rw [List.map_cons] at hT
      rw [c50_later_exactly T ⟨t₀, s t₀⟩ _ hT ⟨t, s t⟩ (hs t).1]
      · intro q hq
        rw [← List.map_cons (f := fun t => (⟨t, s t⟩ : TrajControl)), List.mem_map] at hq
        obtain ⟨u, hu, rfl⟩ := hq
        refine ⟨(hs u).2.1.trans (hs t).2.1.symm, (hs u).2.2.trans (hs t).2.2.symm, ?_⟩
        rw [← List.cons_append, List.pairwise_append] at hord
        exact hord.2.2 u hu t (by simp)
      · intro q hq
        rcases List.mem_cons.mp hq with rfl | hq
        · exact hspan t (by simp)
        · rw [← List.map_cons (f := fun t => (⟨t, s t⟩ : TrajControl)), List.mem_map] at hq
          obtain ⟨u, hu, rfl⟩ := hq
          rcases List.mem_cons.mp hu with rfl | hu
          · simp
          · exact hspan u (List.mem_append_left _ hu)
    have := Reached.accepted hT ⟨t, s t⟩ (hs t).1 (hi t (by simp)) (Prod.ext rfl hacc)
    refine ⟨(Trajectory.append T ⟨t, s t⟩).1, ?_⟩
    rw [← List.cons_append, List.map_append]
    exact this

/-- A trajectory of one body with controls at 100 ns, 115 ns and 2 s. -/
example : ∃ T, Reached T ([100, 115, 2000000000].map fun t => ⟨t, exAt quarterTurn ![1, 2, 3]⟩) :=
  exReached (fun _ => exAt quarterTurn ![1, 2, 3]) (fun _ => ⟨exAt_whole _ _, rfl, rfl⟩) 100 (by decide) [115, 2000000000] (by decide)
    (by decide) (by decide)

/-- C50.  Beyond 2^53 ns a later timestamp can be refused: the states at 2^53 ns and 2^53 + 1 ns after the first get the same time in seconds. -/
theorem c50_later_refused : ∃ (T : Trajectory) (first q p : TrajControl), Reached T [first, q] ∧ Whole p.state.refFromBody ∧ InI64 p.atTime ∧
    p.state = q.state ∧ q.atTime < p.atTime ∧ (Trajectory.append T p).2.IsThrow := by
  obtain ⟨s, hs⟩ : ∃ s, s = exAt quarterTurn ![1, 2, 3] := ⟨_, rfl⟩
  have hw : Whole s.refFromBody := hs ▸ exAt_whole _ _
  have r1 : Reached _ [⟨0, s⟩] := Reached.accepted Reached.empty ⟨0, s⟩ hw (by simp only [InI64, I64MAX, I64MIN]; norm_num) (Prod.ext rfl (c50_first _ Reached.empty _ hw).1)
  have c53 : asSeconds (2 ^ 53) = asSeconds (2 ^ 53 + 1) := by
    unfold asSeconds
    have e : fl (((2 ^ 53 + 1 : ℤ)) : ℚ) = ((2 ^ 53 : ℤ) : ℚ) := by
      have r : roundEven ((((2 ^ 53 + 1 : ℤ)) : ℚ) / 2 ^ (1 : ℤ)) = 2 ^ 52 := by
        have hf : ⌊(((2 ^ 53 + 1 : ℤ)) : ℚ) / 2 ^ (1 : ℤ)⌋ = 2 ^ 52 := by
          rw [Int.floor_eq_iff]; constructor <;> norm_num
        unfold roundEven
        simp only [hf]
        norm_num
      rw [fl_eval 1 (2 ^ 52) (by norm_num) (by norm_num) r]
      norm_num
    rw [e, fl_representable (representable_int (by norm_num))]
  have a1 := c50_append _ ⟨0, s⟩ [] r1 ⟨2 ^ 53, s⟩ hw (by simp only [InI64, I64MAX, I64MIN]; norm_num)
  have acc1 : (Trajectory.append (Trajectory.append Trajectory.empty ⟨0, s⟩).1 ⟨2 ^ 53, s⟩).2 = .ok () := by
    rw [a1.1]
    intro q hq
    rw [List.mem_singleton] at hq
    subst hq
    refine ⟨rfl, rfl, ?_⟩
    refine lt_of_lt_of_le (b := asSeconds 1) (c11_as_seconds_strict _ _ (by norm_num) (by norm_num) (by norm_num)) (c11_as_seconds_mono _ _ (by norm_num))
  have r2 := Reached.accepted r1 ⟨2 ^ 53, s⟩ hw (by simp only [InI64, I64MAX, I64MIN]; norm_num) (Prod.ext rfl acc1)
  refine ⟨_, ⟨0, s⟩, ⟨2 ^ 53, s⟩, ⟨2 ^ 53 + 1, s⟩, r2, hw, by simp only [InI64, I64MAX, I64MIN]; norm_num, rfl, by norm_num, ?_⟩
  have a2 := c50_append _ ⟨0, s⟩ [⟨2 ^ 53, s⟩] r2 ⟨2 ^ 53 + 1, s⟩ hw (by simp only [InI64, I64MAX, I64MIN]; norm_num)
  refine (a2.2 ?_).1
  rw [Ne, a2.1]
  intro hall
  have := (hall ⟨2 ^ 53, s⟩ (by simp)).2.2
  simp only [sub_zero] at this
  rw [c53] at this
  exact lt_irrefl _ this

/-! ## C51 -/

theorem zero_seconds : asSeconds 0 = 0 := by simp [asSeconds]

theorem curve_range {T : Trajectory} {first last : TrajControl} {mid : List TrajControl} (hI : Trajectory.Inv T (first :: mid ++ [last])) :
    ∃ h : 2 ≤ T.curve.controls.length, T.curve.controls[0].time = 0 ∧
      T.curve.controls[T.curve.controls.length - 1].time = ((asSeconds (last.atTime - first.atTime) : ℚ) : ℝ) ∧
      T.curve.controls[0] = Trajectory.toControl T.startTime first := by
  have hs : first.atTime = T.startTime := hI.start first (by simp)
  have hc := hI.controls
  have hlen : 2 ≤ T.curve.controls.length := by rw [hc]; simp
  have h0 : T.curve.controls[0] = Trajectory.toControl T.startTime first := by simp [hc]
  have h1 : T.curve.controls[T.curve.controls.length - 1] = Trajectory.toControl T.startTime last := by
    rw [← List.getLast_eq_getElem (by intro e; rw [e] at hlen; simp at hlen)]
    simp [hc]
  refine ⟨hlen, ?_, ?_, h0⟩
  · rw [h0]
    simp [Trajectory.toControl, hs, zero_seconds]
  · rw [h1, hs]
    rfl

theorem whole_curve {T : Trajectory} {acc : List TrajControl} (hI : Trajectory.Inv T acc) : ∀ p ∈ T.curve.controls, Whole p.point.g := by
  intro p hp
  rw [hI.controls, List.mem_map] at hp
  obtain ⟨q, hq, rfl⟩ := hp
  exact (hI.whole q hq).symm

/-- C51.  `point_at` succeeds for every timestamp from the first to the last control, whatever their distance, and so does the overload taking a
duration; the state has the frames of the controls. -/
theorem c51_inside (T : Trajectory) (first last : TrajControl) (mid : List TrajControl) (h : Reached T (first :: mid ++ [last])) (t : Int)
    (h0 : first.atTime ≤ t) (h1 : t ≤ last.atTime) :
    ∃ s, Trajectory.pointAt T t = .ok s ∧ Trajectory.pointAtDuration T (t - first.atTime) = .ok s ∧
      s.refFromBody.src = first.state.refFromBody.src ∧ s.refFromBody.into = first.state.refFromBody.into := by
  have hI := inv_of_reached h
  have hs : T.startTime = first.atTime := c50_start_time T first (mid ++ [last]) h
  obtain ⟨hlen, k0, k1, k2⟩ := curve_range hI
  have hlast := hI.fits last (by simp)
  rw [hs] at hlast
  have hfit : InI64 (t - first.atTime) := by
    simp only [InI64, I64MAX, I64MIN] at *
    omega
  have m0 : (0 : ℚ) ≤ asSeconds (t - first.atTime) := by
    rw [← zero_seconds]
    exact c11_as_seconds_mono 0 (t - first.atTime) (by omega)
  have m1 := c11_as_seconds_mono (t - first.atTime) (last.atTime - first.atTime) (by omega)
  obtain ⟨j, hj, f1, f2⟩ := TCurve.pointAt_frames SE3.ops (inv_of_built hI.built) (whole_curve hI) hlen ((asSeconds (t - first.atTime) : ℚ) : ℝ)
    (by rw [k0]; exact_mod_cast m0) (by rw [k1]; exact_mod_cast m1)
  rw [k2] at f1 f2
  have hjw : Whole j.g := by
    unfold Whole
    rw [f1, f2]
    exact (hI.whole first (by simp)).symm
  refine ⟨⟨⟨⟨SE3.ops.inv j.g.val, j.g.src, j.g.into⟩, -j.d, -j.d2⟩⟩, ?_, ?_, f1, f2⟩
  · unfold Trajectory.pointAt
    rw [hs, i64_ok hfit, Outcome.ok_bind, hj, Outcome.ok_bind, TwoJetL.right_whole SE3.ops hjw]
    rfl
  · unfold Trajectory.pointAtDuration
    rw [hj, Outcome.ok_bind, TwoJetL.right_whole SE3.ops hjw]
    rfl

/-- C51.  While the queried and the last timestamps are within 2^52 ns of the first, a query outside the span throws. -/
theorem c51_outside (T : Trajectory) (first last : TrajControl) (mid : List TrajControl) (h : Reached T (first :: mid ++ [last])) (t : Int)
    (hl : |last.atTime - first.atTime| ≤ 2 ^ 52) (ht : |t - first.atTime| ≤ 2 ^ 52) (ho : t < first.atTime ∨ last.atTime < t) :
    (Trajectory.pointAt T t).IsThrow ∧ (Trajectory.pointAtDuration T (t - first.atTime)).IsThrow := by
  have hI := inv_of_reached h
  have hs : T.startTime = first.atTime := c50_start_time T first (mid ++ [last]) h
  obtain ⟨hlen, k0, k1, k2⟩ := curve_range hI
  have hfit : InI64 (t - first.atTime) := by
    have := abs_le.mp ht
    simp only [InI64, I64MAX, I64MIN] at *
    omega
  have hout : (TCurve.pointAtImpl T.curve ((asSeconds (t - first.atTime) : ℚ) : ℝ)).IsThrow := by
    apply TCurve.pointAtImpl_outside (inv_of_built hI.built) hlen
    rw [k0, k1]
    rintro ⟨e0, e1⟩
    have e0' : 0 ≤ asSeconds (t - first.atTime) := by exact_mod_cast e0
    have e1' : asSeconds (t - first.atTime) ≤ asSeconds (last.atTime - first.atTime) := by exact_mod_cast e1
    rcases ho with ho | ho
    · have := c11_as_seconds_strict (t - first.atTime) 0 ht (by norm_num) (by omega)
      rw [zero_seconds] at this
      exact absurd e0' (not_le.mpr this)
    · exact absurd e1' (not_le.mpr (c11_as_seconds_strict _ _ hl ht (by omega)))
  obtain ⟨m, hm⟩ := hout
  have hp : TCurve.pointAt SE3.ops T.curve ((asSeconds (t - first.atTime) : ℚ) : ℝ) = .throw m := by
    unfold TCurve.pointAt
    rw [hm]
    rfl
  constructor
  · unfold Trajectory.pointAt
    rw [hs, i64_ok hfit, Outcome.ok_bind, hp]
    simp
  · unfold Trajectory.pointAtDuration
    rw [hp]
    simp

/-- C51.  With fewer than two controls every query throws (or overflows). -/
theorem c51_short (T : Trajectory) (acc : List TrajControl) (h : Reached T acc) (hshort : acc.length < 2) (t : Int) (ht : InI64 (t - T.startTime)) :
    (Trajectory.pointAt T t).IsThrow := by
  have hI := inv_of_reached h
  obtain ⟨m, hm⟩ := TCurve.pointAtImpl_short (inv_of_built hI.built) (by rw [hI.controls, List.length_map]; exact hshort)
    ((asSeconds (t - T.startTime) : ℚ) : ℝ)
  unfold Trajectory.pointAt TCurve.pointAt
  rw [i64_ok ht, Outcome.ok_bind, hm]
  simp

/-- Neighbouring orientations differ by no rotation or by more than 0.002. -/
def TurnsClearly (acc : List TrajControl) : Prop :=
  ∀ (i : Nat) (hi : i + 1 < acc.length),
    SO3.log (acc[i + 1].state.refFromBody.val.1.transpose * acc[i].state.refFromBody.val.1) = 0 ∨
    0.002 < eucNorm (SO3.log (acc[i + 1].state.refFromBody.val.1.transpose * acc[i].state.refFromBody.val.1))

/-- C51 at control timestamps: `point_at` returns the control state itself, pose, frames and derivatives.  Missing: neighbouring orientations that
differ by a rotation of at most 0.002, for which the curve misses its control (C39). -/
theorem c51_control_partial (T : Trajectory) (acc : List TrajControl) (h : Reached T acc) (h2 : 2 ≤ acc.length)
    (hv : ∀ p ∈ acc, IsRotation p.state.refFromBody.val.1) (ht : TurnsClearly acc) (p : TrajControl) (hp : p ∈ acc) :
    Trajectory.pointAt T p.atTime = .ok p.state ∧ Trajectory.pointAtDuration T (p.atTime - T.startTime) = .ok p.state := by
  have hI := inv_of_reached h
  have hlen : 2 ≤ T.curve.controls.length := by rw [hI.controls, List.length_map]; exact h2
  have hv' : ∀ q ∈ T.curve.controls, IsRotation q.point.g.val.1 := by
    intro q hq
    rw [hI.controls, List.mem_map] at hq
    obtain ⟨r, hr, rfl⟩ := hq
    exact se3Laws.valid_inv (hv r hr)
  have hr : WellRotated T.curve := by
    intro i hi
    have hc := hI.controls
    have hi' : i + 1 < acc.length := by rw [hc, List.length_map] at hi; exact hi
    have e0 : T.curve.controls[i].point.g.val = SE3.inv acc[i].state.refFromBody.val := by simp [hc, Trajectory.toControl, SE3.ops]
    have e1 : T.curve.controls[i + 1].point.g.val = SE3.inv acc[i + 1].state.refFromBody.val := by simp [hc, Trajectory.toControl, SE3.ops]
    rw [e0, e1]
    have := ht i hi'
    simpa [relativeRotation, SE3.inv, SO3.inv] using this
  obtain ⟨hint, -⟩ := c39_se3_partial T.curve hI.built (whole_curve hI) hlen hv' hr
  have hmem : Trajectory.toControl T.startTime p ∈ T.curve.controls := by rw [hI.controls]; exact List.mem_map_of_mem hp
  have hq := hint _ hmem
  simp only [Trajectory.toControl] at hq
  have hw := hI.whole p hp
  have hback : TwoJetL.right SE3.ops (⟨⟨SE3.ops.inv p.state.refFromBody.val, p.state.refFromBody.src, p.state.refFromBody.into⟩,
      -p.state.twoJet.d, -p.state.twoJet.d2⟩ : TwoJetL Pose Twist) = .ok p.state.twoJet := by
    have := c34_se3.2.1 p.state.twoJet (hv p hp) hw
    rw [Trajectory.left_eq hw] at this
    exact this
  constructor
  · unfold Trajectory.pointAt
    rw [i64_ok (hI.fits p hp), Outcome.ok_bind, hq, Outcome.ok_bind, hback]
    rfl
  · unfold Trajectory.pointAtDuration
    rw [hq, Outcome.ok_bind, hback]
    rfl

/-- A trajectory meeting the conditions: a body that does not turn. -/
example : ∃ T acc, Reached T acc ∧ 2 ≤ acc.length ∧ (∀ p ∈ acc, IsRotation p.state.refFromBody.val.1) ∧ TurnsClearly acc := by
  obtain ⟨T, hT⟩ := exReached (fun t => exAt quarterTurn ![(t : ℝ), 2, 3]) (fun _ => ⟨exAt_whole _ _, rfl, rfl⟩) 100 (by decide) [115, 230] (by decide)
    (by decide) (by decide)
  refine ⟨T, _, hT, by simp, ?_, ?_⟩
  · intro p hp
    rw [List.mem_map] at hp
    obtain ⟨t, -, rfl⟩ := hp
    exact quarterTurn_isRotation
  · intro i hi
    left
    simp only [List.getElem_map]
    change SO3.log (quarterTurn.transpose * quarterTurn) = 0
    rw [quarterTurn_isRotation.orth]
    have := SO3.log_exp (w := 0) (by rw [SO3.eucNorm_zero]; exact Real.pi_pos)
    rwa [SO3.exp_zero] at this

/-! ## C52 -/

theorem timeDuration_eq {T : Trajectory} {acc : List TrajControl} (hI : Trajectory.Inv T acc) (hne : acc ≠ []) :
    Trajectory.timeDuration T = asDuration (asSeconds ((acc.getLast hne).atTime - T.startTime)) := by
  unfold Trajectory.timeDuration
  rw [hI.controls, List.getLast?_map, List.getLast?_eq_getLast_of_ne_nil hne]
  exact asDurationR_cast _

/-- C52 is false: with controls at 100 ns and 115 ns `end_time` is 114 ns. -/
theorem c52_end_time_fails : ∃ (T : Trajectory) (first last : TrajControl), Reached T [first, last] ∧
    last.atTime - first.atTime ≤ 2 ^ 52 ∧ Trajectory.endTime T = .ok (last.atTime - 1) := by
  obtain ⟨T, hT⟩ := exReached (fun _ => exAt quarterTurn ![1, 2, 3]) (fun _ => ⟨exAt_whole _ _, rfl, rfl⟩) 100 (by decide) [115] (by decide)
    (by decide) (by decide)
  refine ⟨T, _, _, hT, by norm_num, ?_⟩
  have hI := inv_of_reached hT
  have hs : T.startTime = 100 := c50_start_time T _ _ hT
  unfold Trajectory.endTime
  rw [timeDuration_eq hI (by simp), hs]
  simp only [List.map_cons, List.map_nil, List.getLast_cons_cons, List.getLast_singleton]
  rw [show (115 - 100 : Int) = 15 by norm_num, c10_fifteen]
  decide

theorem int_of_reached {T : Trajectory} {acc : List TrajControl} (h : Reached T acc) : ∀ p ∈ acc, InI64 p.atTime := by
  induction h with
  | empty => simp
  | accepted h p hw hi ho ih =>
    intro q hq
    rcases List.mem_append.mp hq with hq | hq
    · exact ih q hq
    · rw [List.mem_singleton] at hq; subst hq; exact hi
  | rejected h p hw hi m ho ih => exact ih

/-- C52 up to 1 ns: for spans of at most 2^52 ns `end_time` is the last control's timestamp or 1 ns earlier, and not before the first.  Missing:
equality, which fails (previous theorem). -/
theorem c52_end_time_partial (T : Trajectory) (first last : TrajControl) (acc : List TrajControl) (h : Reached T acc)
    (hf : acc.head? = some first) (hl : acc.getLast? = some last) (hspan : last.atTime - first.atTime ≤ 2 ^ 52) :
    ∃ e, Trajectory.endTime T = .ok e ∧ last.atTime - 1 ≤ e ∧ e ≤ last.atTime ∧ first.atTime ≤ e := by
  have hI := inv_of_reached h
  have hne : acc ≠ [] := by rintro rfl; simp at hf
  have hlast : acc.getLast hne = last := by
    rw [List.getLast?_eq_getLast_of_ne_nil hne] at hl
    exact Option.some.inj hl
  have hs : first.atTime = T.startTime := hI.start first hf
  have hmemf : first ∈ acc := List.mem_of_mem_head? hf
  have hmeml : last ∈ acc := hlast ▸ List.getLast_mem hne
  have hi1 := int_of_reached h first hmemf
  have hi2 := int_of_reached h last hmeml
  have hle : first.atTime ≤ last.atTime := by
    obtain ⟨hp, -, -⟩ := c50_invariant T acc h
    cases acc with
    | nil => exact absurd rfl hne
    | cons x t =>
      obtain rfl : x = first := Option.some.inj hf
      rcases List.mem_cons.mp hmeml with e | e
      · rw [e]
      · exact ((List.pairwise_cons.mp hp).1 last e).le
  have habs : |last.atTime - first.atTime| = last.atTime - first.atTime := abs_of_nonneg (by omega)
  obtain ⟨r, hr, r1, r2⟩ := c10_within_one_ns_partial (last.atTime - first.atTime) (by rw [habs]; exact hspan)
  rw [habs] at r2
  have r1 := abs_le.mp r1
  have hr0 : 0 ≤ r := by
    have hr' := hr
    unfold asDuration i64 at hr'
    split_ifs at hr' with hin
    have e := Outcome.ok.inj hr'
    rcases c10_aux (last.atTime - first.atTime) (by omega) hspan with e' | e'
    · omega
    · by_cases hz : last.atTime - first.atTime = 0
      · rw [hz] at e
        simp [asSeconds, trunc] at e
        omega
      · omega
  have r2 : r ≤ last.atTime - first.atTime := by rwa [abs_of_nonneg hr0] at r2
  refine ⟨first.atTime + r, ?_, by omega, by omega, by omega⟩
  unfold Trajectory.endTime
  rw [timeDuration_eq hI hne, hlast, ← hs, hr, Outcome.ok_bind]
  apply i64_ok
  simp only [InI64, I64MAX, I64MIN] at *
  omega

/-- C52.  Whenever `end_time` is defined, `time_duration` is its distance from the start time. -/
theorem c52_duration (T : Trajectory) (e : Int) (h : Trajectory.endTime T = .ok e) : Trajectory.timeDuration T = .ok (e - T.startTime) := by
  unfold Trajectory.endTime at h
  obtain ⟨d, h1, h2⟩ := bind_ok h
  rw [h1]
  unfold i64 at h2
  split_ifs at h2
  have := Outcome.ok.inj h2
  congr 1
  omega

/-- C52.  For whole seconds after the start `end_time` is exact. -/
theorem c52_whole_seconds (T : Trajectory) (first last : TrajControl) (acc : List TrajControl) (h : Reached T acc)
    (hf : acc.head? = some first) (hl : acc.getLast? = some last) (s : Int) (hs : last.atTime - first.atTime = s * 1000000000)
    (hspan : |s * 1000000000| ≤ 2 ^ 53) : Trajectory.endTime T = .ok last.atTime := by
  have hI := inv_of_reached h
  have hne : acc ≠ [] := by rintro rfl; simp at hf
  have hlast : acc.getLast hne = last := by
    rw [List.getLast?_eq_getLast_of_ne_nil hne] at hl
    exact Option.some.inj hl
  have hst : first.atTime = T.startTime := hI.start first hf
  have hi2 := int_of_reached h last (hlast ▸ List.getLast_mem hne)
  unfold Trajectory.endTime
  rw [timeDuration_eq hI hne, hlast, ← hst, hs, c10_whole_seconds_exact s hspan, Outcome.ok_bind, ← hs]
  rw [show first.atTime + (last.atTime - first.atTime) = last.atTime by ring]
  exact i64_ok hi2

/-- C52.  Both are undefined exactly on a trajectory without controls (for spans of at most 2^52 ns). -/
theorem c52_empty (T : Trajectory) (h : Reached T []) : (Trajectory.endTime T).IsUB ∧ (Trajectory.timeDuration T).IsUB := by
  have h0 : T.curve.controls = [] := (inv_of_reached h).controls
  simp [Trajectory.endTime, Trajectory.timeDuration, h0]

example : ∃ T, Reached T ([5, 1000000005].map fun t => ⟨t, exAt quarterTurn ![1, 2, 3]⟩) ∧ Trajectory.endTime T = .ok 1000000005 := by
  obtain ⟨T, hT⟩ := exReached (fun _ => exAt quarterTurn ![1, 2, 3]) (fun _ => ⟨exAt_whole _ _, rfl, rfl⟩) 5 (by decide) [1000000005] (by decide)
    (by decide) (by decide)
  exact ⟨T, hT, c52_whole_seconds T _ _ _ hT rfl rfl 1 (by norm_num) (by norm_num)⟩

/-! ## Instances of the theorems above -/

/-- The theorems about reachable trajectories apply to it: it starts at 100 ns, its timestamps increase, and it has the frames of its states. -/
example : ∃ T, T.startTime = 100 ∧ Trajectory.bodyFrame T = .ok (exFrame 2) ∧ Trajectory.referenceFrame T = .ok (exFrame 1) ∧
    ([100, 115, 2000000000].map fun t => (⟨t, exAt quarterTurn ![1, 2, 3]⟩ : TrajControl)).Pairwise (fun a b => a.atTime < b.atTime) := by
  obtain ⟨T, hT⟩ := exReached (fun _ => exAt quarterTurn ![1, 2, 3]) (fun _ => ⟨exAt_whole _ _, rfl, rfl⟩) 100 (by decide) [115, 2000000000] (by decide)
    (by decide) (by decide)
  have hi := c50_invariant T _ hT
  exact ⟨T, c50_start_time T _ _ hT, (hi.2.1 ⟨100, exAt quarterTurn ![1, 2, 3]⟩ (by simp)).1, (hi.2.1 ⟨100, exAt quarterTurn ![1, 2, 3]⟩ (by simp)).2, hi.1⟩

/-- The first control. -/
example : (Trajectory.append Trajectory.empty ⟨100, exAt quarterTurn ![1, 2, 3]⟩).2 = .ok () ∧
    (Trajectory.append Trajectory.empty ⟨100, exAt quarterTurn ![1, 2, 3]⟩).1.startTime = 100 :=
  c50_first _ Reached.empty _ (exAt_whole _ _)

/-- A later control is accepted, one at the time of the last control is refused, and one whose distance from the first is no `int64` is undefined. -/
example : ∃ T : Trajectory, (Trajectory.append T ⟨120, exAt quarterTurn ![1, 2, 3]⟩).2 = .ok () ∧
    ((Trajectory.append T ⟨115, exAt quarterTurn ![1, 2, 3]⟩).2.IsThrow ∧ (Trajectory.append T ⟨115, exAt quarterTurn ![1, 2, 3]⟩).1 = T) ∧
    (Trajectory.append T ⟨-9223372036854775800, exAt quarterTurn ![1, 2, 3]⟩).2.IsUB := by
  obtain ⟨T, hT⟩ := exReached (fun _ => exAt quarterTurn ![1, 2, 3]) (fun _ => ⟨exAt_whole _ _, rfl, rfl⟩) 100 (by decide) [115] (by decide)
    (by decide) (by decide)
  refine ⟨T, ?_, ?_, ?_⟩
  · rw [c50_later_exactly T _ _ hT ⟨120, exAt quarterTurn ![1, 2, 3]⟩ (exAt_whole _ _) (by simp)]
    simp
  · have ha := c50_append T _ _ hT ⟨115, exAt quarterTurn ![1, 2, 3]⟩ (exAt_whole _ _) (by decide)
    exact ha.2 fun hok => absurd (ha.1.mp hok ⟨115, exAt quarterTurn ![1, 2, 3]⟩ (by simp)).2.2 (lt_irrefl _)
  · rw [c50_undefined_iff T _ _ hT ⟨-9223372036854775800, exAt quarterTurn ![1, 2, 3]⟩ (exAt_whole _ _)]
    exact ⟨by decide, by simp⟩

/-- Two controls at once, and a list whose second control is not later than its first. -/
example : (Trajectory.make ([100, 115].map fun t => (⟨t, exAt quarterTurn ![1, 2, 3]⟩ : TrajControl))).IsOk ∧
    (Trajectory.make ([100, 100].map fun t => (⟨t, exAt quarterTurn ![1, 2, 3]⟩ : TrajControl))).IsThrow := by
  have hw : ∀ ts : List Int, ∀ p ∈ ts.map (fun t => (⟨t, exAt quarterTurn ![1, 2, 3]⟩ : TrajControl)), Whole p.state.refFromBody := by
    intro ts p hp
    obtain ⟨t, -, rfl⟩ := List.mem_map.mp hp
    exact exAt_whole _ _
  have h1 := c50_construct_iff ([100, 115].map fun t => (⟨t, exAt quarterTurn ![1, 2, 3]⟩ : TrajControl)) (hw _) (by simp; decide) (by simp)
  have h2 := c50_construct_iff ([100, 100].map fun t => (⟨t, exAt quarterTurn ![1, 2, 3]⟩ : TrajControl)) (hw _) (by simp; decide) (by simp)
  refine ⟨h1.1.mpr (by simp), h2.2.resolve_left fun h => ?_⟩
  have := h2.1.mp h
  simp at this

/-- A list whose third control is too early, appended to a trajectory with one control. -/
example : ∃ (T : Trajectory) (k : Nat), k ≤ 3 ∧
    ((Trajectory.appendList T ([115, 130, 120].map fun t => (⟨t, exAt quarterTurn ![1, 2, 3]⟩ : TrajControl))).2 = .ok () ↔ k = 3) := by
  obtain ⟨T, hT⟩ := exReached (fun _ => exAt quarterTurn ![1, 2, 3]) (fun _ => ⟨exAt_whole _ _, rfl, rfl⟩) 100 (by decide) [] (by decide)
    (by decide) (by decide)
  obtain ⟨k, k1, k2, -⟩ := c50_append_list T _ hT ([115, 130, 120].map fun t => (⟨t, exAt quarterTurn ![1, 2, 3]⟩ : TrajControl))
    (fun p hp => by obtain ⟨t, -, rfl⟩ := List.mem_map.mp hp; exact exAt_whole _ _) (by simp; decide)
  exact ⟨T, k, k1, k2⟩

/-- C51 at work: a state inside, exceptions outside and for a single control. -/
example : ∃ T T1 : Trajectory, (∃ s, Trajectory.pointAt T 107 = .ok s) ∧ (Trajectory.pointAt T 99).IsThrow ∧ (Trajectory.pointAt T1 100).IsThrow := by
  obtain ⟨T, hT⟩ := exReached (fun _ => exAt quarterTurn ![1, 2, 3]) (fun _ => ⟨exAt_whole _ _, rfl, rfl⟩) 100 (by decide) [115] (by decide)
    (by decide) (by decide)
  obtain ⟨T1, hT1⟩ := exReached (fun _ => exAt quarterTurn ![1, 2, 3]) (fun _ => ⟨exAt_whole _ _, rfl, rfl⟩) 100 (by decide) [] (by decide)
    (by decide) (by decide)
  obtain ⟨s, hs, -⟩ := c51_inside T _ _ [] hT 107 (by norm_num) (by norm_num)
  exact ⟨T, T1, ⟨s, hs⟩, (c51_outside T _ _ [] hT 99 (by norm_num) (by norm_num) (by norm_num)).1,
    c51_short T1 _ hT1 (by simp) 100 (by rw [c50_start_time T1 _ _ hT1]; decide)⟩

/-- The end time of two controls 15 ns apart is off by at most one, and the duration belongs to it. -/
example : ∃ (T : Trajectory) (e : Int), Trajectory.endTime T = .ok e ∧ 114 ≤ e ∧ e ≤ 115 ∧ Trajectory.timeDuration T = .ok (e - 100) := by
  obtain ⟨T, hT⟩ := exReached (fun _ => exAt quarterTurn ![1, 2, 3]) (fun _ => ⟨exAt_whole _ _, rfl, rfl⟩) 100 (by decide) [115] (by decide)
    (by decide) (by decide)
  obtain ⟨e, he, h1, h2, -⟩ := c52_end_time_partial T _ _ _ hT rfl rfl (by norm_num)
  have hd := c52_duration T e he
  rw [c50_start_time T _ _ hT] at hd
  exact ⟨T, e, he, by simpa using h1, h2, hd⟩

end Verif.Props
