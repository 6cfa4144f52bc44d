import Verif.Proofs.Unpack
/-! # Lemmas for C77: what each operation keeps of its arguments -/
namespace Verif.Props
open Verif Verif.Proto Verif.Framed Verif.Spec

/-- If the call returns, the value it returns satisfies `P`. -/
def Yields {α : Type} (P : α → Prop) (x : Outcome α) : Prop := ∀ a, x = .ok a → P a

theorem yields_ok {α : Type} {P : α → Prop} {a : α} (h : P a) : Yields P (.ok a) := fun _ e => Outcome.ok.inj e ▸ h
theorem yields_throw {α : Type} {P : α → Prop} (m : String) : Yields P (.throw m : Outcome α) := fun _ e => by cases e
theorem yields_ub {α : Type} {P : α → Prop} (m : String) : Yields P (.ub m : Outcome α) := fun _ e => by cases e
theorem yields_any {α : Type} (x : Outcome α) : Yields (fun _ => True) x := fun _ _ => trivial

theorem yields_bind {α β : Type} {P : α → Prop} {Q : β → Prop} {x : Outcome α} {f : α → Outcome β} (hx : Yields P x)
    (hf : ∀ a, P a → Yields Q (f a)) : Yields Q (x >>= f) := by
  match x, hx with
  | .ok a, hx => exact hf a (hx a rfl)
  | .throw m, _ => exact yields_throw m
  | .ub w, _ => exact yields_ub w

variable {G A V : Type} [AddCommGroup A] [Module ℝ A] {L : LieOps ℝ G A V} {valid : G → Prop}

/-- Framed on both sides or on neither, with a valid value. -/
def GoodG (valid : G → Prop) (g : Framed G) : Prop := Whole g ∧ valid g.val

theorem good_unframed {g : G} (h : valid g) : GoodG valid (unframed g) := ⟨by simp [Whole, unframed], h⟩

theorem yields_mk' {g : G} {i s : Frame} (h : valid g) : Yields (GoodG valid) (mk' g i s) := by
  intro a e
  obtain ⟨h1, rfl⟩ := mk'_eq_ok_iff.mp e
  exact ⟨h1, h⟩

theorem yields_mul (H : LieLaws L valid) {a b : Framed G} (ha : GoodG valid a) (hb : GoodG valid b) : Yields (GoodG valid) (Framed.mul L a b) := by
  unfold Framed.mul
  split_ifs
  · exact yields_ok (good_unframed (H.valid_mul ha.2 hb.2))
  · exact yields_mk' (H.valid_mul ha.2 hb.2)
  · exact yields_throw _

theorem yields_inverse (H : LieLaws L valid) {a : Framed G} (ha : GoodG valid a) : Yields (GoodG valid) (Framed.inverse L a) :=
  yields_mk' (H.valid_inv ha.2)

theorem yields_setFrames {a : Framed G} (ha : GoodG valid a) (i s : Frame) : Yields (GoodG valid) (Framed.setFrames a i s) := by
  unfold Framed.setFrames
  split_ifs with hc
  · refine yields_ok ⟨?_, ha.2⟩
    simp at hc
    simp [Whole, hc]
  · exact yields_throw _

omit [AddCommGroup A] [Module ℝ A] in
theorem yields_exp (he : ∀ x, valid (L.exp x)) (x : A) (i s : Frame) : Yields (GoodG valid) (Framed.exp L x i s) := yields_mk' (he x)

omit [AddCommGroup A] [Module ℝ A] in
theorem yields_interpNewFrom (he : ∀ x, valid (L.exp x)) (a : Framed G) (f : ℝ) (n : Frame) : Yields (GoodG valid) (Framed.interpNewFrom L a f n) := by
  unfold Framed.interpNewFrom
  split_ifs
  · exact yields_exp he _ _ _
  · exact yields_throw _

theorem yields_jetL_mul (H : LieLaws L valid) {a b : TwoJetL G A} (ha : GoodG valid a.g) (hb : GoodG valid b.g) :
    Yields (fun j => GoodG valid j.g) (TwoJetL.mul L a b) := yields_bind (yields_mul H ha hb) fun _ h => yields_ok h

theorem yields_jetL_right (H : LieLaws L valid) {a : TwoJetL G A} (ha : GoodG valid a.g) :
    Yields (fun j => GoodG valid j.g) (TwoJetL.right L a) := yields_bind (yields_inverse H ha) fun _ h => yields_ok h

theorem yields_jetL_identity (H : LieLaws L valid) (i s : Frame) : Yields (fun j => GoodG valid j.g) (TwoJetL.identity L i s) :=
  yields_bind (yields_mk' H.valid_one) fun _ h => yields_ok h

theorem yields_jetL_inverse (H : LieLaws L valid) {a : TwoJetL G A} (ha : GoodG valid a.g) :
    Yields (fun j => GoodG valid j.g) (TwoJetL.inverse L a) := yields_bind (yields_inverse H ha) fun _ h => yields_ok h

theorem yields_jetR_mul (H : LieLaws L valid) {a b : TwoJetR G A} (ha : GoodG valid a.g) (hb : GoodG valid b.g) :
    Yields (fun j => GoodG valid j.g) (TwoJetR.mul L a b) :=
  yields_bind (yields_mul H ha hb) fun _ h => yields_bind (yields_any _) fun _ _ => yields_ok h

theorem yields_jetR_left (H : LieLaws L valid) {a : TwoJetR G A} (ha : GoodG valid a.g) :
    Yields (fun j => GoodG valid j.g) (TwoJetR.left L a) := yields_bind (yields_inverse H ha) fun _ h => yields_ok h

theorem yields_jetR_identity (H : LieLaws L valid) (i s : Frame) : Yields (fun j => GoodG valid j.g) (TwoJetR.identity L i s) :=
  yields_bind (yields_mk' H.valid_one) fun _ h => yields_ok h

theorem yields_jetR_inverse (H : LieLaws L valid) {a : TwoJetR G A} (ha : GoodG valid a.g) :
    Yields (fun j => GoodG valid j.g) (TwoJetR.inverse L a) := yields_bind (yields_inverse H ha) fun _ h => yields_ok h

theorem yields_accumulate (H : LieLaws L valid) (he : ∀ x, valid (L.exp x)) (seg : TSegment G A) (k : PolyCoeffs) (v : A) {p : TwoJetL G A}
    (hp : GoodG valid p.g) : Yields (fun j => GoodG valid j.g) (TSegment.accumulate L seg k v p) :=
  yields_bind (yields_exp he _ _ _) fun _ h => yields_jetL_mul H h hp

theorem yields_segment (H : LieLaws L valid) (he : ∀ x, valid (L.exp x)) (seg : TSegment G A) (hs : GoodG valid seg.orig.g) (t : ℝ) :
    Yields (fun j => GoodG valid j.g) (TSegment.pointAt L seg t) :=
  yields_bind (yields_mk' H.valid_one) fun _ h0 => yields_bind (yields_any _) fun _ _ => yields_bind (yields_any _) fun _ _ =>
    yields_bind (yields_accumulate H he seg _ _ h0) fun _ h1 => yields_bind (yields_accumulate H he seg _ _ h1) fun _ h2 =>
    yields_bind (yields_accumulate H he seg _ _ h2) fun _ h3 => yields_bind (yields_accumulate H he seg _ _ h3) fun _ h4 =>
    yields_bind (yields_accumulate H he seg _ _ h4) fun _ h5 => yields_bind (yields_mul H h5 hs) fun _ h6 => yields_ok h6

theorem goodT_append {c : TCurve G A} (h : GoodT valid c) (p : TControl G A) (hp : GoodG valid p.point.g) :
    GoodT valid (TCurve.append c p).1 := by
  obtain ⟨a1, a2, a3, a4⟩ := c40_append c h.1 p
  refine ⟨h.1.append p, ?_⟩
  by_cases hm : MayFollow c.controls p
  · rw [WholeFrames, a3 hm]
    constructor
    all_goals
      intro q hq
      rw [List.mem_append, List.mem_singleton] at hq
      rcases hq with hq | rfl
    exacts [h.2.1 q hq, hp.1, h.2.2 q hq, hp.2]
  · rw [a4 hm]
    exact h.2

theorem goodT_segment {c : TCurve G A} (h : GoodT valid c) (s : TPiece G A) (hs : s ∈ c.segments) :
    GoodG valid s.curve.orig.g ∧ GoodG valid s.curve.dest.g := by
  have hi := inv_of_built h.1
  obtain ⟨i, hi', rfl⟩ := List.mem_iff_getElem.mp hs
  have hl : i + 1 < c.controls.length := by have := hi.length; omega
  have e := hi.segment hl
  rw [List.getElem?_eq_getElem hi'] at e
  rw [Option.some.inj e]
  exact ⟨⟨h.2.1 _ (List.getElem_mem _), h.2.2 _ (List.getElem_mem _)⟩, ⟨h.2.1 _ (List.getElem_mem _), h.2.2 _ (List.getElem_mem _)⟩⟩

theorem yields_curve (H : LieLaws L valid) (he : ∀ x, valid (L.exp x)) {c : TCurve G A} (h : GoodT valid c) (t : ℝ) :
    Yields (fun j => GoodG valid j.g) (TCurve.pointAt L c t) := by
  have h1 : Yields (fun d => d.piece ∈ c.segments) (TCurve.pointAtImpl c t) := by
    unfold TCurve.pointAtImpl
    refine yields_bind (yields_any _) fun _ _ => ?_
    split
    · refine yields_bind (yields_any _) fun _ _ => ?_
      split
      · exact yields_ub _
      · rename_i s hs
        dsimp only
        split_ifs
        · exact yields_ub _
        · exact yields_ok (List.mem_of_getElem? hs)
    · exact yields_ub _
  exact yields_bind h1 fun d hd => yields_bind (yields_segment H he _ (goodT_segment h _ hd).1 _) fun _ h2 => yields_ok h2

/-- What holds of distance curves. -/
def GoodD (L : LieOps ℝ G A V) (arc : G → ℝ) (valid : G → Prop) (c : DCurve G) : Prop := DBuilt L arc c ∧ ∀ p ∈ c.controls, valid p.pose.val

omit [AddCommGroup A] [Module ℝ A] in
theorem goodD_append {arc : G → ℝ} {c : DCurve G} (h : GoodD L arc valid c) (p : Framed G) (hp : GoodG valid p) :
    GoodD L arc valid (DCurve.append L arc c p).1 := by
  obtain ⟨a1, a2, a3, a4⟩ := c42_append L arc c h.1 p hp.1
  refine ⟨h.1.append p hp.1, ?_⟩
  by_cases hm : DMayFollow c.controls p
  · intro q hq
    have hq' : q.pose ∈ (DCurve.append L arc c p).1.controls.map (·.pose) := List.mem_map_of_mem hq
    rw [(a3 hm).1, List.mem_append, List.mem_singleton] at hq'
    rcases hq' with hq' | e
    · obtain ⟨x, hx, e⟩ := List.mem_map.mp hq'
      rw [← e]
      exact h.2 x hx
    · rw [e]; exact hp.2
  · rw [a4 hm]
    exact h.2

omit [AddCommGroup A] [Module ℝ A] in
theorem goodD_control {arc : G → ℝ} {c : DCurve G} (h : GoodD L arc valid c) (p : DControl G) (hp : p ∈ c.controls) : GoodG valid p.pose :=
  ⟨(dInv_of_built h.1).whole p hp, h.2 p hp⟩

theorem yields_rel (H : LieLaws L valid) {a b : Framed G} (ha : GoodG valid a) (hb : GoodG valid b) : GoodG valid (DCurve.rel L a b) :=
  ⟨DCurve.rel_whole L ha.1 hb.1, by rw [DCurve.rel_val]; exact H.valid_mul (H.valid_inv ha.2) hb.2⟩

theorem goodD_segment (H : LieLaws L valid) {arc : G → ℝ} {c : DCurve G} (h : GoodD L arc valid c) (s : DSegment G) (hs : s ∈ c.segments) :
    GoodG valid s.refFromOrig ∧ GoodG valid s.refFromDest ∧ GoodG valid s.origFromDest := by
  have hi := dInv_of_built h.1
  obtain ⟨i, hi', rfl⟩ := List.mem_iff_getElem.mp hs
  have hl : i + 1 < c.controls.length := by have := DCurve.Inv.length L arc hi; omega
  rw [DCurve.Inv.segment L arc hi hl hi']
  have g1 := goodD_control h c.controls[i] (List.getElem_mem _)
  have g2 := goodD_control h c.controls[i + 1] (List.getElem_mem _)
  exact ⟨g1, g2, yields_rel H g1 g2⟩

theorem yields_dcurve (H : LieLaws L valid) (he : ∀ x, valid (L.exp x)) {arc : G → ℝ} {c : DCurve G} (h : GoodD L arc valid c) (s : ℝ) :
    Yields (GoodG valid) (DCurve.pointAt L c s) := by
  have h1 : Yields (fun d => d.1 ∈ c.segments) (DCurve.pointAtImpl c s) := by
    unfold DCurve.pointAtImpl
    refine yields_bind (yields_any _) fun _ _ => yields_bind (yields_any _) fun _ _ => ?_
    split
    · exact yields_throw _
    · rename_i g hg
      split_ifs
      · exact yields_ub _
      · exact yields_ok (List.mem_of_find?_eq_some hg)
  exact yields_bind h1 fun d hd => yields_bind (yields_exp he _ _ _) fun _ h2 => yields_mul H (goodD_segment H h _ hd).1 h2

/-- What holds of trajectories. -/
def GoodTraj (T : Trajectory) : Prop := GoodT PoseValid T.curve

theorem goodTraj_push {T : Trajectory} (h : GoodTraj T) (p : TrajControl) (hp : GoodG PoseValid p.state.jet.g) : GoodTraj (Trajectory.push T p).1 := by
  unfold Trajectory.push
  split
  · split
    · rename_i j hj
      exact goodT_append h _ (yields_jetR_left se3Laws hp j hj)
    all_goals exact h
  all_goals exact h

theorem goodTraj_append {T : Trajectory} (h : GoodTraj T) (p : TrajControl) (hp : GoodG PoseValid p.state.jet.g) : GoodTraj (Trajectory.append T p).1 := by
  unfold Trajectory.append
  split_ifs
  · exact goodTraj_push (T := { T with startTime := p.atTime }) h p hp
  · split
    · split_ifs
      · exact goodTraj_push h p hp
      · exact h
    all_goals exact h

theorem yields_traj {T : Trajectory} (h : GoodTraj T) (d : Int) : Yields (fun s => GoodG PoseValid s.jet.g) (Trajectory.pointAtDuration T d) :=
  yields_bind (yields_curve se3Laws se3_exp_valid h _) fun _ h1 => yields_bind (yields_jetL_right se3Laws h1) fun _ h2 => yields_ok h2

theorem yields_traj_at {T : Trajectory} (h : GoodTraj T) (t : Int) : Yields (fun s => GoodG PoseValid s.jet.g) (Trajectory.pointAt T t) :=
  yields_bind (yields_any _) fun d _ => yields_traj h d

end Verif.Props
