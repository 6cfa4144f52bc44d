import Verif.Model.Proto
import Verif.Props.Uuid
import Verif.Props.Timestamp
import Verif.Props.DCurve
import Verif.Props.Trajectory
import Mathlib.Data.List.OfFn
/-! # Packing and unpacking: helper lemmas -/
namespace Verif.Proto
open Verif Framed Props

theorem flat_eq_ofFn {K : Type} {r c : Nat} (M : Matrix (Fin r) (Fin c) K) :
    flat M = List.ofFn (n := c * r) fun k =>
      M ⟨k.val % r, Nat.mod_lt _ (Nat.pos_of_ne_zero fun h => by have := k.isLt; subst h; simp at this)⟩
        ⟨k.val / r, Nat.div_lt_of_lt_mul (Nat.lt_of_lt_of_eq k.isLt (Nat.mul_comm c r))⟩ := by
  rw [List.ofFn_mul]
  unfold flat
  rw [List.flatMap_def]
  congr 1
  rw [← List.ofFn_eq_map]
  congr 1
  funext j
  rw [← List.ofFn_eq_map]
  congr 1
  funext i
  have hr : 0 < r := i.pos
  congr 1
  · apply Fin.ext
    simp [Nat.add_mod, Nat.mod_eq_of_lt i.isLt]
  · apply Fin.ext
    simp [Nat.add_comm _ i.val, Nat.add_mul_div_right _ _ hr, Nat.div_eq_of_lt i.isLt]

theorem flat_length {K : Type} {r c : Nat} (M : Matrix (Fin r) (Fin c) K) : (flat M).length = r * c := by
  rw [flat_eq_ofFn, List.length_ofFn, Nat.mul_comm]

theorem flat_get {K : Type} {r c : Nat} (M : Matrix (Fin r) (Fin c) K) (i : Fin r) (j : Fin c) (h : j.val * r + i.val < (flat M).length) :
    (flat M)[j.val * r + i.val] = M i j := by
  have hr : 0 < r := i.pos
  simp only [flat_eq_ofFn, List.getElem_ofFn]
  congr 1
  · apply Fin.ext
    simp [Nat.add_mod, Nat.mod_eq_of_lt i.isLt]
  · apply Fin.ext
    simp [Nat.add_comm _ i.val, Nat.add_mul_div_right _ _ hr, Nat.div_eq_of_lt i.isLt]

theorem packMatrix_some {K : Type} {r c : Nat} (M : Matrix (Fin r) (Fin c) K) (old : List K) : packMatrix M (some old) = .ok (flat M) := by
  simp [packMatrix]

theorem unpackMatrix_flat {K : Type} {r c : Nat} (M out : Matrix (Fin r) (Fin c) K) : unpackMatrix (flat M) out = .ok M := by
  unfold unpackMatrix
  rw [dif_pos (flat_length M)]
  congr 1
  ext i j
  exact flat_get M i j _

theorem packVec_some {n : Nat} (v : Fin n → ℝ) (old : List ℝ) : packVec v (some old) = .ok (flat (Matrix.of fun i (_ : Fin 1) => v i)) :=
  packMatrix_some _ _

theorem unpackVec_flat {n : Nat} (v : Fin n → ℝ) : unpackVec n (flat (Matrix.of fun i (_ : Fin 1) => v i)) = .ok v := by
  unfold unpackVec
  rw [unpackMatrix_flat]
  rfl

theorem uuid_pack_some (u : Uuid) (old : Uuid.Msg) : Uuid.pack u (some old) = .ok { data := u.toStr } := by
  simp [Uuid.pack, Outcome.reassert]

theorem uuid_unpack_pack (u : Uuid) : Uuid.unpack { data := u.toStr } = .ok u := c17_print_parse u

theorem packFrame_some (f : Frame) (old : FrameMsg) : packFrame f (some old) = .ok { id := some { data := f.id.toStr } } := by
  simp [packFrame, uuid_pack_some]

theorem unpackFrame_pack (f : Frame) : unpackFrame { id := some { data := f.id.toStr } } = .ok f := by
  simp [unpackFrame, uuid_unpack_pack]

/-- A layout that loses nothing. -/
def Layout.Faithful {A : Type} (F : Layout A) : Prop := ∀ x, F.dec (F.enc x) = x

theorem so3Layout_faithful : so3Layout.Faithful := fun _ => rfl

theorem se3Layout_faithful : se3Layout.Faithful := by
  intro x
  refine Prod.ext ?_ ?_
  · funext i
    change (if h : i.val < 3 then x.1 ⟨i.val, h⟩ else _) = x.1 i
    rw [dif_pos i.isLt]
  · funext i
    change (if h : i.val + 3 < 3 then x.1 ⟨i.val + 3, h⟩ else x.2 ⟨i.val + 3 - 3, _⟩) = x.2 i
    rw [dif_neg (by omega)]
    congr 1

variable {G A V : Type}

/-- A transform whose data went through `log` and `exp`. -/
def viaLog (L : LieOps ℝ G A V) (g : Framed G) : Framed G := ⟨L.exp (L.log g.val), g.into, g.src⟩

theorem group_roundtrip (L : LieOps ℝ G A V) {F : Layout A} (hF : F.Faithful) {g : Framed G} (hw : Whole g) :
    ∃ m, (∀ old, packGroup L F g (some old) = .ok m) ∧ unpackGroup L F m = .ok (viaLog L g) := by
  refine ⟨_, fun old => by simp only [packGroup, packVec_some, packFrame_some, Outcome.ok_bind]; rfl, ?_⟩
  simp only [unpackGroup, unpackVec_flat, Option.getD_some, unpackFrame_pack, Outcome.ok_bind, hF _]
  unfold Framed.exp
  rw [mk'_ok hw]
  rfl

/-- A two-jet whose group part went through `log` and `exp`. -/
def viaLogL (L : LieOps ℝ G A V) (j : TwoJetL G A) : TwoJetL G A := ⟨viaLog L j.g, j.d, j.d2⟩

/-- The same for right two-jets. -/
def viaLogR (L : LieOps ℝ G A V) (j : TwoJetR G A) : TwoJetR G A := ⟨viaLog L j.g, j.d, j.d2⟩

theorem twoJetL_roundtrip (L : LieOps ℝ G A V) {F : Layout A} (hF : F.Faithful) {j : TwoJetL G A} (hw : Whole j.g) :
    ∃ m, (∀ old, packTwoJetL L F j (some old) = .ok m) ∧ unpackTwoJetL L F m = .ok (viaLogL L j) := by
  obtain ⟨m, h1, h2⟩ := group_roundtrip L hF hw
  refine ⟨⟨some m, flat (Matrix.of fun i (_ : Fin 1) => F.enc j.d i), flat (Matrix.of fun i (_ : Fin 1) => F.enc j.d2 i)⟩, fun old => ?_, ?_⟩
  · simp only [packTwoJetL, h1, packVec_some, Outcome.ok_bind]
  · simp only [unpackTwoJetL, Option.getD_some, h2, unpackVec_flat, Outcome.ok_bind, hF _]
    rfl

theorem twoJetR_roundtrip (L : LieOps ℝ G A V) {F : Layout A} (hF : F.Faithful) {j : TwoJetR G A} (hw : Whole j.g) :
    ∃ m, (∀ old, packTwoJetR L F j (some old) = .ok m) ∧ unpackTwoJetR L F m = .ok (viaLogR L j) := by
  obtain ⟨m, h1, h2⟩ := group_roundtrip L hF hw
  refine ⟨⟨some m, flat (Matrix.of fun i (_ : Fin 1) => F.enc j.d i), flat (Matrix.of fun i (_ : Fin 1) => F.enc j.d2 i)⟩, fun old => ?_, ?_⟩
  · simp only [packTwoJetR, h1, packVec_some, Outcome.ok_bind]
  · simp only [unpackTwoJetR, Option.getD_some, h2, unpackVec_flat, Outcome.ok_bind, hF _]
    rfl

/-! ## Time curves -/

/-- How an append sequence ends, as one outcome. -/
def ended {C : Type} : C × Outcome Unit → Outcome C
  | (c, .ok ()) => .ok c
  | (_, .throw m) => .throw m
  | (_, .ub w) => .ub w

/-- A message holds this control point. -/
def Holds (L : LieOps ℝ G A V) (F : Layout A) (m : ControlMsg) (p : TControl G A) : Prop :=
  m.time = p.time ∧ unpackTwoJetL L F (m.point.getD {}) = .ok p.point

theorem packControls_spec (L : LieOps ℝ G A V) {F : Layout A} (hF : F.Faithful) (cs : List (TControl G A))
    (hw : ∀ p ∈ cs, Whole p.point.g) :
    ∃ ms, (∀ m, packControls L F m cs = .ok ⟨m.points ++ ms⟩) ∧
      List.Forall₂ (Holds L F) ms (cs.map fun p => ⟨p.time, viaLogL L p.point⟩) := by
  induction cs with
  | nil => exact ⟨[], fun m => by simp [packControls], by simp⟩
  | cons c cs ih =>
    obtain ⟨ms, h1, h2⟩ := ih fun p hp => hw p (by simp [hp])
    obtain ⟨m, h3, h4⟩ := twoJetL_roundtrip L hF (hw c (by simp))
    refine ⟨⟨c.time, some m⟩ :: ms, fun m' => ?_, ?_⟩
    · simp only [packControls, h3, Outcome.ok_bind, h1]
      simp
    · rw [List.map_cons]
      exact List.Forall₂.cons ⟨rfl, h4⟩ h2

section
variable [AddCommGroup A] [Module ℝ A]

theorem unpackControls_spec (L : LieOps ℝ G A V) {F : Layout A} (ms : List ControlMsg) (cs : List (TControl G A))
    (h : List.Forall₂ (Holds L F) ms cs) (c : TCurve G A) : unpackControls L F c ms = ended (TCurve.appendList c cs) := by
  induction h generalizing c with
  | nil => rfl
  | @cons m p ms cs h1 _ ih =>
    obtain ⟨h2, h3⟩ := h1
    rw [unpackControls, h3, Outcome.ok_bind, h2, TCurve.appendList]
    match TCurve.append c p with
    | (c', .ok ()) => exact ih c'
    | (c', .throw s) => rfl
    | (c', .ub s) => rfl

theorem replay_t {c : TCurve G A} (h : Built c) (f : TwoJetL G A → TwoJetL G A) (hf : ∀ j, (f j).g.into = j.g.into ∧ (f j).g.src = j.g.src) :
    ∃ c' : TCurve G A, Built c' ∧ c'.controls = c.controls.map (fun p => ⟨p.time, f p.point⟩) ∧
      TCurve.appendList TCurve.empty (c.controls.map fun p => ⟨p.time, f p.point⟩) = (c', .ok ()) := by
  obtain ⟨times, frames⟩ := c40_invariant c h
  set l : List (TControl G A) := c.controls.map fun p => ⟨p.time, f p.point⟩ with hl
  obtain ⟨k, k1, k2, -, k4, k5, -, k7⟩ := c40_append_list TCurve.empty Built.empty l
  have hk : k = l.length := by
    by_contra hne
    have hlt : k < l.length := by omega
    apply k4 hlt
    intro q hq
    have hq' : q ∈ l.take k := by simpa [TCurve.empty] using hq
    obtain ⟨i, hi, rfl⟩ := List.mem_take_iff_getElem.mp hq'
    have hlen : l.length = c.controls.length := by simp [hl]
    have hik : i < k := by omega
    have hk' : k < c.controls.length := by omega
    have ht := List.pairwise_iff_getElem.mp times i k (by omega) hk' hik
    have hfr := frames _ (List.getElem_mem (show i < c.controls.length by omega)) _ (List.getElem_mem hk')
    simp only [hl, List.getElem_map]
    rw [(hf _).1, (hf _).2, (hf _).1, (hf _).2]
    exact ⟨ht, hfr⟩
  refine ⟨_, k7, ?_, ?_⟩
  · rw [k2, hk]; simp [TCurve.empty]
  · exact Prod.ext rfl (k5.mpr hk)

theorem t_determined {c d : TCurve G A} (hc : Built c) (hd : Built d) (h : c.controls = d.controls) : c = d := by
  have h1 := (inv_of_built hc).segments
  have h2 := (inv_of_built hd).segments
  cases c; cases d
  simp only at h h1 h2
  subst h
  rw [h1, h2]

theorem tcurve_roundtrip (L : LieOps ℝ G A V) {F : Layout A} (hF : F.Faithful) {c : TCurve G A} (h : Built c) (hw : ∀ p ∈ c.controls, Whole p.point.g) :
    ∃ m, (∀ old, packTCurve L F c (some old) = .ok m) ∧ ∃ c', unpackTCurve L F m = .ok c' ∧ Built c' ∧
      c'.controls = c.controls.map fun p => ⟨p.time, viaLogL L p.point⟩ := by
  obtain ⟨ms, h1, h2⟩ := packControls_spec L hF c.controls hw
  obtain ⟨c', h3, h4, h5⟩ := replay_t h (viaLogL L) fun j => ⟨rfl, rfl⟩
  refine ⟨⟨ms⟩, fun old => ?_, c', ?_, h3, h4⟩
  · rw [packTCurve, h1]
    rfl
  · rw [unpackTCurve, unpackControls_spec L ms _ h2, h5]
    rfl
end

/-! ## Distance curves -/

theorem packPoses_spec (L : LieOps ℝ G A V) {F : Layout A} (hF : F.Faithful) (cs : List (DControl G)) (hw : ∀ p ∈ cs, Whole p.pose) :
    ∃ ms, (∀ m, packPoses L F m cs = .ok ⟨m.refFromControl ++ ms⟩) ∧
      List.Forall₂ (fun m g => unpackGroup L F m = .ok g) ms (cs.map fun p => viaLog L p.pose) := by
  induction cs with
  | nil => exact ⟨[], fun m => by simp [packPoses], by simp⟩
  | cons c cs ih =>
    obtain ⟨ms, h1, h2⟩ := ih fun p hp => hw p (by simp [hp])
    obtain ⟨m, h3, h4⟩ := group_roundtrip L hF (hw c (by simp))
    refine ⟨m :: ms, fun m' => ?_, ?_⟩
    · simp only [packPoses, h3, Outcome.ok_bind, h1]
      simp
    · rw [List.map_cons]
      exact List.Forall₂.cons h4 h2

theorem unpackPoses_spec (L : LieOps ℝ G A V) {F : Layout A} (ms : List GroupMsg) (gs : List (Framed G))
    (h : List.Forall₂ (fun m g => unpackGroup L F m = .ok g) ms gs) (acc : List (Framed G)) : unpackPoses L F acc ms = .ok (acc ++ gs) := by
  induction h generalizing acc with
  | nil => simp [unpackPoses]
  | @cons m g ms gs h1 _ ih =>
    rw [unpackPoses, h1, Outcome.ok_bind, ih]
    simp

theorem appendList_concat (L : LieOps ℝ G A V) (arc : G → ℝ) (l : List (Framed G)) (c c' : DCurve G) (p : Framed G)
    (h : DCurve.appendList L arc c l = (c', .ok ())) : DCurve.appendList L arc c (l ++ [p]) = DCurve.append L arc c' p := by
  induction l generalizing c with
  | nil =>
    simp only [DCurve.appendList, Prod.mk.injEq, and_true] at h
    subst h
    rw [List.nil_append, DCurve.appendList]
    match DCurve.append L arc c p with
    | (_, .ok ()) => rfl
    | (_, .throw _) => rfl
    | (_, .ub _) => rfl
  | cons q l ih =>
    rw [DCurve.appendList] at h
    rw [List.cons_append, DCurve.appendList]
    revert h
    match DCurve.append L arc c q with
    | (d, .ok ()) => exact fun h => ih d h
    | (_, .throw _) => intro h; cases h
    | (_, .ub _) => intro h; cases h

theorem dMayFollow_map {l l' : List (DControl G)} (f : Framed G → Framed G) (hf : ∀ g, (f g).into = g.into ∧ (f g).src = g.src)
    (h : l'.map (·.pose) = l.map fun p => f p.pose) (p : Framed G) (hm : DMayFollow l p) : DMayFollow l' (f p) := by
  have e1 : l'.head?.map (·.pose) = l.head?.map fun p => f p.pose := by rw [← List.head?_map, h, List.head?_map]
  have e2 : l'.getLast?.map (·.pose) = l.getLast?.map fun p => f p.pose := by rw [← List.getLast?_map, h, List.getLast?_map]
  refine ⟨fun q hq => ?_, fun q hq => ?_⟩
  · rw [hq] at e1
    cases hl : l.head? with
    | none => rw [hl] at e1; cases e1
    | some a =>
      rw [hl] at e1
      have e : q.pose = f a.pose := by simpa using e1
      rw [e, (hf _).1, (hf _).2, (hf _).1, (hf _).2]
      exact hm.1 a hl
  · rw [hq] at e2
    cases hl : l.getLast? with
    | none => rw [hl] at e2; cases e2
    | some a =>
      rw [hl] at e2
      have e : q.pose = f a.pose := by simpa using e2
      rw [e, (hf _).1, (hf _).1]
      exact hm.2 a hl

theorem replay_d {L : LieOps ℝ G A V} {arc : G → ℝ} {c : DCurve G} (h : DBuilt L arc c) (f : Framed G → Framed G)
    (hf : ∀ g, (f g).into = g.into ∧ (f g).src = g.src) :
    ∃ c' : DCurve G, DBuilt L arc c' ∧ c'.controls.map (·.pose) = c.controls.map (fun p => f p.pose) ∧
      DCurve.appendList L arc DCurve.empty (c.controls.map fun p => f p.pose) = (c', .ok ()) := by
  induction h with
  | empty => exact ⟨DCurve.empty, DBuilt.empty, rfl, rfl⟩
  | @append c h p hp ih =>
    obtain ⟨c', b, e, r⟩ := ih
    by_cases hm : DMayFollow c.controls p
    · obtain ⟨e1, -⟩ := (c42_append L arc c h p hp).2.2.1 hm
      have e1' : ((DCurve.append L arc c p).1.controls.map fun q => f q.pose) = (c.controls.map fun q => f q.pose) ++ [f p] := by
        have := congrArg (List.map f) e1
        simpa [List.map_map, Function.comp_def] using this
      have hp' : (f p).into = Frame.null ↔ (f p).src = Frame.null := by rw [(hf p).1, (hf p).2]; exact hp
      have hm' : DMayFollow c'.controls (f p) := dMayFollow_map f hf e p hm
      obtain ⟨a1, -, a3, -⟩ := c42_append L arc c' b (f p) hp'
      refine ⟨(DCurve.append L arc c' (f p)).1, DBuilt.append b _ hp', ?_, ?_⟩
      · rw [(a3 hm').1, e, e1']
      · rw [e1', appendList_concat L arc _ _ c' _ r]
        exact Prod.ext rfl (a1.mpr hm')
    · rw [(c42_append L arc c h p hp).2.2.2 hm]
      exact ⟨c', b, e, r⟩

theorem d_determined {L : LieOps ℝ G A V} {arc : G → ℝ} {c d : DCurve G} (hc : DBuilt L arc c) (hd : DBuilt L arc d)
    (h : c.controls.map (·.pose) = d.controls.map (·.pose)) : c = d := by
  have key : ∀ {x : DCurve G}, DBuilt L arc x → DCurve.appendList L arc DCurve.empty (x.controls.map (·.pose)) = (x, .ok ()) := by
    intro x hx
    induction hx with
    | empty => rfl
    | @append c h p hp ih =>
      by_cases hm : DMayFollow c.controls p
      · obtain ⟨a1, -, a3, -⟩ := c42_append L arc c h p hp
        rw [(a3 hm).1, appendList_concat L arc _ _ c _ ih]
        exact Prod.ext rfl (a1.mpr hm)
      · rw [(c42_append L arc c h p hp).2.2.2 hm]
        exact ih
  have h1 := key hc
  rw [h, key hd] at h1
  exact (congrArg Prod.fst h1).symm

theorem dcurve_roundtrip (L : LieOps ℝ G A V) (arc : G → ℝ) {F : Layout A} (hF : F.Faithful) {c : DCurve G} (h : DBuilt L arc c) :
    ∃ m, (∀ old, packDCurve L F c (some old) = .ok m) ∧ ∃ c', unpackDCurve L arc F m = .ok c' ∧ DBuilt L arc c' ∧
      c'.controls.map (·.pose) = c.controls.map fun p => viaLog L p.pose := by
  obtain ⟨ms, h1, h2⟩ := packPoses_spec L hF c.controls (dInv_of_built h).whole
  obtain ⟨c', h3, h4, h5⟩ := replay_d h (viaLog L) fun j => ⟨rfl, rfl⟩
  refine ⟨⟨ms⟩, fun old => ?_, c', ?_, h3, h4⟩
  · rw [packDCurve, h1]
    rfl
  · rw [unpackDCurve, unpackPoses_spec L ms _ h2, Outcome.ok_bind, List.nil_append, DCurve.make, h5]

end Verif.Proto
