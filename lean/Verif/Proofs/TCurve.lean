import Verif.Proofs.TCurveSegment
import Mathlib.Topology.ContinuousOn
import Mathlib.Topology.Instances.Matrix
import Mathlib.Topology.Order.OrderClosed
/-! # Time curves: the search, the invariant and the point query -/
namespace Verif
open Framed Spec Topology Matrix

/-- The halving search finds the border of a partitioned list. -/
theorem lowerBound_spec {α : Type} (p : α → Bool) (l : List α)
    (hp : ∀ (i j : Nat) (hi : i < l.length) (hj : j < l.length), i ≤ j → p l[j] = true → p l[i] = true) :
    ∀ (len first : Nat), first + len ≤ l.length →
      first ≤ lowerBound p l first len ∧ lowerBound p l first len ≤ first + len ∧
      (∀ (i : Nat) (hi : i < l.length), first ≤ i → i < lowerBound p l first len → p l[i] = true) ∧
      (∀ (i : Nat) (hi : i < l.length), lowerBound p l first len ≤ i → i < first + len → p l[i] = false) := by
  intro len
  induction len using Nat.strong_induction_on with
  | _ len ih =>
    intro first hle
    rw [lowerBound]
    by_cases h0 : len = 0
    · simp only [h0, dite_true]
      exact ⟨le_refl _, by omega, fun i _ h1 h2 => by omega, fun i _ h1 h2 => by omega⟩
    · simp only [h0, dite_false]
      have hm : first + len / 2 < l.length := by omega
      rw [List.getElem?_eq_getElem hm]
      simp only
      by_cases hpx : p l[first + len / 2] = true
      · rw [if_pos hpx]
        obtain ⟨h1, h2, h3, h4⟩ := ih (len - len / 2 - 1) (by omega) (first + len / 2 + 1) (by omega)
        refine ⟨by omega, by omega, fun i hi hi1 hi2 => ?_, fun i hi hi1 hi2 => h4 i hi hi1 (by omega)⟩
        by_cases hc : first + len / 2 + 1 ≤ i
        · exact h3 i hi hc hi2
        · exact hp i _ hi hm (by omega) hpx
      · rw [if_neg hpx]
        obtain ⟨h1, h2, h3, h4⟩ := ih (len / 2) (by omega) first (by omega)
        refine ⟨h1, by omega, h3, fun i hi hi1 hi2 => ?_⟩
        by_cases hc : i < first + len / 2
        · exact h4 i hi hi1 hc
        · cases hx : p l[i] with
          | false => rfl
          | true => exact absurd (hp _ i hm hi (by omega) hx) hpx

namespace TCurve
variable {G A V : Type} [AddCommGroup A] [Module ℝ A]

/-- The piece between two neighbouring controls. -/
def piece (a b : TControl G A) : TPiece G A :=
  ⟨a.time, b.time, ⟨scaled a.point (b.time - a.time), scaled b.point (b.time - a.time)⟩⟩

/-- What every curve built by appending satisfies. -/
structure Inv (c : TCurve G A) : Prop where
  times : c.controls.Pairwise (fun a b => a.time < b.time)
  frames : ∀ a ∈ c.controls, ∀ b ∈ c.controls, a.point.g.into = b.point.g.into ∧ a.point.g.src = b.point.g.src
  segments : c.segments = List.zipWith piece c.controls c.controls.tail

theorem inv_empty : Inv (empty : TCurve G A) := ⟨List.Pairwise.nil, by simp [empty], rfl⟩

theorem zipWith_tail_append {α β : Type} (f : α → α → β) (l : List α) (b p : α) (h : l.getLast? = some b) :
    List.zipWith f (l ++ [p]) (l ++ [p]).tail = List.zipWith f l l.tail ++ [f b p] := by
  induction l with
  | nil => simp at h
  | cons x t ih =>
    cases t with
    | nil => simp at h; subst h; simp
    | cons y t' =>
      have := ih (by simpa using h)
      simp only [List.cons_append, List.tail_cons, List.zipWith_cons_cons] at this ⊢
      rw [this]

theorem append_nil {c : TCurve G A} (h : c.controls = []) (p : TControl G A) :
    append c p = ({ c with controls := [p] }, .ok ()) := by
  unfold append; rw [h]; rfl

theorem append_cons {c : TCurve G A} {b : TControl G A} (h : c.controls.getLast? = some b) (p : TControl G A) :
    append c p = if ¬ b.time < p.time then (c, .throw "Control points must have strictly increasing time")
      else if ¬ (p.point.g.into = b.point.g.into ∧ p.point.g.src = b.point.g.src) then
        (c, .throw "Control points must all have the same ref and point frame")
      else (⟨c.controls ++ [p], c.segments ++ [piece b p]⟩, .ok ()) := by
  unfold append
  rw [h]
  simp only [gt_iff_lt]
  by_cases h1 : b.time < p.time
  · rw [if_neg (not_not.mpr h1), if_neg (not_not.mpr h1)]
    by_cases h2 : p.point.g.into = b.point.g.into ∧ p.point.g.src = b.point.g.src
    · have hv : p.point.g.verifyFrames b.point.g.into b.point.g.src = true := by
        simp [Framed.verifyFrames, Framed.verifyInto, Framed.verifyFrom, h2.1, h2.2, Frame.eq_iff]
      rw [if_neg (not_not.mpr hv), if_neg (not_not.mpr h2)]
      have hm : TSegment.make (scaled b.point (p.time - b.time)) (scaled p.point (p.time - b.time)) =
          .ok ⟨scaled b.point (p.time - b.time), scaled p.point (p.time - b.time)⟩ :=
        TSegment.make_ok_iff.mpr ⟨rfl, h2.1.symm, h2.2.symm⟩
      rw [hm]
      rfl
    · have hv : ¬ p.point.g.verifyFrames b.point.g.into b.point.g.src = true := by
        simp only [Framed.verifyFrames, Framed.verifyInto, Framed.verifyFrom, Bool.and_eq_true, Frame.eq_iff]
        exact h2
      rw [if_pos hv, if_pos h2]
  · rw [if_pos h1, if_pos h1]

theorem getLast?_mem {α : Type} {l : List α} {b : α} (h : l.getLast? = some b) : b ∈ l := List.mem_of_getLast? h

/-- On a good curve an append is decided by comparing with all controls. -/
theorem append_spec {c : TCurve G A} (hc : Inv c) (p : TControl G A) :
    ((∀ q ∈ c.controls, q.time < p.time ∧ q.point.g.into = p.point.g.into ∧ q.point.g.src = p.point.g.src) →
      (append c p).2 = .ok () ∧ (append c p).1.controls = c.controls ++ [p]) ∧
    (¬ (∀ q ∈ c.controls, q.time < p.time ∧ q.point.g.into = p.point.g.into ∧ q.point.g.src = p.point.g.src) →
      (append c p).2.IsThrow ∧ (append c p).1 = c) ∧
    Inv (append c p).1 := by
  cases hl : c.controls.getLast? with
  | none =>
    have hn : c.controls = [] := by simpa using hl
    rw [append_nil hn]
    refine ⟨fun _ => by simp [hn], fun h => absurd (by simp [hn]) h, ?_⟩
    refine ⟨by simp, by simp, ?_⟩
    have := hc.segments
    simp only [hn, List.zipWith_nil_left] at this
    simp [this]
  | some b =>
    have hb := getLast?_mem hl
    have hlast : ∀ q ∈ c.controls, q.time ≤ b.time := by
      intro q hq
      obtain ⟨ys, hys⟩ := List.getLast?_eq_some_iff.mp hl
      rw [hys, List.mem_append, List.mem_singleton] at hq
      rcases hq with hq | rfl
      · have := hc.times
        rw [hys, List.pairwise_append] at this
        exact (this.2.2 q hq b (by simp)).le
      · exact le_refl _
    have key : (∀ q ∈ c.controls, q.time < p.time ∧ q.point.g.into = p.point.g.into ∧ q.point.g.src = p.point.g.src) ↔
        b.time < p.time ∧ (p.point.g.into = b.point.g.into ∧ p.point.g.src = b.point.g.src) := by
      constructor
      · intro h; obtain ⟨h1, h2, h3⟩ := h b hb; exact ⟨h1, h2.symm, h3.symm⟩
      · rintro ⟨h1, h2, h3⟩ q hq
        obtain ⟨f1, f2⟩ := hc.frames q hq b hb
        exact ⟨(hlast q hq).trans_lt h1, f1.trans h2.symm, f2.trans h3.symm⟩
    rw [key, append_cons hl]
    by_cases h1 : b.time < p.time
    · by_cases h2 : p.point.g.into = b.point.g.into ∧ p.point.g.src = b.point.g.src
      · rw [if_neg (not_not.mpr h1), if_neg (not_not.mpr h2)]
        refine ⟨fun _ => ⟨rfl, rfl⟩, fun h => absurd ⟨h1, h2⟩ h, ?_⟩
        have hall := key.mpr ⟨h1, h2⟩
        refine ⟨?_, ?_, ?_⟩
        · simp only [List.pairwise_append, List.pairwise_singleton, List.mem_singleton, forall_eq, true_and]
          exact ⟨hc.times, fun q hq => (hall q hq).1⟩
        · intro x hx y hy
          simp only [List.mem_append, List.mem_singleton] at hx hy
          rcases hx with hx | rfl <;> rcases hy with hy | rfl
          · exact hc.frames x hx y hy
          · exact (hall x hx).2
          · exact ⟨(hall y hy).2.1.symm, (hall y hy).2.2.symm⟩
          · exact ⟨rfl, rfl⟩
        · rw [zipWith_tail_append _ _ b p hl, ← hc.segments]
      · rw [if_neg (not_not.mpr h1), if_pos h2]
        exact ⟨fun h => absurd h.2 h2, fun _ => ⟨by simp, rfl⟩, hc⟩
    · rw [if_pos h1]
      exact ⟨fun h => absurd h.1 h1, fun _ => ⟨by simp, rfl⟩, hc⟩

theorem Inv.length {c : TCurve G A} (hc : Inv c) : c.segments.length = c.controls.length - 1 := by
  rw [hc.segments, List.length_zipWith, List.length_tail]; omega

theorem Inv.segment {c : TCurve G A} (hc : Inv c) {i : Nat} (hi : i + 1 < c.controls.length) :
    c.segments[i]? = some (piece c.controls[i] c.controls[i + 1]) := by
  rw [hc.segments, List.getElem?_eq_getElem (by rw [List.length_zipWith, List.length_tail]; omega), List.getElem_zipWith, List.getElem_tail]

theorem Inv.time_lt {c : TCurve G A} (hc : Inv c) {i j : Nat} (hj : j < c.controls.length) (hij : i < j) :
    c.controls[i].time < c.controls[j].time := List.pairwise_iff_getElem.mp hc.times i j (by omega) hj hij

theorem Inv.time_le {c : TCurve G A} (hc : Inv c) {i j : Nat} (hj : j < c.controls.length) (hij : i ≤ j) :
    c.controls[i].time ≤ c.controls[j].time := by
  rcases hij.lt_or_eq with h | rfl
  · exact (hc.time_lt hj h).le
  · exact le_refl _

theorem pointAtImpl_short {c : TCurve G A} (hc : Inv c) (h : c.controls.length < 2) (t : ℝ) : (pointAtImpl c t).IsThrow := by
  have : c.segments = [] := by
    have := hc.length
    exact List.length_eq_zero_iff.mp (by omega)
  unfold pointAtImpl
  simp [this, Outcome.reassert]

theorem pointAtImpl_outside {c : TCurve G A} (hc : Inv c) (h : 2 ≤ c.controls.length) (t : ℝ)
    (ht : ¬ (c.controls[0].time ≤ t ∧ t ≤ c.controls[c.controls.length - 1].time)) : (pointAtImpl c t).IsThrow := by
  have : c.segments ≠ [] := by
    have := hc.length
    intro e; rw [e] at this; simp at this; omega
  have h1 : c.controls.head? = some c.controls[0] := by
    rw [List.head?_eq_getElem?, List.getElem?_eq_getElem (by omega)]
  have h2 : c.controls.getLast? = some c.controls[c.controls.length - 1] := by
    rw [List.getLast?_eq_getElem?, List.getElem?_eq_getElem (by omega)]
  have ht' : ¬ (¬ t < c.controls[0].time ∧ ¬ c.controls[c.controls.length - 1].time < t) := by simpa only [not_lt] using ht
  unfold pointAtImpl
  rw [h1, h2]
  simp only [Outcome.reassert, if_pos this, gt_iff_lt, if_neg ht', Outcome.ok_bind, Outcome.throw_bind]
  simp

theorem pointAtImpl_inside {c : TCurve G A} (hc : Inv c) (h : 2 ≤ c.controls.length) (t : ℝ)
    (h0 : c.controls[0].time ≤ t) (h1 : t ≤ c.controls[c.controls.length - 1].time) :
    ∃ (i : Nat) (hi : i + 1 < c.controls.length), (i = 0 ∨ c.controls[i].time < t) ∧ c.controls[i].time ≤ t ∧ t ≤ c.controls[i + 1].time ∧
      pointAtImpl c t = .ok ⟨piece c.controls[i] c.controls[i + 1], 1 / (c.controls[i + 1].time - c.controls[i].time),
        1 / (c.controls[i + 1].time - c.controls[i].time) * (t - c.controls[i].time)⟩ := by
  have hlen := hc.length
  have hne : c.segments ≠ [] := by
    intro e; rw [e] at hlen; simp at hlen; omega
  have hh : c.controls.head? = some c.controls[0] := by
    rw [List.head?_eq_getElem?, List.getElem?_eq_getElem (by omega)]
  have hl : c.controls.getLast? = some c.controls[c.controls.length - 1] := by
    rw [List.getLast?_eq_getElem?, List.getElem?_eq_getElem (by omega)]
  have hseg : ∀ (i : Nat) (hi : i < c.segments.length), c.segments[i] = piece (c.controls[i]'(by omega)) (c.controls[i + 1]'(by omega)) := by
    intro i hi
    have := hc.segment (i := i) (by omega)
    rw [List.getElem?_eq_getElem hi] at this
    exact Option.some.inj this
  obtain ⟨p, hp⟩ : ∃ p : TPiece G A → Bool, p = fun s => decide (s.destTime < t) := ⟨_, rfl⟩
  have hpi : ∀ (i : Nat) (hi : i < c.segments.length), p c.segments[i] = true ↔ (c.controls[i + 1]'(by omega)).time < t := by
    intro i hi
    rw [hp, decide_eq_true_iff, hseg i hi]; rfl
  obtain ⟨-, hb, hlt, hge⟩ := lowerBound_spec p c.segments (by
    intro i j hi hj hij hpj
    rw [hpi] at hpj ⊢
    exact (hc.time_le (by omega) (by omega)).trans_lt hpj) c.segments.length 0 (by omega)
  generalize hr : lowerBound p c.segments 0 c.segments.length = r at *
  have hrlt : r < c.segments.length := by
    by_contra hcon
    have := hlt (c.segments.length - 1) (by omega) (by omega) (by omega)
    rw [hpi] at this
    have e : c.controls[c.segments.length - 1 + 1]'(by omega) = c.controls[c.controls.length - 1] := by congr 1; omega
    rw [e] at this
    exact absurd h1 (not_le.mpr this)
  have htop : t ≤ (c.controls[r + 1]'(by omega)).time := by
    have := hge r hrlt (le_refl _) (by omega)
    by_contra hcon
    have h2 := (hpi r hrlt).mpr (not_le.mp hcon)
    rw [this] at h2; cases h2
  have hbot : r = 0 ∨ (c.controls[r]'(by omega)).time < t := by
    by_cases hr0 : r = 0
    · exact .inl hr0
    · right
      have := (hpi (r - 1) (by omega)).mp (hlt (r - 1) (by omega) (by omega) (by omega))
      have e : c.controls[r - 1 + 1]'(by omega) = c.controls[r]'(by omega) := by congr 1; omega
      rwa [e] at this
  refine ⟨r, by omega, hbot, ?_, htop, ?_⟩
  · rcases hbot with rfl | hb
    · exact h0
    · exact hb.le
  · have hdt : (c.controls[r + 1]'(by omega)).time - (c.controls[r]'(by omega)).time ≠ 0 :=
      sub_ne_zero.mpr (hc.time_lt (by omega) (by omega)).ne'
    unfold pointAtImpl
    rw [hh, hl]
    simp only [Outcome.reassert, if_pos hne, gt_iff_lt, not_lt, if_pos (And.intro h0 h1), Outcome.ok_bind]
    rw [← hp, hr, hc.segment (i := r) (by omega)]
    exact if_neg hdt

/-- The curve's value on the piece between two controls, as a function of time. -/
noncomputable def onPiece (L : LieOps ℝ G A V) (a b : TControl G A) (t : ℝ) : Outcome (TwoJetL G A) :=
  TSegment.pointAt L (piece a b).curve (1 / (b.time - a.time) * (t - a.time)) >>= fun p => .ok (unnormalize (1 / (b.time - a.time)) p)

theorem pointAt_inside (L : LieOps ℝ G A V) {c : TCurve G A} (hc : Inv c) (h : 2 ≤ c.controls.length) (t : ℝ)
    (h0 : c.controls[0].time ≤ t) (h1 : t ≤ c.controls[c.controls.length - 1].time) :
    ∃ (i : Nat) (hi : i + 1 < c.controls.length), (i = 0 ∨ c.controls[i].time < t) ∧ c.controls[i].time ≤ t ∧ t ≤ c.controls[i + 1].time ∧
      pointAt L c t = onPiece L c.controls[i] c.controls[i + 1] t := by
  obtain ⟨i, hi, e0, e1, e2, e3⟩ := pointAtImpl_inside hc h t h0 h1
  refine ⟨i, hi, e0, e1, e2, ?_⟩
  unfold pointAt
  rw [e3]
  rfl

theorem good_piece {c : TCurve G A} (hc : Inv c) (hw : ∀ p ∈ c.controls, Whole p.point.g) {i : Nat} (hi : i + 1 < c.controls.length) :
    TSegment.Good (piece c.controls[i] c.controls[i + 1]).curve := by
  obtain ⟨f1, f2⟩ := hc.frames c.controls[i] (List.getElem_mem _) c.controls[i + 1] (List.getElem_mem _)
  exact ⟨hw _ (List.getElem_mem _), f1.symm, f2.symm⟩

theorem unnormalize_scaled (j : TwoJetL G A) {dt : ℝ} (h : dt ≠ 0) : unnormalize (1 / dt) (scaled j dt) = j := by
  obtain ⟨g, d, d2⟩ := j
  simp [unnormalize, scaled, smul_smul, h]

section
variable {L : LieOps ℝ G A V} {valid : G → Prop} (H : LieLaws L valid) (hexp : L.exp 0 = L.one) {a b : TControl G A}
include H hexp

theorem onPiece_left (hlt : a.time < b.time) (hg : TSegment.Good (piece a b).curve) : onPiece L a b a.time = .ok a.point := by
  unfold onPiece
  rw [sub_self, mul_zero, TSegment.pointAt_zero H hexp hg, Outcome.ok_bind]
  exact congrArg _ (unnormalize_scaled a.point (sub_ne_zero.mpr hlt.ne'))

theorem onPiece_right (hlt : a.time < b.time) (hg : TSegment.Good (piece a b).curve) (va : valid a.point.g.val)
    (hlog : L.exp (L.log (L.mul b.point.g.val (L.inv a.point.g.val))) = L.mul b.point.g.val (L.inv a.point.g.val)) :
    onPiece L a b b.time = .ok b.point := by
  unfold onPiece
  rw [one_div_mul_cancel (sub_ne_zero.mpr hlt.ne'), TSegment.pointAt_one H hexp hg va hlog, Outcome.ok_bind]
  exact congrArg _ (unnormalize_scaled b.point (sub_ne_zero.mpr hlt.ne'))
end

section
variable {L : LieOps ℝ G A V} {valid : G → Prop} (H : LieLaws L valid) (hexp : L.exp 0 = L.one) {c : TCurve G A} (hc : Inv c)
  (hw : ∀ p ∈ c.controls, Whole p.point.g) (hv : ∀ p ∈ c.controls, valid p.point.g.val)
  (hlog : ∀ (i : Nat) (hi : i + 1 < c.controls.length), L.exp (L.log (L.mul c.controls[i + 1].point.g.val (L.inv c.controls[i].point.g.val))) =
    L.mul c.controls[i + 1].point.g.val (L.inv c.controls[i].point.g.val))
include H hexp hc hw hv hlog

/-- The query agrees with the formula of a piece on that piece's whole closed time span. -/
theorem pointAt_on_piece {i : Nat} (hi : i + 1 < c.controls.length) {t : ℝ} (h0 : c.controls[i].time ≤ t) (h1 : t ≤ c.controls[i + 1].time) :
    pointAt L c t = onPiece L c.controls[i] c.controls[i + 1] t := by
  obtain ⟨j, hj, e0, e1, e2, e3⟩ := pointAt_inside L hc (by omega) t ((hc.time_le (by omega) (by omega)).trans h0)
    (h1.trans (hc.time_le (by omega) (by omega)))
  rw [e3]
  rcases Nat.lt_trichotomy j i with hji | rfl | hji
  · have ht : t = c.controls[i].time := le_antisymm (e2.trans (hc.time_le (by omega) (by omega))) h0
    have hji' : j + 1 = i := by
      by_contra hne
      have := hc.time_lt (i := j + 1) (j := i) (by omega) (by omega)
      linarith
    subst hji'
    rw [ht, onPiece_left H hexp (hc.time_lt hi (by omega)) (good_piece hc hw hi)]
    exact onPiece_right H hexp (hc.time_lt hj (by omega)) (good_piece hc hw hj) (hv _ (List.getElem_mem _)) (hlog j hj)
  · rfl
  · exfalso
    rcases e0 with rfl | e0
    · omega
    · have := hc.time_le (i := i + 1) (j := j) (by omega) (by omega)
      linarith

theorem pointAt_control {i : Nat} (hi : i < c.controls.length) (h2 : 2 ≤ c.controls.length) :
    pointAt L c c.controls[i].time = .ok c.controls[i].point := by
  by_cases h : i + 1 < c.controls.length
  · rw [pointAt_on_piece H hexp hc hw hv hlog h (le_refl _) (hc.time_lt h (by omega)).le]
    exact onPiece_left H hexp (hc.time_lt h (by omega)) (good_piece hc hw h)
  · obtain ⟨j, rfl⟩ : ∃ j, i = j + 1 := ⟨i - 1, by omega⟩
    rw [pointAt_on_piece H hexp hc hw hv hlog hi (hc.time_lt hi (by omega)).le (le_refl _)]
    exact onPiece_right H hexp (hc.time_lt hi (by omega)) (good_piece hc hw hi) (hv _ (List.getElem_mem _)) (hlog j hi)

end
end TCurve

/-- The group operations used by a curve are continuous. -/
structure ContLie {G A V : Type} [TopologicalSpace G] [TopologicalSpace A] (L : LieOps ℝ G A V) : Prop where
  mul : Continuous fun p : G × G => L.mul p.1 p.2
  Ad : Continuous fun p : G × A => L.Ad p.1 p.2
  ad : Continuous fun p : A × A => L.ad p.1 p.2

theorem continuous_cross {X : Type} [TopologicalSpace X] {f g : X → V3} (hf : Continuous f) (hg : Continuous g) :
    Continuous fun x => f x ⨯₃ g x := by
  refine continuous_pi fun i => ?_
  have h := fun i => continuous_pi_iff.mp hf i
  have h' := fun i => continuous_pi_iff.mp hg i
  fin_cases i <;> simp only [cross_apply] <;>
    exact ((h _).mul (h' _)).sub ((h _).mul (h' _))

theorem so3Cont : ContLie SO3.ops where
  mul := (continuous_fst.matrix_mul continuous_snd : Continuous fun p : M3 × M3 => p.1 * p.2)
  Ad := (continuous_fst.matrix_mulVec continuous_snd : Continuous fun p : M3 × V3 => p.1 *ᵥ p.2)
  ad := continuous_cross continuous_fst continuous_snd

theorem se3Cont : ContLie SE3.ops where
  mul := by
    have a1 : Continuous fun p : Pose × Pose => p.1.1 := continuous_fst.comp continuous_fst
    have a2 : Continuous fun p : Pose × Pose => p.1.2 := continuous_snd.comp continuous_fst
    have b1 : Continuous fun p : Pose × Pose => p.2.1 := continuous_fst.comp continuous_snd
    have b2 : Continuous fun p : Pose × Pose => p.2.2 := continuous_snd.comp continuous_snd
    exact (a1.matrix_mul b1).prodMk ((a1.matrix_mulVec b2).add a2)
  Ad := by
    have a1 : Continuous fun p : Pose × Twist => p.1.1 := continuous_fst.comp continuous_fst
    have a2 : Continuous fun p : Pose × Twist => p.1.2 := continuous_snd.comp continuous_fst
    have b1 : Continuous fun p : Pose × Twist => p.2.1 := continuous_fst.comp continuous_snd
    have b2 : Continuous fun p : Pose × Twist => p.2.2 := continuous_snd.comp continuous_snd
    exact (a1.matrix_mulVec b1).prodMk ((continuous_cross a2 (a1.matrix_mulVec b1)).add (a1.matrix_mulVec b2))
  ad := by
    have a1 : Continuous fun p : Twist × Twist => p.1.1 := continuous_fst.comp continuous_fst
    have a2 : Continuous fun p : Twist × Twist => p.1.2 := continuous_snd.comp continuous_fst
    have b1 : Continuous fun p : Twist × Twist => p.2.1 := continuous_fst.comp continuous_snd
    have b2 : Continuous fun p : Twist × Twist => p.2.2 := continuous_snd.comp continuous_snd
    exact (continuous_cross a1 b1).prodMk ((continuous_cross a2 b1).add (continuous_cross a1 b2))

section
variable {G A V : Type} [TopologicalSpace G] [NormedAddCommGroup A] {L : LieOps ℝ G A V} (K : ContLie L)
include K

theorem vmul_cont {x y : ℝ → G × A × A} {t : ℝ} (hx : ContinuousAt x t) (hy : ContinuousAt y t) :
    ContinuousAt (fun s => vmul L (x s) (y s)) t := by
  have x1 : ContinuousAt (fun s => (x s).1) t := continuousAt_fst.comp hx
  have x2 : ContinuousAt (fun s => (x s).2.1) t := continuousAt_fst.comp (continuousAt_snd.comp hx)
  have x3 : ContinuousAt (fun s => (x s).2.2) t := continuousAt_snd.comp (continuousAt_snd.comp hx)
  have y1 : ContinuousAt (fun s => (y s).1) t := continuousAt_fst.comp hy
  have y2 : ContinuousAt (fun s => (y s).2.1) t := continuousAt_fst.comp (continuousAt_snd.comp hy)
  have y3 : ContinuousAt (fun s => (y s).2.2) t := continuousAt_snd.comp (continuousAt_snd.comp hy)
  have a1 : ContinuousAt (fun s => L.Ad (x s).1 (y s).2.1) t := K.Ad.continuousAt.comp (x1.prodMk y2)
  have a2 : ContinuousAt (fun s => L.Ad (x s).1 (y s).2.2) t := K.Ad.continuousAt.comp (x1.prodMk y3)
  have a3 : ContinuousAt (fun s => L.ad (x s).2.1 (L.Ad (x s).1 (y s).2.1)) t := K.ad.continuousAt.comp (x2.prodMk a1)
  exact (K.mul.continuousAt.comp (x1.prodMk y1)).prodMk ((x2.add a1).prodMk ((x3.add a2).add a3))

omit K in
/-- A term of the curve is continuous at `t`. -/
def TermCont (L : LieOps ℝ G A V) (k : ℝ → PolyCoeffs) (v : A) (t : ℝ) : Prop := ContinuousAt (fun s => L.exp (L.smul (k s).a v)) t

omit K in
/-- The five terms of a segment are continuous at `t`. -/
def TermsCont (L : LieOps ℝ G A V) (seg : TSegment G A) (t : ℝ) : Prop :=
  TermCont L Quintic.destFromOrig (L.log (L.mul seg.dest.g.val (L.inv seg.orig.g.val))) t ∧
  TermCont L Quintic.dOrig seg.orig.d t ∧ TermCont L Quintic.dDest seg.dest.d t ∧
  TermCont L Quintic.d2Orig seg.orig.d2 t ∧ TermCont L Quintic.d2Dest seg.dest.d2 t

variable [NormedSpace ℝ A] {valid : G → Prop} (H : LieLaws L valid)
include H

omit K in
theorem vinc_cont (c : Fin 5 → ℝ) (v : A) (t : ℝ) (h : TermCont L (Quintic.coeffs c) v t) :
    ContinuousAt (fun s => vinc L (Quintic.coeffs c s) v) t := by
  refine h.prodMk ?_
  simp only [H.smul_eq]
  have h1 : ContinuousAt (fun s => (Quintic.coeffs c s).da) t := (Quintic.hasDerivAt_da c t).continuousAt
  have h2 : ContinuousAt (fun s => (Quintic.coeffs c s).d2a) t := by
    simp only [Quintic.coeffs_d2a]
    fun_prop
  exact (h1.smul continuousAt_const).prodMk (h2.smul continuousAt_const)

theorem vpoint_cont (seg : TSegment G A) (t : ℝ) (h : TermsCont L seg t) : ContinuousAt (fun s => vpoint L seg s) t := by
  obtain ⟨h1, h2, h3, h4, h5⟩ := h
  have c1 := vmul_cont K (vinc_cont H _ _ t h1) (continuousAt_const (y := ((L.one, 0, 0) : G × A × A)))
  have c2 := vmul_cont K (vinc_cont H _ _ t h2) c1
  have c3 := vmul_cont K (vinc_cont H _ _ t h3) c2
  have c4 := vmul_cont K (vinc_cont H _ _ t h4) c3
  exact vmul_cont K (vinc_cont H _ _ t h5) c4

omit K H in
/-- The value on a piece. -/
noncomputable def pieceFormula (L : LieOps ℝ G A V) (a b : TControl G A) (t : ℝ) : TwoJetL G A :=
  let s := 1 / (b.time - a.time) * (t - a.time)
  let seg := (TCurve.piece a b).curve
  TCurve.unnormalize (1 / (b.time - a.time)) ⟨⟨L.mul (vpoint L seg s).1 seg.orig.g.val, seg.orig.g.into, seg.orig.g.src⟩,
    (vpoint L seg s).2.1, (vpoint L seg s).2.2⟩

omit K H [TopologicalSpace G] in
theorem onPiece_formula (L : LieOps ℝ G A V) {a b : TControl G A} (hg : TSegment.Good (TCurve.piece a b).curve) (t : ℝ) :
    TCurve.onPiece L a b t = .ok (pieceFormula L a b t) := by
  unfold TCurve.onPiece
  rw [TSegment.pointAt_eq L hg, Outcome.ok_bind]
  rfl

/-- On one piece the reported pose and derivatives are continuous in time. -/
theorem onPiece_cont {a b : TControl G A} (hg : TSegment.Good (TCurve.piece a b).curve) (t : ℝ)
    (h : TermsCont L (TCurve.piece a b).curve (1 / (b.time - a.time) * (t - a.time))) :
    ∃ F : ℝ → TwoJetL G A, (∀ s, TCurve.onPiece L a b s = .ok (F s)) ∧
      ContinuousAt (fun s => ((F s).g.val, (F s).d, (F s).d2)) t := by
  refine ⟨fun s => pieceFormula L a b s, onPiece_formula L hg, ?_⟩
  · simp only [pieceFormula, TCurve.unnormalize]
    have h1 : ContinuousAt (fun s => 1 / (b.time - a.time) * (s - a.time)) t := by fun_prop
    have h2 := ContinuousAt.comp (f := fun s => 1 / (b.time - a.time) * (s - a.time)) (x := t) (vpoint_cont K H _ _ h) h1
    have m1 := continuousAt_fst.comp h2
    have m2 := continuousAt_fst.comp (continuousAt_snd.comp h2)
    have m3 := continuousAt_snd.comp (continuousAt_snd.comp h2)
    exact (K.mul.continuousAt.comp (m1.prodMk continuousAt_const)).prodMk ((continuousAt_const.smul m2).prodMk
      (continuousAt_const.smul (continuousAt_const.smul m3)))

end

/-- Continuity on closed spans glues. -/
theorem continuousWithinAt_Icc_of_pieces {X : Type} [TopologicalSpace X] (f : ℝ → X) (τ : ℝ) (times : Nat → ℝ) (n : Nat)
    (h : ∀ i < n, times i ≤ τ → τ ≤ times (i + 1) → ContinuousWithinAt f (Set.Icc (times i) (times (i + 1))) τ)
    (hm : ∀ i < n, times i ≤ times (i + 1)) (hn : 0 < n) : ContinuousWithinAt f (Set.Icc (times 0) (times n)) τ := by
  have h' : ∀ i < n, ContinuousWithinAt f (Set.Icc (times i) (times (i + 1))) τ := by
    intro i hi
    by_cases hτ : τ ∈ Set.Icc (times i) (times (i + 1))
    · exact h i hi hτ.1 hτ.2
    · exact continuousWithinAt_of_notMem_closure (by rwa [isClosed_Icc.closure_eq])
  clear h
  induction n with
  | zero => omega
  | succ k ih =>
    rcases Nat.eq_zero_or_pos k with rfl | hk
    · exact h' 0 (by omega)
    · have h1 := ih (fun i hi => hm i (by omega)) hk (fun i hi => h' i (by omega))
      have hmono : times 0 ≤ times k := by
        clear h1 h' ih hn
        induction k with
        | zero => exact le_refl _
        | succ j ihj =>
          rcases Nat.eq_zero_or_pos j with rfl | hj
          · exact hm 0 (by omega)
          · exact (ihj (fun i hi => hm i (by omega)) hj).trans (hm j (by omega))
      have h2 := h1.union (h' k (by omega))
      rwa [Set.Icc_union_Icc_eq_Icc hmono (hm k (by omega))] at h2

theorem Spec.HasLeftJet.continuousAt {n : Type} [Fintype n] {G A : Type} [NormedAddCommGroup A] [NormedSpace ℝ A] {M : G → Matrix n n ℝ}
    {hat : A → Matrix n n ℝ} {g : ℝ → G} {t : ℝ} {v a : A} (h : HasLeftJet M hat g t v a) : ContinuousAt (fun s => M (g s)) t := by
  obtain ⟨vel, h1, -⟩ := h
  exact continuousAt_pi.mpr fun i => continuousAt_pi.mpr fun j => (h1.self_of_nhds i j).continuousAt

theorem SO3.termsCont (seg : TSegment M3 V3) (t : ℝ) : TermsCont SO3.ops seg t := by
  obtain ⟨h1, h2, h3, h4, h5⟩ := SO3.termsJet seg t
  exact ⟨HasLeftJet.continuousAt h1, HasLeftJet.continuousAt h2, HasLeftJet.continuousAt h3, HasLeftJet.continuousAt h4,
    HasLeftJet.continuousAt h5⟩

theorem SE3.termCont {k : ℝ → PolyCoeffs} {v : Twist} {t : ℝ} (h : TermJet SE3.ops poseMatrix twistHat k v t) : TermCont SE3.ops k v t := by
  have hc := HasLeftJet.continuousAt h
  have e : ∀ i j, ContinuousAt (fun s => poseMatrix (SE3.ops.exp (SE3.ops.smul (k s).a v)) i j) t := fun i j =>
    continuousAt_pi.mp (continuousAt_pi.mp hc i) j
  have e1 : ContinuousAt (fun s => (SE3.ops.exp (SE3.ops.smul (k s).a v)).1) t :=
    continuousAt_pi.mpr fun i => continuousAt_pi.mpr fun j => e (.inl i) (.inl j)
  have e2 : ContinuousAt (fun s => (SE3.ops.exp (SE3.ops.smul (k s).a v)).2) t := continuousAt_pi.mpr fun i => e (.inl i) (.inr ())
  exact e1.prodMk e2

section
variable {n : Type} [Fintype n] {G A : Type} [NormedAddCommGroup A] [NormedSpace ℝ A] {M : G → Matrix n n ℝ} {hat : A → Matrix n n ℝ}

theorem Spec.HasLeftJet.congr {g h : ℝ → G} {t : ℝ} {v a : A} (hg : HasLeftJet M hat g t v a) (e : ∀ᶠ s in 𝓝 t, h s = g s) :
    HasLeftJet M hat h t v a := by
  obtain ⟨vel, h1, h2, h3⟩ := hg
  refine ⟨vel, ?_, h2, h3⟩
  filter_upwards [h1, e.eventually_nhds] with s hs he i j
  rw [he.self_of_nhds]
  exact (hs i j).congr_of_eventuallyEq (he.mono fun r hr => congrArg (fun x => M x i j) hr)

/-- Two motions that meet with equal jets make one motion with that jet. -/
theorem Spec.HasLeftJet.glue {g1 g2 g : ℝ → G} {t : ℝ} {v a : A} (h1 : HasLeftJet M hat g1 t v a) (h2 : HasLeftJet M hat g2 t v a)
    (e1 : ∀ᶠ s in 𝓝 t, s ≤ t → g s = g1 s) (e2 : ∀ᶠ s in 𝓝 t, t ≤ s → g s = g2 s) : HasLeftJet M hat g t v a := by
  obtain ⟨v1, a1, b1, c1⟩ := h1
  obtain ⟨v2, a2, b2, c2⟩ := h2
  let vel : ℝ → A := fun s => if s ≤ t then v1 s else v2 s
  have hv1 : ∀ s, s ≤ t → vel s = v1 s := fun s hs => if_pos hs
  have hv2 : ∀ s, t ≤ s → vel s = v2 s := by
    intro s hs
    rcases hs.eq_or_lt with rfl | hs
    · rw [hv1 _ (le_refl _), b1, b2]
    · exact if_neg (not_le.mpr hs)
  refine ⟨vel, ?_, by rw [hv1 t (le_refl t), b1], ?_⟩
  · filter_upwards [a1, a2, e1.eventually_nhds, e2.eventually_nhds] with s ha1 ha2 he1 he2 i j
    rcases lt_trichotomy s t with hs | rfl | hs
    · rw [hv1 s hs.le, he1.self_of_nhds hs.le]
      refine (ha1 i j).congr_of_eventuallyEq ?_
      filter_upwards [he1, gt_mem_nhds hs] with r hr hrt
      rw [hr (le_of_lt hrt)]
    · have w1 : HasDerivWithinAt (fun r => M (g r) i j) ((hat (vel s) * M (g s)) i j) (Set.Iic s) s := by
        rw [hv1 s (le_refl s), he1.self_of_nhds (le_refl s)]
        refine (ha1 i j).hasDerivWithinAt.congr_of_eventuallyEq ?_ (by rw [he1.self_of_nhds (le_refl s)])
        filter_upwards [mem_nhdsWithin_of_mem_nhds he1, self_mem_nhdsWithin] with r hr hrs
        rw [hr hrs]
      have w2 : HasDerivWithinAt (fun r => M (g r) i j) ((hat (vel s) * M (g s)) i j) (Set.Ici s) s := by
        rw [hv2 s (le_refl s), he2.self_of_nhds (le_refl s)]
        refine (ha2 i j).hasDerivWithinAt.congr_of_eventuallyEq ?_ (by rw [he2.self_of_nhds (le_refl s)])
        filter_upwards [mem_nhdsWithin_of_mem_nhds he2, self_mem_nhdsWithin] with r hr hrs
        rw [hr hrs]
      have := w1.union w2
      rwa [Set.Iic_union_Ici, hasDerivWithinAt_univ] at this
    · rw [hv2 s hs.le, he2.self_of_nhds hs.le]
      refine (ha2 i j).congr_of_eventuallyEq ?_
      filter_upwards [he2, lt_mem_nhds hs] with r hr hrt
      rw [hr (le_of_lt hrt)]
  · have w1 : HasDerivWithinAt vel a (Set.Iic t) t :=
      c1.hasDerivWithinAt.congr (fun s hs => hv1 s hs) (hv1 t (le_refl t))
    have w2 : HasDerivWithinAt vel a (Set.Ici t) t :=
      c2.hasDerivWithinAt.congr (fun s hs => hv2 s hs) (hv2 t (le_refl t))
    have := w1.union w2
    rwa [Set.Iic_union_Ici, hasDerivWithinAt_univ] at this

/-- Running a motion at `k` times the speed. -/
theorem Spec.HasLeftJet.rescale {g : ℝ → G} {t k t0 : ℝ} {v a : A} (hs : ∀ (c : ℝ) x, hat (c • x) = c • hat x)
    (h : HasLeftJet M hat g (k * (t - t0)) v a) : HasLeftJet M hat (fun s => g (k * (s - t0))) t (k • v) (k • k • a) := by
  obtain ⟨vel, h1, h2, h3⟩ := h
  have hσ : ∀ s, HasDerivAt (fun s => k * (s - t0)) k s := fun s => by
    simpa using ((hasDerivAt_id s).sub_const t0).const_mul k
  refine ⟨fun s => k • vel (k * (s - t0)), ?_, congrArg (k • ·) h2, ?_⟩
  · have := (hσ t).continuousAt.eventually h1
    filter_upwards [this] with s hs' i j
    have := (hs' i j).scomp s (hσ s)
    refine this.congr_deriv ?_
    rw [hs, Matrix.smul_mul, Matrix.smul_apply]
  · exact (h3.scomp t (hσ t)).const_smul k

end

namespace TCurve
section
variable {n : Type} [Fintype n] [DecidableEq n] {G A V : Type} [NormedAddCommGroup A] [NormedSpace ℝ A]
  {L : LieOps ℝ G A V} {valid : G → Prop} {M : G → Matrix n n ℝ} {hat : A → Matrix n n ℝ} (P : MatRep L valid M hat)
  (hval : ∀ x, valid (L.exp x))
include P hval

theorem pieceFormula_jet (a b : TControl G A) (t : ℝ)
    (h : TermsJet L M hat (piece a b).curve (1 / (b.time - a.time) * (t - a.time))) :
    HasLeftJet M hat (fun s => (pieceFormula L a b s).g.val) t (pieceFormula L a b t).d (pieceFormula L a b t).d2 :=
  HasLeftJet.rescale P.hat_smul (vpoint_jet P hval _ _ h)

variable (hexp : L.exp 0 = L.one) {c : TCurve G A} (hc : Inv c)
  (hw : ∀ p ∈ c.controls, Whole p.point.g) (hv : ∀ p ∈ c.controls, valid p.point.g.val)
  (hlog : ∀ (i : Nat) (hi : i + 1 < c.controls.length), L.exp (L.log (L.mul c.controls[i + 1].point.g.val (L.inv c.controls[i].point.g.val))) =
    L.mul c.controls[i + 1].point.g.val (L.inv c.controls[i].point.g.val))
include hexp hc hw hv hlog

/-- At every time strictly inside the curve the reported derivatives are those of the reported pose. -/
theorem pointAt_jet (h2 : 2 ≤ c.controls.length) (f : ℝ → TwoJetL G A)
    (hf : ∀ s, c.controls[0].time ≤ s → s ≤ c.controls[c.controls.length - 1].time → pointAt L c s = .ok (f s)) (τ : ℝ)
    (t0 : c.controls[0].time < τ) (t1 : τ < c.controls[c.controls.length - 1].time)
    (hterm : ∀ (i : Nat) (hi : i + 1 < c.controls.length), c.controls[i].time ≤ τ → τ ≤ c.controls[i + 1].time →
      TermsJet L M hat (piece c.controls[i] c.controls[i + 1]).curve
        (1 / (c.controls[i + 1].time - c.controls[i].time) * (τ - c.controls[i].time))) :
    HasLeftJet M hat (fun s => (f s).g.val) τ (f τ).d (f τ).d2 := by
  have on : ∀ (i : Nat) (hi : i + 1 < c.controls.length) (s : ℝ), c.controls[i].time ≤ s → s ≤ c.controls[i + 1].time →
      f s = pieceFormula L c.controls[i] c.controls[i + 1] s := by
    intro i hi s h0 h1
    have e1 := hf s ((hc.time_le (by omega) (by omega)).trans h0) (h1.trans (hc.time_le (by omega) (by omega)))
    rw [pointAt_on_piece P.laws hexp hc hw hv hlog hi h0 h1, onPiece_formula L (good_piece hc hw hi), Outcome.ok.injEq] at e1
    exact e1.symm
  have jet : ∀ (i : Nat) (hi : i + 1 < c.controls.length), c.controls[i].time ≤ τ → τ ≤ c.controls[i + 1].time →
      HasLeftJet M hat (fun s => (pieceFormula L c.controls[i] c.controls[i + 1] s).g.val) τ (f τ).d (f τ).d2 := by
    intro i hi h0 h1
    rw [on i hi τ h0 h1]
    exact pieceFormula_jet P hval _ _ τ (hterm i hi h0 h1)
  obtain ⟨i, hi, e0, e1, e2, -⟩ := pointAt_inside L hc h2 τ t0.le t1.le
  have e1' : c.controls[i].time < τ := by
    rcases e0 with rfl | h
    · exact t0
    · exact h
  rcases e2.lt_or_eq with e2' | e2'
  · refine (jet i hi e1 e2).congr ?_
    filter_upwards [Icc_mem_nhds e1' e2'] with s hs
    rw [on i hi s hs.1 hs.2]
  · have hi2 : i + 1 + 1 < c.controls.length := by
      by_contra hcon
      have : c.controls[i + 1] = c.controls[c.controls.length - 1] := by congr 1; omega
      rw [e2', this] at t1
      exact lt_irrefl _ t1
    have hn := hc.time_lt (i := i + 1) (j := i + 1 + 1) hi2 (by omega)
    refine HasLeftJet.glue (jet i hi e1 e2) (jet (i + 1) hi2 e2'.ge (e2'.le.trans hn.le)) ?_ ?_
    · filter_upwards [lt_mem_nhds e1'] with s hs hs'
      rw [on i hi s (le_of_lt hs) (hs'.trans e2)]
    · filter_upwards [gt_mem_nhds (show τ < c.controls[i + 1 + 1].time by rw [e2']; exact hn)] with s hs hs'
      rw [on (i + 1) hi2 s (e2'.ge.trans hs') (le_of_lt hs)]

end

section
variable {G A V : Type} [TopologicalSpace G] [NormedAddCommGroup A] [NormedSpace ℝ A]
  {L : LieOps ℝ G A V} {valid : G → Prop} (K : ContLie L) (H : LieLaws L valid)
  (hexp : L.exp 0 = L.one) {c : TCurve G A} (hc : Inv c)
  (hw : ∀ p ∈ c.controls, Whole p.point.g) (hv : ∀ p ∈ c.controls, valid p.point.g.val)
  (hlog : ∀ (i : Nat) (hi : i + 1 < c.controls.length), L.exp (L.log (L.mul c.controls[i + 1].point.g.val (L.inv c.controls[i].point.g.val))) =
    L.mul c.controls[i + 1].point.g.val (L.inv c.controls[i].point.g.val))
include K H hexp hc hw hv hlog

/-- Pose and derivatives are continuous on the closed time span. -/
theorem pointAt_cont (h2 : 2 ≤ c.controls.length) (f : ℝ → TwoJetL G A)
    (hf : ∀ s, c.controls[0].time ≤ s → s ≤ c.controls[c.controls.length - 1].time → pointAt L c s = .ok (f s)) (τ : ℝ)
    (hterm : ∀ (i : Nat) (hi : i + 1 < c.controls.length), c.controls[i].time ≤ τ → τ ≤ c.controls[i + 1].time →
      TermsCont L (piece c.controls[i] c.controls[i + 1]).curve
        (1 / (c.controls[i + 1].time - c.controls[i].time) * (τ - c.controls[i].time))) :
    ContinuousWithinAt (fun s => ((f s).g.val, (f s).d, (f s).d2))
      (Set.Icc c.controls[0].time c.controls[c.controls.length - 1].time) τ := by
  obtain ⟨times, htimes⟩ : ∃ times : Nat → ℝ, ∀ (i : Nat) (hi : i < c.controls.length), times i = c.controls[i].time :=
    ⟨fun i => if hi : i < c.controls.length then c.controls[i].time else 0, fun i hi => dif_pos hi⟩
  rw [← htimes 0 (by omega), ← htimes (c.controls.length - 1) (by omega)]
  refine continuousWithinAt_Icc_of_pieces _ τ times (c.controls.length - 1) ?_ ?_ (by omega)
  · intro i hi h0 h1
    rw [htimes i (by omega)] at h0 ⊢
    rw [htimes (i + 1) (by omega)] at h1 ⊢
    obtain ⟨F, hF, hcont⟩ := onPiece_cont K H (good_piece hc hw (i := i) (by omega)) τ (hterm i (by omega) h0 h1)
    have on : ∀ s, c.controls[i].time ≤ s → s ≤ c.controls[i + 1].time → f s = F s := by
      intro s s0 s1
      have e1 := hf s ((hc.time_le (by omega) (by omega)).trans s0) (s1.trans (hc.time_le (by omega) (by omega)))
      rw [pointAt_on_piece H hexp hc hw hv hlog (by omega) s0 s1, hF, Outcome.ok.injEq] at e1
      exact e1.symm
    refine hcont.continuousWithinAt.congr (fun s hs => ?_) ?_
    · rw [on s hs.1 hs.2]
    · rw [on τ h0 h1]
  · intro i hi
    rw [htimes i (by omega), htimes (i + 1) (by omega)]
    exact hc.time_le (by omega) (by omega)

end
end TCurve
end Verif
