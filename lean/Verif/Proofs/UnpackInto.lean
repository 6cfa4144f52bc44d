import Verif.Spec.UnpackInto
import Verif.Proofs.TCurve
/-! # Lemmas for unpacking into variables -/
namespace Verif.UnpackInto
open Proto Spec.UnpackInto

variable {G A V : Type}

theorem assign_strong {α M : Type} (value : M → Outcome α) : Strong (fun d m => assign d (value m)) value := by
  intro dest m
  change SameEnd (assign dest (value m)).2 _ ∧ (∀ v, _ → (assign dest (value m)).1 = v) ∧ (_ → (assign dest (value m)).1 = dest)
  cases h : value m <;> simp [assign, SameEnd]

theorem history_append {α M : Type} (into : α → M → α × Outcome Unit) (start : α) (ms : List M) (m : M) :
    history into start (ms ++ [m]) = (into (history into start ms) m).1 := by simp [history]

theorem strong_history {α M : Type} {into : α → M → α × Outcome Unit} {value : M → Outcome α} (h : Strong into value) (start : α) (ms : List M) :
    LastGood value start ms (history into start ms) := by
  induction ms using List.reverseRecOn with
  | nil => exact Or.inr ⟨rfl, fun x hx => by cases hx⟩
  | append_singleton ms m ih =>
    rw [history_append]
    obtain ⟨-, h1, h2⟩ := h (history into start ms) m
    by_cases hm : ∃ v, value m = .ok v
    · obtain ⟨v, hv⟩ := hm
      rw [h1 v hv]
      exact Or.inl ⟨ms, m, [], rfl, hv, fun x hx => by cases hx⟩
    · have hm' : ∀ v, value m ≠ .ok v := fun v hv => hm ⟨v, hv⟩
      rw [h2 hm']
      rcases ih with ⟨pre, x, post, e, hx, hp⟩ | ⟨e, hp⟩
      · refine Or.inl ⟨pre, x, post ++ [m], by rw [e]; simp, hx, fun y hy => ?_⟩
        rw [List.mem_append, List.mem_singleton] at hy
        rcases hy with hy | rfl
        · exact hp y hy
        · exact hm'
      · refine Or.inr ⟨e, fun y hy => ?_⟩
        rw [List.mem_append, List.mem_singleton] at hy
        rcases hy with hy | rfl
        · exact hp y hy
        · exact hm'

theorem strong_fresh {α M : Type} {into : α → M → α × Outcome Unit} {value : M → Outcome α} (h : Strong into value) (dflt : α) (m : M) :
    fresh into dflt m = value m := by
  obtain ⟨⟨h1, h2, h3⟩, h4, -⟩ := h dflt m
  rw [fresh]
  cases hv : value m with
  | ok v =>
    have e1 := h1.mpr ⟨v, hv⟩
    have e2 := h4 v hv
    cases hi : into dflt m with
    | mk a o => rw [hi] at e1 e2; simp only at e1 e2; rw [e1, e2]
  | throw e =>
    have e1 := (h2 e).mpr hv
    cases hi : into dflt m with
    | mk a o => rw [hi] at e1; simp only at e1; rw [e1]
  | ub w =>
    have e1 := (h3 w).mpr hv
    cases hi : into dflt m with
    | mk a o => rw [hi] at e1; simp only at e1; rw [e1]

variable [AddCommGroup A] [Module ℝ A]

theorem tLoop_end (L : LieOps ℝ G A V) (F : Layout A) : ∀ (ps : List ControlMsg) (c : TCurve G A),
    (∀ c', unpackControls L F c ps = .ok c' ↔ tLoop L F c ps = (c', .ok ())) ∧ (∀ e, unpackControls L F c ps = .throw e ↔ (tLoop L F c ps).2 = .throw e) ∧
    (∀ w, unpackControls L F c ps = .ub w ↔ (tLoop L F c ps).2 = .ub w)
  | [], c => by simp [unpackControls, tLoop]
  | p :: ps, c => by
    rw [unpackControls, tLoop]
    cases unpackTwoJetL L F (p.point.getD {}) with
    | throw m => simp
    | ub w => simp
    | ok j =>
      simp only [Outcome.ok_bind]
      cases TCurve.append c ⟨p.time, j⟩ with
      | mk c' o =>
        cases o with
        | ok u => exact tLoop_end L F ps c'
        | throw m => simp
        | ub w => simp

theorem tLoop_append (L : LieOps ℝ G A V) (F : Layout A) (c' : TCurve G A) (qs : List ControlMsg) : ∀ (ps : List ControlMsg) (c : TCurve G A),
    tLoop L F c ps = (c', .ok ()) → tLoop L F c (ps ++ qs) = tLoop L F c' qs
  | [], c, h => by
    rw [tLoop, Prod.mk.injEq] at h
    rw [h.1]; rfl
  | p :: ps, c, h => by
    rw [tLoop] at h
    rw [List.cons_append, tLoop]
    cases hj : unpackTwoJetL L F (p.point.getD {}) with
    | throw m => rw [hj] at h; simp at h
    | ub w => rw [hj] at h; simp at h
    | ok j =>
      rw [hj] at h
      simp only at h ⊢
      cases ha : TCurve.append c ⟨p.time, j⟩ with
      | mk c1 o =>
        rw [ha] at h
        cases o with
        | ok u => exact tLoop_append L F c' qs ps c1 h
        | throw m => simp at h
        | ub w => simp at h

/-- `append` leaves the curve as it is unless it succeeds. -/
theorem append_fails {c : TCurve G A} {p : TControl G A} (h : (TCurve.append c p).2 ≠ .ok ()) : (TCurve.append c p).1 = c := by
  cases hl : c.controls.getLast? with
  | none => rw [TCurve.append_nil (by simpa using hl)] at h; exact absurd rfl h
  | some b =>
    rw [TCurve.append_cons hl] at h ⊢
    by_cases h1 : b.time < p.time
    · rw [if_neg (not_not.mpr h1)] at h ⊢
      by_cases h2 : p.point.g.into = b.point.g.into ∧ p.point.g.src = b.point.g.src
      · rw [if_neg (not_not.mpr h2)] at h; exact absurd rfl h
      · rw [if_pos h2]
    · rw [if_pos h1]

theorem append_last {c c' : TCurve G A} {p : TControl G A} (h : TCurve.append c p = (c', .ok ())) : c'.controls.getLast? = some p := by
  cases hl : c.controls.getLast? with
  | none =>
    rw [TCurve.append_nil (by simpa using hl), Prod.mk.injEq] at h
    rw [← h.1]; rfl
  | some b =>
    rw [TCurve.append_cons hl] at h
    by_cases h1 : b.time < p.time
    · rw [if_neg (not_not.mpr h1)] at h
      by_cases h2 : p.point.g.into = b.point.g.into ∧ p.point.g.src = b.point.g.src
      · rw [if_neg (not_not.mpr h2), Prod.mk.injEq] at h
        rw [← h.1]; simp
      · rw [if_pos h2] at h; simp at h
    · rw [if_pos h1] at h; simp at h

theorem tLoop_fails (L : LieOps ℝ G A V) (F : Layout A) : ∀ (ps : List ControlMsg) (c : TCurve G A), (tLoop L F c ps).2 ≠ .ok () →
    ∃ k < ps.length, tLoop L F c (ps.take k) = ((tLoop L F c ps).1, .ok ()) ∧ (tLoop L F c (ps.take (k + 1))).2 = (tLoop L F c ps).2
  | [], c, h => absurd rfl h
  | p :: ps, c, h => by
    cases hj : unpackTwoJetL L F (p.point.getD {}) with
    | throw m => exact ⟨0, by simp, by simp [tLoop, hj], by simp [tLoop, hj]⟩
    | ub w => exact ⟨0, by simp, by simp [tLoop, hj], by simp [tLoop, hj]⟩
    | ok j =>
      cases ha : TCurve.append c ⟨p.time, j⟩ with
      | mk c1 o =>
        cases o with
        | ok u =>
          have e : ∀ qs, tLoop L F c (p :: qs) = tLoop L F c1 qs := fun qs => by rw [tLoop, hj]; simp only; rw [ha]
          rw [e] at h ⊢
          obtain ⟨k, hk, h1, h2⟩ := tLoop_fails L F ps c1 h
          exact ⟨k + 1, by simpa using hk, by rw [List.take_succ_cons, e]; exact h1, by rw [List.take_succ_cons, e]; exact h2⟩
        | throw m =>
          have hc := append_fails (c := c) (p := ⟨p.time, j⟩) (by rw [ha]; simp)
          rw [ha] at hc
          simp only at hc
          subst hc
          exact ⟨0, by simp, by simp [tLoop, hj, ha], by simp [tLoop, hj, ha]⟩
        | ub w =>
          have hc := append_fails (c := c) (p := ⟨p.time, j⟩) (by rw [ha]; simp)
          rw [ha] at hc
          simp only at hc
          subst hc
          exact ⟨0, by simp, by simp [tLoop, hj, ha], by simp [tLoop, hj, ha]⟩

theorem tLoop_last (L : LieOps ℝ G A V) (F : Layout A) (p : ControlMsg) : ∀ (ps : List ControlMsg) (c c' : TCurve G A), tLoop L F c (ps ++ [p]) = (c', .ok ()) →
    ∃ j, unpackTwoJetL L F (p.point.getD {}) = .ok j ∧ c'.controls.getLast? = some ⟨p.time, j⟩
  | [], c, c', h => by
    rw [List.nil_append, tLoop] at h
    cases hj : unpackTwoJetL L F (p.point.getD {}) with
    | throw m => rw [hj] at h; simp at h
    | ub w => rw [hj] at h; simp at h
    | ok j =>
      rw [hj] at h
      simp only at h
      cases ha : TCurve.append c ⟨p.time, j⟩ with
      | mk c1 o =>
        rw [ha] at h
        cases o with
        | ok u =>
          simp only [tLoop, Prod.mk.injEq, and_true] at h
          subst h
          exact ⟨j, rfl, append_last ha⟩
        | throw m => simp at h
        | ub w => simp at h
  | q :: ps, c, c', h => by
    rw [List.cons_append, tLoop] at h
    cases hj : unpackTwoJetL L F (q.point.getD {}) with
    | throw m => rw [hj] at h; simp at h
    | ub w => rw [hj] at h; simp at h
    | ok j =>
      rw [hj] at h
      simp only at h
      cases ha : TCurve.append c ⟨q.time, j⟩ with
      | mk c1 o =>
        rw [ha] at h
        cases o with
        | ok u => exact tLoop_last L F p ps c1 c' h
        | throw m => simp at h
        | ub w => simp at h

end Verif.UnpackInto
