import Verif.Model.Match
import Mathlib.Data.List.Perm.Basic
/-! # Overload resolution: the best branch -/
namespace Verif.Match
variable {V B : Type}

theorem argBetter_irrefl (x : Ics) : argBetter x x = false := by
  obtain ⟨r, b⟩ := x
  cases b <;> simp [argBetter]

theorem better_irrefl (x : Branch V B) (i : Ics) : better x i x i = false := by
  cases h : x.isConst <;> by_cases hp : x.param = .generic <;> simp [better, argBetter_irrefl, objBetter, h, hp]

theorem better_asymm {x y : Branch V B} {i j : Ics} (h : better x i y j = true) : better y j x i = false := by
  simp only [better, Bool.and_eq_true, Bool.not_eq_true', Bool.or_eq_true, bne_iff_ne, beq_iff_eq] at h
  obtain ⟨⟨h1, h2⟩, h3⟩ := h
  by_contra hc
  rw [Bool.not_eq_false] at hc
  simp only [better, Bool.and_eq_true, Bool.not_eq_true', Bool.or_eq_true, bne_iff_ne, beq_iff_eq] at hc
  obtain ⟨⟨k1, k2⟩, k3⟩ := hc
  simp only [h1, h2, k1, k2, Bool.false_eq_true, false_or] at h3 k3
  exact h3.1 k3.2

/-- `b` wins against the branches `rest`: it is viable and better than each viable one of them. -/
def Wins (t : Ty) (c : Cat) (b : Branch V B) (rest : List (Branch V B)) : Prop :=
  ∃ i, ics t c b.param = some i ∧ ∀ x ∈ rest, ∀ j, ics t c x.param = some j → better b i x j = true

theorem wins_iff {t : Ty} {c : Cat} {b : Branch V B} {l r : List (Branch V B)} :
    ((ics t c b.param).isSome && (l ++ b :: r).countP (blocks t c b) == 1) = true ↔ Wins t c b (l ++ r) := by
  rw [Bool.and_eq_true, beq_iff_eq]
  constructor
  · rintro ⟨h1, h2⟩
    obtain ⟨i, hi⟩ := Option.isSome_iff_exists.mp h1
    refine ⟨i, hi, fun x hx j hj => ?_⟩
    have hb : blocks t c b b = true := by simp [blocks, hi, better_irrefl]
    rw [(List.perm_middle (a := b) (l₁ := l) (l₂ := r)).countP_eq, List.countP_cons_of_pos hb, Nat.add_eq_right, List.countP_eq_zero] at h2
    have := h2 x hx
    simpa [blocks, hi, hj] using this
  · rintro ⟨i, hi, h⟩
    refine ⟨by rw [hi]; rfl, ?_⟩
    have hb : blocks t c b b = true := by simp [blocks, hi, better_irrefl]
    rw [(List.perm_middle (a := b) (l₁ := l) (l₂ := r)).countP_eq, List.countP_cons_of_pos hb, Nat.add_eq_right, List.countP_eq_zero]
    intro x hx
    cases hj : ics t c x.param with
    | none => simp [blocks, hi, hj]
    | some j => simp [blocks, hi, hj, h x hx j hj]

theorem select_iff {bs : List (Branch V B)} {t : Ty} {c : Cat} {b : Branch V B} :
    select bs t c = some b ↔ ∃ l r, bs = l ++ b :: r ∧ Wins t c b (l ++ r) := by
  constructor
  · intro h
    obtain ⟨hp, l, r, rfl, -⟩ := List.find?_eq_some_iff_append.mp h
    exact ⟨l, r, rfl, wins_iff.mp hp⟩
  · rintro ⟨l, r, rfl, h⟩
    refine List.find?_eq_some_iff_append.mpr ⟨wins_iff.mpr h, l, r, rfl, fun x hx => ?_⟩
    by_contra hc
    rw [Bool.not_eq_true', Bool.not_eq_false] at hc
    obtain ⟨l1, l2, rfl⟩ := List.append_of_mem hx
    rw [List.append_assoc, List.cons_append] at hc
    obtain ⟨j, hj, w⟩ := wins_iff.mp hc
    obtain ⟨i, hi, w'⟩ := h
    have a1 := w b (by simp) i hi
    have a2 := w' x (by simp) j hj
    rw [better_asymm a1] at a2
    exact absurd a2 (by simp)

theorem select_perm {bs bs' : List (Branch V B)} (h : bs.Perm bs') (t : Ty) (c : Cat) : select bs t c = select bs' t c := by
  have key : ∀ {bs bs' : List (Branch V B)}, bs.Perm bs' → ∀ b, select bs t c = some b → select bs' t c = some b := by
    intro bs bs' h b hb
    obtain ⟨l, r, rfl, i, hi, w⟩ := select_iff.mp hb
    obtain ⟨l', r', rfl⟩ := List.append_of_mem (h.subset (show b ∈ l ++ b :: r by simp))
    have hp : (l ++ r).Perm (l' ++ r') := ((List.perm_middle.symm.trans h).trans List.perm_middle).cons_inv
    exact select_iff.mpr ⟨l', r', rfl, i, hi, fun x hx => w x (hp.symm.subset hx)⟩
  cases h1 : select bs t c with
  | some b => exact (key h b h1).symm
  | none =>
    cases h2 : select bs' t c with
    | none => rfl
    | some b => rw [key h.symm b h2] at h1; exact absurd h1 (by simp)

theorem consistent_select {types : List Ty} {c : Cat} {bs : List (Branch V B)} (h : consistent types c bs = true) {t : Ty} (ht : t ∈ types) :
    ∃ b, select bs t c = some b := by
  rw [consistent, Bool.and_eq_true] at h
  exact Option.isSome_iff_exists.mp (List.all_eq_true.mp h.1 t ht)

theorem compile_compiles {types : List Ty} {c : Cat} {bs : List (Branch V B)} (h : compile types c bs = .compiles) :
    consistent types .rvalue bs = true ∧ consistent types c bs = true ∧ ∀ b ∈ bs, b.isClass = true := by
  unfold compile at h
  split at h
  next h1 =>
    rw [Bool.and_eq_true] at h1
    split at h
    next h2 => exact ⟨h1.2, h2, List.all_eq_true.mp h1.1⟩
    next => cases h
  next => cases h

theorem compile_discarded {types : List Ty} {c : Cat} {bs : List (Branch V B)} (h : consistent types .rvalue bs = false) :
    compile types c bs = .discarded := by
  unfold compile
  rw [h, Bool.and_false]
  rfl

theorem discarded_of_select {types : List Ty} {c : Cat} {bs : List (Branch V B)} {t : Ty} (ht : t ∈ types) (h : select bs t .rvalue = none) :
    compile types c bs = .discarded := by
  refine compile_discarded ?_
  by_contra hc
  rw [Bool.not_eq_false] at hc
  obtain ⟨b, hb⟩ := consistent_select hc ht
  rw [h] at hb
  cases hb

theorem rank_zero {t p : Ty} (h : rank t p = some 0) : t = p := by
  revert h
  cases t <;> cases p <;> simp [rank]

theorem rank_self (t : Ty) : rank t t = some 0 := if_pos rfl

theorem rank_cls {n : Nat} {p : Ty} (h : (rank (.cls n) p).isSome) : p = .cls n := by
  by_contra hn
  rw [rank, if_neg (Ne.symm hn)] at h
  cases h

end Verif.Match
