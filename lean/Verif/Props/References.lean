import Verif.Model.References
import Mathlib.Tactic.Common
import Mathlib.Data.Fin.VecNotation
/-! # C95: output parameters -/
namespace Verif.Props
open Verif References

variable {n : Nat} {V A : Type}

theorem store_ok {m m' : Mem V} {a : Nat} {v : V} (h : store m a v = .ok m') : (m a).isSome ∧ m' a = some v ∧ ∀ b, b ≠ a → m' b = m b := by
  unfold store at h
  split at h
  next w hw =>
    cases h
    exact ⟨by rw [hw]; rfl, if_pos rfl, fun b hb => if_neg hb⟩
  next => cases h

theorem deref_of (a : Nat) : (NullableReference.of a).deref = .ok a := rfl

theorem deref_null : nullReference.deref = .throw "Can't dereference empty NullableReference!" := rfl

theorem nullable_cases (r : NullableReference) : r = nullReference ∨ ∃ a, r = .of a := by
  obtain ⟨_ | a⟩ := r
  · exact .inl rfl
  · exact .inr ⟨a, rfl⟩

theorem bind_ok_iff {α β : Type} {x : Outcome α} {f : α → Outcome β} {b : β} : (x >>= f) = .ok b ↔ ∃ a, x = .ok a ∧ f a = .ok b := by
  cases x with
  | ok a => simp
  | throw m => simp
  | ub w => simp

/-- C95.  A function can only change objects that are wrapped in the call: whatever its body does, every other object keeps its value, and no object appears or disappears. -/
theorem c95_only (body : Body n V A) (args : Fin n → NullableReference) (m m' : Mem V) (a : A) (h : body.runNullable args m = .ok (a, m')) :
    (∀ x, (∀ i, args i ≠ .of x) → m' x = m x) ∧ ∀ x, (m' x).isSome = (m x).isSome := by
  induction body generalizing m with
  | ret b =>
    cases h
    exact ⟨fun _ _ => rfl, fun _ => rfl⟩
  | hasValue i k ih => exact ih _ _ h
  | read i k ih =>
    obtain ⟨p, -, h⟩ := bind_ok_iff.mp h
    obtain ⟨v, -, h⟩ := bind_ok_iff.mp h
    exact ih _ _ h
  | write i v k ih =>
    obtain ⟨p, hp, h⟩ := bind_ok_iff.mp h
    obtain ⟨m1, hs, h⟩ := bind_ok_iff.mp h
    obtain ⟨s1, s2, s3⟩ := store_ok hs
    obtain ⟨h1, h2⟩ := ih _ h
    have hi : args i = .of p := by
      rcases nullable_cases (args i) with hn | ⟨q, hq⟩
      · rw [hn, deref_null] at hp
        cases hp
      · rw [hq, deref_of] at hp
        cases hp
        exact hq
    refine ⟨fun x hx => ?_, fun x => ?_⟩
    · rw [h1 x hx, s3 x]
      rintro rfl
      exact hx i hi
    · rw [h2 x]
      by_cases hx : x = p
      · rw [hx, s2, s1]
        rfl
      · rw [s3 x hx]

/-- C95.  While the wrapped objects live, nothing is undefined, and the assertion can only fail if a parameter is null; with `InOut` parameters the function
always returns. -/
theorem c95_safe (body : Body n V A) (m : Mem V) :
    (∀ args : Fin n → NullableReference, (∀ i x, args i = .of x → (m x).isSome) → ¬ (body.runNullable args m).IsUB) ∧
    (∀ args : Fin n → NullableReference, (∀ i, ∃ x, args i = .of x ∧ (m x).isSome) → (body.runNullable args m).IsOk) ∧
    (∀ args : Fin n → InOut, (∀ i, (m (args i).x).isSome) → (body.runInOut args m).IsOk) := by
  have loadOk : ∀ (m : Mem V) x, (m x).isSome → ∃ v, load m x = .ok v := fun m x h => by
    obtain ⟨v, hv⟩ := Option.isSome_iff_exists.mp h
    exact ⟨v, by rw [load, hv]⟩
  have storeOk : ∀ (m : Mem V) x v, (m x).isSome → ∃ m', store m x v = .ok m' := fun m x v h => by
    obtain ⟨w, hw⟩ := Option.isSome_iff_exists.mp h
    exact ⟨_, by rw [store, hw]⟩
  have live : ∀ (m m' : Mem V) (x : Nat) (v : V), store m x v = .ok m' → ∀ y, (m y).isSome → (m' y).isSome := by
    intro m m' x v hs y hy
    obtain ⟨-, s2, s3⟩ := store_ok hs
    by_cases h : y = x
    · rw [h, s2]
      rfl
    · rwa [s3 y h]
  induction body generalizing m with
  | ret b => exact ⟨fun _ _ => (by rintro ⟨w, hw⟩; cases hw), fun _ _ => ⟨_, rfl⟩, fun _ _ => ⟨_, rfl⟩⟩
  | hasValue i k ih =>
    exact ⟨fun args h => (ih _ m).1 args h, fun args h => (ih _ m).2.1 args h, fun args h => (ih _ m).2.2 args h⟩
  | read i k ih =>
    refine ⟨fun args h => ?_, fun args h => ?_, fun args h => ?_⟩
    · simp only [Body.runNullable]
      rcases nullable_cases (args i) with hn | ⟨p, hp⟩
      · rw [hn, deref_null]
        rintro ⟨w, hw⟩
        cases hw
      · obtain ⟨v, hv⟩ := loadOk m p (h i p hp)
        rw [hp, deref_of, Outcome.ok_bind, hv, Outcome.ok_bind]
        exact (ih v m).1 args h
    · obtain ⟨p, hp, hl⟩ := h i
      obtain ⟨v, hv⟩ := loadOk m p hl
      simp only [Body.runNullable]
      rw [hp, deref_of, Outcome.ok_bind, hv, Outcome.ok_bind]
      exact (ih v m).2.1 args h
    · obtain ⟨v, hv⟩ := loadOk m _ (h i)
      simp only [Body.runInOut, InOut.deref]
      rw [hv, Outcome.ok_bind]
      exact (ih v m).2.2 args h
  | write i v k ih =>
    refine ⟨fun args h => ?_, fun args h => ?_, fun args h => ?_⟩
    · simp only [Body.runNullable]
      rcases nullable_cases (args i) with hn | ⟨p, hp⟩
      · rw [hn, deref_null]
        rintro ⟨w, hw⟩
        cases hw
      · obtain ⟨m', hm⟩ := storeOk m p v (h i p hp)
        rw [hp, deref_of, Outcome.ok_bind, hm, Outcome.ok_bind]
        exact (ih m').1 args fun j x hj => live m m' p v hm x (h j x hj)
    · obtain ⟨p, hp, hl⟩ := h i
      obtain ⟨m', hm⟩ := storeOk m p v hl
      simp only [Body.runNullable]
      rw [hp, deref_of, Outcome.ok_bind, hm, Outcome.ok_bind]
      exact (ih m').2.1 args fun j => by
        obtain ⟨x, hx, hx'⟩ := h j
        exact ⟨x, hx, live m m' p v hm x hx'⟩
    · obtain ⟨m', hm⟩ := storeOk m _ v (h i)
      simp only [Body.runInOut, InOut.deref]
      rw [hm, Outcome.ok_bind]
      exact (ih m').2.2 args fun j => live m m' _ v hm _ (h j)

/-- C95.  A `NullableReference` can stand for an `InOut`, and for a raw pointer: the function does the same, except that using a null pointer, which is undefined, is an
assertion failure instead. -/
theorem c95_same (body : Body n V A) (m : Mem V) :
    (∀ args : Fin n → InOut, body.runNullable (fun i => .of (args i).x) m = body.runInOut args m) ∧
    (∀ args : Fin n → NullableReference, body.runNullable args m = body.runPointer (fun i => (args i).x) m ∨
      (body.runNullable args m).IsThrow ∧ body.runPointer (fun i => (args i).x) m = .ub "null") := by
  induction body generalizing m with
  | ret b => exact ⟨fun _ => rfl, fun _ => .inl rfl⟩
  | hasValue i k ih => exact ⟨fun args => (ih true m).1 args, fun args => (ih _ m).2 args⟩
  | read i k ih =>
    refine ⟨fun args => ?_, fun args => ?_⟩
    · simp only [Body.runNullable, Body.runInOut, InOut.deref, deref_of, Outcome.ok_bind]
      cases load m (args i).x with
      | ok v => exact (ih v m).1 args
      | throw e => rfl
      | ub w => rfl
    · simp only [Body.runNullable, Body.runPointer]
      rcases nullable_cases (args i) with hn | ⟨p, hp⟩
      · rw [hn, deref_null]
        exact .inr ⟨⟨_, rfl⟩, rfl⟩
      · rw [hp, deref_of, Outcome.ok_bind]
        simp only [NullableReference.of]
        cases load m p with
        | ok v => exact (ih v m).2 args
        | throw e => exact .inl rfl
        | ub w => exact .inl rfl
  | write i v k ih =>
    refine ⟨fun args => ?_, fun args => ?_⟩
    · simp only [Body.runNullable, Body.runInOut, InOut.deref, deref_of, Outcome.ok_bind]
      cases store m (args i).x v with
      | ok m' => exact (ih m').1 args
      | throw e => rfl
      | ub w => rfl
    · simp only [Body.runNullable, Body.runPointer]
      rcases nullable_cases (args i) with hn | ⟨p, hp⟩
      · rw [hn, deref_null]
        exact .inr ⟨⟨_, rfl⟩, rfl⟩
      · rw [hp, deref_of, Outcome.ok_bind]
        simp only [NullableReference.of]
        cases store m p v with
        | ok m' => exact (ih m').2 args
        | throw e => exact .inl rfl
        | ub w => exact .inl rfl

/-- C95.  Writing through a wrapper writes to the wrapped object, and is seen through every other wrapper of the same object. -/
theorem c95_alias (args : Fin n → NullableReference) (i j : Fin n) (p : Nat) (hi : args i = .of p) (hj : args j = .of p) (m : Mem V) (hp : (m p).isSome) (v : V) :
    ∃ m', (Body.write i v (.read j .ret)).runNullable args m = .ok (v, m') ∧ m' p = some v := by
  obtain ⟨w, hw⟩ := Option.isSome_iff_exists.mp hp
  refine ⟨fun b => if b = p then some v else m b, ?_, if_pos rfl⟩
  simp only [Body.runNullable, hi, hj, deref_of, Outcome.ok_bind, store, hw, load, if_pos]

/-- C95.  The functions of the documentation, for every caller: the value becomes three; with a null reference nothing happens; a reference to an object that no longer exists still
claims to have a value, and writing or reading through it is undefined. -/
theorem c95_documented (m : Mem Int) (p : Nat) :
    ((m p).isSome → ∃ m', setToThree.runInOut (fun _ => ⟨p⟩) m = .ok ((), m') ∧ m' p = some 3) ∧
    ((m p).isSome → ∃ m', maybeSetToThree.runNullable (fun _ => .of p) m = .ok ((), m') ∧ m' p = some 3) ∧
    maybeSetToThree.runNullable (fun _ => nullReference) m = .ok ((), m) ∧
    (m p = none → (NullableReference.of p).hasValue = true ∧ (maybeSetToThree.runNullable (fun _ => .of p) m).IsUB ∧
      ((Body.read 0 .ret : Body 1 Int Int).runNullable (fun _ => .of p) m).IsUB) := by
  refine ⟨fun h => ?_, fun h => ?_, rfl, fun h => ⟨rfl, ?_, ?_⟩⟩
  · obtain ⟨w, hw⟩ := Option.isSome_iff_exists.mp h
    refine ⟨fun b => if b = p then some 3 else m b, ?_, if_pos rfl⟩
    simp only [setToThree, Body.runInOut, InOut.deref, store, hw, Outcome.ok_bind]
    rfl
  · obtain ⟨w, hw⟩ := Option.isSome_iff_exists.mp h
    refine ⟨fun b => if b = p then some 3 else m b, ?_, if_pos rfl⟩
    simp only [maybeSetToThree, Body.runNullable, NullableReference.hasValue, NullableReference.of, Option.isSome_some, if_true]
    change (store m p 3 >>= _) = _
    rw [store, hw]
    rfl
  · simp only [maybeSetToThree, Body.runNullable, NullableReference.hasValue, NullableReference.of, Option.isSome_some, if_true]
    change ((store m p 3 >>= _)).IsUB
    rw [store, h]
    exact ⟨_, rfl⟩
  · change ((load m p >>= _)).IsUB
    rw [load, h]
    exact ⟨_, rfl⟩

section Examples

/-- Objects at the addresses 10 and 20. -/
def exMem : Mem Int := fun a => if a = 10 then some 1 else if a = 20 then some 2 else none

/-- A body that adds the second parameter to the first. -/
def exBody : Body 2 Int Unit := .read 0 fun x => .read 1 fun y => .write 0 (x + y) (.ret ())

/-- `c95_only`, `c95_safe`, `c95_same`: the object at 10 changes, that at 20 does not. -/
example : ∃ m', exBody.runNullable ![.of 10, .of 20] exMem = .ok ((), m') ∧ m' 10 = some 3 ∧ m' 20 = some 2 ∧
    (exBody.runInOut ![⟨10⟩, ⟨20⟩] exMem).IsOk ∧ (exBody.runNullable ![.of 10, nullReference] exMem).IsThrow := by
  refine ⟨_, rfl, rfl, rfl, (c95_safe exBody exMem).2.2 _ ?_, ⟨_, rfl⟩⟩
  intro i
  match i with
  | 0 => rfl
  | 1 => rfl

/-- `c95_alias`, `c95_documented`. -/
example : (∃ m', (Body.write 0 7 (.read 1 .ret)).runNullable ![NullableReference.of 10, .of 10] exMem = .ok (7, m') ∧ m' 10 = some 7) ∧
    (maybeSetToThree.runNullable (fun _ => .of 30) exMem).IsUB :=
  ⟨c95_alias ![.of 10, .of 10] 0 1 10 rfl rfl exMem rfl 7, ((c95_documented exMem 30).2.2.2 rfl).2.1⟩

end Examples
end Verif.Props
