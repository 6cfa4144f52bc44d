/-!
# Outcomes of C++ calls

`Outcome α` is the result of a C++ call in the model.  Undefined behaviour is a separate outcome so that
"this call is never undefined" is a statement that can be false.
-/

namespace Verif

/-- Result of a call.  `ok a`: returned normally with `a`.  `throw m`: a `REASSERT` failed and `AssertException` was thrown
with message `m` (resim/assert/assert.hh:46-56, resim/assert/assert.cc:15-27; only the message argument is kept, file, line and
condition text are dropped).  `ub w`: undefined behaviour, `w` says which. -/
inductive Outcome (α : Type u) where
  | ok (a : α)
  | throw (msg : String)
  | ub (why : String)
  deriving Repr, DecidableEq

namespace Outcome

/-- Sequencing of C++ statements: an exception or undefined behaviour ends the call (resim/assert/assert.hh:53-55: `throw`
leaves the enclosing functions; nothing in the library catches it). -/
def bind (x : Outcome α) (f : α → Outcome β) : Outcome β :=
  match x with
  | ok a => f a
  | throw m => throw m
  | ub w => ub w

instance : Monad Outcome where
  pure := ok
  bind := bind

/-- `REASSERT(cond, msg)`: resim/assert/assert.hh:46-56 (`assert_impl`) throws exactly if the condition is false. -/
def reassert (cond : Prop) [Decidable cond] (msg : String) : Outcome Unit :=
  if cond then ok () else throw msg

@[simp] theorem pure_eq (a : α) : (pure a : Outcome α) = ok a := rfl
@[simp] theorem ok_bind (a : α) (f : α → Outcome β) : (ok a >>= f) = f a := rfl
@[simp] theorem throw_bind (m : String) (f : α → Outcome β) : ((throw m : Outcome α) >>= f) = throw m := rfl
@[simp] theorem ub_bind (m : String) (f : α → Outcome β) : ((ub m : Outcome α) >>= f) = ub m := rfl
@[simp] theorem map_ok (f : α → β) (a : α) : (f <$> (ok a)) = ok (f a) := rfl
@[simp] theorem map_throw (f : α → β) (m : String) : (f <$> (throw m : Outcome α)) = throw m := rfl
@[simp] theorem map_ub (f : α → β) (m : String) : (f <$> (ub m : Outcome α)) = ub m := rfl

theorem reassert_true {c : Prop} [Decidable c] (h : c) (m : String) : reassert c m = ok () := by
  simp [reassert, h]

theorem reassert_false {c : Prop} [Decidable c] (h : ¬ c) (m : String) : reassert c m = throw m := by
  simp [reassert, h]

instance : LawfulMonad Outcome := LawfulMonad.mk'
  (id_map := by intro α x; cases x <;> rfl)
  (pure_bind := by intros; rfl)
  (bind_assoc := by intro α β γ x f g; cases x <;> rfl)

/-- The call returned normally (no exception, no undefined behaviour; resim/assert/assert.hh:46-56 when no `REASSERT` fails). -/
def IsOk (x : Outcome α) : Prop := ∃ a, x = ok a

/-- The call threw an `AssertException`, resim/assert/assert.hh:46-56. -/
def IsThrow (x : Outcome α) : Prop := ∃ m, x = throw m

/-- The call had undefined behaviour: no code of its own in /repo, the C++ standard gives no meaning to the call (resim/math/safe_integer_utils.cc:15-43
exists to avoid one kind of it). -/
def IsUB (x : Outcome α) : Prop := ∃ w, x = ub w

@[simp] theorem isOk_ok (a : α) : (ok a).IsOk := ⟨a, rfl⟩
@[simp] theorem isThrow_throw (m : String) : (throw m : Outcome α).IsThrow := ⟨m, rfl⟩
@[simp] theorem isUB_ub (m : String) : (ub m : Outcome α).IsUB := ⟨m, rfl⟩
@[simp] theorem not_isOk_throw (m : String) : ¬ (throw m : Outcome α).IsOk := by rintro ⟨a, h⟩; cases h
@[simp] theorem not_isOk_ub (m : String) : ¬ (ub m : Outcome α).IsOk := by rintro ⟨a, h⟩; cases h
@[simp] theorem not_isThrow_ok (a : α) : ¬ (ok a : Outcome α).IsThrow := by rintro ⟨a, h⟩; cases h
@[simp] theorem not_isThrow_ub (m : String) : ¬ (ub m : Outcome α).IsThrow := by rintro ⟨a, h⟩; cases h
@[simp] theorem not_isUB_ok (a : α) : ¬ (ok a : Outcome α).IsUB := by rintro ⟨a, h⟩; cases h
@[simp] theorem not_isUB_throw (m : String) : ¬ (throw m : Outcome α).IsUB := by rintro ⟨a, h⟩; cases h

end Outcome
end Verif
