import Verif.Model.UnpackInto
/-! # What a variable should hold after messages were unpacked into it -/
namespace Verif.Spec.UnpackInto

/-- The variable holds the value of the last message that has one, or what it held at first if none has. -/
def LastGood {α M : Type} (value : M → Outcome α) (start : α) (ms : List M) (v : α) : Prop :=
  (∃ pre m post, ms = pre ++ m :: post ∧ value m = .ok v ∧ ∀ x ∈ post, ∀ w, value x ≠ .ok w) ∨ (v = start ∧ ∀ x ∈ ms, ∀ w, value x ≠ .ok w)

/-- A call ended as a function that returns a value did. -/
def SameEnd {α : Type} (o : Outcome Unit) (r : Outcome α) : Prop :=
  (o = .ok () ↔ ∃ v, r = .ok v) ∧ (∀ e, o = .throw e ↔ r = .throw e) ∧ ∀ w, o = .ub w ↔ r = .ub w

/-- An unpacker with the strong guarantee: the variable becomes the value of the message if it has one, and stays if not. -/
def Strong {α M : Type} (into : α → M → α × Outcome Unit) (value : M → Outcome α) : Prop :=
  ∀ dest m, SameEnd (into dest m).2 (value m) ∧ (∀ v, value m = .ok v → (into dest m).1 = v) ∧ ((∀ v, value m ≠ .ok v) → (into dest m).1 = dest)

end Verif.Spec.UnpackInto
