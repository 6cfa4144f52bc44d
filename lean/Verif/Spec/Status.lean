import Verif.Model.Status
/-! # What a chain of fallible steps should do

Inductive relations over the statements of a body, written without reference to the execution function. -/
namespace Verif.Spec.Status
open Verif.StatusChain (Chain)

/-- All steps succeed, taking the state from the first to the second argument. -/
inductive Succeeds {σ V : Type} : Chain σ V → σ → σ → Prop
  | done (s) : Succeeds .done s s
  | check (f rest s s₁ s₂) : f s = (s₁, Status.okay) → Succeeds rest s₁ s₂ → Succeeds (.check f rest) s s₂
  | assign (g rest s s₁ v s₂) : g s = (s₁, StatusValue.value v) → Succeeds (rest v) s₁ s₂ → Succeeds (.assign g rest) s s₂
  | assignTemp (g rest s s₁ v s₂) : g s = (s₁, StatusValue.value v) → Succeeds (rest v) s₁ s₂ → Succeeds (.assignTemp g rest) s s₂

/-- Some step fails with the given bad status, all steps before it succeed, and the state is the one right after that step. -/
inductive FailsFirst {σ V : Type} : Chain σ V → σ → σ → Status → Prop
  | here_check (f rest s s₁ m file line) : f s = (s₁, Status.err m file line) →
      FailsFirst (.check f rest) s s₁ (.err m file line)
  | here_assign (g rest s s₁ m file line) : g s = (s₁, StatusValue.status (.err m file line)) →
      FailsFirst (.assign g rest) s s₁ (.err m file line)
  | later_check (f rest s s₁ s₂ st) : f s = (s₁, Status.okay) → FailsFirst rest s₁ s₂ st → FailsFirst (.check f rest) s s₂ st
  | later_assign (g rest s s₁ v s₂ st) : g s = (s₁, StatusValue.value v) → FailsFirst (rest v) s₁ s₂ st →
      FailsFirst (.assign g rest) s s₂ st
  | here_assignTemp (g rest s s₁ m file line) : g s = (s₁, StatusValue.status (.err m file line)) →
      FailsFirst (.assignTemp g rest) s s₁ (.err m file line)
  | later_assignTemp (g rest s s₁ v s₂ st) : g s = (s₁, StatusValue.value v) → FailsFirst (rest v) s₁ s₂ st →
      FailsFirst (.assignTemp g rest) s s₂ st

/-- All steps before some step succeed, and that step takes the value of a call returning by value. -/
inductive ReachesTemporary {σ V : Type} : Chain σ V → σ → Prop
  | here (g rest s) : ReachesTemporary (.assignTemp g rest) s
  | later_check (f rest s s₁) : f s = (s₁, Status.okay) → ReachesTemporary rest s₁ → ReachesTemporary (.check f rest) s
  | later_assign (g rest s s₁ v) : g s = (s₁, StatusValue.value v) → ReachesTemporary (rest v) s₁ → ReachesTemporary (.assign g rest) s

/-- Status values as they can be built through the constructors: never a status that is okay. -/
def WellFormed {α : Type} (v : StatusValue α) : Prop := v ≠ .status .okay

/-- Every expression of the chain yields a constructible status value. -/
inductive ChainWellFormed {σ V : Type} : Chain σ V → Prop
  | done : ChainWellFormed .done
  | check (f rest) : ChainWellFormed rest → ChainWellFormed (.check f rest)
  | assign (g rest) : (∀ s, WellFormed (g s).2) → (∀ v, ChainWellFormed (rest v)) → ChainWellFormed (.assign g rest)
  | assignTemp (g rest) : (∀ s, WellFormed (g s).2) → (∀ v, ChainWellFormed (rest v)) → ChainWellFormed (.assignTemp g rest)

/-- No step takes the value of a call returning by value. -/
inductive NoTemporaries {σ V : Type} : Chain σ V → Prop
  | done : NoTemporaries .done
  | check (f rest) : NoTemporaries rest → NoTemporaries (.check f rest)
  | assign (g rest) : (∀ v, NoTemporaries (rest v)) → NoTemporaries (.assign g rest)

end Verif.Spec.Status
