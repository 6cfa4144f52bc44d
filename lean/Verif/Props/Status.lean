import Verif.Spec.Status
/-! # Property C19: status propagation -/
namespace Verif.Props
open Verif.StatusChain Verif.Spec.Status

/-- C19.  A chain returns an okay status in state `s'` exactly if every step succeeds, ending in `s'`; it returns a bad status `st` in
state `s'` exactly if the first failing step fails with `st`, leaving `s'`, so no later step runs.  Partial: the macro that takes values is not
applied to calls that return by value (see `c19_undefined_iff`). -/
theorem c19_chain_partial {σ V : Type} (c : Chain σ V) (wf : ChainWellFormed c) (hn : NoTemporaries c) (s s' : σ) (st : Status) :
    exec c s = .ok (s', st) ↔ (st = .okay ∧ Succeeds c s s') ∨ FailsFirst c s s' st := by
  induction wf generalizing s with
  | assignTemp => cases hn
  | done =>
    constructor
    · intro h
      simp only [exec, Outcome.ok.injEq, Prod.mk.injEq] at h
      obtain ⟨rfl, rfl⟩ := h
      exact Or.inl ⟨rfl, .done _⟩
    · rintro (⟨rfl, h⟩ | h)
      · cases h; rfl
      · cases h
  | check f rest _ ih =>
    replace ih := ih (by cases hn; assumption)
    cases hf : f s with
    | mk s₁ st₁ =>
    cases st₁ with
    | okay =>
      have he : exec (.check f rest) s = exec rest s₁ := by simp [exec, hf, Status.ok]
      rw [he, ih]
      constructor
      · rintro (⟨rfl, h⟩ | h)
        · exact Or.inl ⟨rfl, .check _ _ _ _ _ hf h⟩
        · exact Or.inr (.later_check _ _ _ _ _ _ hf h)
      · rintro (⟨rfl, h⟩ | h)
        · cases h with
          | check _ _ _ s₂ _ h1 h2 =>
            rw [hf] at h1
            cases h1
            exact Or.inl ⟨rfl, h2⟩
        · cases h with
          | here_check _ _ _ _ _ _ _ h1 => rw [hf] at h1; cases h1
          | later_check _ _ _ s₂ _ _ h1 h2 =>
            rw [hf] at h1
            cases h1
            exact Or.inr h2
    | err m file line =>
      have he : exec (.check f rest) s = .ok (s₁, .err m file line) := by simp [exec, hf, Status.ok]
      rw [he]
      constructor
      · intro h
        simp only [Outcome.ok.injEq, Prod.mk.injEq] at h
        obtain ⟨rfl, rfl⟩ := h
        exact Or.inr (.here_check _ _ _ _ _ _ _ hf)
      · rintro (⟨rfl, h⟩ | h)
        · cases h with
          | check _ _ _ s₂ _ h1 h2 => rw [hf] at h1; cases h1
        · cases h with
          | here_check _ _ _ _ _ _ _ h1 => rw [hf] at h1; cases h1; rfl
          | later_check _ _ _ s₂ _ _ h1 h2 => rw [hf] at h1; cases h1
  | assign g rest hw _ ih =>
    replace ih := fun v => ih v (by cases hn with | assign _ _ hn => exact hn v)
    cases hg : g s with
    | mk s₁ v₁ =>
    have hw' := hw s
    rw [hg] at hw'
    cases v₁ with
    | value v =>
      have he : exec (.assign g rest) s = exec (rest v) s₁ := by
        simp [exec, hg, StatusValue.getStatus, StatusValue.getValue, StatusValue.ok, Status.ok]
      rw [he, ih]
      constructor
      · rintro (⟨rfl, h⟩ | h)
        · exact Or.inl ⟨rfl, .assign _ _ _ _ _ _ hg h⟩
        · exact Or.inr (.later_assign _ _ _ _ _ _ _ hg h)
      · rintro (⟨rfl, h⟩ | h)
        · cases h with
          | assign _ _ _ s₂ _ _ h1 h2 =>
            rw [hg] at h1
            cases h1
            exact Or.inl ⟨rfl, h2⟩
        · cases h with
          | here_assign _ _ _ _ _ _ _ h1 => rw [hg] at h1; cases h1
          | later_assign _ _ _ s₂ _ _ _ h1 h2 =>
            rw [hg] at h1
            cases h1
            exact Or.inr h2
    | status st₁ =>
      cases st₁ with
      | okay => exact absurd rfl hw'
      | err m file line =>
        have he : exec (.assign g rest) s = .ok (s₁, .err m file line) := by
          simp [exec, hg, StatusValue.getStatus, Status.ok]
        rw [he]
        constructor
        · intro h
          simp only [Outcome.ok.injEq, Prod.mk.injEq] at h
          obtain ⟨rfl, rfl⟩ := h
          exact Or.inr (.here_assign _ _ _ _ _ _ _ hg)
        · rintro (⟨rfl, h⟩ | h)
          · cases h with
            | assign _ _ _ s₂ _ _ h1 h2 => rw [hg] at h1; cases h1
          · cases h with
            | here_assign _ _ _ _ _ _ _ h1 => rw [hg] at h1; cases h1; rfl
            | later_assign _ _ _ s₂ _ _ _ h1 h2 => rw [hg] at h1; cases h1

/-- C19.  A chain is undefined exactly if every step before some step succeeds and that step takes the value of a call that returns by value;
otherwise it returns: the macros themselves never throw. -/
theorem c19_undefined_iff {σ V : Type} (c : Chain σ V) (wf : ChainWellFormed c) (s : σ) :
    ((exec c s).IsUB ↔ ReachesTemporary c s) ∧ ((exec c s).IsOk ↔ ¬ ReachesTemporary c s) := by
  have main : (ReachesTemporary c s ∧ (exec c s).IsUB) ∨ (¬ ReachesTemporary c s ∧ (exec c s).IsOk) := by
    induction wf generalizing s with
    | done => exact Or.inr ⟨(by intro h; cases h), _, rfl⟩
    | assignTemp g rest => exact Or.inl ⟨.here _ _ _, _, rfl⟩
    | check f rest _ ih =>
      cases hf : f s with
      | mk s₁ st₁ =>
      cases st₁ with
      | okay =>
        have he : exec (.check f rest) s = exec rest s₁ := by simp [exec, hf, Status.ok]
        rw [he]
        rcases ih s₁ with ⟨h1, h2⟩ | ⟨h1, h2⟩
        · exact Or.inl ⟨.later_check _ _ _ _ hf h1, h2⟩
        · refine Or.inr ⟨fun h => ?_, h2⟩
          cases h with
          | later_check _ _ _ s₂ h3 h4 => rw [hf] at h3; cases h3; exact h1 h4
      | err m file line =>
        refine Or.inr ⟨fun h => ?_, _, by simp [exec, hf, Status.ok]; rfl⟩
        cases h with
        | later_check _ _ _ s₂ h3 h4 => rw [hf] at h3; cases h3
    | assign g rest hw _ ih =>
      cases hg : g s with
      | mk s₁ v₁ =>
      have hw' := hw s
      rw [hg] at hw'
      cases v₁ with
      | value v =>
        have he : exec (.assign g rest) s = exec (rest v) s₁ := by
          simp [exec, hg, StatusValue.getStatus, StatusValue.getValue, StatusValue.ok, Status.ok]
        rw [he]
        rcases ih v s₁ with ⟨h1, h2⟩ | ⟨h1, h2⟩
        · exact Or.inl ⟨.later_assign _ _ _ _ _ hg h1, h2⟩
        · refine Or.inr ⟨fun h => ?_, h2⟩
          cases h with
          | later_assign _ _ _ s₂ v' h3 h4 => rw [hg] at h3; cases h3; exact h1 h4
      | status st₁ =>
        cases st₁ with
        | okay => exact absurd rfl hw'
        | err m file line =>
          refine Or.inr ⟨fun h => ?_, _, by simp [exec, hg, StatusValue.getStatus, Status.ok]; rfl⟩
          cases h with
          | later_assign _ _ _ s₂ v' h3 h4 => rw [hg] at h3; cases h3
  rcases main with ⟨h1, h2⟩ | ⟨h1, h2⟩
  · exact ⟨by simp [h1, h2], by obtain ⟨w, h2⟩ := h2; simp [h1, h2]⟩
  · exact ⟨by obtain ⟨w, h2⟩ := h2; simp [h1, h2], by simp [h1, h2]⟩

/-- C19.  A chain without such steps always returns. -/
theorem c19_chain_returns_partial {σ V : Type} (c : Chain σ V) (wf : ChainWellFormed c) (hn : NoTemporaries c) (s : σ) : (exec c s).IsOk := by
  refine (c19_undefined_iff c wf s).2.mpr fun h => ?_
  induction h with
  | here => cases hn
  | later_check f rest s s₁ _ _ ih =>
    cases wf with | check _ _ w => cases hn with | check _ _ n => exact ih w n
  | later_assign g rest s s₁ v _ _ ih =>
    cases wf with | assign _ _ _ w => cases hn with | assign _ _ n => exact ih (w v) (n v)

/-- C19.  In a function returning a status value the failing status is what the caller gets, and a value exactly if all steps
succeed. -/
theorem c19_chain_value_partial {σ V R : Type} (c : Chain σ V) (wf : ChainWellFormed c) (hn : NoTemporaries c) (r : σ → R) (s : σ) :
    (∀ s', Succeeds c s s' → execValue c r s = .ok (s', .value (r s'))) ∧
    (∀ s' st, FailsFirst c s s' st → execValue c r s = .ok (s', .status st)) := by
  have bad : ∀ {c : Chain σ V} {s s' st}, FailsFirst c s s' st → st.ok = false := by
    intro c s s' st h
    induction h <;> first | rfl | assumption
  constructor
  · intro s' h
    have := (c19_chain_partial c wf hn s s' .okay).mpr (Or.inl ⟨rfl, h⟩)
    simp [execValue, this, Status.ok, StatusValue.ofValue]
  · intro s' st h
    have e := (c19_chain_partial c wf hn s s' st).mpr (Or.inr h)
    have hb := bad h
    simp [execValue, e, hb, StatusValue.ofStatus, StatusValue.ok, StatusValue.getStatus]

/-- C19.  `value()` throws exactly if `ok()` is false, and otherwise returns the stored value. -/
theorem c19_value_iff_ok {α : Type} (v : StatusValue α) (wf : WellFormed v) :
    (v.ok = true ↔ ∃ a, v = .value a ∧ v.getValue = .ok a) ∧
    (v.ok = false ↔ v.getValue = .throw "Can't dereference bad StatusValue!") := by
  cases v with
  | value a => simp [StatusValue.ok, StatusValue.getStatus, StatusValue.getValue, Status.ok]
  | status st =>
    cases st with
    | okay => exact absurd rfl wf
    | err m f l => simp [StatusValue.ok, StatusValue.getStatus, StatusValue.getValue, Status.ok]

/-- C19.  Every constructor yields a well-formed status value; constructing one from an okay status throws. -/
theorem c19_constructors {α : Type} (a : α) (st : Status) :
    WellFormed (StatusValue.ofValue a) ∧ WellFormed (StatusValue.default : StatusValue α) ∧
    (StatusValue.default : StatusValue α).ok = false ∧
    (st.ok = true → (StatusValue.ofStatus st : Outcome (StatusValue α)) = .throw "Can't make okay StatusValue without value!") ∧
    (∀ v : StatusValue α, StatusValue.ofStatus st = .ok v → WellFormed v ∧ v.ok = false ∧ v.getStatus = st) ∧
    (st.ok = false → ∃ v : StatusValue α, StatusValue.ofStatus st = .ok v) := by
  refine ⟨by simp [WellFormed, StatusValue.ofValue], by simp [WellFormed, StatusValue.default, Status.makeAtLine], rfl, ?_, ?_, ?_⟩
  · intro h
    simp [StatusValue.ofStatus, StatusValue.ok, StatusValue.getStatus, h]
  · intro v h
    cases st with
    | okay => simp [StatusValue.ofStatus, StatusValue.ok, StatusValue.getStatus, Status.ok] at h
    | err m f l =>
      simp [StatusValue.ofStatus, StatusValue.ok, StatusValue.getStatus, Status.ok] at h
      subst h
      exact ⟨by simp [WellFormed], rfl, rfl⟩
  · intro h
    exact ⟨.status st, by simp [StatusValue.ofStatus, StatusValue.ok, StatusValue.getStatus, h]⟩

/-- C19.  A status made at a file and line with a message is bad and its text shows the three; an okay status reads `OKAY`. -/
theorem c19_text (file message : String) (line : Int) :
    (Status.makeAtLine file line message).ok = false ∧
    (Status.makeAtLine file line message).what = "<" ++ file ++ ":" ++ toString line ++ "> " ++ message ∧
    Status.okay.ok = true ∧ Status.okay.what = "OKAY" := ⟨rfl, rfl, rfl, rfl⟩

/-- C19.  `CHECK_STATUS_OK` passes exactly on okay statuses, and otherwise throws an error showing the text of the status. -/
theorem c19_check (text : String) (st : Status) :
    (st = .okay → st.checkOk text = .ok ()) ∧ (st ≠ .okay → st.checkOk text = .throw ("{" ++ text ++ ".what() == " ++ st.what ++ "}")) := by
  cases st with
  | okay => simp [Status.checkOk, Outcome.reassert, Status.ok]
  | err m f l => simp [Status.checkOk, Outcome.reassert, Status.ok]

/-- C19.  Applied to an expression that changes nothing, the check passes exactly if the status is okay. -/
theorem c19_check_expr_partial {σ : Type} (text : String) (f : σ → σ × Status) (s : σ) (h : (f s).1 = s) :
    Status.checkOkExpr text f s = (s, (f s).2.checkOk text) := by
  simp only [Status.checkOkExpr, Status.checkOk, h]

/-- C19.  The check evaluates its argument twice and looks at the second status: a call that fails the first time and succeeds the second passes;
one that succeeds the first time and fails the second is refused with a message saying the status is okay. -/
theorem c19_check_twice :
    (∃ (f : Nat → Nat × Status), (f 0).2 ≠ .okay ∧ Status.checkOkExpr "f()" f 0 = (2, .ok ())) ∧
    (∃ (f : Nat → Nat × Status), (f 0).2 = .okay ∧ Status.checkOkExpr "f()" f 0 = (2, .throw "{f().what() == OKAY}")) := by
  refine ⟨⟨fun n => (n + 1, if n = 0 then .err "no" "f" 1 else .okay), by simp, by rfl⟩,
    ⟨fun n => (n + 1, if n = 0 then .okay else .err "no" "f" 1), by simp, by rfl⟩⟩

/-- C19 fails as stated: taking the value of a call that returns by value is undefined although all steps succeed. -/
theorem c19_temporary : ∃ (c : Chain Nat Nat) (s' : Nat), ChainWellFormed c ∧ Succeeds c 0 s' ∧ (exec c 0).IsUB :=
  ⟨.assignTemp (fun s => (s + 1, .value 5)) fun _ => .done, 1, .assignTemp _ _ (fun s => by simp [WellFormed]) fun _ => .done,
    .assignTemp _ _ _ _ _ _ rfl (.done _), _, rfl⟩

/-- An expression that changes nothing. -/
example : ((fun n : Nat => (n, Status.err "no" "f" 1)) 3).1 = 3 := rfl

/-- A chain of three steps that log their execution; the second fails if told so. -/
def sampleChain (bad : Bool) : Chain (List Nat) Nat :=
  .check (fun s => (1 :: s, .okay)) (.assign (fun s => (2 :: s, if bad then .status (.err "no" "f" 7) else .value 5))
    (fun v => .check (fun s => (v :: s, .okay)) .done))

example : ChainWellFormed (sampleChain true) :=
  .check _ _ (.assign _ _ (fun s => by simp [WellFormed]) (fun _ => .check _ _ .done))
example : NoTemporaries (sampleChain true) := .check _ _ (.assign _ _ fun _ => .check _ _ .done)
example : exec (sampleChain true) [] = .ok ([2, 1], .err "no" "f" 7) := by rfl
example : exec (sampleChain false) [] = .ok ([5, 2, 1], .okay) := by rfl
example : FailsFirst (sampleChain true) [] [2, 1] (.err "no" "f" 7) :=
  .later_check _ _ _ _ _ _ rfl (.here_assign _ _ _ _ _ _ _ rfl)

end Verif.Props
