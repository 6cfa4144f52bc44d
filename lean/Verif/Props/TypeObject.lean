import Verif.Proofs.TypeObject
/-! # C130: types as objects -/
namespace Verif.Props
open TypeObject Spec.TypeObject

/-- C130.  Which function a call with a type object runs does not depend on the type's own namespace: only functions of the namespaces around the call, of the
library and of its detail namespace matter. -/
theorem c130_no_hijack (fns fns' : List Fn) (f : Nat) (scopes : List Ns) (t : Ty) (h : within (.resim :: .detail :: scopes) fns = within (.resim :: .detail :: scopes) fns') :
    call fns f scopes (typeOf t) = call fns' f scopes (typeOf t) := by
  have hs : ∀ s ∈ scopes, s ∈ Ns.resim :: .detail :: scopes := fun s hs => by simp [hs]
  have ht : ∀ s ∈ associated (typeOf t), s ∈ Ns.resim :: .detail :: scopes := fun s hs => by
    simp only [typeOf, basicType, associated, classNs, List.mem_cons, List.not_mem_nil, or_false] at hs
    rcases hs with rfl | rfl <;> simp
  have e : candidates fns f scopes (typeOf t) = candidates fns' f scopes (typeOf t) := by
    rw [← candidates_within _ fns f scopes _ hs ht, h, candidates_within _ fns' f scopes _ hs ht]
  rw [call, call, e]

/-- The test of the header: with or without the client's template for everything. -/
example : within [.resim, .detail, .resim] (⟨.client 0, 7, .anything, 9⟩ :: library 7 (.builtin 0)) = within [.resim, .detail, .resim] (library 7 (.builtin 0)) := rfl

/-- C130.  The usage pattern of the header works: whatever clients define in other namespaces, and from whatever namespaces without a function of that name, a call
with the object of a type runs the overload for it if there is one and the template otherwise. -/
theorem c130_dispatch (clients : List Fn) (f : Nat) (scopes : List Ns) (special t : Ty)
    (h : ∀ x ∈ clients, x.ns ≠ .resim ∧ x.ns ≠ .detail ∧ (x.name = f → x.ns ∉ scopes)) :
    call (clients ++ library f special) f scopes (typeOf t) =
      .ok (if t = special then ⟨.resim, f, .exactly (basicType special), 2⟩ else ⟨.resim, f, .anyBasic, 1⟩) := by
  have hc : candidates (clients ++ library f special) f scopes (typeOf t) = library f special := by
    rw [candidates, List.filter_append]
    have h1 : clients.filter (fun x => decide (x ∈ ordinary (clients ++ library f special) f scopes ∨ (x.name = f ∧ x.ns ∈ associated (typeOf t)))) = [] := by
      rw [List.filter_eq_nil_iff]
      intro x hx
      obtain ⟨a, b, c⟩ := h x hx
      rw [decide_eq_true_eq]
      rintro (ho | ⟨-, hn⟩)
      · obtain ⟨hn, hs⟩ := ordinary_mem _ _ _ _ ho
        exact c hn hs
      · simp only [typeOf, basicType, associated, classNs, List.mem_cons, List.not_mem_nil, or_false] at hn
        rcases hn with hn | hn
        · exact b hn
        · exact a hn
    rw [h1, List.nil_append, List.filter_eq_self]
    intro x hx
    rw [decide_eq_true_eq]
    simp only [library, List.mem_cons, List.not_mem_nil, or_false] at hx
    rcases hx with rfl | rfl <;> exact Or.inr ⟨rfl, by simp [typeOf, basicType, associated, classNs]⟩
  rw [call, hc]
  by_cases ht : t = special
  · subst ht
    simp [library, viable, steps, stepsBasic, typeOf, basicType, better, TypeObject.special]
  · have ht' : ¬special = t := fun e => ht e.symm
    simp [library, viable, steps, stepsBasic, typeOf, basicType, ht, ht']

example : (∀ x ∈ ([⟨.client 0, 7, .anything, 9⟩] : List Fn), x.ns ≠ .resim ∧ x.ns ≠ .detail ∧ (x.name = 7 → x.ns ∉ [Ns.client 1])) := by decide

/-- C130.  The same holds for an object of a client's class that derives from a type object, as long as the client does not define the function. -/
theorem c130_derived (f n k : Nat) (scopes : List Ns) (special t : Ty) :
    call (library f special) f scopes (.derived (.client n) k (typeOf t)) =
      .ok (if t = special then ⟨.resim, f, .exactly (basicType special), 2⟩ else ⟨.resim, f, .anyBasic, 1⟩) := by
  have hc : candidates (library f special) f scopes (.derived (.client n) k (typeOf t)) = library f special := by
    rw [candidates, List.filter_eq_self]
    intro x hx
    rw [decide_eq_true_eq]
    simp only [library, List.mem_cons, List.not_mem_nil, or_false] at hx
    rcases hx with rfl | rfl <;> exact Or.inr ⟨rfl, by simp [typeOf, basicType, associated, classNs]⟩
  rw [call, hc]
  by_cases ht : t = special
  · subst ht
    simp [library, viable, steps, stepsBasic, typeOf, basicType, better, TypeObject.special]
  · have ht' : ¬special = t := fun e => ht e.symm
    simp [library, viable, steps, stepsBasic, typeOf, basicType, ht, ht']

example : call (library 7 (.builtin 0)) 7 [.client 2] (.derived (.client 2) 5 (typeOf (.builtin 1))) = .ok ⟨.resim, 7, .anyBasic, 1⟩ := by decide

/-- C130.  The guard is needed.  Without it, or with `BasicType<T>` as the argument, there is for every class of a client a function in the client's namespace that
takes the call away from the library. -/
theorem c130_guard_needed (f n k : Nat) (special : Ty) (scopes : List Ns) :
    call (⟨.client n, f, .anything, 9⟩ :: library f special) f scopes (unguarded (.plain (.client n) k)) = .ok ⟨.client n, f, .anything, 9⟩ ∧
    (special ≠ .plain (.client n) k →
      call (⟨.client n, f, .exactly (basicType (.plain (.client n) k)), 9⟩ :: library f special) f scopes (basicType (.plain (.client n) k)) =
        .ok ⟨.client n, f, .exactly (basicType (.plain (.client n) k)), 9⟩) := by
  have hc : ∀ (x : Fn) t, x.ns = .client n → x.name = f → .client n ∈ associated t → .resim ∈ associated t →
      candidates (x :: library f special) f scopes t = x :: library f special := by
    intro x t h1 h2 h3 h4
    rw [candidates, List.filter_eq_self]
    intro y hy
    rw [decide_eq_true_eq]
    right
    simp only [library, List.mem_cons, List.not_mem_nil, or_false] at hy
    rcases hy with rfl | rfl | rfl
    · exact ⟨h2, h1 ▸ h3⟩
    · exact ⟨rfl, h4⟩
    · exact ⟨rfl, h4⟩
  constructor
  · rw [call, hc _ _ rfl rfl (by simp [unguarded, associated]) (by simp [unguarded, associated])]
    by_cases e : special = .plain (.client n) k
    · subst e
      simp [library, viable, steps, stepsBasic, unguarded, basicType, better]
    · simp [library, viable, steps, stepsBasic, unguarded, basicType, better, e]
  · intro e
    rw [call, hc _ _ rfl rfl (by simp [basicType, associated]) (by simp [basicType, associated])]
    simp [library, viable, steps, stepsBasic, basicType, better, TypeObject.special, e]

/-- C130.  A parameter `Type<T>` is never deduced, so a template with one is never what a call runs, whatever the argument. -/
theorem c130_not_deduced (fns : List Fn) (f : Nat) (scopes : List Ns) (t : Ty) (x : Fn) (h : call fns f scopes t = .ok x) : x.param ≠ .anyType := by
  rw [call] at h
  split at h
  · cases h
  · split at h
    · rename_i vs _ y hy
      obtain rfl : y = x := by simpa using h
      have := List.mem_of_find?_eq_some hy
      have hv := (List.mem_filter.mp this).2
      intro e
      rw [e] at hv
      cases hv
    · cases h

example : call (library 7 (.builtin 0)) 7 [.resim] (typeOf (.builtin 0)) = .ok ⟨.resim, 7, .exactly (basicType (.builtin 0)), 2⟩ := by decide

/-- C130.  The type can be had back from its object, so objects of different types have different types. -/
theorem c130_unwrap (t u : Ty) : unwrap (typeOf t) = some t ∧ unwrap (basicType t) = some t ∧ (typeOf t = typeOf u ↔ t = u) ∧ typeOf t ≠ basicType u := by
  refine ⟨rfl, rfl, ⟨fun h => ?_, fun h => by rw [h]⟩, by simp [typeOf, basicType]⟩
  simpa [typeOf, basicType] using h

/-- C130.  What the guard cannot do: a template for everything in the library itself, or in the namespace of the call, wins over the one for `BasicType<T>`, because a type
object is not exactly a `BasicType<T>`; further out it is hidden by any function of that name. -/
theorem c130_own_template (f n k : Nat) (h : n ≠ k) (t u : Ty) (hu : u ≠ typeOf t ∧ u ≠ basicType t) :
    call [⟨.resim, f, .anyBasic, 1⟩, ⟨.resim, f, .anything, 3⟩] f [] (typeOf t) = .ok ⟨.resim, f, .anything, 3⟩ ∧
    call [⟨.resim, f, .anyBasic, 1⟩, ⟨.resim, f, .anything, 3⟩] f [] (basicType t) = .ok ⟨.resim, f, .anyBasic, 1⟩ ∧
    call [⟨.resim, f, .anyBasic, 1⟩, ⟨.client k, f, .anything, 3⟩] f [.client n, .client k] (typeOf t) = .ok ⟨.client k, f, .anything, 3⟩ ∧
    call [⟨.resim, f, .anyBasic, 1⟩, ⟨.client n, f, .exactly u, 4⟩, ⟨.client k, f, .anything, 3⟩] f [.client n, .client k] (typeOf t) =
      .ok ⟨.resim, f, .anyBasic, 1⟩ := by
  obtain ⟨h1, h2⟩ := hu
  simp only [typeOf, basicType] at h1 h2
  have h' : ¬k = n := fun e => h e.symm
  simp [call, candidates, ordinary, typeOf, basicType, associated, classNs, viable, steps, stepsBasic, better, TypeObject.special, h', h1, h2]

example : Ty.builtin 0 ≠ typeOf (.builtin 0) ∧ Ty.builtin 0 ≠ basicType (.builtin 0) := by decide

end Verif.Props
