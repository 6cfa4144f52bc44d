import Verif.Spec.TypeObject
/-! # Lemmas for types as objects -/
namespace Verif.TypeObject
open Spec.TypeObject

theorem ordinary_within (nss : List Ns) (fns : List Fn) (f : Nat) : ∀ scopes : List Ns, (∀ s ∈ scopes, s ∈ nss) →
    ordinary (within nss fns) f scopes = ordinary fns f scopes
  | [], _ => rfl
  | s :: scopes, h => by
    have e : (within nss fns).filter (fun x => decide (x.name = f ∧ x.ns = s)) = fns.filter fun x => decide (x.name = f ∧ x.ns = s) := by
      rw [within, List.filter_filter]
      refine List.filter_congr fun x _ => ?_
      by_cases hx : x.ns = s
      · simp [hx, h s List.mem_cons_self]
      · simp [hx]
    rw [ordinary, ordinary, e, ordinary_within nss fns f scopes fun s hs => h s (List.mem_cons_of_mem _ hs)]

theorem ordinary_mem (fns : List Fn) (f : Nat) (x : Fn) : ∀ scopes : List Ns, x ∈ ordinary fns f scopes → x.name = f ∧ x.ns ∈ scopes
  | [], h => by cases h
  | s :: scopes, h => by
    rw [ordinary] at h
    split at h
    · obtain ⟨h1, h2⟩ := ordinary_mem fns f x scopes h
      exact ⟨h1, List.mem_cons_of_mem _ h2⟩
    · rename_i found _
      rw [List.mem_filter, decide_eq_true_eq] at h
      exact ⟨h.2.1, h.2.2 ▸ List.mem_cons_self⟩

theorem candidates_within (nss : List Ns) (fns : List Fn) (f : Nat) (scopes : List Ns) (t : Ty) (hs : ∀ s ∈ scopes, s ∈ nss) (ht : ∀ s ∈ associated t, s ∈ nss) :
    candidates (within nss fns) f scopes t = candidates fns f scopes t := by
  rw [candidates, candidates, ordinary_within nss fns f scopes hs, within, List.filter_filter]
  refine List.filter_congr fun x _ => ?_
  by_cases hx : x.ns ∈ nss
  · simp [hx]
  · have h1 : x ∉ ordinary fns f scopes := fun h => hx (hs _ (ordinary_mem fns f x scopes h).2)
    have h2 : x.ns ∉ associated t := fun h => hx (ht _ h)
    simp [hx, h1, h2]

end Verif.TypeObject
