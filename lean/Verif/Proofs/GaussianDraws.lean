import Verif.Spec.GaussianDraws
import Mathlib.Data.List.Basic
import Mathlib.Tactic.Linarith
/-! # Drawing from Gaussian objects: proofs -/
namespace Verif.GaussianDraws
open Verif.Spec
variable {α P β : Type} (s : Source α) (dims : P → Nat) (image : P → List α → β)

/-- The object that a history leads to. -/
def reached (x : P × List Nat) : Object s P := ⟨x.1, x.2.foldl (fun e n => (iidSamples s n (dims x.1) e).2) s.seeded⟩

theorem run_fst (h : List (P × List Nat)) (prog : List (Action P)) :
    (run s dims image (h.map (reached s dims)) prog).1 = (histories h prog).map (reached s dims) := by
  induction prog generalizing h with
  | nil => rfl
  | cons a as ih =>
    cases a with
    | make p =>
      rw [run, histories, ← ih]
      simp [step, reached]
    | copy i =>
      rw [run, histories, ← ih]
      simp only [step, List.getElem?_map]
      cases h[i]? <;> simp
    | samples i n =>
      rw [run, histories, ← ih]
      simp only [step, List.getElem?_map]
      cases h[i]? with
      | none => simp
      | some x => simp [List.map_set, reached]

theorem run_append (w : List (Object s P)) (prog : List (Action P)) (a : Action P) :
    (run s dims image w (prog ++ [a])).2 = (run s dims image w prog).2 ++ [(step s dims image (run s dims image w prog).1 a).2] := by
  induction prog generalizing w with
  | nil => rfl
  | cons b bs ih => simp [run, ih]

theorem lastSamples_eq (prog : List (Action P)) {i n : Nat} {p : P} {ns : List Nat} (h : (histories [] prog)[i]? = some (p, ns)) :
    lastSamples s dims image prog (.samples i n) = ((iidSamples s n (dims p) (reached s dims (p, ns)).engine).1).map (image p) := by
  have e := run_fst s dims image [] prog
  simp only [List.map_nil] at e
  simp only [lastSamples, run_append, List.getLast?_concat, Option.getD_some, e, step, List.getElem?_map, h, Option.map_some]
  rfl

theorem histories_append (h : List (P × List Nat)) (xs ys : List (Action P)) : histories h (xs ++ ys) = histories (histories h xs) ys := by
  induction xs generalizing h with
  | nil => rfl
  | cons a as ih => cases a <;> simp [histories, ih]

theorem drawMany_length (k : Nat) (e : s.Engine) (d : s.Dist) : (drawMany s k e d).1.length = k := by
  induction k generalizing e d with
  | zero => rfl
  | succ k ih => simp [drawMany, ih]

theorem index_lt {n d i j : Nat} (hi : i < n) (hj : j < d) : j * n + i < n * d := by
  have : (j + 1) * n ≤ d * n := Nat.mul_le_mul_right n hj
  rw [Nat.add_mul] at this
  rw [Nat.mul_comm n d]
  omega

theorem row_eq [Inhabited α] {xs : List α} {n d i : Nat} (hx : xs.length = n * d) (hi : i < n) :
    ((List.range d).filterMap fun j => xs[j * n + i]?) = (List.range d).map fun j => (xs[j * n + i]?).getD default := by
  rw [← List.filterMap_eq_map]
  refine List.filterMap_congr fun j hj => ?_
  have := index_lt hi (List.mem_range.mp hj)
  simp [List.getElem?_eq_getElem (hx ▸ this)]

theorem rows_spec [Inhabited α] (n d : Nat) (e : s.Engine) :
    (iidSamples s n d e).1.length = n ∧ (∀ r ∈ (iidSamples s n d e).1, r.length = d) ∧
    ∀ i j, i < n → j < d → ((iidSamples s n d e).1[i]?).bind (·[j]?) = (drawMany s (n * d) e s.fresh).1[j * n + i]? := by
  have hx := drawMany_length s (n * d) e s.fresh
  refine ⟨by simp [iidSamples], fun r hr => ?_, fun i j hi hj => ?_⟩
  · simp only [iidSamples, List.mem_map, List.mem_range] at hr
    obtain ⟨i, hi, rfl⟩ := hr
    rw [row_eq hx hi]
    simp
  · simp only [iidSamples, List.getElem?_map, List.getElem?_range hi, Option.map_some, Option.bind_some]
    rw [row_eq hx hi]
    have := index_lt hi hj
    simp [List.getElem?_range hj, List.getElem?_eq_getElem (hx ▸ this)]

theorem drawMany_add (hf : Forgetful s) (n m : Nat) (e : s.Engine) (d : s.Dist) :
    (drawMany s (n + m) e d).1 = (drawMany s n e d).1 ++ (drawMany s m (drawMany s n e d).2.1 s.fresh).1 ∧
    (drawMany s (n + m) e d).2.1 = (drawMany s m (drawMany s n e d).2.1 s.fresh).2.1 := by
  have same : ∀ (m : Nat) (e : s.Engine) (d d' : s.Dist), (drawMany s m e d).1 = (drawMany s m e d').1 ∧ (drawMany s m e d).2.1 = (drawMany s m e d').2.1 := by
    intro m
    induction m with
    | zero => intro e d d'; exact ⟨rfl, rfl⟩
    | succ m ih =>
      intro e d d'
      obtain ⟨h1, h2⟩ := hf e d d'
      have := ih (s.draw e d).2.1 (s.draw e d).2.2 (s.draw e d').2.2
      simp only [drawMany]
      rw [this.1, this.2, h1, h2]
      exact ⟨rfl, rfl⟩
  induction n generalizing e d with
  | zero => simp only [Nat.zero_add, drawMany, List.nil_append]; exact same m e d s.fresh
  | succ n ih =>
    have := ih (s.draw e d).2.1 (s.draw e d).2.2
    rw [Nat.add_right_comm]
    simp only [drawMany]
    rw [this.1, this.2]
    exact ⟨rfl, rfl⟩

theorem iidSamples_one [Inhabited α] (n : Nat) (e : s.Engine) : (iidSamples s n 1 e).1 = (drawMany s n e s.fresh).1.map fun x => [x] := by
  have hx := drawMany_length s n e s.fresh
  refine List.ext_getElem? fun i => ?_
  rcases lt_or_ge i n with h | h
  · simp only [iidSamples, List.getElem?_map, List.getElem?_range h, Option.map_some, Nat.mul_one]
    rw [row_eq (d := 1) (by omega) h]
    simp [List.getElem?_eq_getElem (hx ▸ h)]
  · rw [List.getElem?_eq_none (by simpa [iidSamples] using h), List.getElem?_eq_none (by simpa [hx] using h)]

end Verif.GaussianDraws
