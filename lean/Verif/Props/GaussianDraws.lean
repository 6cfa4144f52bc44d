import Verif.Proofs.GaussianDraws
/-! # C123: which standard normal numbers the samples of a Gaussian use -/
namespace Verif.Props
open Verif.Spec GaussianDraws
variable {α P β : Type} (s : Source α) (dims : P → Nat) (image : P → List α → β)

/-- C123, reproducible: the samples that an object gives depend on nothing but its parameters and how many samples were asked of it before, call by call
(asked of what it was copied from, for a copy).  They do not depend on the other objects of the program, nor on the order in which objects are used, and
are the same in another program. -/
theorem c123_reproducible (prog prog' : List (Action P)) (i i' n : Nat) (x : P × List Nat) (h : (histories [] prog)[i]? = some x)
    (h' : (histories [] prog')[i']? = some x) : lastSamples s dims image prog (.samples i n) = lastSamples s dims image prog' (.samples i' n) := by
  rw [lastSamples_eq s dims image prog h, lastSamples_eq s dims image prog' h']

/-- Two programs, one of which uses another object in between. -/
example : lastSamples s dims image [.make p, .samples 0 3] (.samples 0 2) = lastSamples s dims image [.make q, .make p, .samples 1 3, .samples 0 7] (.samples 1 2) :=
  c123_reproducible s dims image _ _ 0 1 2 (p, [3]) rfl rfl

/-- C123, copies are not independent: a copy gives the very samples that the original gives next. -/
theorem c123_copy (prog : List (Action P)) (i n : Nat) (h : i < (histories [] prog).length) :
    lastSamples s dims image (prog ++ [.copy i]) (.samples (histories [] prog).length n) = lastSamples s dims image (prog ++ [.copy i]) (.samples i n) := by
  have e : histories [] (prog ++ [.copy i]) = histories [] prog ++ [(histories [] prog)[i]] := by
    rw [histories_append]
    simp [histories, List.getElem?_eq_getElem h]
  refine c123_reproducible s dims image _ _ _ _ n (histories [] prog)[i] ?_ ?_
  · rw [e]; simp
  · rw [e, List.getElem?_append_left h, List.getElem?_eq_getElem h]

example : lastSamples s dims image [.make p, .samples 0 3, .copy 0] (.samples 1 2) = lastSamples s dims image [.make p, .samples 0 3, .copy 0] (.samples 0 2) :=
  c123_copy s dims image [.make p, .samples 0 3] 0 2 Nat.zero_lt_one

/-- C123, every request for `n` samples gives `n` of them, each made from as many numbers as there are dimensions, and all these numbers are different draws
that follow one another, and follow those of the earlier requests: coordinate `j` of sample `i` is draw `j * n + i`. -/
theorem c123_draws [Inhabited α] (prog : List (Action P)) (i n : Nat) (p : P) (ns : List Nat) (h : (histories [] prog)[i]? = some (p, ns)) :
    ∃ (z : List (List α)) (xs : List α), lastSamples s dims image prog (.samples i n) = z.map (image p) ∧ z.length = n ∧ (∀ r ∈ z, r.length = dims p) ∧
      xs.length = n * dims p ∧ xs = (drawMany s (n * dims p) (engineAfter s (dims p) ns) s.fresh).1 ∧
      ∀ i j, i < n → j < dims p → (z[i]?).bind (·[j]?) = xs[j * n + i]? := by
  obtain ⟨h1, h2, h3⟩ := rows_spec s n (dims p) (reached s dims (p, ns)).engine
  exact ⟨_, _, lastSamples_eq s dims image prog h, h1, h2, drawMany_length s _ _ _, rfl, h3⟩

/-- A source that counts. -/
def counting : Source Nat := ⟨Nat, Unit, 0, (), fun e _ => (e, e + 1, ())⟩

/-- A source that makes two numbers at a time and keeps the second for the next draw. -/
def pairing : Source Nat := ⟨Nat, Option Nat, 0, none, fun e d => match d with | none => (e, e + 2, some (e + 1)) | some x => (x, e, none)⟩

/-- Three samples of two dimensions after one other sample. -/
example : lastSamples counting (fun d : Nat => d) (fun _ z => z) [.make 2, .samples 0 1] (.samples 0 3) = [[2, 5], [3, 6], [4, 7]] := by decide

/-- C123, drawing at once and drawing one after the other: in one dimension, if the distribution keeps nothing from one draw to the next, `n + m` samples at
once are `n` samples and then `m`.  (Partial: see the next theorem for what else one might expect.) -/
theorem c123_one_by_one_partial [Inhabited α] (hf : Forgetful s) (prog : List (Action P)) (i n m : Nat) (p : P) (ns : List Nat)
    (h : (histories [] prog)[i]? = some (p, ns)) (hp : dims p = 1) :
    lastSamples s dims image prog (.samples i (n + m)) =
      lastSamples s dims image prog (.samples i n) ++ lastSamples s dims image (prog ++ [.samples i n]) (.samples i m) := by
  have hi : i < (histories [] prog).length := (List.getElem?_eq_some_iff.mp h).1
  have h' : (histories [] (prog ++ [.samples i n]))[i]? = some (p, ns ++ [n]) := by
    rw [histories_append]
    simp only [histories, h]
    rw [List.getElem?_set_self hi]
  rw [lastSamples_eq s dims image prog h, lastSamples_eq s dims image prog h, lastSamples_eq s dims image _ h', hp, iidSamples_one, iidSamples_one, iidSamples_one,
    ← List.map_append, ← List.map_append]
  have e : (reached s dims (p, ns ++ [n])).engine = (drawMany s n (reached s dims (p, ns)).engine s.fresh).2.1 := by
    simp [reached, hp, iidSamples]
  rw [e, (drawMany_add s hf n m _ s.fresh).1]

example : lastSamples counting (fun d : Nat => d) (fun _ z => z) [.make 1] (.samples 0 5) = [[0], [1], [2], [3], [4]] ∧ Forgetful counting :=
  ⟨by decide, fun _ _ _ => ⟨rfl, rfl⟩⟩

/-- C123, in general drawing at once does not give what drawing one after the other gives: not in two dimensions, because a matrix of samples is filled
column by column, and not in one dimension, because the number that the distribution keeps is lost after each call. -/
theorem c123_one_by_one_fails :
    (∃ s : Source Nat, Forgetful s ∧ lastSamples s (fun d : Nat => d) (fun _ z => z) [.make 2] (.samples 0 2) ≠
      lastSamples s (fun d : Nat => d) (fun _ z => z) [.make 2] (.samples 0 1) ++ lastSamples s (fun d : Nat => d) (fun _ z => z) [.make 2, .samples 0 1] (.samples 0 1)) ∧
    ∃ s : Source Nat, lastSamples s (fun d : Nat => d) (fun _ z => z) [.make 1] (.samples 0 2) ≠
      lastSamples s (fun d : Nat => d) (fun _ z => z) [.make 1] (.samples 0 1) ++ lastSamples s (fun d : Nat => d) (fun _ z => z) [.make 1, .samples 0 1] (.samples 0 1) :=
  ⟨⟨counting, fun _ _ _ => ⟨rfl, rfl⟩, by decide⟩, ⟨pairing, by decide⟩⟩

end Verif.Props
