import Verif.Model.GaussianDraws
/-! # What is said about drawing from Gaussian objects -/
namespace Verif.Spec
open GaussianDraws

/-- The history of each object of a program: with which parameters it was made, and how many samples were asked of it, call by call.  A copy has the history
of what it was copied from. -/
def histories {P : Type} : List (P × List Nat) → List (Action P) → List (P × List Nat)
  | h, [] => h
  | h, .make p :: as => histories (h ++ [(p, [])]) as
  | h, .copy i :: as => histories (match h[i]? with | some x => h ++ [x] | none => h) as
  | h, .samples i n :: as => histories (match h[i]? with | some (p, ns) => h.set i (p, ns ++ [n]) | none => h) as

/-- The samples that a program gets from its last action. -/
def lastSamples {α P β : Type} (s : Source α) (dims : P → Nat) (image : P → List α → β) (prog : List (Action P)) (a : Action P) : List β :=
  ((run s dims image [] (prog ++ [a])).2.getLast?).getD []

/-- The engine after requests for `ns` samples of `d` numbers, with a new distribution for each request. -/
def engineAfter {α : Type} (s : Source α) (d : Nat) (ns : List Nat) : s.Engine := ns.foldl (fun e n => (drawMany s (n * d) e s.fresh).2.1) s.seeded

/-- Whether the distribution keeps nothing from one draw to the next. -/
def Forgetful {α : Type} (s : Source α) : Prop := ∀ e d d', (s.draw e d).1 = (s.draw e d').1 ∧ (s.draw e d).2.1 = (s.draw e d').2.1

end Verif.Spec
