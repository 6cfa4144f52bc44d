import Mathlib.Data.List.Basic
/-! # What a path name is expected to look like -/
namespace Verif.Spec

/-- `e` is the extension of the name `n`: what follows its last dot. -/
def IsExtension (n e : List Char) : Prop := '.' ∉ e ∧ ∃ stem, n = stem ++ '.' :: e

/-- The path `q` is `p` or below it. -/
def AtOrBelow {α : Type} (p q : List α) : Prop := ∃ r, q = p ++ r

/-- Nothing is below what does not exist. -/
def Rooted {α β : Type} (fs : List α → Option β) : Prop := ∀ p q, AtOrBelow p q → fs p = none → fs q = none

end Verif.Spec
