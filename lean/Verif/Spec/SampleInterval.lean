import Mathlib.Data.List.Basic
import Mathlib.Algebra.Order.Ring.Int
import Mathlib.Data.Rat.Defs
import Mathlib.Algebra.Order.Ring.Rat
/-! # What a user expects of interval sampling -/
namespace Verif.Spec

/-- With `n` samples on an interval of length `len` the `n - 1` equal steps are no longer than `dt`. -/
def StepsFit (len dt n : Int) : Prop := len ≤ (n - 1) * dt

/-- `n` is the least sample count `≥ 2` (both end points) whose steps fit. -/
structure LeastCount (len dt n : Int) : Prop where
  two : 2 ≤ n
  fits : StepsFit len dt n
  least : ∀ m : Int, 2 ≤ m → StepsFit len dt m → n ≤ m

/-- `x` lies between `a` and `b`, in whichever order they are. -/
def Between (a b x : Int) : Prop := (a ≤ x ∧ x ≤ b) ∨ (b ≤ x ∧ x ≤ a)

/-- `xs` walks from `start` to `stop` without turning back, in steps of at most `dt`. -/
structure Walks (start stop dt : Int) (xs : List Int) : Prop where
  first : xs.head? = some start
  last : xs.getLast? = some stop
  inside : ∀ x ∈ xs, Between start stop x
  forward : ∀ (i : Nat) (h : i + 1 < xs.length), start ≤ stop → xs[i] ≤ xs[i + 1]
  backward : ∀ (i : Nat) (h : i + 1 < xs.length), stop ≤ start → xs[i + 1] ≤ xs[i]
  gap : ∀ (i : Nat) (h : i + 1 < xs.length), |xs[i + 1] - xs[i]| ≤ dt

/-- The ideal (rational) position of sample `i` of `n`, resim/time/sample_interval.hh:50-57. -/
def idealPosition (start stop n : Int) (i : Nat) : Rat := start + (i : Rat) * (stop - start) / (n - 1)

/-- `x` is a closest integer to `q`. -/
def IsNearest (x : Int) (q : Rat) : Prop := ∀ z : Int, |(x : Rat) - q| ≤ |(z : Rat) - q|

end Verif.Spec
