import Verif.Model.Outcome
import Mathlib.Algebra.Order.Archimedean.Real.Basic
import Mathlib.Algebra.Order.Floor.Defs
/-! # resim/time/sample_interval, `double` overloads, in exact real arithmetic

Simplification: `double` is modelled by `ℝ` (no rounding, no NaN or infinity). -/
namespace Verif.SampleIntervalReal
open Classical

/-- Largest `int` (32 bits), the target of the cast in resim/time/sample_interval.cc:32. -/
def INTMAX : Int := 2147483647

/-- A value of type `int`: undefined behaviour if it does not fit (float-to-int cast and `+ 1` in
resim/time/sample_interval.cc:32). -/
def i32 (a : Int) : Outcome Int := if -2147483648 ≤ a ∧ a ≤ INTMAX then .ok a else .ub "int out of range"

/-- `num_samples(double, double, double)`, resim/time/sample_interval.cc:16-33. -/
noncomputable def numSamples (start stop dt : ℝ) : Outcome Int := do
  Outcome.reassert (dt > 0) "max_abs_dt must be positive!"
  let total := |stop - start|
  let c ← i32 ⌈total / dt⌉
  i32 (c + 1)

/-- The argument of the `ii`-th call, resim/time/sample_interval.cc:46-48. -/
noncomputable def sampleAt (start stop : ℝ) (n : Int) (ii : Nat) : ℝ :=
  let fraction := (ii : ℝ) / ((n - 1 : Int) : ℝ)
  (1 - fraction) * start + fraction * stop

/-- `sample_interval(double, double, double, func)`, resim/time/sample_interval.cc:35-50: the arguments `func` is called with. -/
noncomputable def sampleInterval (start stop dt : ℝ) : Outcome (List ℝ) :=
  if start = stop then .ok [start]
  else do
    let n ← numSamples start stop dt
    pure ((List.range n.toNat).map (sampleAt start stop n))

end Verif.SampleIntervalReal
