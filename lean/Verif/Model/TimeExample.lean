import Verif.Model.SampleInterval
import Verif.Model.SampleIntervalReal
/-! # The documented use of interval sampling: left rectangles

resim/examples/time.cc:73-101 and docs/resim/time/time.md:112-155.  Simplification: `double` is modelled by `ℝ`, and `as_seconds` by
exact division by 10⁹ (its rounding is modelled in `Verif/Model/Binary64.lean`). -/
namespace Verif.TimeExample

/-- Conversion of an `int64_t` to the 32-bit `int N`, resim/examples/time.cc:93: reduction modulo 2³² into the range of `int`. -/
def toInt32 (n : Int) : Int := (n + 2147483648) % 4294967296 - 2147483648

/-- `N - 1` in `int` arithmetic, resim/examples/time.cc:94: undefined behaviour at the smallest `int`. -/
def intPred (n : Int) : Outcome Int := if n = -2147483648 then .ub "signed overflow" else .ok (n - 1)

/-- `integral` as computed at resim/examples/time.cc:84-95 for a quantity `f` of timestamps: the samples other than the end time are
added up and multiplied by `as_seconds(end_time - start_time) / (N - 1)`. -/
noncomputable def leftRectangles (f : Int → ℝ) (start stop dt : Int) : Outcome ℝ := do
  let run := SampleInterval.sampleInterval start stop dt
  run.result
  let sum := ((run.calls.filter (· ≠ stop)).map f).sum
  let samples ← SampleInterval.numSamples start stop dt
  let intervals ← intPred (toInt32 samples)
  pure (sum * (((stop - start : Int) : ℝ) / 1000000000 / (intervals : ℝ)))

open Classical in
/-- The same recipe with the `double` overloads of resim/time/sample_interval.cc:16-50, whose count is an `int` from the start. -/
noncomputable def leftRectanglesReal (f : ℝ → ℝ) (start stop dt : ℝ) : Outcome ℝ := do
  let calls ← SampleIntervalReal.sampleInterval start stop dt
  let sum := ((calls.filter (fun t => decide (t ≠ stop))).map f).sum
  let samples ← SampleIntervalReal.numSamples start stop dt
  pure (sum * ((stop - start) / ((samples - 1 : Int) : ℝ)))

end Verif.TimeExample
