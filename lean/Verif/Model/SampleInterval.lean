import Verif.Model.SafeInt
/-! # resim/time/sample_interval, `Timestamp` overloads

Timestamps and durations are their nanosecond counts (`std::chrono::sys_time<nanoseconds>`, resim/time/timestamp.hh:21-22). -/
namespace Verif.SampleInterval
open Verif.SafeInt

/-- `num_samples(Timestamp, Timestamp, Duration)`, resim/time/sample_interval.cc:52-81. -/
def numSamples (start stop dt : Int) : Outcome Int := do
  Outcome.reassert (dt > 0) "max_abs_dt must be positive!"
  let difference ← safeDifference stop start
  let total ← safeAbs difference
  let pred ← i64 (total - 1)
  let quot ← i64div pred dt
  safeSum quot 2

/-- What a caller of `sample_interval` observes: the timestamps its functor was called with, in order, and how the call ended
(resim/time/sample_interval.cc:83-125). -/
structure Run where
  /-- arguments of the calls to `func`, in order (resim/time/sample_interval.cc:89,116) -/
  calls : List Int
  /-- normal return, exception or undefined behaviour -/
  result : Outcome Unit
  deriving Repr, DecidableEq

/-- The sample computed in one iteration: resim/time/sample_interval.cc:113-116 (`rounded`, and `start_time + time`). -/
def sampleAt (start intervals whole numerator : Int) : Outcome Int := do
  let twice ← i64 (2 * numerator)
  let rounded ← i64 (whole + if twice ≥ intervals then 1 else 0)
  i64 (start + rounded)

/-- The update of `whole` and `numerator` in one iteration: resim/time/sample_interval.cc:119-123. -/
def advance (total intervals whole numerator : Int) : Outcome (Int × Int) := do
  let numerator ← safeSum numerator total
  let quot ← i64div numerator intervals
  let whole ← i64 (whole + quot)
  let numerator ← i64mod numerator intervals
  pure (whole, numerator)

/-- The loop, resim/time/sample_interval.cc:110-124; the first argument is the number of iterations left (`samples - ii`).
Simplification: the functor is assumed to return normally. -/
def sampleLoop (start total intervals : Int) : Nat → Int → Int → Run
  | 0, _, _ => ⟨[], .ok ()⟩
  | left + 1, whole, numerator =>
    match sampleAt start intervals whole numerator with
    | .throw m => ⟨[], .throw m⟩
    | .ub w => ⟨[], .ub w⟩
    | .ok t =>
      match advance total intervals whole numerator with
      | .throw m => ⟨[t], .throw m⟩
      | .ub w => ⟨[t], .ub w⟩
      | .ok (whole', numerator') =>
        let rest := sampleLoop start total intervals left whole' numerator'
        ⟨t :: rest.calls, rest.result⟩

/-- Lines 92-96 of resim/time/sample_interval.cc: the values computed before the loop: (samples, intervals, total_time). -/
def prepare (start stop dt : Int) : Outcome (Int × Int × Int) := do
  let samples ← numSamples start stop dt
  let intervals ← i64 (samples - 1)
  let total ← safeDifference stop start
  pure (samples, intervals, total)

/-- `sample_interval(Timestamp, Timestamp, Duration, func)`, resim/time/sample_interval.cc:83-125. -/
def sampleInterval (start stop dt : Int) : Run :=
  if start = stop then ⟨[start], .ok ()⟩
  else
    match prepare start stop dt with
    | .throw m => ⟨[], .throw m⟩
    | .ub w => ⟨[], .ub w⟩
    | .ok (samples, intervals, total) => sampleLoop start total intervals samples.toNat 0 0

end Verif.SampleInterval
