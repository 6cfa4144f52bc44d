import Verif.Model.Binary64
import Verif.Model.SampleIntervalReal
/-! # resim/time/sample_interval, `double` overloads, in binary64 arithmetic

A finite double is its rational value.  Arguments are finite.  Unlike `Binary64.fl` the rounding here has the exponent range of binary64,
subnormal numbers included.  Simplifications: the sign of zero is dropped (no operation below depends on it), and the compiler does not fuse
multiplications and additions. -/
namespace Verif.SampleIntervalDouble
open Binary64 SampleIntervalReal

/-- Rounding to a double with unbounded upper exponent: ties to even, smallest unit 2^-1074.  The arithmetic of
resim/time/sample_interval.cc:18-32,46-48. -/
def round64 (q : ℚ) : ℚ :=
  let e := max (ulpExp q) (-1074)
  roundEven (q / 2 ^ e) * 2 ^ e

/-- The double result of an operation of resim/time/sample_interval.cc:18-32,46-48 with exact result `q`, or `none` if it is infinite. -/
def finite (q : ℚ) : Option ℚ := if |round64 q| < 2 ^ 1024 then some (round64 q) else none

/-- `num_samples(double, double, double)`, resim/time/sample_interval.cc:16-33.  An infinite difference or quotient reaches the cast to `int`,
which is undefined for it. -/
def numSamples (start stop dt : ℚ) : Outcome Int := do
  Outcome.reassert (dt > 0) "max_abs_dt must be positive!"
  match finite (stop - start) with
  | none => .ub "cast of infinity"
  | some d =>
    match finite (|d| / dt) with
    | none => .ub "cast of infinity"
    | some q =>
      let c ← i32 ⌈q⌉
      i32 (c + 1)

/-- The argument of the `ii`-th call, resim/time/sample_interval.cc:46-48; `none` is a NaN or an infinity.  The two integers become doubles
(line 47), which is exact below 2^53.  Dividing zero by zero gives a NaN. -/
def sampleAt (start stop : ℚ) (n : Int) (ii : Nat) : Option ℚ := do
  if n - 1 = 0 then none
  let fraction ← finite (round64 ii / round64 (n - 1 : Int))
  let rest ← finite (1 - fraction)
  let a ← finite (rest * start)
  let b ← finite (fraction * stop)
  finite (a + b)

/-- `sample_interval(double, double, double, func)`, resim/time/sample_interval.cc:35-50: the arguments `func` is called with. -/
def sampleInterval (start stop dt : ℚ) : Outcome (List (Option ℚ)) :=
  if start = stop then .ok [some start]
  else do
    let n ← numSamples start stop dt
    pure ((List.range n.toNat).map (sampleAt start stop n))

end Verif.SampleIntervalDouble
