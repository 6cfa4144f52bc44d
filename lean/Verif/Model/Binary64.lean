import Verif.Model.Int64
import Mathlib.Data.Int.Log
import Mathlib.Data.Rat.Floor
import Mathlib.Algebra.Order.Field.Rat
/-! # IEEE binary64 arithmetic as used by resim/time/timestamp.hh

A double is its rational value.  `fl` rounds to 53 significant bits, ties to even.  Simplification: the exponent range is unbounded (no
overflow to infinity, no subnormals), which is exact for magnitudes between 2^-1022 and 2^1023; the values occurring here are 0 or between
1e-9 and 1e19 in magnitude.  -/
namespace Verif.Binary64

/-- Nearest integer, ties to even: how the `double` operations of resim/time/timestamp.hh:25-33 round. -/
def roundEven (q : ℚ) : ℤ :=
  let f := ⌊q⌋
  let d := q - f
  if d < 1 / 2 then f
  else if 1 / 2 < d then f + 1
  else if f % 2 = 0 then f else f + 1

/-- Exponent of the unit in the last place of the binade of `q`, for the `double` operations of resim/time/timestamp.hh:25-33. -/
def ulpExp (q : ℚ) : ℤ := Int.log 2 |q| - 52

/-- Rounding of an exact result to a double: every `double` operation in resim/time/timestamp.hh:25-33 (through
`std::chrono::duration_cast`) is the exact operation followed by `fl`. -/
def fl (q : ℚ) : ℚ := if q = 0 then 0 else roundEven (q / 2 ^ ulpExp q) * 2 ^ ulpExp q

/-- `as_seconds`, resim/time/timestamp.hh:25-27: `std::chrono::duration<double>(duration).count()` converts the count to double and
divides by 1e9. -/
def asSeconds (d : ℤ) : ℚ := fl (fl d / 1000000000)

/-- Truncation toward zero of a double to an integer, `static_cast<int64_t>` inside `duration_cast`
(resim/time/timestamp.hh:31). -/
def trunc (q : ℚ) : ℤ := if 0 ≤ q then ⌊q⌋ else ⌈q⌉

/-- `as_duration`, resim/time/timestamp.hh:30-33: multiply by 1e9, truncate; undefined behaviour if the result is not an int64. -/
def asDuration (t : ℚ) : Outcome Int := i64 (trunc (fl (t * 1000000000)))

end Verif.Binary64
