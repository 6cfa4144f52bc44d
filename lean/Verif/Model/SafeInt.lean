import Verif.Model.Int64
/-! # resim/math/safe_integer_utils -/
namespace Verif.SafeInt

/-- `INT_OVERFLOW_MSG`, resim/math/safe_integer_utils.hh:40. -/
def overflowMsg : String := "Integer Overflow!"
/-- `INT_UNDERFLOW_MSG`, resim/math/safe_integer_utils.hh:37. -/
def underflowMsg : String := "Integer Underflow!"

/-- `safe_sum`, resim/math/safe_integer_utils.cc:27-37.  Every `-` and `+` of the C++ is a checked operation. -/
def safeSum (a b : Int) : Outcome Int := do
  if a > 0 then
    let m ← i64 (I64MAX - a)
    Outcome.reassert (m ≥ b) overflowMsg
  else
    let m ← i64 (I64MIN - a)
    Outcome.reassert (m ≤ b) underflowMsg
  i64 (a + b)

/-- `safe_difference`, resim/math/safe_integer_utils.cc:15-25. -/
def safeDifference (a b : Int) : Outcome Int := do
  if b ≠ I64MIN then
    let nb ← i64 (-b)
    safeSum a nb
  else
    Outcome.reassert (a < 0) overflowMsg
    i64 (a - b)

/-- `safe_abs`, resim/math/safe_integer_utils.cc:39-43. -/
def safeAbs (a : Int) : Outcome Int := do
  Outcome.reassert (a ≠ I64MIN) overflowMsg
  if a > 0 then pure a else i64 (-a)

end Verif.SafeInt
