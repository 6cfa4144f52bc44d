import Verif.Model.Int64
/-! # resim/time/timestamp.hh: seconds and nanoseconds -/
namespace Verif.Timestamp

/-- `SecsAndNanos`, resim/time/timestamp.hh:39-42 (`secs` an int64, `nanos` an int32). -/
structure SecsAndNanos where
  secs : Int
  nanos : Int
  deriving Repr, DecidableEq

/-- `std::nano::den`, used in resim/time/timestamp.hh:47,48,54. -/
def NANO : Int := 1000000000

/-- Range of `int32_t`, the type of `nanos` (resim/time/timestamp.hh:41). -/
def InI32 (a : Int) : Prop := -2147483648 ≤ a ∧ a ≤ 2147483647

instance (a : Int) : Decidable (InI32 a) := inferInstanceAs (Decidable (_ ∧ _))

/-- `static_cast<int32_t>` in resim/time/timestamp.hh:48: reduction modulo 2^32 into the int32 range. -/
def toI32 (a : Int) : Int := (a + 2147483648) % 4294967296 - 2147483648

/-- `to_seconds_and_nanos`, resim/time/timestamp.hh:45-50. -/
def toSecsAndNanos (d : Int) : Outcome SecsAndNanos := do
  let secs ← i64div d NANO
  let rem ← i64mod d NANO
  pure ⟨secs, toI32 rem⟩

/-- `from_seconds_and_nanos`, resim/time/timestamp.hh:53-55. -/
def fromSecsAndNanos (s : SecsAndNanos) : Outcome Int := do
  let p ← i64 (s.secs * NANO)
  i64 (p + s.nanos)

end Verif.Timestamp
