import Verif.Model.Outcome
/-!
# Checked 64-bit signed arithmetic

The machine operations the modelled C++ uses on `int64_t`.  Values are mathematical integers; an operation whose exact
result is outside the range is undefined behaviour, as for signed integers in C++.
-/
namespace Verif

/-- `std::numeric_limits<int64_t>::max()` (used in resim/math/safe_integer_utils.cc:28). -/
def I64MAX : Int := 9223372036854775807
/-- `std::numeric_limits<int64_t>::min()` (used in resim/math/safe_integer_utils.cc:18,29,41). -/
def I64MIN : Int := -9223372036854775808

/-- The range of `int64_t`, the type of the arguments in resim/math/safe_integer_utils.cc:15-43. -/
def InI64 (a : Int) : Prop := I64MIN ≤ a ∧ a ≤ I64MAX

instance (a : Int) : Decidable (InI64 a) := inferInstanceAs (Decidable (_ ∧ _))

/-- The result of a machine operation with exact result `a`: undefined behaviour if `a` is not representable.  (C++ rule for
signed arithmetic, used for every operator on `int64_t` in resim/math/safe_integer_utils.cc:15-43 and
resim/time/sample_interval.cc:52-125.) -/
def i64 (a : Int) : Outcome Int := if InI64 a then .ok a else .ub "signed overflow"

/-- `a / b` on `int64_t` (C++ truncates toward zero): resim/time/sample_interval.cc:80,122, resim/time/timestamp.hh:47. -/
def i64div (a b : Int) : Outcome Int := if b = 0 then .ub "division by zero" else i64 (a.tdiv b)

/-- `a % b` on `int64_t` (sign of the dividend): resim/time/sample_interval.cc:123, resim/time/timestamp.hh:48.
`INT64_MIN % -1` is undefined because the quotient overflows. -/
def i64mod (a b : Int) : Outcome Int :=
  if b = 0 then .ub "division by zero" else if InI64 (a.tdiv b) then .ok (a.tmod b) else .ub "signed overflow"

theorem i64_ok {a : Int} (h : InI64 a) : i64 a = .ok a := by simp [i64, h]

theorem i64_ok' {a : Int} (h₁ : -9223372036854775808 ≤ a) (h₂ : a ≤ 9223372036854775807) : i64 a = .ok a :=
  i64_ok ⟨h₁, h₂⟩

end Verif
