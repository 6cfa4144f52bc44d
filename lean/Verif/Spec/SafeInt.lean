import Verif.Model.Int64
/-! # What a user expects of checked integer arithmetic (independent of the implementation) -/
namespace Verif.Spec

/-- Return the exact value `v` if a 64-bit signed integer can hold it; otherwise throw, naming the side on which it fell off. -/
def exactOrThrow (v : Int) : Outcome Int :=
  if 2 ^ 63 ≤ v then .throw "Integer Overflow!"
  else if v < -2 ^ 63 then .throw "Integer Underflow!"
  else .ok v

end Verif.Spec
