import Verif.Model.MockDevice
import Verif.Spec.Auth
/-! # When a login against the mock device-code server is complete -/
namespace Verif.Spec.MockDevice
open Verif.MockDevice

/-- What has happened between the request for the code and the `i`-th poll. -/
def since (between : Nat → List Act) (i : Nat) : List Act := (List.range (i + 1)).flatMap between

/-- The login is complete at the `i`-th poll: since the request for the code it was authorised, and no other client has asked for a code after that. -/
def Complete (between : Nat → List Act) (i : Nat) : Prop := ∃ a b, since between i = a ++ .authorize :: b ∧ .otherCode ∉ b

/-- The lifetime of codes after some actions: the last one set. -/
def Lifetime (default : Int) (before : List Act) (n : Int) : Prop :=
  (n = default ∧ ∀ m, .setTimeout m ∉ before) ∨ ∃ a b, before = a ++ .setTimeout n :: b ∧ ∀ m, .setTimeout m ∉ b

/-- The checks of the clock before polls 0 to `k` are all before the deadline. -/
def InTime (clock : Nat → Int) (limit : Int) (k : Nat) : Prop := ∀ i ≤ k, clock i < limit

end Verif.Spec.MockDevice
