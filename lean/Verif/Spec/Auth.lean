import Verif.Model.Auth
/-! # What fetching a token means, independently of the loop -/
namespace Verif.Spec.Auth
open Verif.Auth

/-- The deadline of a fetch: the clock when it started plus the lifetime of the device code. -/
def deadline (env : FetchEnv) (m : DeviceCodeMsg) : Int := env.start + m.expiresIn * 1000000000

/-- The `i`-th polling answer says that there is no token yet. -/
def NotYet (env : FetchEnv) (i : Nat) : Prop := ∃ m e, env.poll i = some m ∧ m.error = some e

/-- Polling reaches its `k`-th request: before it, every check was before the deadline and every answer was "not yet". -/
def Reaches (env : FetchEnv) (limit : Int) (k : Nat) : Prop := (∀ i ≤ k, env.clock i < limit) ∧ ∀ i < k, NotYet env i

/-- The `k`-th answer is a token. -/
def Grants (env : FetchEnv) (k : Nat) (token : String) : Prop := token ≠ "" ∧ env.poll k = some ⟨none, token⟩

/-- The events of `k` refused polls from the `i`-th on: each followed by a sleep of the interval. -/
def refused (env : FetchEnv) (interval : Int) (i : Nat) : Nat → List Event
  | 0 => []
  | k + 1 => .askToken i (env.clock i) :: .sleep interval :: refused env interval (i + 1) k

/-- How a fetch can end, by the code's real loop, within some number of passes. -/
def EndsWith (env : FetchEnv) (r : Outcome String) (evs : List Event) : Prop := ∃ fuel, fetchToken env fuel = some (r, evs)

end Verif.Spec.Auth
