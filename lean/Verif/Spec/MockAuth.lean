import Verif.Spec.ViewClient
/-! # What C126 asks of a client with a token and a fresh one -/
namespace Verif.Spec.MockAuth
open Verif.ViewClient Verif.Spec.ViewClient
variable {σ β : Type}

/-- A server that lets in whoever bears the right token and no one else; whoever is let in gets what they ask for, and a session has a name. -/
def Guards (good : String) (server : σ → Request β → String → Response × σ) : Prop :=
  ∀ s req t, (t = good → (server s req t).1.status = 201 ∧ ∀ url, req = .session url → sessionIn (server s req t).1.text ≠ "") ∧
    (t ≠ good → (server s req t).1.status = 401)

/-- The event is a refused request. -/
def refused : Event β → Bool
  | .post _ _ r => r.status = 401
  | .refresh => false

/-- The body of an update that was accepted. -/
def accepted : Event β → Option β
  | .post (.update _ body) _ r => if r.status = 201 then some body else none
  | _ => none

/-- The event is a refresh of the credentials. -/
def isRefresh : Event β → Bool
  | .post _ _ _ => false
  | .refresh => true

end Verif.Spec.MockAuth
