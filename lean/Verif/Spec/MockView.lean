import Verif.Model.MockView
import Verif.Spec.ViewClient
/-! # What the mock view server should do, in terms of headers, addresses and posts only -/
namespace Verif.Spec.MockView
open Verif.ViewClient Verif.MockView
variable {β M V : Type}

/-- The credentials a request presents: the first Authorization header that is a bearer token. -/
def Presents (headers : List (List Char × List Char)) (token : List Char) : Prop :=
  ∃ before after, headers = before ++ ("Authorization".toList, "Bearer ".toList ++ token) :: after ∧
    ∀ h ∈ before, h.1 = "Authorization".toList → ¬ "Bearer ".toList <+: h.2

/-- The address of an update with what stands for the session and for the number: the last `/updates/` separates them, and there are no line breaks. -/
def UpdatePath (path a b : List Char) : Prop :=
  path = "/view/sessions/".toList ++ (a ++ "/updates/".toList ++ b) ∧ ¬ "/updates/".toList <:+: ("/updates/".toList ++ b).tail ∧
    ∀ ch ∈ a ++ b, ch ≠ '\n' ∧ ch ≠ '\x0d'

/-- The posts of a trace were answered by this server. -/
def Genuine (s : Server β M V) (base : String) (others : List (List Char × List Char)) (empty : β) (trace : List (Event β)) : Prop :=
  ∀ q t r, Event.post q t r ∈ trace → answer (route s (onWire base others empty q t)).1 = .ok r

/-- What the receiver of the server is called with during a trace, in order. -/
def received (s : Server β M V) (base : String) (others : List (List Char × List Char)) (empty : β) (trace : List (Event β)) : List (Call V) :=
  trace.flatMap fun
    | .post q t _ => (route s (onWire base others empty q t)).2
    | .refresh => []

/-- Whether an event posts an update with the token that the server accepts. -/
def isValidUpdate : Event β → Bool
  | .post (.update _ _) t _ => t = "valid token"
  | _ => false

/-- How many posts of updates carry the token that the server accepts. -/
def validUpdates (trace : List (Event β)) : Nat := trace.countP isValidUpdate

/-- The credentials used for a request are accepted in the end: the token is the valid one, or it is one that is answered 401 and is valid after a refresh. -/
def Authorised (x : Exchange) : Prop := x.jwt1 = .ok "valid token" ∨
  ∃ t, x.jwt1 = .ok t ∧ t ≠ "valid token" ∧ t ≠ "forbidden token" ∧ x.refresh = .ok () ∧ x.jwt2 = .ok "valid token"

end Verif.Spec.MockView
