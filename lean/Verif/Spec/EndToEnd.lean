import Verif.Model.EndToEnd
import Verif.Spec.View
import Verif.Spec.ViewClient
/-! # What the server has seen, in terms of the posts only -/
namespace Verif.Spec.EndToEnd
open Verif.ViewClient
variable {β : Type}

/-- The address and body of an update that the server acknowledged with 201. -/
def ackOf : Event β → Option (String × β)
  | .post (.update url body) _ r => if r.status = 201 then some (url, body) else none
  | _ => none

/-- The updates acknowledged by the server, in order. -/
def acks (http : List (List (Event β))) : List (String × β) := http.flatten.filterMap ackOf

/-- The objects of the `view` calls among some calls. -/
def views {α : Type} (p : List (EndToEnd.Call α)) : List α := p.filterMap fun
  | .view a => some a
  | .flush => none

/-- A request answered 201, at once or after a 401 and a refresh of the credentials. -/
def Answered (x : Exchange) : Prop := (∃ t, x.jwt1 = .ok t) ∧
  (x.response1.status = 201 ∨ x.response1.status = 401 ∧ x.refresh = .ok () ∧ (∃ t, x.jwt2 = .ok t) ∧ x.response2.status = 201)

end Verif.Spec.EndToEnd
