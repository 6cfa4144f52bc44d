import Verif.Model.ViewClient
/-! # What a trace of the view client means, in terms of its requests only -/
namespace Verif.Spec.ViewClient
open Verif.ViewClient
variable {β : Type}

/-- One request with at most one repetition, of the same request, after a 401 and a refresh of the credentials. -/
inductive Attempt (req : Request β) : List (Event β) → Prop
  | none : Attempt req []
  | one (t : String) (r : Response) : Attempt req [.post req t r]
  | gaveUp (t : String) (r : Response) (h : r.status = 401) : Attempt req [.post req t r, .refresh]
  | two (t1 t2 : String) (r1 r2 : Response) (h : r1.status = 401) : Attempt req [.post req t1 r1, .refresh, .post req t2 r2]

/-- The session identifier in the text of an answer: the text without quotes and newlines. -/
def sessionIn (text : String) : String := String.ofList (text.toList.filter fun ch => ch ≠ '"' ∧ ch ≠ '\n')

/-- Where sessions are created, given the address of the server. -/
def sessionsAt (base : String) : String := base ++ "/view/sessions"

/-- Where update number `id` of a session belongs. -/
def updatesAt (base session : String) (id : Nat) : String := base ++ "/view/sessions/" ++ session ++ "/updates/" ++ Nat.repr id

/-- A session was created: the request, answered 201. -/
def Created (base : String) (text : String) (e : Event β) : Prop := ∃ t, e = .post (.session (sessionsAt base)) t ⟨201, text⟩

/-- Whether an event is a POST. -/
def isPost : Event β → Bool
  | .post _ _ _ => true
  | .refresh => false

/-- Whether an event is a POST to create a session that was answered 201. -/
def isCreation : Event β → Bool
  | .post (.session _) _ r => r.status = 201
  | _ => false

end Verif.Spec.ViewClient
