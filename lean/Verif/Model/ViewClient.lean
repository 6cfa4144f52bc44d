import Verif.Model.Status
/-! # resim/visualization/client/view_client.cc

The server and the authentication client are inputs, so every theorem is about all their behaviours.  Packing and serializing an update is a parameter
(`Model/Proto` models packing).  Not modelled: logging, and the parsing of the response text at lines 113-118, whose result is only logged. -/
namespace Verif.ViewClient

/-- The parts of `cpr::Response` that are used, resim/visualization/client/view_client.cc:45-63,87-115. -/
structure Response where
  status : Int
  text : String
  deriving DecidableEq, Repr

/-- The two kinds of POST, resim/visualization/client/view_client.cc:45-47 and 87-93. -/
inductive Request (β : Type) where
  | session (url : String)
  | update (url : String) (body : β)
  deriving DecidableEq, Repr

/-- What happens during a send: a POST with its bearer token and answer, or a refresh of the credentials,
resim/visualization/client/view_client.cc:45,50,51,87,96,97. -/
inductive Event (β : Type) where
  | post (request : Request β) (token : String) (response : Response)
  | refresh
  deriving DecidableEq, Repr

/-- What the server and the authentication client do during one request: resim/visualization/client/view_client.cc:45-54 and 87-104. -/
structure Exchange where
  jwt1 : Outcome String
  response1 : Response
  refresh : Outcome Unit
  jwt2 : Outcome String
  response2 : Response

variable {U β : Type}

/-- A request, repeated once after a refresh if the answer is 401: resim/visualization/client/view_client.cc:45-54 (session) and 87-104 (update), which are
the same but for the request. -/
def exchange (req : Request β) (x : Exchange) : Outcome Response × List (Event β) :=
  match x.jwt1 with
  | .throw m => (.throw m, [])
  | .ub w => (.ub w, [])
  | .ok t1 =>
    if x.response1.status = 401 then
      match x.refresh with
      | .throw m => (.throw m, [.post req t1 x.response1])
      | .ub w => (.ub w, [.post req t1 x.response1])
      | .ok () =>
        match x.jwt2 with
        | .throw m => (.throw m, [.post req t1 x.response1, .refresh])
        | .ub w => (.ub w, [.post req t1 x.response1, .refresh])
        | .ok t2 => (.ok x.response2, [.post req t1 x.response1, .refresh, .post req t2 x.response2])
    else (.ok x.response1, [.post req t1 x.response1])

/-- The members, resim/visualization/client/view_client.hh:47-49; `updateId` is a uint64. -/
structure Client where
  base : String
  sessionId : String
  updateId : Nat
  deriving DecidableEq, Repr

/-- The constructor, resim/visualization/client/view_client.cc:28-39 and view_client.hh:47-49.  The authentication client it makes is an input here. -/
def Client.new (base : String) : Client := ⟨base, "", 0⟩

/-- `base_url_ + "/view/sessions"`, resim/visualization/client/view_client.cc:46,52. -/
def sessionUrl (base : String) : String := base ++ "/view/sessions"

/-- The format at resim/visualization/client/view_client.cc:78-82. -/
def updateUrl (base session : String) (id : Nat) : String := base ++ "/view/sessions/" ++ session ++ "/updates/" ++ Nat.repr id

/-- Removing one character everywhere, resim/visualization/client/view_client.cc:65-67 and 68-70. -/
def erase (ch : Char) (s : String) : String := String.ofList (s.toList.filter fun x => x ≠ ch)

/-- The part of `send_view_update` that opens a session, resim/visualization/client/view_client.cc:44-71. -/
def openSession (c : Client) (x : Exchange) : Outcome Status × Client × List (Event β) :=
  if c.sessionId = "" then
    match exchange (.session (sessionUrl c.base)) x with
    | (.throw m, evs) => (.throw m, c, evs)
    | (.ub w, evs) => (.ub w, c, evs)
    | (.ok response, evs) =>
      if response.status ≠ 201 then
        (.ok (Status.makeAtLine "resim/visualization/client/view_client.cc" 60 "Could not create session."), c, evs)
      else (.ok .okay, { c with sessionId := erase '\n' (erase '"' response.text) }, evs)
  else (.ok .okay, c, [])

/-- The part that posts the update, resim/visualization/client/view_client.cc:73-120; `pack` is packing and serializing at lines 73-76. -/
def postUpdate (pack : U → Outcome β) (c : Client) (u : U) (x : Exchange) : Outcome Status × Client × List (Event β) :=
  match pack u with
  | .throw m => (.throw m, c, [])
  | .ub w => (.ub w, c, [])
  | .ok body =>
    let c' := { c with updateId := (c.updateId + 1) % 2 ^ 64 }
    match exchange (.update (updateUrl c.base c.sessionId c.updateId) body) x with
    | (.throw m, evs) => (.throw m, c', evs)
    | (.ub w, evs) => (.ub w, c', evs)
    | (.ok response, evs) =>
      if response.status ≠ 201 then
        (.ok (Status.makeAtLine "resim/visualization/client/view_client.cc" 110 "Could not send view update."), c', evs)
      else (.ok .okay, c', evs)

/-- `send_view_update`, resim/visualization/client/view_client.cc:41-121. -/
def send (pack : U → Outcome β) (c : Client) (u : U) (x y : Exchange) : Outcome Status × Client × List (Event β) :=
  if c.base = "" then (.throw "Endpoint URL must not be empty!", c, [])
  else
    match openSession c x with
    | (.ok .okay, c', evs) =>
      let r := postUpdate pack c' u y
      (r.1, r.2.1, evs ++ r.2.2)
    | (r, c', evs) => (r, c', evs)

/-- A history of sends: the result and the events of each.  resim/visualization/client/view_client.cc:41-121. -/
def run (pack : U → Outcome β) (c : Client) : List (U × Exchange × Exchange) → List (Outcome Status × List (Event β))
  | [] => []
  | (u, x, y) :: rest =>
    let r := send pack c u x y
    (r.1, r.2.2) :: run pack r.2.1 rest

end Verif.ViewClient
