import Verif.Model.Uuid
import Verif.Model.ViewClient
/-! # resim/visualization/testing/mock_server.cc with resim/testing/mock_server.cc

The server that programs are tested against.  Of httplib (not part of /repo) what is used is modelled: a request goes to the first handler whose pattern matches
the whole path, 404 if there is none, and a handler that throws is answered 500.  `std::string` is a list of characters here.  Not modelled: logging, starting and
stopping the server, percent signs, question marks and hash marks in addresses (the addresses of the client have none unless the session identifier has). -/
namespace Verif.MockView
open Verif

/-- A call of the receiver: the update, the session and the number; resim/visualization/testing/mock_server.hh:25-28. -/
structure Call (V : Type) where
  update : V
  session : Uuid
  number : Nat
  deriving DecidableEq

/-- The members, resim/visualization/testing/mock_server.hh:66-73, with what the handler calls: `parse` is `ParseFromString` (mock_server.cc:109, `none` if it returns
false), `unpack` is `unpack` (lines 121, 125), `reply` is the receiver's answer as text (lines 124-129; it depends on the arguments only). -/
structure Server (β M V : Type) where
  session : Uuid
  code : Int
  parse : β → Option M
  unpack : M → Outcome V
  reply : Call V → String

/-- `headers.equal_range("Authorization")`, resim/visualization/testing/mock_server.cc:39: a multimap keeps equal keys in the order of insertion. -/
def authorizations (headers : List (List Char × List Char)) : List (List Char) :=
  (headers.filter fun h => decide (h.1 = "Authorization".toList)).map (·.2)

/-- The loop at resim/visualization/testing/mock_server.cc:41-48: the rest of the first value that begins with "Bearer ". -/
def findBearer : List (List Char) → Option (List Char)
  | [] => none
  | v :: vs => if "Bearer ".toList.isPrefixOf v then some (v.drop "Bearer ".toList.length) else findBearer vs

/-- `validate_headers`, resim/visualization/testing/mock_server.cc:31-62: `none` if it returns true, otherwise the status it sets. -/
def validate (headers : List (List Char × List Char)) : Option Int :=
  if (authorizations headers).isEmpty then some 401
  else
    match findBearer (authorizations headers) with
    | none => some 401
    | some token =>
      if token = "unauthorized token".toList then some 401
      else if token = "forbidden token".toList then some 403
      else if token = "valid token".toList then none
      else some 401

/-- Whether `std::stoul` skips a character, resim/visualization/testing/mock_server.cc:118. -/
def isSpace (c : Char) : Bool := c = ' ' || c = '\t' || c = '\n' || c = '\x0b' || c = '\x0c' || c = '\x0d'

/-- The digits at the front of a text as a number, as `std::stoul` reads them after the sign (resim/visualization/testing/mock_server.cc:118): `none` if there is
none. -/
def leadingNumber (s : List Char) : Option Nat :=
  let ds := s.takeWhile Char.isDigit
  if ds.isEmpty then none else some (ds.foldl (fun n c => 10 * n + (c.toNat - 48)) 0)

/-- `std::stoul`, resim/visualization/testing/mock_server.cc:118: blanks, a sign, digits, and whatever follows is ignored; the negation of a number is taken in 64 bits.
The exceptions are `std::invalid_argument` and `std::out_of_range`. -/
def stoul (s : List Char) : Outcome Nat :=
  let t := s.dropWhile isSpace
  let neg := t.head? = some '-'
  let rest := if t.head? = some '-' ∨ t.head? = some '+' then t.drop 1 else t
  match leadingNumber rest with
  | none => .throw "stoul"
  | some n => if n < 2 ^ 64 then .ok (if neg then (2 ^ 64 - n) % 2 ^ 64 else n) else .throw "stoul"

variable {β M V : Type}

/-- The handler for sessions, resim/visualization/testing/mock_server.cc:78-91. -/
def onSession (s : Server β M V) (headers : List (List Char × List Char)) : Outcome ViewClient.Response :=
  match validate headers with
  | some status => .ok ⟨status, ""⟩
  | none => .ok ⟨201, String.ofList s.session.toStr⟩

/-- The handler for updates, resim/visualization/testing/mock_server.cc:96-132, with the calls of the receiver; `m1` and `m2` are the two groups of the pattern (so
there are three matches, line 115). -/
def onUpdate (s : Server β M V) (headers : List (List Char × List Char)) (body : β) (m1 m2 : List Char) : Outcome ViewClient.Response × List (Call V) :=
  match validate headers with
  | some status => (.ok ⟨status, ""⟩, [])
  | none =>
    match s.parse body with
    | none => (.throw "Failed to parse ViewUpdate!", [])
    | some msg =>
      match Uuid.ofStr m1 with
      | .throw m => (.throw m, [])
      | .ub w => (.ub w, [])
      | .ok session =>
        match stoul m2 with
        | .throw m => (.throw m, [])
        | .ub w => (.ub w, [])
        | .ok number =>
          match s.unpack msg with
          | .throw m => (.throw m, [])
          | .ub w => (.ub w, [])
          | .ok update =>
            let first : Call V := ⟨update, session, number⟩
            let second : Call V := ⟨update, session, number⟩
            (.ok ⟨s.code, s.reply second⟩, [first, second])

/-- What the last occurrence of `sep` in a text separates: how a greedy `(.*)` before `sep` is matched (resim/visualization/testing/mock_server.cc:95). -/
def lastSplit (sep : List Char) : List Char → Option (List Char × List Char)
  | [] => none
  | c :: cs =>
    match lastSplit sep cs with
    | some (a, b) => some (c :: a, b)
    | none => if sep.isPrefixOf (c :: cs) then some ([], (c :: cs).drop sep.length) else none

/-- Whether `.` in a pattern matches a character (resim/visualization/testing/mock_server.cc:95). -/
def dot (c : Char) : Bool := c ≠ '\n' && c ≠ '\x0d'

/-- The pattern at resim/visualization/testing/mock_server.cc:95 matched against a whole path: the two groups. -/
def matchUpdate (path : List Char) : Option (List Char × List Char) :=
  if "/view/sessions/".toList.isPrefixOf path then
    match lastSplit "/updates/".toList (path.drop "/view/sessions/".toList.length) with
    | some (a, b) => if a.all dot && b.all dot then some (a, b) else none
    | none => none
  else none

/-- A POST on the wire: resim/testing/mock_server.cc:56-78 (what a receiver is given). -/
structure Post (β : Type) where
  path : List Char
  headers : List (List Char × List Char)
  body : β

/-- The routing of posts: the handlers at resim/visualization/testing/mock_server.cc:76-91 and 94-132 in the order they are added, through
resim/testing/mock_server.cc:56-78. -/
def route (s : Server β M V) (p : Post β) : Outcome ViewClient.Response × List (Call V) :=
  if p.path = "/view/sessions".toList then (onSession s p.headers, [])
  else
    match matchUpdate p.path with
    | some (m1, m2) => onUpdate s p.headers p.body m1 m2
    | none => (.ok ⟨404, ""⟩, [])

/-- What the client gets back: an exception in a handler becomes 500 (httplib around resim/testing/mock_server.cc:75). -/
def answer : Outcome ViewClient.Response → Outcome ViewClient.Response
  | .throw _ => .ok ⟨500, ""⟩
  | r => r

/-- The path of an address of a server at `base` (`http://host:port`): resim/visualization/client/view_client.cc:46,78-82. -/
def pathOf (base url : String) : List Char := url.toList.drop base.toList.length

/-- A request of the client on the wire, resim/visualization/client/view_client.cc:45-47,87-93: `cpr::Bearer` makes the Authorization header, and `others` are the headers
that the HTTP library adds.  A session is asked for with an empty body, here `empty`. -/
def onWire (base : String) (others : List (List Char × List Char)) (empty : β) (q : ViewClient.Request β) (token : String) : Post β :=
  let headers := others ++ [("Authorization".toList, "Bearer ".toList ++ token.toList)]
  match q with
  | .session url => ⟨pathOf base url, headers, empty⟩
  | .update url body => ⟨pathOf base url, headers, body⟩

end Verif.MockView
