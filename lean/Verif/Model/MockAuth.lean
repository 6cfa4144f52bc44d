import Verif.Model.ViewClient
/-! # The view client with the authentication client of the tests: resim/auth/testing/mock_auth_client.hh and resim/visualization/client/view_client.cc

The server is any machine that answers a request with its bearer token, so every theorem is about all servers.  The rest is `Model/ViewClient`. -/
namespace Verif.MockAuth
open Verif.ViewClient

/-- `MockAuthClient`, resim/auth/testing/mock_auth_client.hh:25-26: `token_` and `refresh_`. -/
structure Auth where
  token : String
  refreshed : String
  deriving DecidableEq, Repr

/-- The constructor, resim/auth/testing/mock_auth_client.hh:17-19. -/
def Auth.new (token refresh : String) : Auth := ⟨token, if refresh = "" then token else refresh⟩

/-- `get_jwt`, resim/auth/testing/mock_auth_client.hh:21. -/
def Auth.getJwt (a : Auth) : String := a.token

/-- `refresh`, resim/auth/testing/mock_auth_client.hh:22. -/
def Auth.refresh (a : Auth) : Auth := { a with token := a.refreshed }

variable {σ U β : Type}

/-- What `cpr::Post` does, resim/visualization/client/view_client.cc:45,51,87,97: a server with states `σ` gets the request and the bearer token. -/
abbrev Server (σ β : Type) := σ → Request β → String → Response × σ

/-- What happens around one request, resim/visualization/client/view_client.cc:45-54 and 87-104: the behaviours that `Model/ViewClient` takes as inputs,
from the server and the authentication client as they are; and both afterwards.  Without a 401 the second half does not happen, and what is put there is
not looked at. -/
def around (server : Server σ β) (a : Auth) (s : σ) (req : Request β) : Exchange × Auth × σ :=
  let p := server s req a.getJwt
  if p.1.status = 401 then
    let q := server p.2 req a.refresh.getJwt
    (⟨.ok a.getJwt, p.1, .ok (), .ok a.refresh.getJwt, q.1⟩, a.refresh, q.2)
  else (⟨.ok a.getJwt, p.1, .ok (), .ok "", p.1⟩, a, p.2)

/-- An exchange that does not happen (no code: `send` of resim/visualization/client/view_client.cc:41-121 does not look at it then). -/
def idle : Exchange := ⟨.ok "", ⟨0, ""⟩, .ok (), .ok "", ⟨0, ""⟩⟩

/-- The view client (resim/visualization/client/view_client.hh:47-51) with its authentication client (set by `set_auth_client`,
resim/visualization/client/view_client.cc:123-126), and the server. -/
structure World (σ : Type) where
  client : Client
  auth : Auth
  server : σ

/-- `send_view_update`, resim/visualization/client/view_client.cc:41-121: its result, what happened, and the world afterwards. -/
def sendIn (server : Server σ β) (pack : U → Outcome β) (w : World σ) (u : U) : (Outcome Status × List (Event β)) × World σ :=
  let x := if w.client.base ≠ "" ∧ w.client.sessionId = "" then around server w.auth w.server (.session (sessionUrl w.client.base))
    else (idle, w.auth, w.server)
  let o : Outcome Status × Client × List (Event β) := openSession w.client x.1
  let y := if w.client.base ≠ "" ∧ o.1 = .ok .okay then
      match pack u with
      | .ok body => around server x.2.1 x.2.2 (.update (updateUrl o.2.1.base o.2.1.sessionId o.2.1.updateId) body)
      | .throw _ => (idle, x.2)
      | .ub _ => (idle, x.2)
    else (idle, x.2)
  let r := send pack w.client u x.1 y.1
  ((r.1, r.2.2), ⟨r.2.1, y.2.1, y.2.2⟩)

/-- A history of sends, resim/visualization/client/view_client.cc:41-121. -/
def runIn (server : Server σ β) (pack : U → Outcome β) (w : World σ) : List U → List (Outcome Status × List (Event β))
  | [] => []
  | u :: us =>
    let r := sendIn server pack w u
    r.1 :: runIn server pack r.2 us

end Verif.MockAuth
