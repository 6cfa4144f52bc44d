import Verif.Model.Outcome
/-! # resim/auth/device_code_client.cc

The server, the clock, the file system and restarts of the process are inputs, so every theorem is about all their behaviours.  Not modelled: the text of
the requests (URL, client id, scope, audience), JSON, and what is printed for the user.  A clock reading is in nanoseconds and unbounded; the addition at
line 120-122 stays in range for a clock below 7·10^18 ns because `expires_in` is an int32. -/
namespace Verif.Auth

/-- The fields of `DeviceCodeResponse` that are used, resim/auth/proto/auth_messages.proto:17-24; an absent field reads as zero. -/
structure DeviceCodeMsg where
  expiresIn : Int
  interval : Int
  deriving DecidableEq, Repr

/-- The fields of `PollingResponse` that are used, resim/auth/proto/auth_messages.proto:32-39; an absent token reads as the empty string. -/
structure PollMsg where
  error : Option String
  accessToken : String
  deriving DecidableEq, Repr

/-- What the outside world does during one `fetch_token`, resim/auth/device_code_client.cc:95-140: the answer to the first request (status, and the
message unless it cannot be parsed; a network failure is an empty answer, which cannot be parsed), the clock at line 121, its `i`-th reading at line 123,
and the `i`-th polling answer. -/
structure FetchEnv where
  status : Int
  device : Option DeviceCodeMsg
  start : Int
  clock : Nat → Int
  poll : Nat → Option PollMsg

/-- Requests and sleeps, in order, resim/auth/device_code_client.cc:102,124,136; a poll carries the clock reading of the check just before it. -/
inductive Event where
  | askCode
  | askToken (i : Nat) (time : Int)
  | sleep (seconds : Int)
  deriving DecidableEq, Repr

/-- The loop at resim/auth/device_code_client.cc:123-139 from its `i`-th pass; `none` if it has not ended within `fuel` passes.  Parsing a response
replaces the previous content of the message. -/
def pollLoop (env : FetchEnv) (timeout interval : Int) : Nat → Nat → Option (Outcome String × List Event)
  | 0, _ => none
  | fuel + 1, i =>
    if env.clock i < timeout then
      match env.poll i with
      | none => some (.throw "Failed to parse response!", [.askToken i (env.clock i)])
      | some m =>
        match m.error with
        | none =>
          if m.accessToken = "" then some (.throw "No token received!", [.askToken i (env.clock i)])
          else some (.ok m.accessToken, [.askToken i (env.clock i)])
        | some _ =>
          match pollLoop env timeout interval fuel (i + 1) with
          | none => none
          | some (r, evs) => some (r, .askToken i (env.clock i) :: .sleep interval :: evs)
    else some (.throw "Timed out!", [])

/-- `fetch_token`, resim/auth/device_code_client.cc:95-140 with `json_query`, 30-53.  The result is the new value of `token_`; when it throws `token_`
keeps its value. -/
def fetchToken (env : FetchEnv) (fuel : Nat) : Option (Outcome String × List Event) :=
  match env.device with
  | none => some (.throw "Failed to parse response!", [.askCode])
  | some m =>
    if env.status = 200 then
      match pollLoop env (env.start + m.expiresIn * 1000000000) m.interval fuel 0 with
      | none => none
      | some (r, evs) => some (r, .askCode :: evs)
    else some (.throw "Non OK Status detected!", [.askCode])

/-- `token_` and the content of the token file if there is one, resim/auth/device_code_client.hh:50 and `config_.token_path`. -/
structure Client where
  token : String
  file : Option String
  deriving DecidableEq, Repr

/-- How `save_token` can end, resim/auth/device_code_client.cc:74-80: `create_directories` throws; the stream cannot be opened (not reported by the code);
only a part is written (not reported either); everything is written. -/
inductive Save where
  | throws
  | notOpened
  | cut (length : Nat)
  | complete
  deriving DecidableEq, Repr

/-- `save_token`, resim/auth/device_code_client.cc:74-80. -/
def saveToken (c : Client) : Save → Outcome Unit × Client
  | .throws => (.throw "filesystem_error", c)
  | .notOpened => (.ok (), c)
  | .cut n => (.ok (), { c with file := some (String.ofList (c.token.toList.take n)) })
  | .complete => (.ok (), { c with file := some c.token })

/-- `load_token`, resim/auth/device_code_client.cc:82-93; `fetch` is how `fetch_token` ends if it is called. -/
def loadToken (c : Client) (fetch : Outcome String × List Event) (save : Save) : Outcome Unit × Client × List Event :=
  match c.file with
  | none =>
    match fetch.1 with
    | .ok t =>
      let r := saveToken { c with token := t } save
      (r.1, r.2, fetch.2)
    | .throw m => (.throw m, c, fetch.2)
    | .ub w => (.ub w, c, fetch.2)
  | some text => (.ok (), { c with token := text }, [])

/-- `get_jwt`, resim/auth/device_code_client.cc:60-65. -/
def getJwt (c : Client) (fetch : Outcome String × List Event) (save : Save) : Outcome String × Client × List Event :=
  if c.token = "" then
    match loadToken c fetch save with
    | (.ok (), c', evs) => (.ok c'.token, c', evs)
    | (.throw m, c', evs) => (.throw m, c', evs)
    | (.ub w, c', evs) => (.ub w, c', evs)
  else (.ok c.token, c, [])

/-- `refresh`, resim/auth/device_code_client.cc:67-72; `removed` is false if `remove_all` throws. -/
def refresh (c : Client) (removed : Bool) : Outcome Unit × Client :=
  if removed then (.ok (), { c with token := "", file := none }) else (.throw "filesystem_error", { c with token := "" })

/-- The process ends and a new client is constructed, resim/auth/device_code_client.cc:57-58: memory is lost, the file stays. -/
def restart (c : Client) : Client := { c with token := "" }

/-- What a user can do with a client, with the behaviour of the world during the call: resim/auth/device_code_client.cc:57-72. -/
inductive Op where
  | getJwt (fetch : Outcome String × List Event) (save : Save)
  | refresh (removed : Bool)
  | restart

/-- One operation: the token returned if it was `get_jwt` and returned, the new client, and the events.  resim/auth/device_code_client.cc:57-72. -/
def step (c : Client) : Op → Option String × Client × List Event
  | .getJwt fetch save =>
    match getJwt c fetch save with
    | (.ok t, c', evs) => (some t, c', evs)
    | (_, c', evs) => (none, c', evs)
  | .refresh removed => (none, (refresh c removed).2, [])
  | .restart => (none, restart c, [])

/-- A history of operations: the token each returned, the events of each, and the final client.  resim/auth/device_code_client.cc:57-72. -/
def run (c : Client) : List Op → List (Option String × List Event) × Client
  | [] => ([], c)
  | op :: rest =>
    let r := step c op
    let q := run r.2.1 rest
    ((r.1, r.2.2) :: q.1, q.2)

end Verif.Auth
