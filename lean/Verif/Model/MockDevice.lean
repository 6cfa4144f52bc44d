import Verif.Model.Auth
/-! # resim/auth/testing/mock_device_code_server.cc

The server that the device-code client is tested against, and the client together with it.  Not modelled: JSON, the receivers (which only observe), and the text of the
requests; the device code in a poll is not looked at by the server.  `browser_auth_complete_` is a plain bool written by one thread and read by another; here the accesses
come one after the other. -/
namespace Verif.MockDevice
open Verif.Auth

/-- The members that matter, resim/auth/testing/mock_device_code_server.hh:65-71. -/
structure Server where
  interval : Int
  token : String
  complete : Bool := false
  timeout : Int := 600
  deriving DecidableEq, Repr

/-- The handler of `/oauth/device/code`, resim/auth/testing/mock_device_code_server.cc:41-68: the server afterwards, the status and the message. -/
def onCode (s : Server) : Server × Int × DeviceCodeMsg :=
  ({ s with complete := false }, 200, ⟨s.timeout, s.interval⟩)

/-- The handler of `/oauth/token`, resim/auth/testing/mock_device_code_server.cc:71-103: the status and the message. -/
def onPoll (s : Server) : Int × PollMsg :=
  if s.complete = false then (403, ⟨some "authorization_pending", ""⟩) else (200, ⟨none, s.token⟩)

/-- What others do with the server: `set_browser_auth_complete` and `set_timeout_s` (resim/auth/testing/mock_device_code_server.cc:112-118), and another client that
asks for a device code (lines 41-68).  Polls of others change nothing. -/
inductive Act where
  | authorize
  | setTimeout (seconds : Int)
  | otherCode
  deriving DecidableEq, Repr

/-- One action, resim/auth/testing/mock_device_code_server.cc:112-118,53. -/
def act (s : Server) : Act → Server
  | .authorize => { s with complete := true }
  | .setTimeout n => { s with timeout := n }
  | .otherCode => (onCode s).1

/-- Several actions in order, resim/auth/testing/mock_device_code_server.cc:112-118,53. -/
def acts (s : Server) (as : List Act) : Server := as.foldl act s

/-- The server at the `i`-th poll, if `between 0` happens between the request for the code and poll 0, and `between (i + 1)` between polls `i` and `i + 1`:
resim/auth/device_code_client.cc:102,124 against resim/auth/testing/mock_device_code_server.cc:41-103. -/
def atPoll (s : Server) (between : Nat → List Act) : Nat → Server
  | 0 => acts s (between 0)
  | i + 1 => acts (atPoll s between i) (between (i + 1))

/-- What the client's `fetch_token` meets: this server, on which `before` has happened, and a clock.  resim/auth/device_code_client.cc:95-140. -/
def world (s : Server) (before : List Act) (between : Nat → List Act) (start : Int) (clock : Nat → Int) : FetchEnv :=
  let s0 := acts s before
  let (s1, status, msg) := onCode s0
  ⟨status, some msg, start, clock, fun i => some (onPoll (atPoll s1 between i)).2⟩

end Verif.MockDevice
