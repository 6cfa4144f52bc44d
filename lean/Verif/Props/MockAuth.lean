import Verif.Proofs.MockAuth
/-! # C126: tokens of the view client -/
namespace Verif.Props
open Verif.ViewClient Verif.MockAuth Verif.Spec.ViewClient Verif.Spec.MockAuth

section
variable {σ U β : Type}

/-- A client at the beginning, with the given tokens, and a server. -/
def newWorld (base token refresh : String) (s : σ) : World σ := ⟨Client.new base, Auth.new token refresh, s⟩

/-- C126.  Whatever the server does, every request bears the first token until there is a refresh, and the second one ever after; without a second one
it is the first again. -/
theorem c126_tokens (server : Server σ β) (pack : U → Outcome β) (base token refresh : String) (s : σ) (us : List U) (pre post : List (Event β))
    (req : Request β) (t : String) (r : Response)
    (h : (runIn server pack (newWorld base token refresh s) us).flatMap (·.2) = pre ++ .post req t r :: post) :
    (.refresh ∉ pre → t = token) ∧ (.refresh ∈ pre → refresh ≠ "" → t = refresh) ∧ (refresh = "" → t = token) := by
  have hall := run_tokens server pack us (newWorld base token refresh s)
  rw [h, tokensFrom_append] at hall
  obtain ⟨-, e, -⟩ := hall
  obtain ⟨a1, a2⟩ := tokenAfter_eq (newWorld base token refresh s).auth.refreshed pre (newWorld base token refresh s).auth.token
  refine ⟨fun hn => e.trans (a2 hn), fun hy hr => (e.trans (a1 hy)).trans (if_neg hr), fun hr => ?_⟩
  by_cases hy : Event.refresh ∈ pre
  · exact (e.trans (a1 hy)).trans (if_pos hr)
  · exact e.trans (a2 hy)

/-- C126.  With a server address and updates that can be packed no send throws, whatever the server does. -/
theorem c126_no_throw (server : Server σ β) (pack : U → Outcome β) (hp : ∀ u, ∃ body, pack u = .ok body) (base token refresh : String) (hb : base ≠ "")
    (s : σ) (us : List U) : ∀ r ∈ runIn server pack (newWorld base token refresh s) us, r.1.IsOk :=
  run_ok server pack hp us _ hb

/-- C126.  If the server lets in only who bears the second token, every send succeeds nevertheless; all updates arrive, once each and in order; there is
one refused request and one refresh in all, or none if the first token is right too. -/
theorem c126_recovers (server : Server σ β) (pack : U → β) (base token good : String) (hb : base ≠ "") (hgood : good ≠ "") (hg : Guards good server) (s : σ)
    (us : List U) (h0 : us ≠ []) :
    (∀ r ∈ runIn server (fun u => .ok (pack u)) (newWorld base token good s) us, r.1 = .ok .okay) ∧
    ((runIn server (fun u => .ok (pack u)) (newWorld base token good s) us).flatMap (·.2)).filterMap accepted = us.map pack ∧
    (((runIn server (fun u => .ok (pack u)) (newWorld base token good s) us).flatMap (·.2)).filter refused).length = (if token = good then 0 else 1) ∧
    (((runIn server (fun u => .ok (pack u)) (newWorld base token good s) us).flatMap (·.2)).filter isRefresh).length = (if token = good then 0 else 1) := by
  have e : newWorld base token good s = ⟨⟨base, "", 0⟩, ⟨token, good⟩, s⟩ := by simp [newWorld, Client.new, Auth.new, hgood]
  rw [e]
  obtain ⟨h1, h2, h3, h4⟩ := run_good hg pack us base "" 0 hb token s
  simp only [h0, or_false] at h3 h4
  exact ⟨h1, h2, h3, h4⟩

/-- C126.  If neither token is right, every send returns an error after two refused requests with a refresh between them, and no update is ever sent. -/
theorem c126_locked_out (server : Server σ β) (pack : U → Outcome β) (base token refresh good : String) (hb : base ≠ "") (ht : token ≠ good)
    (hr : refresh ≠ good) (hg : Guards good server) (s : σ) (us : List U) :
    (runIn server pack (newWorld base token refresh s) us).length = us.length ∧
    ∀ x ∈ runIn server pack (newWorld base token refresh s) us, (∃ line, x.1 = .ok (.err "Could not create session." "resim/visualization/client/view_client.cc" line)) ∧
      ∃ t1 t2 r1 r2, r1.status = 401 ∧ r2.status = 401 ∧ x.2 = [.post (.session (sessionsAt base)) t1 r1, .refresh, .post (.session (sessionsAt base)) t2 r2] := by
  have gen : ∀ (us : List U) (tok ref : String) (s : σ) (uid : Nat), tok ≠ good → ref ≠ good →
      (runIn server pack ⟨⟨base, "", uid⟩, ⟨tok, ref⟩, s⟩ us).length = us.length ∧
      ∀ x ∈ runIn server pack ⟨⟨base, "", uid⟩, ⟨tok, ref⟩, s⟩ us, (∃ line, x.1 = .ok (.err "Could not create session." "resim/visualization/client/view_client.cc" line)) ∧
        ∃ t1 t2 r1 r2, r1.status = 401 ∧ r2.status = 401 ∧ x.2 = [.post (.session (sessionsAt base)) t1 r1, .refresh, .post (.session (sessionsAt base)) t2 r2] := by
    intro us
    induction us with
    | nil => intro tok ref s uid _ _; simp [runIn]
    | cons u us ih =>
      intro tok ref s uid h1 h2
      obtain ⟨r1, r2, s', g1, g2, e⟩ := send_bad hg pack u base uid hb tok ref h1 h2 s
      obtain ⟨i1, i2⟩ := ih ref ref s' uid h2 h2
      rw [runIn, e]
      refine ⟨by simp only [List.length_cons, i1], fun x hx => ?_⟩
      rcases List.mem_cons.mp hx with rfl | hx
      · exact ⟨⟨_, rfl⟩, _, _, r1, r2, g1, g2, rfl⟩
      · exact i2 x hx
  exact gen us token (if refresh = "" then token else refresh) s 0 ht (by
    split
    · exact ht
    · exact hr)

end

/-- A server that lets in the bearer of one token, and counts. -/
def doorman : Server Nat Nat := fun s _ t => if t = "new" then (⟨201, "\"s\"\n"⟩, s + 1) else (⟨401, ""⟩, s + 1)

/-- It guards, so a client with the right second token gets through and one with a wrong one does not. -/
theorem doorman_guards : Guards "new" doorman := by
  intro s req t
  refine ⟨?_, ?_⟩
  · rintro rfl
    exact ⟨rfl, fun _ _ => show sessionIn "\"s\"\n" ≠ "" by decide +kernel⟩
  · intro h
    simp [doorman, h]

example : (runIn doorman (fun u => .ok u) (newWorld "b" "old" "new" 0) [7, 8]).flatMap (·.2) = [
    .post (.session "b/view/sessions") "old" ⟨401, ""⟩, .refresh, .post (.session "b/view/sessions") "new" ⟨201, "\"s\"\n"⟩,
    .post (.update "b/view/sessions/s/updates/0" 7) "new" ⟨201, "\"s\"\n"⟩, .post (.update "b/view/sessions/s/updates/1" 8) "new" ⟨201, "\"s\"\n"⟩] := by
  decide +kernel

/-- A client with wrong tokens. -/
example : ("old" ≠ "new" ∧ "" ≠ "new" ∧ "b" ≠ "") ∧ (runIn doorman (fun u => .ok u) (newWorld "b" "old" "" 0) [7]).map (·.2) = [[
    .post (.session "b/view/sessions") "old" ⟨401, ""⟩, .refresh, .post (.session "b/view/sessions") "old" ⟨401, ""⟩]] := by
  decide +kernel

end Verif.Props
