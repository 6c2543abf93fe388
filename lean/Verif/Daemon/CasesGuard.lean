import Verif.Daemon.PropsGuard
import Verif.Daemon.CasesWithin
set_option linter.unusedSimpArgs false
/-!
# C122: a call behind the guard, and what goes wrong
-/
namespace Siphon.Daemon
open HdrSpec TextSpec
open Siphon.Dlg.Spec
open Siphon.Dlg (Dialog DialogId first_iff absent_iff)
open Spec

def decTimes (hi : Nat) : (lo : Nat) → (es : List GEv) → Decidable (Times lo hi es)
  | lo, [] => inferInstanceAs (Decidable (lo ≤ hi))
  | lo, .request _ _ i _ :: es =>
    have := decTimes hi i.now es
    inferInstanceAs (Decidable (lo ≤ i.now ∧ Times i.now hi es))
  | lo, .turn _ _ :: es => decTimes hi lo es
  | lo, .expired _ :: es => decTimes hi lo es
  | lo, .sweep _ :: es => decTimes hi lo es

instance (lo hi : Nat) (es : List GEv) : Decidable (Times lo hi es) := decTimes hi lo es

def world : World := ⟨Auth.Demo.H, Auth.Demo.ord⟩

/-- from Alice's address; her challenge would have this nonce -/
def by' (nonce : String) : From := ⟨"10.0.0.1".toList, nonce.toList, "q".toList⟩

/-- one second after another -/
def at' (s : Nat) (tag : String) : Info := { nfo tag with now := s * 1000000000 }

/-- an authenticator whose nonces last for 300 s -/
def keeper : Auth.Server :=
  { Auth.Server.new "ex".toList "op".toList (fun u _ => if u = "bob".toList then some "pw".toList else none) with
    mgr := { Auth.NonceMgr.new (300 * 1000000000) with maxAge := 100 } }

/-- the Authorization for the `k`-th request under a nonce -/
def creds (user pw nonce : String) (k : Nat) (m : Method) : String × String :=
  ("Authorization", String.ofList ((Auth.Client.mk user.toList pw.toList (k - 1)).generateAuthorization Auth.Demo.H m "sip:bob@10.0.0.2".toList
    "ex".toList nonce.toList .sha256 (some .auth) (some "op".toList) [] "cn".toList).1)

/-- The codes of what is sent. -/
def codes (o : List Out) : List (Nat × Nat) := o.filterMap fun
  | .provisional x r => some (x, r.code)
  | .final x r => some (x, r.code)
  | _ => none

/-- The outcomes of a history, event by event. -/
def outcomes (c : Cfg) : Guarded → List GEv → List (List (Nat × Nat))
  | _, [] => []
  | g, e :: es => codes (g.step world c e).2 :: outcomes c (g.step world c e).1 es

/-- Alice calls, is challenged, calls again, and hangs up. -/
def visit : List GEv := [.request 1 (callIn [] []) (at' 0 "x0") (by' "n1"), .request 2 (callIn [creds "bob" "pw" "n1" 1 .invite] []) (at' 1 "x1") (by' "n2"),
  .turn 0 (at' 2 "x1"), .turn 0 (at' 3 "x2"), .request 3 (inside .bye "8 BYE" [] []) (at' 4 "x3") (by' "n3"),
  .request 4 (inside .bye "9 BYE" [creds "bob" "pw" "n3" 1 .bye] []) (at' 5 "x4") (by' "n4")]

/-- `C122_credentials`: the second request gets through, the first does not. -/
example : outcomes cfg (Guarded.start (some keeper)) (visit.take 4) = [[(1, 401)], [(2, 100)], [(2, 180)], [(2, 200)]] := by decide +kernel

example : ∃ user pw nonce, Auth.Spec.Presents false (callIn [creds "bob" "pw" "n1" 1 .invite] []).headers "username" user ∧
    keeper.store user keeper.realm = some pw ∧ Auth.Spec.Presents false (callIn [creds "bob" "pw" "n1" 1 .invite] []).headers "nonce" nonce ∧
    ∃ pre x q j y post, visit.take 1 = pre ++ .request x q j y :: post ∧ y.nonce = nonce := by
  obtain ⟨u, pw, n, nc, cn, h1, _, _, h2, _, _, h3, _, pre, x, q, j, y, post, h4, h5, _⟩ := C122_credentials world cfg keeper rfl (visit.take 1) 2
    (callIn [creds "bob" "pw" "n1" 1 .invite] []) (at' 1 "x1") (by' "n2") (by rintro (h | h | h | h) <;> cases h)
    (.inr ⟨by
      intro h
      have : (codes (((Guarded.start (some keeper)).run world cfg (visit.take 1)).1.step world cfg (.request 2 (callIn [creds "bob" "pw" "n1" 1 .invite] [])
        (at' 1 "x1") (by' "n2"))).2).length = 1 := by decide +kernel
      rw [h] at this
      exact absurd this (by decide), by decide +kernel⟩)
  exact ⟨u, pw, n, h1, h3, h2, pre, x, q, j, y, post, h4, h5⟩

/-- Neither a wrong password, a nonce of one's own nor the same request again gets anything but a challenge. -/
example : outcomes cfg (Guarded.start (some keeper)) [.request 1 (callIn [] []) (at' 0 "x0") (by' "n1"),
    .request 2 (callIn [creds "bob" "px" "n1" 1 .invite] []) (at' 1 "x1") (by' "n2"),
    .request 3 (callIn [creds "bob" "pw" "n9" 1 .invite] []) (at' 2 "x1") (by' "n3")] = [[(1, 401)], [(2, 401)], [(3, 401)]] := by decide +kernel

example : outcomes cfg (Guarded.start (some keeper)) [.request 1 (callIn [] []) (at' 0 "x0") (by' "n1"),
    .request 2 (callIn [creds "bob" "pw" "n1" 1 .invite] []) (at' 1 "x1") (by' "n2"),
    .request 3 (callIn [creds "bob" "pw" "n1" 1 .invite] []) (at' 2 "x1") (by' "n3")] = [[(1, 401)], [(2, 100)], [(3, 401)]] := by decide +kernel

/-- `C122_attempts` and `C122_calls`. -/
example : Times 0 5000000000 visit ∧ tally world cfg (asksFrom "10.0.0.1".toList) (answeredWith [483, 503]) (Guarded.start (some keeper)) visit = 3 ∧
    tally world cfg (invitesFrom "10.0.0.1".toList) (fun o => o.isEmpty || answeredWith [401, 407, 483, 503] o) (Guarded.start (some keeper)) visit = 1 :=
  ⟨by decide +kernel, by decide +kernel, by decide +kernel⟩

example : tally world cfg (asksFrom "10.0.0.1".toList) (answeredWith [483, 503]) ((Guarded.start (some keeper)).run world cfg []).1 visit ≤ 4 + (5000000000 - 0) / 30000000000 :=
  C122_attempts world cfg keeper "10.0.0.1".toList [] visit 0 5000000000 (Nat.le_refl 0) (by decide +kernel)

/-- A flood: twelve calls at once, ten are taken. -/
def flood : List GEv := (List.range 12).map fun n => .request n (callIn [] []) (at' 0 "x0") (by' "n")

example : outcomes cfg (Guarded.start none) flood = (List.range 12).map fun n => [(n, if n < 10 then 100 else 503)] := by decide +kernel

example : tally world cfg (invitesFrom "10.0.0.1".toList) (fun o => o.isEmpty || answeredWith [401, 407, 483, 503] o) ((Guarded.start none).run world cfg []).1 flood ≤
    11 + (0 - 0) / 2000000000 :=
  C122_calls world cfg none rfl "10.0.0.1".toList [] flood 0 0 (Nat.le_refl 0) (by decide +kernel)

/-- `C122_hops`. -/
example : outcomes cfg (Guarded.start (some keeper)) [.request 1 (inside .options "8 OPTIONS" [("Max-Forwards", "0")] []) (at' 0 "x0") (by' "n1")] = [[(1, 483)]] := by
  decide +kernel

example : First (callIn [("Max-Forwards", " 000")] []).headers "Max-Forwards" " 000".toList ∨ First (callIn [("Max-Forwards", "000")] []).headers "Max-Forwards" "000".toList ∧
    Decimal "000".toList 0 := .inr ⟨(first_iff _ _ _).mpr (by decide +kernel), ((parseDec_iff 4294967295 "000".toList 0).mp (by decide +kernel)).1⟩

/-! ## What goes wrong -/

/-- A request with the name of a user the daemon does not know gets no answer at all (dispatcher.rs 135-139), while a wrong password gets a
challenge: a caller can find out which names exist, and one with a mistyped name waits for the time-out. -/
theorem C122_unknown_user_ignored :
    outcomes cfg (Guarded.start (some keeper)) [.request 1 (callIn [] []) (at' 0 "x0") (by' "n1"),
      .request 2 (callIn [creds "eve" "pw" "n1" 1 .invite] []) (at' 1 "x1") (by' "n2")] = [[(1, 401)], []] ∧
    outcomes cfg (Guarded.start (some keeper)) [.request 1 (callIn [] []) (at' 0 "x0") (by' "n1"),
      .request 2 (callIn [creds "bob" "px" "n1" 1 .invite] []) (at' 1 "x1") (by' "n2")] = [[(1, 401)], [(2, 401)]] := by decide +kernel

/-- The limiter counts every request, also those with the right credentials: a caller who is challenged for the INVITE, calls, and is
challenged for the BYE cannot end the call; the BYE gets 503 and the call goes on. -/
theorem C122_hangup_refused : outcomes cfg (Guarded.start (some keeper)) visit = [[(1, 401)], [(2, 100)], [(2, 180)], [(2, 200)], [(3, 401)], [(4, 503)]] ∧
    (((Guarded.start (some keeper)).run world cfg visit).1.st.dialogs.get ⟨"in1".toList, "x2".toList, "A".toList⟩).isSome = true ∧
    outcomes cfg (Guarded.start none) [visit[0], .turn 0 (at' 2 "x1"), .turn 0 (at' 3 "x2"), visit[4]] = [[(1, 100)], [(1, 180)], [(1, 200)], [(3, 200)]] := by
  decide +kernel

/-- CANCEL is not authenticated, and not tied to an address: whoever knows the Call-ID, the CSeq number and the tag ends the ringing call of
another. -/
theorem C122_cancel_from_elsewhere : outcomes cfg (Guarded.start (some keeper)) (visit.take 2 ++ [.turn 0 (at' 2 "x1"),
    .request 5 cancelIn (at' 3 "x9") ⟨"192.0.2.66".toList, [], []⟩, .turn 1 (at' 4 "x2")]) =
      [[(1, 401)], [(2, 100)], [(2, 180)], [(5, 200)], [(2, 487)]] := by
  decide +kernel

end Siphon.Daemon
