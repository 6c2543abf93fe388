import Verif.Daemon.SpecGuard
import Verif.Daemon.PropsCancel
import Verif.Auth.PropsServer
import Verif.RateLimit.Props
set_option linter.unusedSimpArgs false
set_option linter.unusedVariables false
/-!
# C122: who gets through to the daemon
-/
namespace Siphon.Daemon
open HdrSpec TextSpec
open Siphon.Dlg.Spec
open Siphon.Auth.Spec (Presents digest issued)
open Siphon.Bridge (putAll answerTo)
open Siphon.Dlg (first_iff absent_iff)
open Spec

theorem exempt_iff (m : Method) : exempt m = true ↔ Free m := by
  unfold exempt Free
  simp [or_assoc]

/-! ## The daemon behind the guard -/

theorem gstep_request (w : World) (c : Cfg) (g : Guarded) (txn : Nat) (rq : Request) (i : Info) (f : From) :
    ∃ (gate : Gate) (g' : Guarded), g'.st = g.st ∧ g.step w c (.request txn rq i f) = g'.inner c (.request txn rq { i with gate := gate }) := by
  show ∃ (gate : Gate) (g' : Guarded), _ ∧ (if noHops rq.headers then g.inner c (.request txn rq i)
    else (g.check w c rq f i.now).2.inner c (.request txn rq { i with gate := (g.check w c rq f i.now).1 })) = _
  split
  · exact ⟨i.gate, g, rfl, rfl⟩
  · refine ⟨_, (g.check w c rq f i.now).2, ?_, rfl⟩
    unfold Guarded.check
    have h1 : (g.checkAuth w rq f i.now).2.st = g.st := by
      unfold Guarded.checkAuth
      repeat' split
      all_goals first | rfl | skip
      all_goals
        unfold Guarded.verdict
        repeat' split
        all_goals rfl
    have h2 : ∀ g : Guarded, (g.checkInvite c rq f i.now).2.st = g.st := by
      intro g
      unfold Guarded.checkInvite
      split <;> rfl
    generalize g.checkAuth w rq f i.now = x at h1
    obtain ⟨v, g1⟩ := x
    cases v with
    | pass => simp only; rw [h2]; exact h1
    | refused r => exact h1
    | silent => exact h1

/-- C122: behind the guard the daemon runs as it does in C118 to C121, each request with a verdict. -/
theorem C122_refines (w : World) (c : Cfg) : ∀ (es : List GEv) (g : Guarded),
    ∃ es', Lets es es' ∧ (g.run w c es).1.st = (run c g.st es').1 ∧ (g.run w c es).2 = (run c g.st es').2
  | [], g => ⟨[], .nil, rfl, rfl⟩
  | e :: es, g => by
    have key : ∀ e', (g.step w c e).1.st = (step c g.st e').1 → (g.step w c e).2 = (step c g.st e').2 → (∀ es', Lets es es' → Lets (e :: es) (e' :: es')) →
        ∃ es', Lets (e :: es) es' ∧ (g.run w c (e :: es)).1.st = (run c g.st es').1 ∧ (g.run w c (e :: es)).2 = (run c g.st es').2 := by
      intro e' h1 h2 h3
      obtain ⟨es', k1, k2, k3⟩ := C122_refines w c es (g.step w c e).1
      refine ⟨e' :: es', h3 es' k1, ?_, ?_⟩
      · show ((g.step w c e).1.run w c es).1.st = (run c (step c g.st e').1 es').1
        rw [← h1]; exact k2
      · show (g.step w c e).2 ++ ((g.step w c e).1.run w c es).2 = (step c g.st e').2 ++ (run c (step c g.st e').1 es').2
        rw [← h1, ← h2, k3]
    cases e with
    | request txn rq i f =>
      obtain ⟨gate, g', h1, h2⟩ := gstep_request w c g txn rq i f
      refine key (.request txn rq { i with gate := gate }) ?_ ?_ (fun _ h => .request h)
      · rw [h2, ← h1]; rfl
      · rw [h2, ← h1]; rfl
    | turn id i => exact key (.turn id i) rfl rfl (fun _ h => .turn h)
    | expired d => exact key (.expired d) rfl rfl (fun _ h => .expired h)
    | sweep now => exact key (.sweep now) rfl rfl (fun _ h => .sweep h)

/-- C122: a request with Max-Forwards 0 is answered with 483, whatever its method and whoever sent it; nothing is changed. -/
theorem C122_hops (w : World) (c : Cfg) (g : Guarded) (txn : Nat) (rq : Request) (i : Info) (f : From) (v : Str) (hf : Fine rq)
    (hv : First rq.headers "Max-Forwards" v) (hd : Decimal v 0) :
    ∃ r, g.step w c (.request txn rq i f) = (g, [.final txn r]) ∧ BareAnswer rq 483 r := by
  have hh : noHops rq.headers = true := by
    unfold noHops
    rw [(first_iff _ _ _).mp hv]
    simp only [decide_eq_true_eq]
    exact (parseDec_iff _ _ _).mpr ⟨hd, by decide⟩
  refine ⟨bare rq 483 "Too Many Hops", ?_, bare_answers hf 483 _⟩
  show (if noHops rq.headers then g.inner c (.request txn rq i) else _) = _
  rw [if_pos hh]
  unfold Guarded.inner
  have : step c g.st (.request txn rq i) = (g.st, [.final txn (bare rq 483 "Too Many Hops")]) := by
    show dispatch c g.st txn rq i = _
    unfold dispatch
    rw [if_pos hh]
  rw [this]

/-- C122: without calls, INVITE, CANCEL, BYE, PRACK, UPDATE and INFO get 501 and change nothing in the daemon. -/
theorem C122_no_calls (c : Cfg) (st : St) (txn : Nat) (rq : Request) (i : Info) (hf : Fine rq) (hh : Hops rq.headers) (hg : i.gate = .pass)
    (hm : rq.method ∈ [.invite, .cancel, .bye, .prack, .update, .info]) (hc : c.calls = false) :
    ∃ r, step c st (.request txn rq i) = (st, [.final txn r]) ∧ BareAnswer rq 501 r := by
  refine ⟨bare rq 501 "Not Implemented", ?_, bare_answers hf 501 _⟩
  show dispatch c st txn rq i = _
  rw [dispatch_passed hh hg]
  unfold handle
  rw [if_pos (by simpa using hm), hc]
  rfl

/-! ## Authentication -/

/-- What the authenticator does for this event. -/
def authOps (w : World) (g : Guarded) : GEv → List Auth.Op
  | .request _ rq i f =>
    match g.auth with
    | none => []
    | some s =>
      if noHops rq.headers || exempt rq.method || !(g.attempts.check authLimit f.peer i.now).1 then []
      else
        match (s.verify w.hash rq rq.headers i.now).1 with
        | .ok false => [.verify rq rq.headers i.now, .challenge rq false f.nonce f.tag i.now]
        | _ => [.verify rq rq.headers i.now]
  | _ => []

def allAuthOps (w : World) (c : Cfg) : Guarded → List GEv → List Auth.Op
  | _, [] => []
  | g, e :: es => authOps w g e ++ allAuthOps w c (g.step w c e).1 es

theorem inner_auth (c : Cfg) (g : Guarded) (e : Ev) : (g.inner c e).1.auth = g.auth ∧ (g.inner c e).1.attempts = g.attempts ∧ (g.inner c e).1.invites = g.invites :=
  ⟨rfl, rfl, rfl⟩

theorem checkInvite_auth (c : Cfg) (g : Guarded) (rq : Request) (f : From) (now : Nat) :
    (g.checkInvite c rq f now).2.auth = g.auth ∧ (g.checkInvite c rq f now).2.attempts = g.attempts := by
  unfold Guarded.checkInvite
  split <;> exact ⟨rfl, rfl⟩

theorem verdict_auth (w : World) (g : Guarded) (s : Auth.Server) (rq : Request) (f : From) (now : Nat) :
    (g.verdict w s rq f now).2.auth = some (s.run w.hash w.order
        (match (s.verify w.hash rq rq.headers now).1 with
        | .ok false => [.verify rq rq.headers now, .challenge rq false f.nonce f.tag now]
        | _ => [.verify rq rq.headers now])) ∧
      (g.verdict w s rq f now).2.attempts = g.attempts ∧ (g.verdict w s rq f now).2.invites = g.invites := by
  unfold Guarded.verdict
  cases hv : s.verify w.hash rq rq.headers now with
  | mk e s1 =>
    cases e with
    | error e => refine ⟨?_, rfl, rfl⟩; simp [Auth.Server.run, Auth.Server.step, hv]
    | ok b =>
      cases b with
      | true => refine ⟨?_, rfl, rfl⟩; simp [Auth.Server.run, Auth.Server.step, hv]
      | false =>
        simp only
        cases hc : s1.challenge w.order rq false f.nonce f.tag now with
        | mk x s2 => cases x <;> (refine ⟨?_, rfl, rfl⟩; simp [Auth.Server.run, Auth.Server.step, hv, hc])

theorem check_auth (w : World) (c : Cfg) (g : Guarded) (rq : Request) (f : From) (now : Nat) :
    (g.check w c rq f now).2.auth = (g.checkAuth w rq f now).2.auth ∧ (g.check w c rq f now).2.attempts = (g.checkAuth w rq f now).2.attempts := by
  unfold Guarded.check
  generalize g.checkAuth w rq f now = x
  obtain ⟨v, g1⟩ := x
  cases v with
  | pass => exact checkInvite_auth c g1 rq f now
  | refused r => exact ⟨rfl, rfl⟩
  | silent => exact ⟨rfl, rfl⟩

theorem auth_step (w : World) (c : Cfg) (g : Guarded) (e : GEv) (s : Auth.Server) (hs : g.auth = some s) :
    (g.step w c e).1.auth = some (s.run w.hash w.order (authOps w g e)) := by
  cases e with
  | turn id i => exact hs
  | expired d => exact hs
  | sweep now => exact hs
  | request txn rq i f =>
    show (if noHops rq.headers then g.inner c (.request txn rq i)
      else (g.check w c rq f i.now).2.inner c (.request txn rq { i with gate := (g.check w c rq f i.now).1 })).1.auth = _
    unfold authOps
    rw [hs]
    simp only
    by_cases hn : noHops rq.headers = true
    · rw [if_pos hn, if_pos (by simp [hn])]
      exact hs
    · rw [if_neg hn]
      show (g.check w c rq f i.now).2.auth = _
      rw [(check_auth w c g rq f i.now).1]
      unfold Guarded.checkAuth
      rw [hs]
      simp only
      by_cases hx : exempt rq.method = true
      · rw [if_pos hx, if_pos (by simp [hx])]
        exact hs
      · rw [if_neg hx]
        by_cases hl : (g.attempts.check authLimit f.peer i.now).1 = true
        · rw [if_neg (by simp [hl]), if_neg (by simp [hn, hx, hl])]
          exact (verdict_auth w _ s rq f i.now).1
        · rw [if_pos (by simp [hl]), if_pos (by simp [hl])]
          rfl

theorem run_ops_append (s : Auth.Server) (H : Auth.Hash) (order : List Str → List Str) (a b : List Auth.Op) :
    s.run H order (a ++ b) = (s.run H order a).run H order b := by
  unfold Auth.Server.run
  rw [List.foldl_append]

theorem auth_run (w : World) (c : Cfg) : ∀ (es : List GEv) (g : Guarded) (s : Auth.Server), g.auth = some s →
    (g.run w c es).1.auth = some (s.run w.hash w.order (allAuthOps w c g es))
  | [], g, s, h => h
  | e :: es, g, s, h => by
    show ((g.step w c e).1.run w c es).1.auth = _
    rw [auth_run w c es _ _ (auth_step w c g e s h), allAuthOps, run_ops_append]

/-- The nonce was drawn for a challenge to this request. -/
theorem issued_split (w : World) (c : Cfg) (ν : Str) (t : Nat) : ∀ (es : List GEv) (g : Guarded), (ν, t) ∈ issued (allAuthOps w c g es) →
    ∃ pre x q j y post, es = pre ++ .request x q j y :: post ∧ (ν, t) ∈ issued (authOps w (g.run w c pre).1 (.request x q j y))
  | [], g, h => by simp [allAuthOps, issued] at h
  | e :: es, g, h => by
    rw [allAuthOps, Auth.issued_append, List.mem_append] at h
    rcases h with h | h
    · cases e with
      | request x q j y => exact ⟨[], x, q, j, y, es, rfl, h⟩
      | turn id i => simp [authOps, issued] at h
      | expired d => simp [authOps, issued] at h
      | sweep now => simp [authOps, issued] at h
    · obtain ⟨pre, x, q, j, y, post, h1, h2⟩ := issued_split w c ν t es _ h
      exact ⟨e :: pre, x, q, j, y, post, by rw [h1]; rfl, h2⟩

theorem challenge_code {s : Auth.Server} {order : List Str → List Str} {rq : Request} {stale : Bool} {nonce tag : Str} {now : Nat} {r : Response}
    {s' : Auth.Server} (h : s.challenge order rq stale nonce tag now = (.ok r, s')) : r.code = if s.proxyAuth then 407 else 401 := by
  unfold Auth.Server.challenge at h
  simp only at h
  repeat' split at h
  all_goals first | (cases h; done) | skip
  all_goals
    rename_i hr
    cases h
    unfold Response.new at hr
    repeat' split at hr
    all_goals first | (cases hr; done) | skip
    all_goals (cases hr; simp_all)

theorem run_proxy (H : Auth.Hash) (order : List Str → List Str) (s : Auth.Server) (ops : List Auth.Op) (h0 : s.mgr.nonces = []) :
    (s.run H order ops).proxyAuth = s.proxyAuth ∧ (s.run H order ops).realm = s.realm ∧ (s.run H order ops).store = s.store ∧
      (s.run H order ops).algorithm = s.algorithm ∧ (s.run H order ops).qop = s.qop := by
  have := (Auth.run_nodup_same H order ops s (by rw [h0]; simp [Tbl.keys])).2
  exact ⟨this.proxyAuth, this.realm, this.store, this.algorithm, this.qop⟩

/-- A request that is not let through. -/
theorem stopped {c : Cfg} {st : St} {txn : Nat} {rq : Request} {i : Info} (hx : ¬ Free rq.method) (hn : noHops rq.headers = false) :
    (∀ r, i.gate = .refused r → step c st (.request txn rq i) = (st, [.final txn r])) ∧
      (i.gate = .silent → step c st (.request txn rq i) = (st, [])) := by
  have e : step c st (.request txn rq i) = match i.gate with
      | .pass => handle c st txn rq i
      | .refused r => (st, [.final txn r])
      | .silent => (st, []) := by
    show dispatch c st txn rq i = _
    unfold dispatch
    rw [hn, if_neg (by decide), if_neg (by rw [exempt_iff]; exact hx)]
    rfl
  rw [e]
  exact ⟨fun r h => by rw [h], fun h => by rw [h]⟩

/-- The event a challenge with this nonce was made for: it was answered with the challenge, or not at all if the challenge could not be
made. -/
theorem issued_event {w : World} {c : Cfg} {g : Guarded} {s : Auth.Server} {ν : Str} {t x : Nat} {q : Request} {j : Info} {y : From} (hs : g.auth = some s)
    (hnd : s.mgr.nonces.keys.Nodup) (h : (ν, t) ∈ issued (authOps w g (.request x q j y))) :
    y.nonce = ν ∧ j.now = t ∧ ((g.step w c (.request x q j y)).2 = [] ∨ ∃ r, (g.step w c (.request x q j y)).2 = [.final x r] ∧
      r.code = if s.proxyAuth then 407 else 401) := by
  unfold authOps at h
  rw [hs] at h
  simp only at h
  split at h
  · simp [issued] at h
  · rename_i hc
    simp only [Bool.or_eq_true, Bool.not_eq_true', not_or, Bool.not_eq_true, Bool.not_eq_false] at hc
    obtain ⟨⟨h1, h2⟩, h3⟩ := hc
    cases hv : s.verify w.hash q q.headers j.now with
    | mk v s1 =>
      rw [hv] at h
      have hfree : ¬ Free q.method := by rw [← exempt_iff, h2]; decide
      split at h
      · rename_i hvf
        simp only at hvf
        subst hvf
        simp [issued] at h
        refine ⟨h.1.symm, h.2.symm, ?_⟩
        have hs1 : s1.proxyAuth = s.proxyAuth := by
          have := congrArg (·.2) hv
          simp only at this
          rw [← this]
          exact (Auth.step_nodup_same w.hash w.order s (.verify q q.headers j.now) hnd).2.proxyAuth
        show (if noHops q.headers then g.inner c (.request x q j)
          else (g.check w c q y j.now).2.inner c (.request x q { j with gate := (g.check w c q y j.now).1 })).2 = [] ∨ ∃ r, (if noHops q.headers then g.inner c (.request x q j)
          else (g.check w c q y j.now).2.inner c (.request x q { j with gate := (g.check w c q y j.now).1 })).2 = [.final x r] ∧ _
        rw [h1]
        simp only [Bool.false_eq_true, if_false]
        have hca : ∀ o s2, s1.challenge w.order q false y.nonce y.tag j.now = (o, s2) → (g.check w c q y j.now).1 = match o with
            | .ok r => .refused r
            | .error _ => .silent := by
          intro o s2 hch
          unfold Guarded.check Guarded.checkAuth
          rw [hs]
          simp only [h2, h3, Bool.false_eq_true, if_false, Bool.not_true]
          unfold Guarded.verdict
          rw [hv]
          simp only
          rw [hch]
          cases o <;> rfl
        unfold Guarded.inner
        simp only
        cases hch : s1.challenge w.order q false y.nonce y.tag j.now with
        | mk o s2 =>
          have hg := hca o s2 hch
          cases o with
          | ok r =>
            refine .inr ⟨r, ?_, ?_⟩
            · rw [(stopped (i := { j with gate := (g.check w c q y j.now).1 }) hfree h1).1 r hg]
            · rw [challenge_code hch, hs1]
          | error e => exact .inl (by rw [(stopped (i := { j with gate := (g.check w c q y j.now).1 }) hfree h1).2 hg])
      · simp [issued] at h

/-- C122: with authentication on, a request with a method that is not free does something to the daemon, or is answered with anything but
401 (407), 483 or 503, only if it presents the right digest response for the password of a user, with a nonce that this authenticator has
drawn for an earlier request, not longer ago than nonces last; that request was not let through. -/
theorem C122_credentials (w : World) (c : Cfg) (s₀ : Auth.Server) (h0 : s₀.mgr.nonces = []) (es : List GEv) (txn : Nat) (rq : Request) (i : Info) (f : From)
    (hm : ¬ Free rq.method)
    (h : let g := ((Guarded.start (some s₀)).run w c es).1
      (g.step w c (.request txn rq i f)).1.st ≠ g.st ∨
        ((g.step w c (.request txn rq i f)).2 ≠ [] ∧ answeredWith [401, 407, 483, 503] (g.step w c (.request txn rq i f)).2 = false)) :
    ∃ user pw nonce nc cnonce, Presents s₀.proxyAuth rq.headers "username" user ∧ Presents s₀.proxyAuth rq.headers "realm" s₀.realm ∧
      Presents s₀.proxyAuth rq.headers "uri" rq.uri ∧ Presents s₀.proxyAuth rq.headers "nonce" nonce ∧ Presents s₀.proxyAuth rq.headers "nc" nc ∧
      Presents s₀.proxyAuth rq.headers "cnonce" cnonce ∧ s₀.store user s₀.realm = some pw ∧
      Presents s₀.proxyAuth rq.headers "response"
        (digest w.hash s₀.algorithm s₀.qop user s₀.realm pw nonce nc cnonce rq.method.asStr rq.uri rq.body) ∧
      ∃ pre x q j y post, es = pre ++ .request x q j y :: post ∧ y.nonce = nonce ∧ i.now ≤ j.now + s₀.mgr.ttl ∧
        ((((Guarded.start (some s₀)).run w c pre).1.step w c (.request x q j y)).2 = [] ∨
          ∃ r, (((Guarded.start (some s₀)).run w c pre).1.step w c (.request x q j y)).2 = [.final x r] ∧
            r.code = if s₀.proxyAuth then 407 else 401) := by
  simp only at h
  have hau := auth_run w c es (Guarded.start (some s₀)) s₀ rfl
  obtain ⟨p1, p2, p3, p4, p5⟩ := run_proxy w.hash w.order s₀ (allAuthOps w c (Guarded.start (some s₀)) es) h0
  generalize hg : ((Guarded.start (some s₀)).run w c es).1 = g at h hau
  have hfree : exempt rq.method = false := by
    cases hx : exempt rq.method with
    | false => rfl
    | true => exact absurd ((exempt_iff _).mp hx) hm
  have hexp : g.step w c (.request txn rq i f) = (if noHops rq.headers then g.inner c (.request txn rq i)
      else (g.check w c rq f i.now).2.inner c (.request txn rq { i with gate := (g.check w c rq f i.now).1 })) := rfl
  have hcst : (g.check w c rq f i.now).2.st = g.st := by
    unfold Guarded.check
    have h1 : (g.checkAuth w rq f i.now).2.st = g.st := by
      unfold Guarded.checkAuth
      repeat' split
      all_goals first | rfl | skip
      all_goals
        unfold Guarded.verdict
        repeat' split
        all_goals rfl
    generalize g.checkAuth w rq f i.now = x at h1
    obtain ⟨v, g1⟩ := x
    cases v with
    | pass => simp only; unfold Guarded.checkInvite; split <;> exact h1
    | refused r => exact h1
    | silent => exact h1
  by_cases hn : noHops rq.headers = true
  · exfalso
    have : g.step w c (.request txn rq i f) = (g, [.final txn (bare rq 483 "Too Many Hops")]) := by
      rw [hexp, if_pos hn]
      unfold Guarded.inner
      have : step c g.st (.request txn rq i) = (g.st, [.final txn (bare rq 483 "Too Many Hops")]) := by
        show dispatch c g.st txn rq i = _
        unfold dispatch
        rw [if_pos hn]
      rw [this]
    rw [this] at h
    rcases h with h | ⟨_, h⟩
    · exact h rfl
    · simp [answeredWith, bare] at h
  · rw [if_neg hn] at hexp
    have hn' : noHops rq.headers = false := by simpa using hn
    -- the verdict
    have hv : (∃ s', ((s₀.run w.hash w.order (allAuthOps w c (Guarded.start (some s₀)) es)).verify w.hash rq rq.headers i.now) = (.ok true, s')) := by
      apply Classical.byContradiction
      intro hno
      have hgate : (∃ r, (g.check w c rq f i.now).1 = .refused r ∧ (r.code = 401 ∨ r.code = 407 ∨ r.code = 503)) ∨ (g.check w c rq f i.now).1 = .silent := by
        unfold Guarded.check Guarded.checkAuth
        rw [hau]
        simp only [hfree, Bool.false_eq_true, if_false]
        by_cases hl : (g.attempts.check authLimit f.peer i.now).1 = true
        · simp only [hl, Bool.not_true, Bool.false_eq_true, if_false]
          unfold Guarded.verdict
          cases hve : (s₀.run w.hash w.order (allAuthOps w c (Guarded.start (some s₀)) es)).verify w.hash rq rq.headers i.now with
          | mk o s1 =>
            cases o with
            | error e => exact .inr rfl
            | ok b =>
              cases b with
              | true => exact absurd ⟨s1, hve⟩ hno
              | false =>
                simp only
                cases hch : s1.challenge w.order rq false f.nonce f.tag i.now with
                | mk o s2 =>
                  cases o with
                  | ok r =>
                    have := challenge_code hch
                    refine .inl ⟨r, rfl, ?_⟩
                    split at this <;> simp [this]
                  | error e => exact .inr rfl
        · simp only [hl, Bool.not_false, if_true]
          exact .inl ⟨busy rq, rfl, .inr (.inr rfl)⟩
      obtain ⟨k1, k2⟩ := stopped (c := c) (st := (g.check w c rq f i.now).2.st) (txn := txn) (i := { i with gate := (g.check w c rq f i.now).1 }) hm hn'
      unfold Guarded.inner at hexp
      rcases hgate with ⟨r, e, hr⟩ | e
      · rw [k1 r e] at hexp
        rw [hexp] at h
        rcases h with h | ⟨_, h⟩
        · exact h hcst
        · simp only [answeredWith] at h
          rcases hr with hr | hr | hr <;> rw [hr] at h <;> exact absurd h (by decide)
      · rw [k2 e] at hexp
        rw [hexp] at h
        rcases h with h | ⟨h, _⟩
        · exact h hcst
        · exact h rfl
    obtain ⟨s', hv⟩ := hv
    obtain ⟨user, pw, nonce, nc, cnonce, _, _, q1, q2, q3, _, _, _, q4, q5, q6, _, q7, q8⟩ := Auth.C36_sound w.hash _ s' rq rq.headers i.now hv
    rw [p1] at q1 q2 q3 q4 q5 q6 q8
    rw [p2] at q2 q7 q8
    rw [p3] at q7
    rw [p4, p5] at q8
    refine ⟨user, pw, nonce, nc, cnonce, q1, q2, q3, q4, q5, q6, q7, q8, ?_⟩
    obtain ⟨t, ht, hnow⟩ := Auth.C35_issued_and_fresh w.hash w.order s₀ s' h0 _ rq rq.headers i.now hv nonce q4
    have hmem : (nonce, t) ∈ issued (allAuthOps w c (Guarded.start (some s₀)) es) := by
      unfold Auth.Spec.lastIssue at ht
      cases hl : ((issued (allAuthOps w c (Guarded.start (some s₀)) es)).filter (fun p => p.1 = nonce)).getLast? with
      | none => rw [hl] at ht; cases ht
      | some p =>
        rw [hl] at ht
        simp only [Option.map_some, Option.some.injEq] at ht
        have := List.mem_of_getLast? hl
        rw [List.mem_filter] at this
        have e : p = (nonce, t) := by
          obtain ⟨a, b⟩ := p
          simp only [decide_eq_true_eq] at this ht
          rw [this.2, ht]
        rw [← e]
        exact this.1
    obtain ⟨pre, x, q, j, y, post, e1, e2⟩ := issued_split w c nonce t es _ hmem
    have hau' := auth_run w c pre (Guarded.start (some s₀)) s₀ rfl
    have hp' := (run_proxy w.hash w.order s₀ (allAuthOps w c (Guarded.start (some s₀)) pre) h0).1
    obtain ⟨r1, r2, r3⟩ := issued_event (c := c) hau' (Auth.run_nodup_same w.hash w.order _ s₀ (by rw [h0]; simp [Tbl.keys])).1 e2
    refine ⟨pre, x, q, j, y, post, e1, r1, by rw [r2]; exact hnow, ?_⟩
    rw [hp'] at r3
    exact r3

/-! ## The limiters -/

/-- What the limiter of attempts does for this event. -/
def attemptOps (g : Guarded) : GEv → List RateLimit.Op
  | .request _ rq i f => if g.auth.isSome && !noHops rq.headers && !exempt rq.method then [.check f.peer i.now] else []
  | _ => []

/-- What the limiter of INVITEs does for this event. -/
def inviteOps (w : World) (c : Cfg) (g : Guarded) : GEv → List RateLimit.Op
  | .request _ rq i f =>
    if c.calls && !noHops rq.headers && rq.method == .invite && (match (g.checkAuth w rq f i.now).1 with | .pass => true | _ => false) then
      [.check f.peer i.now]
    else []
  | _ => []

def gather (w : World) (c : Cfg) (ops : Guarded → GEv → List RateLimit.Op) : Guarded → List GEv → List RateLimit.Op
  | _, [] => []
  | g, e :: es => ops g e ++ gather w c ops (g.step w c e).1 es

theorem limiter_append (cfg : RateLimit.Config) (l : RateLimit.Limiter) (a b : List RateLimit.Op) :
    RateLimit.Limiter.run cfg l (a ++ b) = RateLimit.Limiter.run cfg (RateLimit.Limiter.run cfg l a) b := by
  unfold RateLimit.Limiter.run
  rw [List.foldl_append]

theorem gather_run (w : World) (c : Cfg) (ops : Guarded → GEv → List RateLimit.Op) (cfg : RateLimit.Config) (field : Guarded → RateLimit.Limiter)
    (hstep : ∀ g e, field (g.step w c e).1 = RateLimit.Limiter.run cfg (field g) (ops g e)) :
    ∀ (es : List GEv) (g : Guarded), field (g.run w c es).1 = RateLimit.Limiter.run cfg (field g) (gather w c ops g es)
  | [], g => rfl
  | e :: es, g => by
    show field ((g.step w c e).1.run w c es).1 = _
    rw [gather_run w c ops cfg field hstep es, hstep, gather, limiter_append]

theorem clock_low {hi : Nat} : ∀ (ops : List RateLimit.Op) {a b : Nat}, b ≤ a → RateLimit.Clock a hi ops → RateLimit.Clock b hi ops
  | [], a, b, h, hc => Nat.le_trans h hc
  | op :: ops, a, b, h, hc => by
    unfold RateLimit.Clock at hc ⊢
    cases ht : op.time with
    | none => rw [ht] at hc; exact clock_low ops h hc
    | some t => rw [ht] at hc; exact ⟨Nat.le_trans h hc.1, hc.2⟩

/-- The operations are checks at the time of the event. -/
def ChecksOnly (ops : Guarded → GEv → List RateLimit.Op) : Prop :=
  ∀ g e, ops g e = [] ∨ ∃ txn rq i f, e = .request txn rq i f ∧ ops g e = [.check f.peer i.now]

theorem attempt_checks : ChecksOnly attemptOps := by
  intro g e
  cases e with
  | request txn rq i f =>
    unfold attemptOps
    simp only
    split
    · exact .inr ⟨_, _, _, _, rfl, rfl⟩
    · exact .inl rfl
  | turn id i => exact .inl rfl
  | expired d => exact .inl rfl
  | sweep now => exact .inl rfl

theorem invite_checks (w : World) (c : Cfg) : ChecksOnly (inviteOps w c) := by
  intro g e
  cases e with
  | request txn rq i f =>
    unfold inviteOps
    simp only
    repeat' split
    all_goals first | exact .inr ⟨_, _, _, _, rfl, rfl⟩ | exact .inl rfl
  | turn id i => exact .inl rfl
  | expired d => exact .inl rfl
  | sweep now => exact .inl rfl

theorem gather_clock (w : World) (c : Cfg) {ops : Guarded → GEv → List RateLimit.Op} (ho : ChecksOnly ops) {hi : Nat} :
    ∀ (es : List GEv) (g : Guarded) (lo : Nat), Times lo hi es → RateLimit.Clock lo hi (gather w c ops g es)
  | [], g, lo, h => h
  | e :: es, g, lo, h => by
    rw [gather]
    rcases ho g e with h1 | ⟨txn, rq, i, f, he, h1⟩
    · rw [h1]
      show RateLimit.Clock lo hi (gather w c ops _ es)
      cases e with
      | request txn rq i f =>
        obtain ⟨h2, h3⟩ := h
        exact clock_low _ h2 (gather_clock w c ho es _ _ h3)
      | turn id i => exact gather_clock w c ho es _ _ h
      | expired d => exact gather_clock w c ho es _ _ h
      | sweep now => exact gather_clock w c ho es _ _ h
    · rw [h1]
      subst he
      obtain ⟨h2, h3⟩ := h
      exact ⟨h2, gather_clock w c ho es _ _ h3⟩

theorem gather_noreset (w : World) (c : Cfg) {ops : Guarded → GEv → List RateLimit.Op} (ho : ChecksOnly ops) (k : Str) :
    ∀ (es : List GEv) (g : Guarded), RateLimit.NoReset k (gather w c ops g es)
  | [], g => by intro op h; cases h
  | e :: es, g => by
    intro op h
    rw [gather, List.mem_append] at h
    rcases h with h | h
    · rcases ho g e with h1 | ⟨txn, rq, i, f, he, h1⟩
      · rw [h1] at h; cases h
      · rw [h1, List.mem_singleton] at h
        subst h
        exact ⟨by simp, by simp⟩
    · exact gather_noreset w c ho k es _ op h

theorem tally_le (w : World) (c : Cfg) {ops : Guarded → GEv → List RateLimit.Op} (ho : ChecksOnly ops) (cfg : RateLimit.Config)
    (field : Guarded → RateLimit.Limiter) (hstep : ∀ g e, field (g.step w c e).1 = RateLimit.Limiter.run cfg (field g) (ops g e))
    (inv : Guarded → Prop) (hinv : ∀ g e, inv g → inv (g.step w c e).1) (k : Str) (pick : GEv → Bool) (skip : List Out → Bool)
    (hp : ∀ g e, inv g → pick e = true → skip (g.step w c e).2 = false → ∃ txn rq i f, e = .request txn rq i f ∧ f.peer = k ∧
      ops g e = [.check k i.now] ∧ ((field g).check cfg k i.now).1 = true) :
    ∀ (es : List GEv) (g : Guarded), inv g → tally w c pick skip g es ≤ RateLimit.admitted cfg k (field g) (gather w c ops g es)
  | [], g, _ => Nat.zero_le _
  | e :: es, g, hi => by
    have ih := tally_le w c ho cfg field hstep inv hinv k pick skip hp es _ (hinv g e hi)
    rw [tally, gather]
    rw [hstep g e] at ih
    unfold RateLimit.admitted at ih ⊢
    by_cases hpk : (pick e && !skip (g.step w c e).2) = true
    · rw [if_pos hpk]
      simp only [Bool.and_eq_true, Bool.not_eq_true'] at hpk
      obtain ⟨txn, rq, i, f, _, _, h3, h4⟩ := hp g e hi hpk.1 hpk.2
      rw [h3] at ih ⊢
      simp only [RateLimit.Limiter.run, List.foldl_cons, List.foldl_nil] at ih
      simp only [List.cons_append, List.nil_append, RateLimit.answers, if_pos, h4, List.count_append, List.count_cons_self, List.count_nil]
      omega
    · rw [if_neg hpk]
      rcases ho g e with h1 | ⟨txn, rq, i, f, he, h1⟩
      · rw [h1] at ih ⊢
        simp only [RateLimit.Limiter.run, List.foldl_nil] at ih
        simpa using ih
      · rw [h1] at ih ⊢
        simp only [RateLimit.Limiter.run, List.foldl_cons, List.foldl_nil] at ih
        simp only [List.cons_append, List.nil_append, RateLimit.answers, List.count_append]
        omega

theorem verdict_fields (w : World) (g : Guarded) (s : Auth.Server) (rq : Request) (f : From) (now : Nat) :
    (g.verdict w s rq f now).2.attempts = g.attempts ∧ (g.verdict w s rq f now).2.invites = g.invites := (verdict_auth w g s rq f now).2

theorem attempts_step (w : World) (c : Cfg) (g : Guarded) (e : GEv) :
    (g.step w c e).1.attempts = RateLimit.Limiter.run authLimit g.attempts (attemptOps g e) := by
  cases e with
  | turn id i => rfl
  | expired d => rfl
  | sweep now => rfl
  | request txn rq i f =>
    show (if noHops rq.headers then g.inner c (.request txn rq i)
      else (g.check w c rq f i.now).2.inner c (.request txn rq { i with gate := (g.check w c rq f i.now).1 })).1.attempts = _
    unfold attemptOps
    simp only
    by_cases hn : noHops rq.headers = true
    · rw [if_pos hn, if_neg (by simp [hn])]
      rfl
    · rw [if_neg hn]
      show (g.check w c rq f i.now).2.attempts = _
      rw [(check_auth w c g rq f i.now).2]
      unfold Guarded.checkAuth
      cases hs : g.auth with
      | none => rfl
      | some s =>
        simp only
        by_cases hx : exempt rq.method = true
        · rw [if_pos hx, if_neg (by simp [hx])]
          rfl
        · rw [if_neg hx]
          simp only [Option.isSome_some, Bool.eq_false_iff.mpr hn, Bool.eq_false_iff.mpr hx, Bool.not_false, Bool.and_self, if_true]
          split
          · rfl
          · rw [(verdict_fields w _ s rq f i.now).1]
            rfl

theorem checkAuth_invites (w : World) (g : Guarded) (rq : Request) (f : From) (now : Nat) : (g.checkAuth w rq f now).2.invites = g.invites := by
  unfold Guarded.checkAuth
  repeat' split
  all_goals first | rfl | skip
  rw [(verdict_fields w _ _ rq f now).2]

theorem invites_step (w : World) (c : Cfg) (g : Guarded) (e : GEv) :
    (g.step w c e).1.invites = RateLimit.Limiter.run inviteLimit g.invites (inviteOps w c g e) := by
  cases e with
  | turn id i => rfl
  | expired d => rfl
  | sweep now => rfl
  | request txn rq i f =>
    show (if noHops rq.headers then g.inner c (.request txn rq i)
      else (g.check w c rq f i.now).2.inner c (.request txn rq { i with gate := (g.check w c rq f i.now).1 })).1.invites = _
    unfold inviteOps
    simp only
    by_cases hn : noHops rq.headers = true
    · rw [if_pos hn, if_neg (by simp [hn])]
      rfl
    · rw [if_neg hn]
      show (g.check w c rq f i.now).2.invites = _
      unfold Guarded.check
      have hi := checkAuth_invites w g rq f i.now
      generalize g.checkAuth w rq f i.now = x at hi
      obtain ⟨v, g1⟩ := x
      simp only at hi
      cases v with
      | refused r => rw [if_neg (by simp)]; exact hi
      | silent => rw [if_neg (by simp)]; exact hi
      | pass =>
        simp only
        unfold Guarded.checkInvite
        by_cases hc : (c.calls && rq.method == .invite) = true
        · rw [if_pos hc]
          simp only [Bool.and_eq_true] at hc
          rw [if_pos (by simp [hn, hc.1, hc.2])]
          simp only [hi]
          rfl
        · rw [if_neg hc, if_neg ?_]
          · exact hi
          · intro h
            apply hc
            simp only [Bool.and_eq_true] at h ⊢
            exact ⟨h.1.1.1, h.1.2⟩

theorem authLimit_made : RateLimit.Made authLimit ∧ authLimit.enabled = true ∧ authLimit.keepsLongEnough := by
  refine ⟨?_, rfl, by decide⟩
  exact .idle (n := 600) (.burst (n := 3) (.new (r := 10) (w := 300) rfl) rfl)

theorem inviteLimit_made : RateLimit.Made inviteLimit ∧ inviteLimit.enabled = true ∧ inviteLimit.keepsLongEnough := by
  refine ⟨?_, rfl, by decide⟩
  exact .idle (n := 300) (.burst (n := 10) (.new (r := 30) (w := 60) rfl) rfl)

/-- C122: with authentication on, in any stretch of time of any history, no more than 4 requests plus one per 30 seconds from one address
have their credentials looked at; all others get 483 or 503. -/
theorem C122_attempts (w : World) (c : Cfg) (s₀ : Auth.Server) (k : Str) (pre es : List GEv) (t0 t1 : Nat) (hpre : Times 0 t0 pre) (hes : Times t0 t1 es) :
    tally w c (asksFrom k) (answeredWith [483, 503]) ((Guarded.start (some s₀)).run w c pre).1 es ≤ 4 + (t1 - t0) / 30000000000 := by
  obtain ⟨h1, h2, h3⟩ := authLimit_made
  have hw := RateLimit.C47_window authLimit h1 h2 h3 k (gather w c attemptOps (Guarded.start (some s₀)) pre)
    (gather w c attemptOps ((Guarded.start (some s₀)).run w c pre).1 es) t0 t1 (gather_clock w c attempt_checks pre _ 0 hpre)
    (gather_clock w c attempt_checks es _ t0 hes) (gather_noreset w c attempt_checks k es _)
  have hr := gather_run w c attemptOps authLimit (·.attempts) (attempts_step w c) pre (Guarded.start (some s₀))
  have hle := tally_le w c attempt_checks authLimit (·.attempts) (attempts_step w c) (fun g => ∃ s, g.auth = some s)
    (fun g e ⟨s, hs⟩ => ⟨_, auth_step w c g e s hs⟩) k (asksFrom k) (answeredWith [483, 503]) ?_ es ((Guarded.start (some s₀)).run w c pre).1
    ⟨_, auth_run w c pre (Guarded.start (some s₀)) s₀ rfl⟩
  · rw [hr] at hle
    refine Nat.le_trans hle (Nat.le_trans hw ?_)
    show 3 + (t1 - t0) / (30000 * 1000000) + 1 ≤ _
    omega
  · intro g e ⟨s, hs⟩ hp hsk
    cases e with
    | turn id i => cases hp
    | expired d => cases hp
    | sweep now => cases hp
    | request txn rq i f =>
      simp only [asksFrom, Bool.and_eq_true, beq_iff_eq, bne_iff_ne] at hp
      obtain ⟨⟨⟨⟨hk, q1⟩, q2⟩, q3⟩, q4⟩ := hp
      have hfree : ¬ Free rq.method := by
        rintro (h | h | h | h)
        · exact q1 h
        · exact q2 h
        · exact q3 h
        · exact q4 h
      have hx : exempt rq.method = false := by
        cases hx : exempt rq.method with
        | false => rfl
        | true => exact absurd ((exempt_iff _).mp hx) hfree
      have hexp : g.step w c (.request txn rq i f) = (if noHops rq.headers then g.inner c (.request txn rq i)
          else (g.check w c rq f i.now).2.inner c (.request txn rq { i with gate := (g.check w c rq f i.now).1 })) := rfl
      by_cases hn : noHops rq.headers = true
      · exfalso
        rw [hexp, if_pos hn] at hsk
        have : (g.inner c (.request txn rq i)).2 = [.final txn (bare rq 483 "Too Many Hops")] := by
          show (dispatch c g.st txn rq i).2 = _
          unfold dispatch
          rw [if_pos hn]
        rw [this] at hsk
        exact absurd hsk (by simp [answeredWith, bare])
      · rw [if_neg hn] at hexp
        have hn' : noHops rq.headers = false := by simpa using hn
        refine ⟨txn, rq, i, f, rfl, hk, ?_, ?_⟩
        · unfold attemptOps
          simp only
          rw [if_pos (by simp [hs, hn', hx]), hk]
        · apply Classical.byContradiction
          intro hl
          rw [← hk] at hl
          have hg : (g.check w c rq f i.now).1 = .refused (busy rq) := by
            unfold Guarded.check Guarded.checkAuth
            rw [hs]
            simp only [hx, Bool.false_eq_true, if_false]
            simp only [hl, Bool.not_false, if_true]
          rw [hexp] at hsk
          unfold Guarded.inner at hsk
          rw [(stopped (i := { i with gate := (g.check w c rq f i.now).1 }) hfree hn').1 _ hg] at hsk
          exact absurd hsk (by simp [answeredWith, busy])

/-- C122: in any stretch of time of any history, no more than 11 INVITEs plus one per 2 seconds from one address get through, with
authentication or without; all others get no answer, or only 401, 407, 483 or 503. -/
theorem C122_calls (w : World) (c : Cfg) (auth : Option Auth.Server) (hc : c.calls = true) (k : Str) (pre es : List GEv) (t0 t1 : Nat) (hpre : Times 0 t0 pre)
    (hes : Times t0 t1 es) :
    tally w c (invitesFrom k) (fun o => o.isEmpty || answeredWith [401, 407, 483, 503] o) ((Guarded.start auth).run w c pre).1 es ≤
      11 + (t1 - t0) / 2000000000 := by
  obtain ⟨h1, h2, h3⟩ := inviteLimit_made
  have hw := RateLimit.C47_window inviteLimit h1 h2 h3 k (gather w c (inviteOps w c) (Guarded.start auth) pre)
    (gather w c (inviteOps w c) ((Guarded.start auth).run w c pre).1 es) t0 t1 (gather_clock w c (invite_checks w c) pre _ 0 hpre)
    (gather_clock w c (invite_checks w c) es _ t0 hes) (gather_noreset w c (invite_checks w c) k es _)
  have hr := gather_run w c (inviteOps w c) inviteLimit (·.invites) (invites_step w c) pre (Guarded.start auth)
  have hle := tally_le w c (invite_checks w c) inviteLimit (·.invites) (invites_step w c) (fun _ => True) (fun _ _ _ => trivial) k (invitesFrom k)
    (fun o => o.isEmpty || answeredWith [401, 407, 483, 503] o) ?_ es ((Guarded.start auth).run w c pre).1 trivial
  · rw [hr] at hle
    refine Nat.le_trans hle (Nat.le_trans hw ?_)
    show 10 + (t1 - t0) / (2000 * 1000000) + 1 ≤ _
    omega
  · intro g e _ hp hsk
    cases e with
    | turn id i => cases hp
    | expired d => cases hp
    | sweep now => cases hp
    | request txn rq i f =>
      simp only [invitesFrom, Bool.and_eq_true, beq_iff_eq] at hp
      obtain ⟨hk, hm⟩ := hp
      have hfree : ¬ Free rq.method := by rw [hm]; rintro (h | h | h | h) <;> cases h
      have hx : exempt rq.method = false := by rw [hm]; rfl
      have hexp : g.step w c (.request txn rq i f) = (if noHops rq.headers then g.inner c (.request txn rq i)
          else (g.check w c rq f i.now).2.inner c (.request txn rq { i with gate := (g.check w c rq f i.now).1 })) := rfl
      by_cases hn : noHops rq.headers = true
      · exfalso
        rw [hexp, if_pos hn] at hsk
        have : (g.inner c (.request txn rq i)).2 = [.final txn (bare rq 483 "Too Many Hops")] := by
          show (dispatch c g.st txn rq i).2 = _
          unfold dispatch
          rw [if_pos hn]
        rw [this] at hsk
        exact absurd hsk (by simp [answeredWith, bare])
      · rw [if_neg hn] at hexp
        have hn' : noHops rq.headers = false := by simpa using hn
        have hout : ∀ v, (g.check w c rq f i.now).1 = v → (∀ r, v = .refused r → (g.step w c (.request txn rq i f)).2 = [.final txn r]) ∧
            (v = .silent → (g.step w c (.request txn rq i f)).2 = []) := by
          intro v hv
          obtain ⟨k1, k2⟩ := stopped (c := c) (st := (g.check w c rq f i.now).2.st) (txn := txn) (i := { i with gate := (g.check w c rq f i.now).1 }) hfree hn'
          rw [hexp]
          unfold Guarded.inner
          exact ⟨fun r h => by rw [k1 r (hv.trans h)], fun h => by rw [k2 (hv.trans h)]⟩
        have hpass : (g.checkAuth w rq f i.now).1 = .pass := by
          apply Classical.byContradiction
          intro hno
          have hsame : (g.check w c rq f i.now).1 = (g.checkAuth w rq f i.now).1 := by
            unfold Guarded.check
            generalize g.checkAuth w rq f i.now = x at hno
            obtain ⟨v, g1⟩ := x
            cases v with
            | pass => exact absurd rfl hno
            | refused r => rfl
            | silent => rfl
          have hcode : ∀ r, (g.checkAuth w rq f i.now).1 = .refused r → r.code = 401 ∨ r.code = 407 ∨ r.code = 503 := by
            intro r h
            unfold Guarded.checkAuth at h
            split at h
            · cases h
            · rw [hx] at h
              simp only [Bool.false_eq_true, if_false] at h
              split at h
              · cases h; exact .inr (.inr rfl)
              · unfold Guarded.verdict at h
                repeat' split at h
                all_goals first | (cases h; done) | skip
                rename_i hch
                cases h
                have := challenge_code hch
                split at this
                · exact .inr (.inl this)
                · exact .inl this
          obtain ⟨k1, k2⟩ := hout _ rfl
          cases hv : (g.checkAuth w rq f i.now).1 with
          | pass => exact hno hv
          | refused r =>
            rw [k1 r (hsame.trans hv)] at hsk
            simp only [answeredWith, List.isEmpty_cons, Bool.false_or] at hsk
            rcases hcode r hv with e | e | e <;> rw [e] at hsk <;> exact absurd hsk (by decide)
          | silent =>
            rw [k2 (hsame.trans hv)] at hsk
            exact absurd hsk (by decide)
        refine ⟨txn, rq, i, f, rfl, hk, ?_, ?_⟩
        · unfold inviteOps
          simp only
          rw [hpass, if_pos (by simp [hc, hn', hm]), hk]
        · apply Classical.byContradiction
          intro hl
          rw [← hk] at hl
          have hi := checkAuth_invites w g rq f i.now
          have hg : (g.check w c rq f i.now).1 = .refused (busy rq) := by
            unfold Guarded.check
            generalize g.checkAuth w rq f i.now = x at hi hpass
            obtain ⟨v, g1⟩ := x
            simp only at hi hpass
            subst hpass
            simp only
            unfold Guarded.checkInvite
            rw [if_pos (by simp [hc, hm])]
            simp only [hi, hl]
            rfl
          rw [(hout _ hg).1 _ rfl] at hsk
          exact absurd hsk (by simp [answeredWith, busy])

end Siphon.Daemon
