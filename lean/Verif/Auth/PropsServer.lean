import Verif.Auth.Lemmas
import Verif.Core.MethodProps
/-!
# C35, C36, C38, C39: the digest server

Every theorem holds for every hash function `H`, every credential store, every clock reading and every
iteration order of the nonce table.
-/
set_option linter.unusedSimpArgs false
namespace Siphon.Auth
open Spec HdrSpec

/-! ## A concrete authenticator used by the examples -/
namespace Demo

/-- a toy hash: the byte sum in decimal -/
def H : Hash := fun _ b => showNat (b.foldl (fun a x => (a * 31 + x.toNat) % 999983) 7)

def server : Server :=
  { Server.new "ex".toList "op".toList (fun u _ => if u = "bob".toList then some "pw".toList else none) with
    mgr := { NonceMgr.new 1000 with maxAge := 100 } }

def req (contact : String) (auth : Str) : Request :=
  { method := .register, uri := "sip:ex".toList,
    headers := ⟨[⟨"Contact".toList, contact.toList⟩, ⟨"authorization".toList, auth⟩]⟩, body := [1, 2] }

/-- what the digest client sends as its `k`-th request for nonce `ν` -/
def auth (ν : String) (k : Nat) : Str :=
  ((Client.mk "bob".toList "pw".toList (k - 1)).generateAuthorization H .register "sip:ex".toList
    "ex".toList ν.toList .sha256 (some .auth) (some "op".toList) [1, 2] "cn".toList).1

def r1 : Request := req "sip:bob@a" (auth "n1" 1)
def r2 : Request := req "sip:bob@a" (auth "n1" 2)
/-- the same credentials with another Contact -/
def evil : Request := req "sip:eve@b" (auth "n1" 1)

def ord : List Str → List Str := id
end Demo

/-! ## C36 -/

/-- C36: a request is accepted only if it presents Digest credentials for this realm, this opaque
value, this qop, no other algorithm, and its own URI; its nonce is in the table and unexpired; and the
response is the RFC 7616 digest under the stored password of the named user. -/
theorem C36_sound (H : Hash) (s s' : Server) (req : Request) (hs : Headers) (now : Nat)
    (h : s.verify H req hs now = (.ok true, s')) :
    ∃ user pw nonce nc cnonce qop rec,
      Presents s.proxyAuth hs "username" user ∧
      Presents s.proxyAuth hs "realm" s.realm ∧
      Presents s.proxyAuth hs "uri" req.uri ∧
      Presents s.proxyAuth hs "opaque" s.opaqueTok ∧
      (Presents s.proxyAuth hs "qop" qop ∧ SameName qop (qopName s.qop)) ∧
      (∀ a, Presents s.proxyAuth hs "algorithm" a → SameName a (algorithmName s.algorithm)) ∧
      Presents s.proxyAuth hs "nonce" nonce ∧
      Presents s.proxyAuth hs "nc" nc ∧
      Presents s.proxyAuth hs "cnonce" cnonce ∧
      (s.mgr.nonces.get nonce = some rec ∧ now ≤ rec.createdAt + rec.ttl) ∧
      s.store user s.realm = some pw ∧
      Presents s.proxyAuth hs "response"
        (digest H s.algorithm s.qop user s.realm pw nonce nc cnonce req.method.asStr req.uri req.body) := by
  obtain ⟨p, raw, ah, nct, cn, nc, n, n', pw, hP, hpw, hresp⟩ := verify_true h
  have hr := hP.read
  have hq := hr.qop
  cases hqop : ah.param "qop".toList with
  | none => rw [hqop] at hq; simp at hq
  | some q =>
    rw [hqop] at hq
    refine ⟨p.username, pw, p.nonce, nct, cn, q, n, ?_, ?_, ?_, ?_, ⟨?_, qop_parse (by simpa using hq)⟩,
      ?_, ?_, ?_, ?_, ⟨hP.got, ?_⟩, hpw, ?_⟩
    · exact (presentsOf hr "username" _ (by decide)).mpr hr.username
    · exact (presentsOf hr "realm" _ (by decide)).mpr hr.realm
    · exact (presentsOf hr "uri" _ (by decide)).mpr hr.uri
    · exact (presentsOf hr "opaque" _ (by decide)).mpr hr.opq
    · exact (presentsOf hr "qop" _ (by decide)).mpr hqop
    · intro a ha
      have := (presentsOf hr "algorithm" a (by decide)).mp ha
      have h2 := hr.algorithm
      rw [this] at h2
      exact algorithm_parse h2
    · exact (presentsOf hr "nonce" _ (by decide)).mpr hr.nonce
    · exact (presentsOf hr "nc" _ (by decide)).mpr hr.nc
    · exact (presentsOf hr "cnonce" _ (by decide)).mpr hr.cnonce
    · have := hP.valid
      simp only [Nonce.isValid, decide_eq_true_eq] at this
      omega
    · rw [← hresp]
      exact (presentsOf hr "response" _ (by decide)).mpr hr.response

/-- What a header presents is unique, so the quantified values in `C36_sound` are the request's. -/
theorem C36_presents_unique (H : Hash) (s s' : Server) (req : Request) (hs : Headers) (now : Nat)
    (h : s.verify H req hs now = (.ok true, s')) (name : String) (hl : lower name.toList = name.toList)
    (v w : Str) (hv : Presents s.proxyAuth hs name v) (hw : Presents s.proxyAuth hs name w) : v = w := by
  obtain ⟨p, raw, ah, nct, cn, nc, n, n', pw, hP, hpw, hresp⟩ := verify_true h
  rw [presentsOf hP.read name _ hl] at hv hw
  rw [hv] at hw
  simpa using hw

/-- C36, C35: along any history of a server that starts with an empty table, what is accepted uses a
nonce this server issued, no longer than the lifetime before. -/
theorem C35_issued_and_fresh (H : Hash) (order : List Str → List Str) (s0 s' : Server)
    (h0 : s0.mgr.nonces = []) (ops : List Op) (req : Request) (hs : Headers) (now : Nat)
    (h : (s0.run H order ops).verify H req hs now = (.ok true, s')) (ν : Str)
    (hν : Presents s0.proxyAuth hs "nonce" ν) :
    ∃ t, lastIssue ops ν = some t ∧ now ≤ t + s0.mgr.ttl := by
  obtain ⟨p, raw, ah, nct, cn, nc, n, n', pw, hP, hpw, hresp⟩ := verify_true h
  have hn0 : s0.mgr.nonces.keys.Nodup := by rw [h0]; simp [Tbl.keys]
  have hsame := (run_nodup_same H order ops s0 hn0).2
  rw [← hsame.proxyAuth, presentsOf hP.read "nonce" _ (by decide), hP.read.nonce] at hν
  simp only [Option.some.injEq] at hν
  subst hν
  obtain ⟨h1, h2⟩ := run_issued H order s0 h0 ops _ _ hP.got
  refine ⟨n.createdAt, h1, ?_⟩
  have := hP.valid
  simp only [Nonce.isValid, decide_eq_true_eq] at this
  omega

-- a concrete accepted request
example : ((Demo.server.run Demo.H Demo.ord [.generate "n1".toList 5]).verify Demo.H Demo.r1 Demo.r1.headers 9).1
    = .ok true := by decide +kernel
-- and the same one under a wrong password, for another URI, or for a nonce never issued is refused
example : (({ Demo.server with store := fun _ _ => some "px".toList }.run Demo.H Demo.ord
    [.generate "n1".toList 5]).verify Demo.H Demo.r1 Demo.r1.headers 9).1 = .ok false := by decide +kernel
example : ((Demo.server.run Demo.H Demo.ord [.generate "n1".toList 5]).verify Demo.H
    { Demo.r1 with uri := "sip:xx".toList } Demo.r1.headers 9).1 = .ok false := by decide +kernel
example : ((Demo.server.run Demo.H Demo.ord [.generate "n2".toList 5]).verify Demo.H Demo.r1 Demo.r1.headers 9).1
    = .ok false := by decide +kernel

/-! ## C35 -/

theorem requestText_eq (r : Request) :
    requestText r.method r.uri r.body = utf8 (r.method.asStr ++ ':' :: r.uri) ++ 58 :: r.body := by
  unfold requestText
  have : r.method.asStr ++ ':' :: r.uri = r.method.asStr ++ [':'] ++ r.uri := by simp
  rw [this, utf8_append, utf8_append]
  have : utf8 [':'] = [58] := by decide
  rw [this]
  simp

/-- C35: after a request was accepted with nonce `ν` and count `n1`, a later accepted request with the
same nonce has a count at least as large; and if the count is the same, the two requests have the same
method, URI and body text, unless SHA-256 collides.  In between anything may happen except that the
server draws `ν` again. -/
theorem C35_no_replay_partial (H : Hash) (order : List Str → List Str) (s0 s1 s2 : Server)
    (h0 : s0.mgr.nonces = []) (pre mid : List Op)
    (r1 r2 : Request) (h1 h2 : Headers) (t1 t2 : Nat)
    (a1 : (s0.run H order pre).verify H r1 h1 t1 = (.ok true, s1))
    (a2 : (s1.run H order mid).verify H r2 h2 t2 = (.ok true, s2))
    (ν : Str) (p1 : Presents s0.proxyAuth h1 "nonce" ν) (p2 : Presents s0.proxyAuth h2 "nonce" ν)
    (hdrawn : ∀ t, (ν, t) ∉ issued mid)
    (x1 x2 : Str) (n1 n2 : Nat)
    (c1 : Presents s0.proxyAuth h1 "nc" x1) (v1 : HexNumber x1 n1)
    (c2 : Presents s0.proxyAuth h2 "nc" x2) (v2 : HexNumber x2 n2) :
    n1 ≤ n2 ∧ (n1 = n2 → SameText r1 r2 ∨ Collision H .sha256) := by
  have hn0 : s0.mgr.nonces.keys.Nodup := by rw [h0]; simp [Tbl.keys]
  obtain ⟨hnA, hsameA⟩ := run_nodup_same H order pre s0 hn0
  generalize s0.run H order pre = sA at *
  obtain ⟨p, raw, ah, nct, cn, nc, n, n', pw, hP, _, _⟩ := verify_true a1
  -- state after the first acceptance
  have hn1 : s1.mgr.nonces.keys.Nodup := by rw [hP.mgr]; simpa using hnA
  rw [← hsameA.proxyAuth, presentsOf hP.read "nonce" _ (by decide), hP.read.nonce] at p1
  rw [← hsameA.proxyAuth, presentsOf hP.read "nc" _ (by decide), hP.read.nc] at c1
  simp only [Option.some.injEq] at p1 c1
  subst p1 c1
  have e1 : nc = n1 := hexNumber_fun (parseHexU32_some hP.ncv) v1
  subst e1
  obtain ⟨_, _, _, _, hlast, hhash, _⟩ := validateNc_true hP.vnc
  let P : Nonce → Prop := fun m => nc < m.lastNc ∨
    (m.lastNc = nc ∧ m.lastHash = some (H .sha256 (requestText r1.method r1.uri r1.body)))
  have hstep : ∀ m m' k meth uri body maxAge now, P m →
      m.validateNc H k meth uri body maxAge now = (true, m') → P m' := by
    intro m m' k meth uri body maxAge now hm hv
    obtain ⟨_, _, _, _, q1, q2, q3⟩ := validateNc_true hv
    rcases hm with hm | ⟨hm, hm'⟩
    · left; omega
    · rcases q3 with q3 | ⟨q3, q4⟩
      · left; omega
      · right
        refine ⟨by omega, ?_⟩
        rcases q4 with q4 | q4
        · rw [hm'] at q4; cases q4
        · rw [q2, ← q4, hm']
  have hinit : ∀ m, s1.mgr.nonces.get p.nonce = some m → P m := by
    intro m hm
    rw [hP.mgr] at hm
    simp only [Tbl.get_update_self, hP.got, Option.map_some, Option.some.injEq] at hm
    subst hm
    exact Or.inr ⟨hlast, hhash⟩
  have hall := run_record H order p.nonce P hstep mid s1 hn1 hdrawn hinit
  obtain ⟨_, hsameB⟩ := run_nodup_same H order mid s1 hn1
  have hsame1 := hP.setup
  generalize s1.run H order mid = sB at *
  obtain ⟨p', raw', ah', nct', cn', nc', m, m', pw', hP', _, _⟩ := verify_true a2
  have hpx : sB.proxyAuth = s0.proxyAuth := by rw [hsameB.proxyAuth, hsame1.proxyAuth, hsameA.proxyAuth]
  rw [← hpx, presentsOf hP'.read "nonce" _ (by decide), hP'.read.nonce] at p2
  rw [← hpx, presentsOf hP'.read "nc" _ (by decide), hP'.read.nc] at c2
  simp only [Option.some.injEq] at p2 c2
  have hg := hP'.got
  rw [p2] at hg
  subst c2
  have e2 : nc' = n2 := hexNumber_fun (parseHexU32_some hP'.ncv) v2
  subst e2
  obtain ⟨_, _, _, _, _, _, q3⟩ := validateNc_true hP'.vnc
  rcases hall m hg with hm | ⟨hm, hm'⟩
  · exact ⟨by omega, fun he => by omega⟩
  · refine ⟨by omega, fun he => ?_⟩
    rcases q3 with q3 | ⟨q3, q4⟩
    · omega
    · rcases q4 with q4 | q4
      · rw [hm'] at q4; cases q4
      · rw [hm'] at q4
        simp only [Option.some.injEq] at q4
        rw [requestText_eq, requestText_eq] at q4
        by_cases hx : utf8 (r1.method.asStr ++ ':' :: r1.uri) ++ 58 :: r1.body
            = utf8 (r2.method.asStr ++ ':' :: r2.uri) ++ 58 :: r2.body
        · exact Or.inl hx
        · exact Or.inr ⟨_, _, hx, q4⟩

/-- Same text and same URI mean same method and same body (a method is a token, so it has no colon). -/
theorem C35_same_text (a b : Request) (h : SameText a b) (hu : a.uri = b.uri)
    (ha : ':' ∉ a.method.asStr) (hb : ':' ∉ b.method.asStr) :
    a.method.asStr = b.method.asStr ∧ a.body = b.body := by
  unfold SameText at h
  have hc : ∀ (m u : Str) (body : Bytes), utf8 (m ++ ':' :: u) ++ 58 :: body
      = utf8 m ++ 58 :: (utf8 u ++ 58 :: body) := by
    intro m u body
    have : m ++ ':' :: u = m ++ [':'] ++ u := by simp
    rw [this, utf8_append, utf8_append]
    have : utf8 [':'] = [58] := by decide
    rw [this]; simp
  rw [hc, hc, hu] at h
  have hno : ∀ m : Str, ':' ∉ m → (58 : UInt8) ∉ utf8 m := by
    intro m hm h58
    apply hm
    -- a byte 58 only comes from a colon
    unfold utf8 at h58
    simp only [List.mem_flatMap] at h58
    obtain ⟨c, hc, h58⟩ := h58
    have : c = ':' := by
      rw [char_eq_iff]
      have e : (':' : Char).toNat = 58 := rfl
      rw [e]
      unfold String.utf8EncodeChar at h58
      simp only at h58
      split at h58
      · rename_i hle
        simp only [List.mem_singleton] at h58
        have := congrArg UInt8.toNat h58
        rw [UInt8.toNat_ofNat'] at this
        have h2 : c.val.toNat < 256 := by omega
        have h3 : c.val.toNat = 58 := by
          have : (58 : UInt8).toNat = 58 := rfl
          omega
        exact h3
      · exfalso
        have hb : ∀ (x y : Nat), y = 128 ∨ y = 192 ∨ y = 224 ∨ y = 240 → x < y → x + y ≠ 58 := by omega
        split at h58
        · simp only [List.mem_cons, List.not_mem_nil, or_false] at h58
          rcases h58 with h58 | h58 <;>
          · have := congrArg UInt8.toNat h58
            rw [UInt8.toNat_ofNat', show (58 : UInt8).toNat = 58 from rfl] at this
            omega
        · split at h58
          · simp only [List.mem_cons, List.not_mem_nil, or_false] at h58
            rcases h58 with h58 | h58 | h58 <;>
            · have := congrArg UInt8.toNat h58
              rw [UInt8.toNat_ofNat', show (58 : UInt8).toNat = 58 from rfl] at this
              omega
          · simp only [List.mem_cons, List.not_mem_nil, or_false] at h58
            rcases h58 with h58 | h58 | h58 | h58 <;>
            · have := congrArg UInt8.toNat h58
              rw [UInt8.toNat_ofNat', show (58 : UInt8).toNat = 58 from rfl] at this
              omega
    rw [← this]; exact hc
  have hsplit : ∀ (x y z w : Bytes), (58 : UInt8) ∉ x → 58 ∉ y → x ++ 58 :: z = y ++ 58 :: w → x = y ∧ z = w := by
    intro x
    induction x with
    | nil =>
      intro y z w _ hy e
      cases y with
      | nil => simpa using e
      | cons b y => simp at e; exact absurd (by simp [e.1]) hy
    | cons a x ih =>
      intro y z w hx hy e
      cases y with
      | nil => simp at e; exact absurd (by simp [e.1]) hx
      | cons b y =>
        simp only [List.cons_append, List.cons.injEq] at e
        obtain ⟨rfl, e⟩ := e
        have := ih y z w (fun h => hx (by simp [h])) (fun h => hy (by simp [h])) e
        exact ⟨by rw [this.1], this.2⟩
  obtain ⟨e1, e2⟩ := hsplit _ _ _ _ (hno _ ha) (hno _ hb) h
  refine ⟨utf8_inj e1, ?_⟩
  have := List.append_cancel_left e2
  simpa using this

/-- A call of `prepare_digest` that meets the conditions is accepted. -/
theorem prepareDigest_of {H : Hash} {s s1 : Server} {req : Request} {hs : Headers} {now : Nat}
    {p : DigestParams} {raw : Str} {ah : AuthHeader} {nct cn : Str} {nc : Nat} {n n' : Nonce}
    (hlim : s.checkLimit hs now = (true, s1))
    (body : req.body.length ≤ MAX_BODY_SIZE) (read : Read s req hs p raw ah nct cn)
    (ncv : parseHexU32 nct = some nc) (small : nc ≤ MAX_NC_VALUE)
    (jump : nc ≤ min (n.lastNc + MAX_NC_JUMP) U32_MAX)
    (got : s.mgr.nonces.get p.nonce = some n) (valid : n.isValid now = true)
    (vnc : n.validateNc H nc req.method req.uri req.body s.mgr.maxAge now = (true, n')) :
    s.prepareDigest H req hs now = (.ok (some p),
      { s1 with mgr := { s.mgr with nonces := s.mgr.nonces.update p.nonce (fun _ => n') } }) := by
  unfold Server.prepareDigest
  rw [if_neg (by omega), hlim]
  obtain ⟨hsame, hmgr⟩ := checkLimit_same s hs now
  rw [hlim] at hsame hmgr
  simp only at hsame hmgr
  have hr := (readCredentials_iff s req hs p).mpr ⟨raw, ah, nct, cn, read⟩
  have hnc : p.ncRaw = some nct := by rw [read.eq]
  simp only [Bool.not_true, Bool.false_eq_true, if_false, readCredentials_same hsame, hr, hnc, ncv]
  rw [if_neg (by omega)]
  have hj : s1.mgr.jumpReasonable p.nonce nc = true := by
    rw [hmgr]
    simp only [NonceMgr.jumpReasonable, got]
    simpa using jump
  simp only [hj, Bool.not_true, Bool.false_eq_true, if_false]
  unfold NonceMgr.verifyWithNc
  rw [hmgr]
  simp only [got, valid, Bool.not_true, Bool.false_eq_true, if_false, vnc]

theorem verify_of {H : Hash} {s s1 : Server} {req : Request} {hs : Headers} {now : Nat}
    {p : DigestParams} {raw : Str} {ah : AuthHeader} {nct cn pw : Str} {nc : Nat} {n n' : Nonce}
    (hlim : s.checkLimit hs now = (true, s1))
    (body : req.body.length ≤ MAX_BODY_SIZE) (read : Read s req hs p raw ah nct cn)
    (ncv : parseHexU32 nct = some nc) (small : nc ≤ MAX_NC_VALUE)
    (jump : nc ≤ min (n.lastNc + MAX_NC_JUMP) U32_MAX)
    (got : s.mgr.nonces.get p.nonce = some n) (valid : n.isValid now = true)
    (vnc : n.validateNc H nc req.method req.uri req.body s.mgr.maxAge now = (true, n'))
    (hpw : s.store p.username s.realm = some pw)
    (hresp : p.response = digest H s.algorithm s.qop p.username s.realm pw p.nonce nct cn
      req.method.asStr req.uri req.body) :
    s.verify H req hs now = (.ok true,
      { s1 with mgr := { s.mgr with nonces := s.mgr.nonces.update p.nonce (fun _ => n') } }) := by
  unfold Server.verify
  rw [prepareDigest_of hlim body read ncv small jump got valid vnc]
  obtain ⟨hsame, hmgr⟩ := checkLimit_same s hs now
  rw [hlim] at hsame hmgr
  simp only at hsame hmgr
  have e := read.eq
  have e1 : p.realm = s.realm := by rw [e]
  have e2 : p.uri = req.uri := by rw [e]
  have e3 : p.ncRaw = some nct := by rw [e]
  have e4 : p.cnonce = some cn := by rw [e]
  have e5 : p.qop = some s.qop := by rw [e]
  generalize hS : { s1 with mgr := { s.mgr with nonces := s.mgr.nonces.update p.nonce (fun _ => n') } } = S
  have hst : S.store = s.store := by rw [← hS]; exact hsame.store
  have hcr := computeResponse_eq H S p.username pw req.method req.uri p.nonce nct cn req.body
  have hq : S.qop = s.qop := by rw [← hS]; exact hsame.qop
  have ha : S.algorithm = s.algorithm := by rw [← hS]; exact hsame.algorithm
  have hre : S.realm = s.realm := by rw [← hS]; exact hsame.realm
  rw [hq, ha, hre] at hcr
  simp only [e1, hst, hpw, e2, e3, e4, e5]
  rw [hcr, ← hresp]
  simp

/-- Finding (C35): only method, URI and body are compared when the count is repeated, so captured
credentials are accepted again with every other header changed (for instance another Contact), as long
as no more than the reuse window has passed since the last use. -/
theorem C35_headers_not_covered (H : Hash) (s s1 : Server) (hlim : s.limiter = none)
    (r1 r2 : Request) (h1 h2 : Headers) (t1 t2 : Nat)
    (a1 : s.verify H r1 h1 t1 = (.ok true, s1))
    (hm : r2.method = r1.method) (hu : r2.uri = r1.uri) (hb : r2.body = r1.body)
    (hcred : h2.get s.credentialsHeader = h1.get s.credentialsHeader)
    (hage : t2 - t1 ≤ s.mgr.maxAge) (hlive : ∀ k n, s.mgr.nonces.get k = some n → t2 ≤ n.createdAt + n.ttl) :
    ∃ s2, s1.verify H r2 h2 t2 = (.ok true, s2) := by
  obtain ⟨p, raw, ah, nct, cn, nc, n, n', pw, hP, hpw, hresp⟩ := verify_true a1
  have hset := hP.setup
  have hlim1 : s1.limiter = none := by
    have h2 := verify_state H s r1 h1 t1
    rw [a1] at h2
    simp only at h2
    rw [h2]
    unfold Server.prepareDigest
    have hc : s.checkLimit h1 t1 = (true, s) := by simp [Server.checkLimit, hlim]
    rw [hc]
    simp only [Bool.not_true, Bool.false_eq_true, if_false]
    repeat (first | exact hlim | split)
  have hc1 : s1.checkLimit h2 t2 = (true, s1) := by simp [Server.checkLimit, hlim1]
  obtain ⟨q0, q1, q2, q3, q4, q5, _⟩ := validateNc_true hP.vnc
  have hch : s1.credentialsHeader = s.credentialsHeader := by
    unfold Server.credentialsHeader; rw [hset.proxyAuth]
  have hread : Read s1 r2 h2 p raw ah nct cn := by
    have hr := hP.read
    refine ⟨by rw [hch, hcred]; exact hr.got, hr.parsed, hr.scheme, hr.username, ?_, hr.nonce, ?_, hr.response,
      ?_, ?_, ?_, hr.nc, hr.cnonce, ?_, ?_, ?_⟩
    · rw [hset.realm]; exact hr.realm
    · rw [hu]; exact hr.uri
    · rw [hset.algorithm]; exact hr.algorithm
    · rw [hset.opaqueTok]; exact hr.opq
    · rw [hset.qop]; exact hr.qop
    · rw [hset.realm, hu]; exact hr.lens
    · rw [hset.opaqueTok]; exact hr.lens'
    · rw [hset.realm, hset.qop, hu]; exact hr.eq
  have hgot : s1.mgr.nonces.get p.nonce = some n' := by
    rw [hP.mgr]
    simp [Tbl.get_update_self, hP.got]
  have hval : n'.isValid t2 = true := by
    have := hlive _ _ hP.got
    simp only [Nonce.isValid, decide_eq_true_eq]
    omega
  have hvnc : n'.validateNc H nc r2.method r2.uri r2.body s1.mgr.maxAge t2 = (true, { n' with lastUsed := t2 }) := by
    unfold Nonce.validateNc
    rw [hm, hu, hb]
    rw [if_neg (by rw [q3, hset.maxAge]; omega)]
    simp only
    rw [if_neg (by omega), if_pos q4.symm, q5]
    simp
  have hj := hP.jump
  have hsm := hP.small
  exact ⟨_, verify_of hc1 (by rw [hb]; exact hP.body) hread hP.ncv hsm
    (by rw [q4]; exact Nat.le_min.mpr ⟨Nat.le_add_right _ _, Nat.le_trans hsm (by decide)⟩)
    hgot hval hvnc (by rw [hset.store, hset.realm]; exact hpw)
    (by rw [hset.algorithm, hset.qop, hset.realm, hm, hu, hb]; exact hresp)⟩

-- the finding on concrete values: `evil` differs from `r1` in its Contact only
example : let s := Demo.server.run Demo.H Demo.ord [.generate "n1".toList 5, .verify Demo.r1 Demo.r1.headers 9]
    (s.verify Demo.H Demo.evil Demo.evil.headers 50).1 = .ok true ∧
    Demo.evil.headers.get "Contact".toList ≠ Demo.r1.headers.get "Contact".toList := by decide +kernel
-- the history of `C35_no_replay_partial`: counts 1, 2, then 1 again
example : let s := Demo.server.run Demo.H Demo.ord [.generate "n1".toList 5, .verify Demo.r1 Demo.r1.headers 9]
    let s' := s.run Demo.H Demo.ord [.generate "n2".toList 10]
    let s'' := s'.run Demo.H Demo.ord [.verify Demo.r2 Demo.r2.headers 12]
    (s'.verify Demo.H Demo.r2 Demo.r2.headers 12).1 = .ok true ∧
    (s''.verify Demo.H Demo.r1 Demo.r1.headers 13).1 = .ok false := by decide +kernel

/-- Finding (C35): credentials with a wrong response still consume the nonce count, so somebody who has
seen the nonce but not the password can make the server refuse the owner's next request. -/
theorem C35_count_consumed_before_check :
    let s := Demo.server.run Demo.H Demo.ord [.generate "n1".toList 5]
    let forged := Demo.req "sip:eve@b" ((Client.mk "bob".toList "guess".toList 1).generateAuthorization Demo.H
      .register "sip:ex".toList "ex".toList "n1".toList .sha256 (some .auth) (some "op".toList) [1, 2] "cn".toList).1
    (s.verify Demo.H forged forged.headers 8).1 = .ok false ∧
    (s.verify Demo.H Demo.r1 Demo.r1.headers 9).1 = .ok true ∧
    ((s.verify Demo.H forged forged.headers 8).2.verify Demo.H Demo.r1 Demo.r1.headers 9).1 = .ok false := by
  decide +kernel

/-- Finding (C35): the two separators do not make the compared text unambiguous. -/
theorem C35_text_ambiguous : ∃ a b : Request, SameText a b ∧ a.uri ≠ b.uri ∧ a.body ≠ b.body :=
  ⟨{ method := .register, uri := "sip:a".toList, headers := ⟨[]⟩, body := utf8 "b:c".toList },
   { method := .register, uri := "sip:a:b".toList, headers := ⟨[]⟩, body := utf8 "c".toList },
   by unfold SameText; decide +kernel, by decide +kernel, by decide +kernel⟩

/-! ## C38 -/

theorem step_bounded (H : Hash) (order : List Str → List Str) (hord : ∀ l, (order l).Perm l)
    (s : Server) (op : Op) (hn : s.mgr.nonces.keys.Nodup) (hmax : 10 ≤ s.mgr.maxNonces)
    (hb : s.mgr.nonces.length ≤ s.mgr.maxNonces) :
    (s.step H order op).mgr.nonces.length ≤ s.mgr.maxNonces := by
  have hdig : ∀ req hs now, (s.prepareDigest H req hs now).2.mgr.nonces.length ≤ s.mgr.maxNonces := by
    intro req hs now
    obtain ⟨_, h2⟩ := prepareDigest_effect H s req hs now hn
    cases h2 with
    | same h => rw [h]; exact hb
    | used k n n' nc meth uri body now _ _ _ h => rw [h]; simpa using hb
  have hgen : ∀ nonce now, (s.mgr.generate order nonce now).nonces.length ≤ s.mgr.maxNonces := by
    intro nonce now
    unfold NonceMgr.generate
    simp only
    split
    · split
      · rename_i _ hfull
        -- at least one key is removed
        have hc : (s.mgr.cleanup now).nonces.length ≤ s.mgr.nonces.length := List.length_filter_le _ _
        generalize hcl : s.mgr.cleanup now = c at *
        have hcm : c.maxNonces = s.mgr.maxNonces := by rw [← hcl]; rfl
        have hlt : (c.removeOldest order (c.maxNonces / 10)).nonces.length < c.nonces.length := by
          simp only [NonceMgr.removeOldest]
          generalize hsd : sortBy c.createdOf (order c.nonces.keys) = sorted
          have hp : sorted.Perm c.nonces.keys := by
            rw [← hsd]; exact (sortBy_perm _ _).trans (hord _)
          have hlen : sorted.length = c.nonces.length := by rw [hp.length_eq]; simp [Tbl.keys]
          cases sorted with
          | nil => simp at hlen; omega
          | cons k ks =>
            have : 1 ≤ c.maxNonces / 10 := by omega
            obtain ⟨j, hj⟩ : ∃ j, c.maxNonces / 10 = j + 1 := ⟨c.maxNonces / 10 - 1, by omega⟩
            rw [hj, List.take_succ_cons, List.foldl_cons]
            have hk : k ∈ c.nonces.keys := hp.mem_iff.mp (by simp)
            exact Nat.lt_of_le_of_lt (foldl_remove_length _ _) (Tbl.length_remove_lt _ _ hk)
        have hins := Tbl.length_insert_le (c.removeOldest order (c.maxNonces / 10)).nonces nonce
          (Nonce.new (c.removeOldest order (c.maxNonces / 10)).ttl now)
        omega
      · rename_i h1 h2
        have hc : (s.mgr.cleanup now).maxNonces = s.mgr.maxNonces := rfl
        have hins := Tbl.length_insert_le (s.mgr.cleanup now).nonces nonce (Nonce.new (s.mgr.cleanup now).ttl now)
        omega
    · have hins := Tbl.length_insert_le s.mgr.nonces nonce (Nonce.new s.mgr.ttl now)
      omega
  cases op with
  | challenge req stale nonce tag now => simp only [Server.step, challenge_state]; exact hgen _ _
  | verify req hs now => simp only [Server.step, verify_state]; exact hdig _ _ _
  | authInfo req now => exact hdig _ _ _
  | generate nonce now => exact hgen _ _
  | cleanup now => exact Nat.le_trans (List.length_filter_le _ _) hb

/-- C38: with a configured maximum of at least 10, the number of stored nonces never exceeds it. -/
theorem C38_bounded (H : Hash) (order : List Str → List Str) (hord : ∀ l, (order l).Perm l)
    (s0 : Server) (h0 : s0.mgr.nonces = []) (hmax : 10 ≤ s0.mgr.maxNonces) (ops : List Op) :
    (s0.run H order ops).mgr.nonces.length ≤ s0.mgr.maxNonces := by
  have : ∀ (ops : List Op) (s : Server), s.mgr.nonces.keys.Nodup → 10 ≤ s.mgr.maxNonces →
      s.mgr.nonces.length ≤ s.mgr.maxNonces → (s.run H order ops).mgr.nonces.length ≤ s.mgr.maxNonces := by
    intro ops
    induction ops with
    | nil => intro s _ _ h; exact h
    | cons op ops ih =>
      intro s hn hm hb
      obtain ⟨h1, h2⟩ := step_nodup_same H order s op hn
      have h3 := step_bounded H order hord s op hn hm hb
      have := ih (s.step H order op) h1 (by rw [h2.maxNonces]; exact hm) (by rw [h2.maxNonces]; exact h3)
      rw [h2.maxNonces] at this
      exact this
  exact this ops s0 (by rw [h0]; simp [Tbl.keys]) hmax (by rw [h0]; simp)

/-- C38: making room removes the expired records and then the oldest ones: a live nonce is dropped only
when everything that stays was issued no earlier. -/
theorem C38_drops_oldest (order : List Str → List Str) (hord : ∀ l, (order l).Perm l) (m : NonceMgr)
    (hn : m.nonces.keys.Nodup) (value : Str) (now : Nat) (k k' : Str) (n n' : Nonce)
    (hk : m.nonces.get k = some n) (hlive : now ≤ n.createdAt + n.ttl) (hkv : k ≠ value)
    (hgone : (m.generate order value now).nonces.get k = none)
    (hk' : k' ≠ value) (hstay : (m.generate order value now).nonces.get k' = some n') :
    n.createdAt ≤ n'.createdAt := by
  have hm' := (generate_spec m order value now hn).2.2.2.2.2 k' n' hk' hstay
  unfold NonceMgr.generate at hgone hstay
  simp only at hgone hstay
  have hc : (m.cleanup now).nonces.keys.Nodup := List.Nodup.sublist (RateLimit.keys_filter_sublist _ _) hn
  have hck : (m.cleanup now).nonces.get k = some n := by
    apply Tbl.get_of_mem _ _ _ hc
    simp only [NonceMgr.cleanup, List.mem_filter]
    refine ⟨Tbl.mem_of_get _ _ _ hk, ?_⟩
    simp only [Nonce.isValid, decide_eq_true_eq]; omega
  split at hgone
  · rename_i hA
    split at hgone
    · rename_i hB
      rw [if_pos hA, if_pos hB] at hstay
      rw [Tbl.get_insert_ne _ _ hkv] at hgone
      rw [Tbl.get_insert_ne _ _ hk'] at hstay
      generalize m.cleanup now = c at *
      simp only [NonceMgr.removeOldest, foldl_remove_get] at hgone hstay
      generalize hsd : sortBy c.createdOf (order c.nonces.keys) = sorted at hgone hstay
      have hp : sorted.Perm c.nonces.keys := by
        rw [← hsd]; exact (sortBy_perm _ _).trans (hord _)
      have hpw : sorted.Pairwise (fun a b => c.createdOf a ≤ c.createdOf b) := by
        rw [← hsd]; exact sortBy_sorted _ _
      split at hgone
      · rename_i hin
        split at hstay
        · cases hstay
        · rename_i hout
          have hk'mem : k' ∈ sorted := hp.mem_iff.mpr
            ((Tbl.get_isSome_iff _ _).mp (by rw [hstay]; rfl))
          have hk'drop : k' ∈ sorted.drop (c.maxNonces / 10) := by
            rw [← List.take_append_drop (c.maxNonces / 10) sorted] at hk'mem
            rcases List.mem_append.mp hk'mem with h | h
            · exact absurd h hout
            · exact h
          rw [← List.take_append_drop (c.maxNonces / 10) sorted, List.pairwise_append] at hpw
          have := hpw.2.2 k hin k' hk'drop
          simp only [NonceMgr.createdOf, hck, hstay] at this
          exact this
      · rw [hck] at hgone; cases hgone
    · rw [Tbl.get_insert_ne _ _ hkv, hck] at hgone; cases hgone
  · rw [Tbl.get_insert_ne _ _ hkv, hk] at hgone; cases hgone

/-- Finding (C38): below 10 the integer division removes nothing and the table grows without bound. -/
theorem C38_small_maximum_unbounded (H : Hash) (order : List Str → List Str) (s0 : Server)
    (h0 : s0.mgr.nonces = []) (hmax : s0.mgr.maxNonces < 10) (k : Nat) :
    ∃ ops, (s0.run H order ops).mgr.nonces.length = k := by
  refine ⟨(List.range k).map (fun i => Op.generate (showNat i) 0), ?_⟩
  have : ∀ k, ((s0.run H order ((List.range k).map (fun i => Op.generate (showNat i) 0))).mgr.nonces.keys
        = ((List.range k).map showNat).reverse) ∧
      (∀ p ∈ (s0.run H order ((List.range k).map (fun i => Op.generate (showNat i) 0))).mgr.nonces,
        p.2.createdAt = 0) ∧
      (s0.run H order ((List.range k).map (fun i => Op.generate (showNat i) 0))).mgr.maxNonces = s0.mgr.maxNonces := by
    intro k
    induction k with
    | zero => simp [Server.run, h0, Tbl.keys]
    | succ k ih =>
      rw [List.range_succ, List.map_append, run_append]
      generalize s0.run H order ((List.range k).map (fun i => Op.generate (showNat i) 0)) = s at ih ⊢
      obtain ⟨i1, i2, i3⟩ := ih
      simp only [List.map_cons, List.map_nil, Server.run, List.foldl_cons, List.foldl_nil, Server.step]
      have hclean : (s.mgr.cleanup 0) = s.mgr := by
        unfold NonceMgr.cleanup
        have : s.mgr.nonces.filter (fun p => p.2.isValid 0) = s.mgr.nonces := by
          apply List.filter_eq_self.mpr
          intro p hp
          simp [Nonce.isValid]
        rw [this]
      have hrm : s.mgr.removeOldest order (s.mgr.maxNonces / 10) = s.mgr := by
        unfold NonceMgr.removeOldest
        rw [show s.mgr.maxNonces / 10 = 0 by rw [i3]; exact Nat.div_eq_of_lt hmax]
        simp
      have hg : s.mgr.generate order (showNat k) 0 =
          { s.mgr with nonces := s.mgr.nonces.insert (showNat k) (Nonce.new s.mgr.ttl 0) } := by
        unfold NonceMgr.generate
        simp only [hclean, hrm, ite_self]
      rw [hg]
      have hnot : showNat k ∉ s.mgr.nonces.keys := by
        rw [i1]
        simp only [List.mem_reverse, List.mem_map, List.mem_range, not_exists, not_and]
        intro x hx he
        have := showNat_inj he
        omega
      have hrem := Tbl.remove_of_not_mem _ _ hnot
      refine ⟨?_, ?_, i3⟩
      · simp only [Tbl.insert, hrem, Tbl.keys, List.map_cons, List.map_append, List.reverse_append,
          List.map_nil, List.reverse_cons, List.reverse_nil, List.nil_append, List.cons_append]
        rw [← i1]; rfl
      · intro p hp
        simp only [Tbl.insert, hrem, List.mem_cons] at hp
        rcases hp with rfl | hp
        · rfl
        · exact i2 p hp
  have h := congrArg List.length (this k).1
  simpa [Tbl.keys] using h

-- the hypotheses are met by the default configuration, and the eviction case is reached
example : (Server.new [] [] (fun _ _ => none)).mgr.maxNonces = 10000 := by decide
example : ((({ Demo.server with mgr := { Demo.server.mgr with maxNonces := 10 } } : Server).run Demo.H id
    ((List.range 12).map (fun i => Op.generate (showNat i) i))).mgr.nonces.keys).length = 10 := by decide +kernel

/-! ## C39 -/

/-- C39: the presented nonce is reported stale exactly when the table still holds it and its lifetime
has passed; along any history that means this server issued it and that it has expired. -/
theorem C39_stale_sound (H : Hash) (order : List Str → List Str) (s0 : Server) (h0 : s0.mgr.nonces = [])
    (ops : List Op) (req : Request) (now : Nat)
    (h : (s0.run H order ops).nonceIsStale req now = true) :
    ∃ ν t, Presents s0.proxyAuth req.headers "nonce" ν ∧ lastIssue ops ν = some t ∧ t + s0.mgr.ttl < now := by
  have hn0 : s0.mgr.nonces.keys.Nodup := by rw [h0]; simp [Tbl.keys]
  have hsame := (run_nodup_same H order ops s0 hn0).2
  have hiss := run_issued H order s0 h0 ops
  generalize s0.run H order ops = s at *
  unfold Server.nonceIsStale Server.presentedNonce at h
  cases hg : req.headers.get s.credentialsHeader with
  | none => simp [hg] at h
  | some raw =>
    cases hp : parseAuthorization raw with
    | none => simp [hg, hp] at h
    | some ah =>
      by_cases hd : eqIgnoreCase ah.scheme "Digest".toList = true
      · simp only [hg, hp, hd, Bool.not_true, Bool.false_eq_true, if_false] at h
        cases hν : ah.param "nonce".toList with
        | none => rw [hν] at h; simp at h
        | some ν =>
          rw [hν] at h
          simp only [NonceMgr.isStale] at h
          cases hr : s.mgr.nonces.get ν with
          | none => simp [hr] at h
          | some n =>
            simp only [hr, Nonce.isValid, Bool.not_eq_eq_eq_not, Bool.not_true, decide_eq_false_iff_not] at h
            obtain ⟨i1, i2⟩ := hiss ν n hr
            refine ⟨ν, n.createdAt, ?_, i1, by omega⟩
            rw [← hsame.proxyAuth]
            exact (presents_iff (by rw [← credentialsHeader_eq]; exact hg) hp hd "nonce" ν (by decide)).mpr hν
      · simp only [Bool.not_eq_true] at hd
        simp only [hg, hp, hd, Bool.not_false, if_true] at h
        cases h

/-- C39: and the reuse window is reported exceeded only for an issued, unexpired nonce. -/
theorem C39_reuse_sound (H : Hash) (order : List Str → List Str) (s0 : Server) (h0 : s0.mgr.nonces = [])
    (ops : List Op) (req : Request) (now : Nat)
    (h : (s0.run H order ops).nonceReuseExpired req now = true) :
    ∃ ν t, Presents s0.proxyAuth req.headers "nonce" ν ∧ lastIssue ops ν = some t ∧ now ≤ t + s0.mgr.ttl ∧
      ∃ rec, (s0.run H order ops).mgr.nonces.get ν = some rec ∧ 0 < rec.lastNc ∧
        rec.lastUsed + s0.mgr.maxAge < now := by
  have hn0 : s0.mgr.nonces.keys.Nodup := by rw [h0]; simp [Tbl.keys]
  have hsame := (run_nodup_same H order ops s0 hn0).2
  have hiss := run_issued H order s0 h0 ops
  generalize s0.run H order ops = s at *
  unfold Server.nonceReuseExpired Server.presentedNonce at h
  cases hg : req.headers.get s.credentialsHeader with
  | none => simp [hg] at h
  | some raw =>
    cases hp : parseAuthorization raw with
    | none => simp [hg, hp] at h
    | some ah =>
      by_cases hd : eqIgnoreCase ah.scheme "Digest".toList = true
      · simp only [hg, hp, hd, Bool.not_true, Bool.false_eq_true, if_false] at h
        cases hν : ah.param "nonce".toList with
        | none => rw [hν] at h; simp at h
        | some ν =>
          rw [hν] at h
          simp only [NonceMgr.reuseWindowExceeded] at h
          cases hr : s.mgr.nonces.get ν with
          | none => simp [hr] at h
          | some n =>
            simp only [hr, Nonce.isValid, Bool.and_eq_true, decide_eq_true_eq] at h
            obtain ⟨i1, i2⟩ := hiss ν n hr
            have := hsame.maxAge
            refine ⟨ν, n.createdAt, ?_, i1, by omega, n, hr, by omega, by omega⟩
            rw [← hsame.proxyAuth]
            exact (presents_iff (by rw [← credentialsHeader_eq]; exact hg) hp hd "nonce" ν (by decide)).mpr hν
      · simp only [Bool.not_eq_true] at hd
        simp only [hg, hp, hd, Bool.not_false, if_true] at h
        cases h

/-- C39: conversely a nonce the table still holds past its lifetime is reported stale. -/
theorem C39_stale_complete (s : Server) (req : Request) (now : Nat) (raw : Str) (ah : AuthHeader)
    (ν : Str) (n : Nonce) (hg : req.headers.get s.credentialsHeader = some raw)
    (hp : parseAuthorization raw = some ah) (hν : Presents s.proxyAuth req.headers "nonce" ν)
    (hr : s.mgr.nonces.get ν = some n) (hexp : n.createdAt + n.ttl < now) :
    s.nonceIsStale req now = true := by
  obtain ⟨raw', more, scheme, h1, h2, h3⟩ := hν
  have e := get_of_selects h1
  rw [← credentialsHeader_eq, hg] at e
  simp only [Option.some.injEq] at e
  subst e
  have hs := parseAuthorization_scheme hp h3
  subst hs
  have hd := (sameName_iff _ _).mp h2
  have hparam := (parseAuthorization_param hp "nonce".toList ν (by decide)).mpr h3
  unfold Server.nonceIsStale Server.presentedNonce
  simp only [hg, hp, hd, Bool.not_true, Bool.false_eq_true, if_false, hparam, NonceMgr.isStale, hr,
    Nonce.isValid, Bool.not_eq_eq_eq_not, Bool.not_true, decide_eq_false_iff_not]
  omega

/-- C39: the text of a challenge says `stale=true` when it is asked to and never otherwise. -/
theorem C39_challenge_text (s : Server) (ν : Str) :
    s.challengeValue ν true = s.challengeValue ν false ++ ", stale=true".toList := by
  unfold Server.challengeValue
  rw [if_pos rfl, if_neg (by decide), List.append_nil]

example : let s := Demo.server.run Demo.H Demo.ord [.generate "n1".toList 5]
    s.nonceIsStale Demo.r1 1006 = true ∧ s.nonceIsStale Demo.r1 1005 = false := by decide +kernel
example : let s := Demo.server.run Demo.H Demo.ord [.generate "n1".toList 5, .verify Demo.r1 Demo.r1.headers 9]
    s.nonceReuseExpired Demo.r1 110 = true ∧ s.nonceReuseExpired Demo.r1 109 = false := by decide +kernel

end Siphon.Auth
