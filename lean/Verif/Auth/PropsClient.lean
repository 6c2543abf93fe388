import Verif.Auth.LemmasClient
/-!
# C37: the client is accepted; C66: Authentication-Info; C67: hostile challenges

`H` is any hash function whose outputs are plain text of at most 256 bytes (those of the code are 32
to 128 hexadecimal digits).
-/
set_option linter.unusedSimpArgs false
namespace Siphon.Auth
open Spec HdrSpec

/-! ## A client and a server talking -/

/-- What happens after the challenge: the client sends a request, or the server does something else. -/
inductive Event
  | send (orig : Request) (cnonce branch : Str) (now : Nat)
  | other (op : Op)

/-- The user agent answers the same challenge `resp` for every request it sends; the server verifies
each.  Returns the verdicts. -/
def play (H : Hash) (order : List Str → List Str) (resp : Response) : Server → Client → List Event →
    Except Fail (List (Except AuthErr Bool))
  | _, _, [] => .ok []
  | s, c, .other op :: es => play H order resp (s.step H order op) c es
  | s, c, .send orig cn br now :: es =>
    match createAuthenticatedRequest H c orig resp cn br with
    | .error e => .error e
    | .ok (r, c) =>
      match play H order resp (s.verify H r r.headers now).2 c es with
      | .error e => .error e
      | .ok bs => .ok ((s.verify H r r.headers now).1 :: bs)

def sends : List Event → Nat
  | [] => 0
  | .send .. :: es => sends es + 1
  | .other _ :: es => sends es

def others : List Event → List Op
  | [] => []
  | .send .. :: es => others es
  | .other op :: es => op :: others es

/-- The operation is about other nonces than `ν`, or drops expired ones before `ν` expires. -/
def Unrelated (proxy : Bool) (ν : Str) (expiry : Nat) : Op → Prop
  | .challenge _ _ n _ _ => n ≠ ν
  | .generate n _ => n ≠ ν
  | .verify _ hs _ => ¬ Presents proxy hs "nonce" ν
  | .authInfo req _ => ¬ Presents proxy req.headers "nonce" ν
  | .cleanup now => now ≤ expiry

/-- Every request has a plain URI and no credentials yet, comes before the nonce expires and within the
reuse window after the previous one (`last`); everything else is unrelated. -/
def Orderly (proxy : Bool) (ν : Str) (expiry window : Nat) : Option Nat → List Event → Prop
  | _, [] => True
  | last, .other op :: es => Unrelated proxy ν expiry op ∧ Orderly proxy ν expiry window last es
  | last, .send orig cn _ now :: es =>
    Plain 256 orig.uri ∧ Plain 256 cn ∧
    (∀ h ∈ orig.headers.inner, ¬ SameName h.name (credentialsName proxy)) ∧
    now ≤ expiry ∧ (∀ t, last = some t → now ≤ t + window) ∧ Orderly proxy ν expiry window (some now) es

theorem step_unrelated {H : Hash} {order : List Str → List Str} {s : Server} {ν : Str} {n : Nonce} {op : Op}
    (hu : Unrelated s.proxyAuth ν (n.createdAt + n.ttl) op) (hn : s.mgr.nonces.keys.Nodup)
    (hroom : s.mgr.nonces.length + (issued [op]).length ≤ s.mgr.maxNonces) (hg : s.mgr.nonces.get ν = some n)
    (hlim : s.limiter = none) :
    (s.step H order op).mgr.nonces.get ν = some n ∧
    (s.step H order op).mgr.nonces.length ≤ s.mgr.nonces.length + (issued [op]).length ∧
    (s.step H order op).limiter = none := by
  have hcl : ∀ hs now, s.checkLimit hs now = (true, s) := by intro hs now; simp [Server.checkLimit, hlim]
  have hl : ∀ req hs now, (s.prepareDigest H req hs now).2.limiter = none := by
    intro req hs now
    unfold Server.prepareDigest
    rw [hcl]
    simp only [Bool.not_true, Bool.false_eq_true, if_false]
    repeat (first | exact hlim | split)
  cases op with
  | challenge req stale v tag now =>
    simp only [Server.step, challenge_state]
    simp only [issued, List.length_cons, List.length_nil] at hroom
    obtain ⟨h1, h2⟩ := generate_room (order := order) (now := now) (by omega : s.mgr.nonces.length < s.mgr.maxNonces) hu
    exact ⟨h1.trans hg, h2, hlim⟩
  | generate v now =>
    simp only [Server.step]
    simp only [issued, List.length_cons, List.length_nil] at hroom
    obtain ⟨h1, h2⟩ := generate_room (order := order) (now := now) (by omega : s.mgr.nonces.length < s.mgr.maxNonces) hu
    exact ⟨h1.trans hg, h2, hlim⟩
  | verify req hs now =>
    simp only [Server.step, verify_state]
    obtain ⟨h1, h2⟩ := prepareDigest_other (H := H) (req := req) (now := now) hu
    exact ⟨h1.trans hg, by rw [h2]; exact Nat.le_add_right _ _, hl _ _ _⟩
  | authInfo req now =>
    simp only [Server.step]
    obtain ⟨h1, h2⟩ := prepareDigest_other (H := H) (req := req) (now := now) hu
    exact ⟨h1.trans hg, by rw [h2]; exact Nat.le_add_right _ _, hl _ _ _⟩
  | cleanup now =>
    simp only [Server.step, NonceMgr.cleanup]
    refine ⟨?_, Nat.le_trans (List.length_filter_le _ _) (Nat.le_add_right _ _), hlim⟩
    have hv : n.isValid now = true := by
      simp only [Unrelated] at hu
      simp only [Nonce.isValid, decide_eq_true_eq]
      omega
    refine Tbl.get_of_mem _ _ _ (List.Nodup.sublist (RateLimit.keys_filter_sublist _ _) hn) ?_
    exact List.mem_filter.mpr ⟨Tbl.mem_of_get _ _ _ hg, hv⟩

theorem play_accepted (H : Hash) (hH : ∀ f b, Plain 256 (H f b)) (order : List Str → List Str)
    (s0 : Server) (resp : Response) (ν : Str) (stale : Bool)
    (hr : Plain 256 s0.realm) (hν : Plain 128 ν) (ho : Plain 256 s0.opaqueTok)
    (hcode : resp.code = (if s0.proxyAuth then 407 else 401))
    (hch : resp.headers.get s0.challengeHeader = some (s0.challengeValue ν stale)) (expiry : Nat) :
    ∀ (es : List Event) (s : Server) (c : Client) (n : Nonce) (last : Option Nat) (bs),
    SameSetup s0 s → s.limiter = none → s.mgr.nonces.keys.Nodup → Plain 256 c.username →
    s.store c.username s.realm = some c.password →
    s.mgr.nonces.get ν = some n → n.createdAt + n.ttl = expiry →
    (last = none ∧ n.lastNc = 0 ∨ last = some n.lastUsed) → n.lastNc ≤ c.nc → c.nc < n.lastNc + 1000 →
    Orderly s.proxyAuth ν expiry s.mgr.maxAge last es →
    s.mgr.nonces.length + (issued (others es)).length ≤ s.mgr.maxNonces → c.nc + sends es ≤ 1000000 →
    play H order resp s c es = .ok bs → bs = List.replicate (sends es) (.ok true)
  | [], s, c, n, last, bs, _, _, _, _, _, _, _, _, _, _, _, _, _, h => by
    simp only [play, Except.ok.injEq] at h
    subst h; rfl
  | .other op :: es, s, c, n, last, bs, hs, hl, hnd, hu, hst, hg, he, hlast, hle, hjmp, hord, hroom, hcnt, h => by
    simp only [play] at h
    simp only [Orderly] at hord
    have hiss : (issued (others (.other op :: es))).length = (issued [op]).length + (issued (others es)).length := by
      have : others (.other op :: es) = [op] ++ others es := rfl
      rw [this, issued_append, List.length_append]
    rw [hiss] at hroom
    subst he
    obtain ⟨g1, g2, g3⟩ := step_unrelated (H := H) (order := order) hord.1 hnd (by omega) hg hl
    obtain ⟨g4, g5⟩ := step_nodup_same H order s op hnd
    refine play_accepted H hH order s0 resp ν stale hr hν ho hcode hch _ es _ c n last bs (hs.trans g5) g3 g4 hu ?_ g1 rfl
      hlast hle hjmp ?_ ?_ hcnt h
    · rw [g5.store, g5.realm]; exact hst
    · rw [g5.proxyAuth, g5.maxAge]; exact hord.2
    · rw [g5.maxNonces]; omega
  | .send orig cn br now :: es, s, c, n, last, bs, hs, hl, hnd, hu, hst, hg, he, hlast, hle, hjmp, hord, hroom, hcnt, h => by
    simp only [play] at h
    obtain ⟨o1, o2, o3, o4, o5, o6⟩ := hord
    split at h
    · cases h
    · rename_i r c' hcr
      have e1 : s.realm = s0.realm := hs.realm
      have e2 : s.opaqueTok = s0.opaqueTok := hs.opaqueTok
      have e3 : s.proxyAuth = s0.proxyAuth := hs.proxyAuth
      have e4 : s.algorithm = s0.algorithm := hs.algorithm
      have e5 : s.qop = s0.qop := hs.qop
      have hch' : resp.headers.get s.challengeHeader = some (s.challengeValue ν stale) := by
        unfold Server.challengeHeader Server.challengeValue at hch ⊢
        rw [e1, e2, e3, e4, e5]; exact hch
      obtain ⟨r1, r2, r3, r4, auth, r5, r6⟩ := create_request (s := s) (stale := stale) (by rw [e1]; exact hr) hν (by rw [e2]; exact ho)
        (by rw [e3]; exact hcode) hch' o3 hcr
      have hlim : s.checkLimit r.headers now = (true, s) := by simp [Server.checkLimit, hl]
      simp only [sends] at hcnt
      have hv : n.isValid now = true := by
        simp only [Nonce.isValid, decide_eq_true_eq]; omega
      have hage : n.lastNc = 0 ∨ now - n.lastUsed ≤ s.mgr.maxAge := by
        rcases hlast with ⟨_, h0⟩ | h1
        · exact Or.inl h0
        · exact Or.inr (by have := o5 _ h1; omega)
      obtain ⟨a1, a2⟩ := accept_one hH r5 r6 hst hu (by rw [e1]; exact hr) hν (by rw [r2]; exact o1) (by rw [e2]; exact ho) o2 r4 hlim
        hg hv hage (by omega) (by omega) (by omega)
      rw [a2] at h
      simp only at h
      split at h
      · cases h
      · rename_i bs' hrest
        simp only [Except.ok.injEq] at h
        subst h
        subst a1
        have hg' : (s.mgr.nonces.update ν (fun _ => (Nonce.mk n.createdAt n.ttl (c.nc + 1)
            (some (H .sha256 (requestText r.method r.uri r.body))) now))).get ν = some (Nonce.mk n.createdAt n.ttl (c.nc + 1)
            (some (H .sha256 (requestText r.method r.uri r.body))) now) := by
          rw [Tbl.get_update_self, hg]; rfl
        have key : bs' = List.replicate (sends es) (.ok true) := by
          refine play_accepted H hH order s0 resp ν stale hr hν ho hcode hch expiry es _ _
            (Nonce.mk n.createdAt n.ttl (c.nc + 1) (some (H .sha256 (requestText r.method r.uri r.body))) now)
            (some now) bs' ?_ ?_ ?_ ?_ ?_ ?_ ?_ ?_ ?_ ?_ ?_ ?_ ?_ hrest
          · exact ⟨hs.realm, hs.algorithm, hs.qop, hs.store, hs.proxyAuth, hs.opaqueTok, hs.ttl, hs.maxNonces, hs.maxAge⟩
          · exact hl
          · simpa using hnd
          · exact hu
          · exact hst
          · exact hg'
          · exact he
          · exact Or.inr rfl
          · exact Nat.le_refl _
          · exact Nat.lt_add_of_pos_right (by decide)
          · exact o6
          · simpa [others] using hroom
          · simp only; omega
        rw [key]
        rfl

/-- C37 (in part): a client that knows the stored password and answers a challenge of this server is
accepted, request after request, as its count increments - for user names, realms, URIs and tokens that
need no escaping and are at most 256 bytes, and a client that has made fewer than 1000 requests before.
Missing: user names with quotes or backslashes, longer URIs and older clients, for all of which the
theorems below show that the claim is false of the code. -/
theorem C37_accepted_partial (H : Hash) (hH : ∀ f b, Plain 256 (H f b)) (order : List Str → List Str)
    (s s1 : Server) (hnd : s.mgr.nonces.keys.Nodup) (hlim : s.limiter = none)
    (hr : Plain 256 s.realm) (ho : Plain 256 s.opaqueTok)
    (req0 : Request) (stale : Bool) (ν tag : Str) (t0 : Nat) (resp : Response) (hν : Plain 128 ν)
    (hc : s.challenge order req0 stale ν tag t0 = (.ok resp, s1))
    (c : Client) (hu : Plain 256 c.username) (hst : s.store c.username s.realm = some c.password) (hnew : c.nc < 1000)
    (es : List Event) (hord : Orderly s.proxyAuth ν (t0 + s.mgr.ttl) s.mgr.maxAge none es)
    (hroom : s1.mgr.nonces.length + (issued (others es)).length ≤ s.mgr.maxNonces)
    (hcnt : c.nc + sends es ≤ 1000000) (bs : List (Except AuthErr Bool))
    (h : play H order resp s1 c es = .ok bs) :
    bs = List.replicate (sends es) (.ok true) := by
  obtain ⟨h1, h2⟩ := challenge_response hc
  have hs1 : s1 = { s with mgr := s.mgr.generate order ν t0 } := by
    have := challenge_state s order req0 stale ν tag t0
    rw [hc] at this
    exact this
  obtain ⟨g1, g2, g3, g4, g5, _⟩ := generate_spec s.mgr order ν t0 hnd
  have f1 : s1.mgr = s.mgr.generate order ν t0 := by rw [hs1]
  have f2 : SameSetup s s1 := by
    rw [hs1]; exact ⟨rfl, rfl, rfl, rfl, rfl, rfl, g1, g2, g3⟩
  refine play_accepted H hH order s resp ν stale hr hν ho h1 h2 (t0 + s.mgr.ttl) es s1 c (Nonce.new s.mgr.ttl t0) none bs
    f2 (by rw [hs1]; exact hlim) (by rw [f1]; exact g4) hu (by rw [f2.store, f2.realm]; exact hst) (by rw [f1]; exact g5) rfl
    (Or.inl ⟨rfl, rfl⟩) (Nat.zero_le _) ?_ ?_ ?_ hcnt h
  · simp only [Nonce.new]; omega
  · rw [f2.proxyAuth, f2.maxAge]; exact hord
  · rw [f2.maxNonces]; exact hroom

namespace Demo

def orig : Request :=
  { method := .register, uri := "sip:ex".toList,
    headers := ⟨[⟨"Via".toList, "SIP/2.0/UDP a;branch=z9hG4bK1".toList⟩, ⟨"To".toList, "<sip:bob@ex>".toList⟩,
      ⟨"CSeq".toList, "1 REGISTER".toList⟩]⟩, body := [1] }
def bob : Client := Client.new "bob".toList "pw".toList

/-- one challenge, then three requests with a verification for somebody else in between -/
def talk : List Event :=
  [.send orig "c1".toList "z9hG4bK2".toList 20, .other (.generate "n2".toList 21), .send orig "c2".toList "z9hG4bK3".toList 90,
   .other (.verify orig orig.headers 95), .send orig "c3".toList "z9hG4bK4".toList 150]

/-- a real run of the demo server meets the hypotheses (and the conclusion is not about no requests) -/
example : ∃ resp s1, server.challenge ord orig false "n1".toList "t".toList 5 = (.ok resp, s1) ∧
    ∃ bs, play H ord resp s1 bob talk = .ok bs ∧ bs = [.ok true, .ok true, .ok true] := by
  refine ⟨_, _, rfl, [.ok true, .ok true, .ok true], by decide +kernel, rfl⟩

/-- ... and it is an orderly one -/
example : Orderly server.proxyAuth "n1".toList (5 + server.mgr.ttl) server.mgr.maxAge none talk := by
  have hu : Plain 256 orig.uri := by unfold Plain; decide
  have hc : ∀ h ∈ orig.headers.inner, ¬ SameName h.name (credentialsName false) := by
    intro h hh; rw [sameName_iff]; revert h; decide
  have hp : ¬ Presents false orig.headers "nonce" "n1".toList := by
    rintro ⟨raw, more, scheme, hs, _⟩
    have h1 := get_of_selects hs
    have h2 : orig.headers.get (credentialsName false) = none := by decide
    rw [h2] at h1; cases h1
  refine ⟨hu, by unfold Plain; decide, hc, by decide, by simp, (by decide : "n2".toList ≠ "n1".toList), ?_⟩
  refine ⟨hu, by unfold Plain; decide, hc, by decide, ?_, hp, ?_⟩
  · intro t ht; cases ht; decide
  refine ⟨hu, by unfold Plain; decide, hc, by decide, ?_, trivial⟩
  intro t ht; cases ht; decide

end Demo

/-! ## Where it fails -/

theorem fromRawGo_lengths : ∀ (params : List (Str × Str)) (acc out : Tbl Str Str), fromRawGo params acc = some out →
    (∀ q ∈ acc, utf8Len q.2 ≤ 256) → ∀ q ∈ out, utf8Len q.2 ≤ 256
  | [], acc, out, h, ha => by simp only [fromRawGo, Option.some.injEq] at h; subst h; exact ha
  | (n, v) :: l, acc, out, h, ha => by
    simp only [fromRawGo] at h
    split at h
    · cases h
    · split at h
      · cases h
      · rename_i hv
        split at h
        · cases h
        · split at h
          · cases h
          · refine fromRawGo_lengths l _ out h ?_
            intro q hq
            simp only [Tbl.insert, Tbl.remove, List.mem_cons, List.mem_filter] at hq
            rcases hq with rfl | ⟨hq, _⟩
            · simp only [validParamValue, Bool.not_eq_true', Bool.and_eq_false_iff, not_or, Bool.not_eq_false'] at hv
              have := hv.1
              simp only [Bool.not_eq_true, Bool.not_eq_false', Bool.not_eq_false, decide_eq_true_eq, Bool.eq_false_iff, ne_eq,
                Decidable.not_not, decide_eq_false_iff_not] at this
              simp only [MAX_PARAM_VALUE_LENGTH] at this
              first | exact Nat.not_lt.mp this | simpa using this
            · exact ha q hq

theorem parse_lengths {raw : Str} {ah : AuthHeader} (h : parseAuthorization raw = some ah) {n v : Str}
    (hv : ah.param n = some v) : utf8Len v ≤ 256 := by
  have hraw : ∃ scheme params, fromRaw scheme params = some ah := by
    obtain ⟨first, rem, _, h⟩ := parseAuthorization_form h
    split at h
    · cases h
    · split at h
      · cases h
      · exact ⟨_, _, h⟩
  obtain ⟨scheme, params, h⟩ := hraw
  unfold fromRaw at h
  split at h
  · cases h
  · simp only [Option.map_eq_some_iff] at h
    obtain ⟨out, ho, rfl⟩ := h
    exact fromRawGo_lengths _ _ _ ho (by simp) _ (Tbl.mem_of_get _ _ _ hv)

/-- Finding (C37): a request whose URI is longer than 256 bytes is never accepted, whatever its
credentials (the generic credentials parser refuses longer values, though the authenticator allows
2048 bytes). -/
theorem C37_long_uri_refused (H : Hash) (s s' : Server) (req : Request) (hs : Headers) (now : Nat)
    (hlong : 256 < utf8Len req.uri) : s.verify H req hs now ≠ (.ok true, s') := by
  intro h
  obtain ⟨p, raw, ah, nct, cn, nc, n, n', pw, hP, hpw, hresp⟩ := verify_true h
  have := parse_lengths hP.read.parsed hP.read.uri
  omega

/-- Finding (C37): a client that has counted 1000 requests or more is refused with a freshly issued
nonce: its next count is more than 1000 above the last one seen. -/
theorem C37_old_client_refused (H : Hash) (hH : ∀ f b, Plain 256 (H f b)) (s s' : Server) (c : Client) (req : Request)
    (hs : Headers) (now : Nat) (ν cn : Str) (n : Nonce)
    (hget : hs.get s.credentialsHeader = some (c.generateAuthorization H req.method req.uri s.realm ν s.algorithm
      (some s.qop) (some s.opaqueTok) req.body cn).1)
    (hu : Plain 256 c.username) (hr : Plain 256 s.realm) (hν : Plain 128 ν) (huri : Plain 256 req.uri)
    (ho : Plain 256 s.opaqueTok) (hcn : Plain 256 cn)
    (got : s.mgr.nonces.get ν = some n) (hnew : n.lastNc = 0) (hold : 1000 ≤ c.nc) :
    s.verify H req hs now ≠ (.ok true, s') := by
  intro h
  obtain ⟨p, raw, ah, nct, cn', nc, n0, n', pw, hP, hpw, hresp⟩ := verify_true h
  have hraw := hP.read.got
  rw [hget, generate_text] at hraw
  simp only [Option.some.injEq] at hraw
  have hre : Plain 256 (c.response H req.method req.uri s.realm ν s.algorithm s.qop req.body cn) := hH _ _
  obtain ⟨g1, g2⟩ := credentials_good (c := c) (alg := s.algorithm) (q := s.qop) hu hr (plain_mono (by decide) hν) huri ho hcn hre
  obtain ⟨ah', hp, _, hpar, _⟩ := parse_render g1 (credentialKVs_nodup _ _ _ _ _ _ _ _ _)
    (by simp [credentialKVs]) (by simp [credentialKVs]) g2
  rw [hraw, hP.read.parsed] at hp
  simp only [Option.some.injEq] at hp
  subst hp
  simp only [credentialKVs, List.forall_mem_cons] at hpar
  obtain ⟨p1, p2, p3, p4, p5, p6, p7, p8, p9, p10, _⟩ := hpar
  have e1 : p.nonce = ν := by have := hP.read.nonce; rw [p3] at this; simpa using this.symm
  have e2 : nct = hex8 (min (c.nc + 1) U32_MAX) := by have := hP.read.nc; rw [p8] at this; simpa using this.symm
  have e3 : nc = min (c.nc + 1) U32_MAX := by
    have := hP.ncv
    rw [e2, parseHexU32_hex8 _ (Nat.min_le_right _ _)] at this
    simpa using this.symm
  have e4 : n0 = n := by have := hP.got; rw [e1, got] at this; simpa using this.symm
  have hj := Nat.le_trans hP.jump (Nat.min_le_left _ _)
  rw [e3, e4, hnew] at hj
  have : 1001 ≤ min (c.nc + 1) U32_MAX := Nat.le_min.mpr ⟨by omega, by decide⟩
  have hJ : MAX_NC_JUMP = 1000 := rfl
  omega

/-- Finding (C37): user names are not escaped, so a user whose name contains a quotation mark cannot
authenticate although the server holds their password. -/
theorem C37_quote_refused : ∃ (s : Server) (c : Client) (req : Request) (auth : Str),
    s.store c.username s.realm = some c.password ∧
    auth = (c.generateAuthorization Demo.H req.method req.uri s.realm "n1".toList s.algorithm (some s.qop)
      (some s.opaqueTok) req.body "cn".toList).1 ∧
    req.headers.get s.credentialsHeader = some auth ∧
    (s.mgr.nonces.get "n1".toList).isSome = true ∧
    ∀ now, (s.verify Demo.H req req.headers now).1 ≠ .ok true := by
  let s : Server := { Demo.server with
    store := fun _ _ => some "pw".toList,
    mgr := Demo.server.mgr.generate Demo.ord "n1".toList 0 }
  let c : Client := Client.new "a\"b".toList "pw".toList
  let a := (c.generateAuthorization Demo.H .register "sip:ex".toList s.realm "n1".toList s.algorithm (some s.qop)
      (some s.opaqueTok) [1, 2] "cn".toList).1
  refine ⟨s, c, Demo.req "sip:bob@a" a, a, rfl, rfl, by decide +kernel, by decide +kernel, ?_⟩
  intro now h
  generalize hv : s.verify Demo.H (Demo.req "sip:bob@a" a) (Demo.req "sip:bob@a" a).headers now = v at h
  obtain ⟨v1, v2⟩ := v
  simp only at h
  subst h
  obtain ⟨p, raw, ah, nct, cn, nc, n, n', pw, hP, hpw, hresp⟩ := verify_true hv
  have hg := hP.read.got
  have hg' : (Demo.req "sip:bob@a" a).headers.get s.credentialsHeader = some a := by decide +kernel
  rw [hg'] at hg
  simp only [Option.some.injEq] at hg
  have hp := hP.read.parsed
  rw [← hg] at hp
  have : parseAuthorization a = none := by decide +kernel
  rw [this] at hp
  cases hp

theorem copyWithCseq_find (branch n : Str) (h1 : eqIgnoreCase "Via".toList n = false)
    (h2 : eqIgnoreCase "CSeq".toList n = false) : ∀ (l : List Header) (done : Bool) (acc out : Headers),
    copyWithCseq branch l done acc = .ok out →
    out.inner.find? (·.nameEq n) = (acc.inner ++ l).find? (·.nameEq n) := by
  intro l
  induction l with
  | nil => intro done acc out h; simp only [copyWithCseq, Except.ok.injEq] at h; subst h; rw [List.append_nil]
  | cons x l ih =>
    intro done acc out h
    have hpush : ∀ (nm v : Str) (d : Bool),
        (Header.mk nm v = x ∨ eqIgnoreCase nm n = false ∧ x.name = nm) →
        (match acc.push nm v with
          | .error _ => Except.error Fail.panic
          | .ok acc => copyWithCseq branch l d acc) = .ok out →
        out.inner.find? (·.nameEq n) = (acc.inner ++ x :: l).find? (·.nameEq n) := by
      intro nm v d hx h
      cases hp : acc.push nm v with
      | error e => rw [hp] at h; cases h
      | ok acc' =>
        rw [hp] at h
        rw [ih _ _ _ h, C24_push _ _ _ _ hp, List.append_assoc, List.singleton_append, List.find?_append,
          List.find?_append]
        rcases hx with rfl | ⟨hx, he⟩
        · rfl
        · have e1 : Header.nameEq ⟨nm, v⟩ n = false := hx
          have e2 : Header.nameEq x n = false := by unfold Header.nameEq; rw [he]; exact hx
          rw [List.find?_cons, List.find?_cons, e1, e2]
    unfold copyWithCseq at h
    simp only at h
    split at h
    · rename_i hv; exact hpush _ _ _ (Or.inr ⟨h1, hv⟩) h
    · split at h
      · rename_i hc
        split at h
        · split at h
          · split at h
            · cases h
            · exact hpush _ _ _ (Or.inr ⟨h2, hc.1⟩) h
          · exact hpush _ _ _ (Or.inl rfl) h
        · exact hpush _ _ _ (Or.inl rfl) h
      · exact hpush _ _ _ (Or.inl rfl) h

/-- Finding (C37): when the request already carries credentials (a second challenge, for instance after
the nonce expired), the new ones are appended and every reader still sees the old ones. -/
theorem C37_rechallenge_keeps_old (H : Hash) (c c' : Client) (orig r : Request) (resp : Response) (cn branch old : Str)
    (h : createAuthenticatedRequest H c orig resp cn branch = .ok (r, c'))
    (hold : orig.headers.get (credentialsName (resp.code == 407)) = some old) :
    r.headers.get (credentialsName (resp.code == 407)) = some old := by
  unfold createAuthenticatedRequest at h
  simp only at h
  generalize hb : (resp.code == 407) = b at h hold ⊢
  have n1 : eqIgnoreCase "Via".toList (credentialsName b) = false := by cases b <;> decide
  have n2 : eqIgnoreCase "CSeq".toList (credentialsName b) = false := by cases b <;> decide
  split at h
  · cases h
  · split at h
    · cases h
    · split at h
      · split at h
        · cases h
        · rename_i hs hc
          split at h
          · cases h
          · rename_i hs' hp
            split at h
            · cases h
            · rename_i r' hn
              simp only [Except.ok.injEq, Prod.mk.injEq] at h
              obtain ⟨rfl, _⟩ := h
              have e1 := copyWithCseq_find branch _ n1 n2 _ _ _ _ hc
              have e2 := C24_push _ _ _ _ hp
              have e3 : r'.headers = hs' := by
                unfold Request.new at hn
                split at hn
                · cases hn
                · cases hn; rfl
              rw [e3]
              unfold Headers.get Headers.getHeader at hold ⊢
              rw [e2, List.find?_append, e1]
              cases hf : orig.headers.inner.find? (·.nameEq (credentialsName b)) with
              | none => rw [hf] at hold; cases hold
              | some y =>
                rw [hf] at hold
                simp only [Headers.empty, List.nil_append, hf]
                exact hold
      · cases h

/-- such a request exists -/
example : ∃ r c', createAuthenticatedRequest Demo.H Demo.bob (Demo.req "sip:a" (Demo.auth "n0" 1))
      (Response.mk 401 [] ⟨[⟨"WWW-Authenticate".toList, Demo.server.challengeValue "n1".toList true⟩]⟩ []) "cn".toList "b".toList = .ok (r, c') ∧
    r.headers.get "Authorization".toList = some (Demo.auth "n0" 1) ∧ r.headers.count "Authorization".toList = 2 := by
  generalize hx : createAuthenticatedRequest Demo.H Demo.bob (Demo.req "sip:a" (Demo.auth "n0" 1))
      (Response.mk 401 [] ⟨[⟨"WWW-Authenticate".toList, Demo.server.challengeValue "n1".toList true⟩]⟩ []) "cn".toList "b".toList = x
  have h : (match createAuthenticatedRequest Demo.H Demo.bob (Demo.req "sip:a" (Demo.auth "n0" 1))
      (Response.mk 401 [] ⟨[⟨"WWW-Authenticate".toList, Demo.server.challengeValue "n1".toList true⟩]⟩ []) "cn".toList "b".toList with
      | .ok (r, _) => decide (r.headers.get "Authorization".toList = some (Demo.auth "n0" 1) ∧
          r.headers.count "Authorization".toList = 2)
      | .error _ => false) = true := by decide +kernel
  rw [hx] at h
  cases x with
  | error e => cases h
  | ok p => exact ⟨p.1, p.2, rfl, of_decide_eq_true h⟩

/-! ## C66: Authentication-Info -/

theorem splitInfo_eq : ∀ (s cur : Str) (q : Bool), '\\' ∉ s → splitInfo s cur q false = splitAuthParams s cur q
  | [], cur, q, _ => rfl
  | c :: s, cur, q, h => by
    have hc : c ≠ '\\' := fun e => h (by simp [e])
    have hs : '\\' ∉ s := fun hm => h (by simp [hm])
    unfold splitInfo splitAuthParams
    simp only [Bool.false_eq_true, if_false, splitInfo_eq s _ _ hs]
    rw [if_neg (fun hh => hc hh.1)]

theorem stripQuotes_vtext {k : KV} (h : GoodKV k) : stripQuotes k.vtext = k.value := by
  unfold stripQuotes
  simp only [trim_of_trimmed _ (trimmed_vtext h).1]
  unfold KV.vtext
  cases hk : k.quoted with
  | true =>
    simp only [if_true]
    rw [if_pos ⟨by simp, rfl, by rw [List.getLast?_append]; rfl⟩]
    simp
  | false =>
    simp only [Bool.false_eq_true, if_false]
    rw [if_neg]
    rintro ⟨_, h1, _⟩
    exact (h.value _ (List.mem_of_mem_head? h1)).1 rfl

theorem add_text {k : KV} (h : GoodKV k) (a : InfoAcc) :
    a.add k.text = (if k.name = "qop".toList then { a with qop := Qop.parse k.value }
      else if k.name = "rspauth".toList then { a with rspauth := some k.value }
      else if k.name = "cnonce".toList then { a with cnonce := some k.value }
      else if k.name = "nc".toList then { a with nc := some k.value }
      else if k.name = "nextnonce".toList then { a with nextnonce := some k.value }
      else a) := by
  obtain ⟨_, _, n3, n4, n5, _⟩ := name_facts h
  unfold InfoAcc.add
  rw [text_eq, splitOnce_append _ _ _ n3]
  simp only [trim_of_trimmed _ (trimmed_of_all _ n4), n5, trim_of_trimmed _ (trimmed_vtext h).1, stripQuotes_vtext h]

def infoKVs (a : AuthInfo) : List KV :=
  (match a.qop with | some q => [⟨"qop".toList, q.asStr, false⟩] | none => []) ++
  [⟨"rspauth".toList, a.rspauth, true⟩] ++
  (match a.cnonce with | some c => [⟨"cnonce".toList, c, true⟩] | none => []) ++
  (match a.nc with | some n => [⟨"nc".toList, n, false⟩] | none => []) ++
  (match a.nextnonce with | some n => [⟨"nextnonce".toList, n, true⟩] | none => [])

theorem info_text (a : AuthInfo) : a.toHeaderValue = joinCommas (spaced (infoKVs a)) := by
  obtain ⟨q, r, c, n, x⟩ := a
  unfold AuthInfo.toHeaderValue infoKVs
  cases q <;> cases c <;> cases n <;> cases x
  all_goals
    simp only [spaced, List.map_cons, List.map_nil, joinCommas, KV.text, if_true, Bool.false_eq_true, if_false,
      List.append_assoc, List.cons_append, List.nil_append, List.append_nil]
    rfl

/-- C66: `Authentication-Info` written by the server is read back unchanged by the client. -/
theorem C66_roundtrip (a : AuthInfo) (h1 : Plain 8192 a.rspauth) (h2 : ∀ c, a.cnonce = some c → Plain 8192 c)
    (h3 : ∀ n, a.nc = some n → n ≠ [] ∧ ∀ c ∈ n, isTokenChar c = true) (h4 : ∀ n, a.nextnonce = some n → Plain 8192 n) :
    AuthInfo.parse a.toHeaderValue = some a := by
  have good : ∀ k ∈ infoKVs a, GoodKV k := by
    intro k hk
    unfold infoKVs at hk
    simp only [List.mem_append] at hk
    rcases hk with (((hk | hk) | hk) | hk) | hk
    · cases hq : a.qop with
      | none => rw [hq] at hk; cases hk
      | some q => rw [hq] at hk; rw [List.mem_singleton] at hk; subst hk; exact good_bare (by decide) (qop_token q)
    · rw [List.mem_singleton] at hk; subst hk; exact good_quoted (by decide) h1
    · cases hq : a.cnonce with
      | none => rw [hq] at hk; cases hk
      | some q => rw [hq] at hk; rw [List.mem_singleton] at hk; subst hk; exact good_quoted (by decide) (h2 q hq)
    · cases hq : a.nc with
      | none => rw [hq] at hk; cases hk
      | some q => rw [hq] at hk; rw [List.mem_singleton] at hk; subst hk; exact good_bare (by decide) (h3 q hq)
    · cases hq : a.nextnonce with
      | none => rw [hq] at hk; cases hk
      | some q => rw [hq] at hk; rw [List.mem_singleton] at hk; subst hk; exact good_quoted (by decide) (h4 q hq)
  have hsplit : splitInfo a.toHeaderValue [] false false = (infoKVs a).map KV.text := by
    rw [info_text, splitInfo_eq _ _ _ (spaced_no_backslash good), uac_split_spaced good]
  have hfold : ∀ (l : List KV), (∀ k ∈ l, GoodKV k) → ∀ acc : InfoAcc, (l.map KV.text).foldl InfoAcc.add acc =
      l.foldl (fun a k => (if k.name = "qop".toList then { a with qop := Qop.parse k.value }
      else if k.name = "rspauth".toList then { a with rspauth := some k.value }
      else if k.name = "cnonce".toList then { a with cnonce := some k.value }
      else if k.name = "nc".toList then { a with nc := some k.value }
      else if k.name = "nextnonce".toList then { a with nextnonce := some k.value }
      else a)) acc := by
    intro l
    induction l with
    | nil => intro _ acc; rfl
    | cons k l ih =>
      intro hl acc
      rw [List.map_cons, List.foldl_cons, List.foldl_cons, add_text (hl k (by simp))]
      exact ih (fun k hk => hl k (by simp [hk])) _
  unfold AuthInfo.parse
  rw [hsplit, hfold _ good]
  clear hsplit hfold good h1 h2 h3 h4
  obtain ⟨q, r, c, n, x⟩ := a
  cases q with
  | none => cases c <;> cases n <;> cases x <;> rfl
  | some q => cases q <;> cases c <;> cases n <;> cases x <;> rfl

/-- a value with all five fields meets the hypotheses -/
example : AuthInfo.parse "qop=auth, rspauth=\"ab12\", cnonce=\"c, d\", nc=00000001, nextnonce=\"n2\"".toList =
    some ⟨some .auth, "ab12".toList, some "c, d".toList, some "00000001".toList, some "n2".toList⟩ := by decide +kernel

/-- C66: the client accepts the server's proof exactly when it is the RFC 7616 digest (with an empty
method) of what the client knows, and then returns the server's next nonce. -/
theorem C66_verify_iff (H : Hash) (c : Client) (info : AuthInfo) (realm uri nonce : Str) (alg : Algorithm) (body : Bytes)
    (next : Option Str) :
    c.verifyAuthInfo H info realm uri nonce alg body = some next ↔
      ∃ q cn n, info.qop = some q ∧ info.cnonce = some cn ∧ info.nc = some n ∧ info.nextnonce = next ∧
        info.rspauth = digest H alg q c.username realm c.password nonce n cn [] uri body := by
  unfold Client.verifyAuthInfo digest hashA1 hashA2
  rw [base_eq]
  simp only [qop_asStr]
  cases hq : info.qop with
  | none => simp
  | some q =>
    cases hc : info.cnonce with
    | none => simp
    | some cn =>
      cases hn : info.nc with
      | none => simp
      | some n =>
        have hs := isSess_iff alg
        simp only [Option.some.injEq, exists_and_left, exists_eq_left', colons, List.append_assoc, List.cons_append, List.nil_append, hs]
        have fin : ∀ x y : Str, (if x = y then some info.nextnonce else none) = some next ↔
            info.nextnonce = next ∧ y = x := by
          intro x y
          by_cases he : x = y
          · rw [if_pos he]; simp [he]
          · rw [if_neg he]; simp [Ne.symm he]
        cases q <;> exact fin _ _

/-- C66: what the server adds to its answer convinces the client that holds the same password. -/
theorem C66_accepted (H : Hash) (s s' : Server) (req : Request) (body : Bytes) (next : Option Str) (now : Nat)
    (info : AuthInfo) (h : s.buildAuthInfo H req body next now = (.ok (some info), s')) :
    ∃ user pw nonce, s.store user s.realm = some pw ∧ Presents s.proxyAuth req.headers "username" user ∧
      Presents s.proxyAuth req.headers "nonce" nonce ∧
      ∀ c : Client, c.username = user → c.password = pw →
        c.verifyAuthInfo H info s.realm req.uri nonce s.algorithm body = some next := by
  unfold Server.buildAuthInfo at h
  cases hp : s.prepareDigest H req req.headers now with
  | mk r s1 =>
    rw [hp] at h
    cases r with
    | error e => simp at h
    | ok o =>
      cases o with
      | none => simp at h
      | some p =>
        simp only at h
        obtain ⟨raw, ah, nct, cn, nc, n, n', hP⟩ := prepareDigest_ok hp
        have he := hP.read.eq
        have q1 : p.qop = some s.qop := by rw [he]
        have q2 : p.cnonce = some cn := by rw [he]
        have q3 : p.ncRaw = some nct := by rw [he]
        have q4 : p.realm = s.realm := by rw [he]
        have q5 : p.uri = req.uri := by rw [he]
        simp only [q1, q2, q3, q4, q5, hP.setup.store] at h
        cases hst : s.store p.username s.realm with
        | none => rw [hst] at h; simp at h
        | some pw =>
          rw [hst] at h
          simp only [Prod.mk.injEq, Except.ok.injEq, Option.some.injEq] at h
          obtain ⟨rfl, _⟩ := h
          refine ⟨p.username, pw, p.nonce, hst, (presentsOf hP.read "username" _ (by decide)).mpr hP.read.username,
            (presentsOf hP.read "nonce" _ (by decide)).mpr hP.read.nonce, ?_⟩
          intro c hu hpw
          rw [C66_verify_iff]
          refine ⟨s.qop, cn, nct, rfl, rfl, rfl, rfl, ?_⟩
          unfold Server.computeRspauth Server.applySess Server.computeHa1 digest hashA1 hashA2
          rw [hP.setup.algorithm, hP.setup.realm, base_eq, hu, hpw]
          simp only [qop_asStr]
          cases s.qop <;> by_cases hs : session s.algorithm
          all_goals
            have hs' := hs
            rw [← isSess_iff] at hs'
            simp [colons, hs, hs']

/-! ## C67: challenges from an untrusted peer -/

/-- Finding (C67): a challenge whose parameter value is a single quotation mark makes the user agent
panic, whatever request it was about to authenticate. -/
theorem C67_quote_panics (H : Hash) (c : Client) (orig : Request) (reason cn branch : Str) (rest : List Header) (body : Bytes) :
    createAuthenticatedRequest H c orig
      ⟨401, reason, ⟨⟨"WWW-Authenticate".toList, "Digest realm=\"".toList⟩ :: rest⟩, body⟩ cn branch = .error .panic := by
  unfold createAuthenticatedRequest
  have hg : (Headers.mk (⟨"WWW-Authenticate".toList, "Digest realm=\"".toList⟩ :: rest)).get "WWW-Authenticate".toList
      = some "Digest realm=\"".toList := by
    unfold Headers.get Headers.getHeader
    rw [List.find?_cons, show Header.nameEq ⟨"WWW-Authenticate".toList, "Digest realm=\"".toList⟩ "WWW-Authenticate".toList = true from by decide]
    rfl
  have hp : parseWwwAuthenticate "Digest realm=\"".toList = .error .panic := by decide +kernel
  simp only [show ((401 : Nat) == 407) = false from rfl, Bool.false_eq_true, if_false, hg, hp]

theorem copyWithCseq_error (branch : Str) : ∀ (l : List Header) (done : Bool) (acc : Headers) (e : Fail),
    copyWithCseq branch l done acc = .error e → e = .panic
  | [], done, acc, e, h => by simp [copyWithCseq] at h
  | x :: l, done, acc, e, h => by
    have hpush : ∀ (n v : Str) (d : Bool),
        (match acc.push n v with
          | .error _ => Except.error Fail.panic
          | .ok acc => copyWithCseq branch l d acc) = .error e → e = .panic := by
      intro n v d h
      cases hp : acc.push n v with
      | error e' => rw [hp] at h; cases h; rfl
      | ok acc' => rw [hp] at h; exact copyWithCseq_error branch l d acc' e h
    unfold copyWithCseq at h
    simp only at h
    split at h
    · exact hpush _ _ _ h
    · split at h
      · split at h
        · split at h
          · split at h
            · cases h; rfl
            · exact hpush _ _ _ h
          · exact hpush _ _ _ h
        · exact hpush _ _ _ h
      · exact hpush _ _ _ h

/-- Finding (C67): a request that already has 200 headers makes the user agent panic as soon as the peer
sends any well-formed challenge. -/
theorem C67_full_request_panics (H : Hash) (c : Client) (orig : Request) (resp : Response) (cn branch : Str)
    (hfull : 200 ≤ orig.headers.inner.length) (raw : Str) (ch : Tbl Str Str) (realm nonce : Str)
    (hget : resp.headers.get (if resp.code == 407 then "Proxy-Authenticate".toList else "WWW-Authenticate".toList) = some raw)
    (hp : parseWwwAuthenticate raw = .ok ch) (h1 : ch.get "realm".toList = some realm) (h2 : ch.get "nonce".toList = some nonce) :
    createAuthenticatedRequest H c orig resp cn branch = .error .panic := by
  unfold createAuthenticatedRequest
  simp only [hget, hp, h1, h2]
  cases hc : copyWithCseq branch orig.headers.inner false Headers.empty with
  | error e => rw [copyWithCseq_error _ _ _ _ _ hc]
  | ok hs =>
    have hl := congrArg List.length (copyWithCseq_names branch _ _ _ _ hc)
    simp only [List.length_map, Headers.empty, List.map_nil, List.nil_append] at hl
    simp only
    unfold Headers.push
    rw [if_pos (by simp only [MAX_HEADERS]; omega)]

/-- Finding (C67): so does a request with the largest CSeq number (in a build with overflow checks; a
release build wraps to CSeq 0). -/
theorem C67_cseq_panics : createAuthenticatedRequest Demo.H Demo.bob
    { Demo.orig with headers := ⟨[⟨"CSeq".toList, "4294967295 REGISTER".toList⟩]⟩ }
    ⟨401, [], ⟨[⟨"WWW-Authenticate".toList, Demo.server.challengeValue "n1".toList false⟩]⟩, []⟩ "cn".toList "b".toList
    = .error .panic := by decide +kernel

theorem trim_infix (s : Str) : ∃ a b, s = a ++ trim s ++ b ∧ (∀ c ∈ a, isWs c = true) ∧ ∀ c ∈ b, isWs c = true := by
  obtain ⟨a, b, h, ha, hb, _⟩ := (strips_trim s (trim s)).mpr rfl
  exact ⟨a, b, h, ha, hb⟩

theorem splitAuth_infix : ∀ (s cur : Str) (q : Bool), ∀ p ∈ splitAuthParams s cur q, ∃ a b, cur ++ s = a ++ p ++ b
  | [], cur, q, p, hp => by
    unfold splitAuthParams at hp
    split at hp
    · cases hp
    · rw [List.mem_singleton] at hp
      obtain ⟨a, b, h, _⟩ := trim_infix cur
      subst hp
      exact ⟨a, b, by rw [List.append_nil]; exact h⟩
  | c :: s, cur, q, p, hp => by
    have keep : ∀ q', p ∈ splitAuthParams s (cur ++ [c]) q' → ∃ a b, cur ++ c :: s = a ++ p ++ b := by
      intro q' hp
      obtain ⟨a, b, h⟩ := splitAuth_infix s (cur ++ [c]) q' p hp
      exact ⟨a, b, by rw [← h]; simp⟩
    have later : ∀ q', p ∈ splitAuthParams s [] q' → ∃ a b, cur ++ c :: s = a ++ p ++ b := by
      intro q' hp
      obtain ⟨a, b, h⟩ := splitAuth_infix s [] q' p hp
      exact ⟨cur ++ c :: a, b, by simp only [List.nil_append] at h; rw [h]; simp⟩
    unfold splitAuthParams at hp
    split at hp
    · exact keep _ hp
    · split at hp
      · split at hp
        · exact later _ hp
        · rcases List.mem_cons.mp hp with rfl | hp
          · obtain ⟨a, b, h, _⟩ := trim_infix cur
            exact ⟨a, b ++ c :: s, by conv => lhs; rw [h]
                                      simp⟩
          · exact later _ hp
      · exact keep _ hp

theorem challengeGo_panic : ∀ (ps : List Str) (n : Nat) (acc : Tbl Str Str), challengeGo ps n acc = .error .panic →
    ∃ p ∈ ps, ∃ k w w', p = k ++ '=' :: w ++ '"' :: w' ∧ (∀ c ∈ w ++ w', isWs c = true)
  | [], n, acc, h => by simp [challengeGo] at h
  | p :: ps, n, acc, h => by
    unfold challengeGo at h
    simp only at h
    split at h
    · cases h
    · generalize ht : trimStart (if "Digest".toList.isPrefixOf (trim p) = true then (trim p).drop 6 else trim p) = t at h
      have hpt : ∃ a b, p = a ++ t ++ b ∧ ∀ c ∈ b, isWs c = true := by
        obtain ⟨a, b, h1, _, hb⟩ := trim_infix p
        have hd : ∃ d, trim p = d ++ t := by
          rw [← ht]
          unfold trimStart
          split
          · refine ⟨(trim p).take 6 ++ ((trim p).drop 6).takeWhile isWs, ?_⟩
            rw [List.append_assoc, List.takeWhile_append_dropWhile, List.take_append_drop]
          · exact ⟨(trim p).takeWhile isWs, by rw [List.takeWhile_append_dropWhile]⟩
        obtain ⟨d, hd⟩ := hd
        exact ⟨a ++ d, b, by conv => lhs; rw [h1, hd]
                             simp, hb⟩
      obtain ⟨a, b, hp, hb⟩ := hpt
      split at h
      · obtain ⟨p', hp', rest⟩ := challengeGo_panic ps _ _ h
        exact ⟨p', by simp [hp'], rest⟩
      · rename_i k v hs
        have hs := ((splitOnce_some_iff _ _ _ _).mp hs).1
        cases hu : unquote (trim v) with
        | ok v' =>
          rw [hu] at h
          obtain ⟨p', hp', rest⟩ := challengeGo_panic ps _ _ h
          exact ⟨p', by simp [hp'], rest⟩
        | error e =>
          have hq : trim v = ['"'] := by
            unfold unquote at hu
            split at hu
            · rename_i hq
              split at hu
              · rename_i hl
                cases htv : trim v with
                | nil => rw [htv] at hq; cases hq.1
                | cons x xs =>
                  rw [htv] at hq hl
                  simp only [List.length_cons] at hl
                  have : xs = [] := List.length_eq_zero_iff.mp (by omega)
                  subst this
                  have := hq.1
                  simp only [List.head?_cons, Option.some.injEq] at this
                  rw [this]
              · cases hu
            · cases hu
          obtain ⟨w, w', h1, hw, hw'⟩ := trim_infix v
          rw [hq] at h1
          refine ⟨p, by simp, a ++ k, w, w' ++ b, ?_, ?_⟩
          · rw [hp, hs, h1]; simp
          · intro c hc
            simp only [List.mem_append] at hc
            rcases hc with hc | hc | hc
            · exact hw c hc
            · exact hw' c hc
            · exact hb c hc

/-- C67 (in part): reading a challenge panics only if its text contains a parameter `= "` whose value is
that single quotation mark; any other text is read or refused. -/
theorem C67_parse_panics_only_partial (raw : Str) (h : parseWwwAuthenticate raw = .error .panic) :
    ∃ a w b, raw = a ++ '=' :: w ++ '"' :: b ∧ ∀ c ∈ w, isWs c = true := by
  unfold parseWwwAuthenticate at h
  have hafter : ∀ s r : Str, afterDigest s = some r → ∃ a, s = a ++ r := by
    intro s
    induction s with
    | nil => intro r h; simp [afterDigest] at h
    | cons x s ih =>
      intro r h
      unfold afterDigest at h
      split at h
      · simp only [Option.some.injEq] at h
        exact ⟨(x :: s).take 6, by rw [← h, List.take_append_drop]⟩
      · obtain ⟨a, ha⟩ := ih r h
        exact ⟨x :: a, by rw [ha]; rfl⟩
  split at h
  · cases h
  · rename_i rest hr
    obtain ⟨p, hp, k, w, w', he, hw⟩ := challengeGo_panic _ _ _ h
    obtain ⟨a1, b1, h1, _⟩ := trim_infix raw
    obtain ⟨a2, h2⟩ := hafter _ _ hr
    obtain ⟨a3, b3, h3⟩ := splitAuth_infix _ _ _ _ hp
    have h4 : rest = rest.takeWhile isWs ++ trimStart rest := by
      unfold trimStart; rw [List.takeWhile_append_dropWhile]
    simp only [List.nil_append] at h3
    rw [h3, he] at h4
    refine ⟨a1 ++ a2 ++ rest.takeWhile isWs ++ a3 ++ k, w, w' ++ b3 ++ b1, ?_, fun c hc => hw c (by simp [hc])⟩
    conv => lhs; rw [h1, h2, h4]
    simp

end Siphon.Auth
