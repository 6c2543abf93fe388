import Verif.Auth.LemmasRender
import Verif.Auth.PropsServer
/-! Lemmas about the digest client: what it writes, and how the user agent handles a challenge. -/
set_option linter.unusedSimpArgs false
namespace Siphon.Auth
open Spec HdrSpec

/-! ## Hexadecimal counts -/

theorem hexVal_hexChar : ∀ d, d < 16 → hexVal (hexChar d) = some d := by decide
theorem hexChar_token : ∀ d, d < 16 → isTokenChar (hexChar d) = true := by decide
theorem hexChar_size : ∀ d, d < 16 → (hexChar d).utf8Size = 1 := by decide
theorem hexChar_plus : ∀ d, d < 16 → hexChar d ≠ '+' ∧ hexChar d ≠ '-' := by decide

theorem parseHexDigits_cons (d : Nat) (hd : d < 16) (cs : Str) (acc : Nat) (h : acc * 16 + d ≤ U32_MAX) :
    parseHexDigits (hexChar d :: cs) acc = parseHexDigits cs (acc * 16 + d) := by
  rw [parseHexDigits, hexVal_hexChar d hd]
  simp only
  rw [if_neg (by omega)]

theorem parseHexU32_hex8 (n : Nat) (h : n ≤ U32_MAX) : parseHexU32 (hex8 n) = some n := by
  have h' : n < 4294967296 := by simp only [U32_MAX] at h; omega
  have e : parseHexU32 (hex8 n) = parseHexDigits (hex8 n) 0 := by
    unfold parseHexU32 hex8
    have := hexChar_plus (n / 268435456 % 16) (Nat.mod_lt _ (by decide))
    split
    · rename_i e; simp at e
    · rename_i e; simp at e
    · rename_i e; simp at e
    · rename_i e; simp only [List.cons.injEq] at e; exact absurd e.1 this.1
    · rfl
  rw [e]
  unfold hex8
  have hU : U32_MAX = 4294967295 := rfl
  have l : ∀ x, x % 16 < 16 := fun x => Nat.mod_lt _ (by decide)
  rw [parseHexDigits_cons _ (l _) _ _ (by rw [hU]; omega)]
  rw [parseHexDigits_cons _ (l _) _ _ (by rw [hU]; omega)]
  rw [parseHexDigits_cons _ (l _) _ _ (by rw [hU]; omega)]
  rw [parseHexDigits_cons _ (l _) _ _ (by rw [hU]; omega)]
  rw [parseHexDigits_cons _ (l _) _ _ (by rw [hU]; omega)]
  rw [parseHexDigits_cons _ (l _) _ _ (by rw [hU]; omega)]
  rw [parseHexDigits_cons _ (l _) _ _ (by rw [hU]; omega)]
  rw [parseHexDigits_cons _ (l _) _ _ (by rw [hU]; omega)]
  rw [parseHexDigits]
  simp only [Option.some.injEq]
  omega

theorem hex8_mem {n : Nat} {c : Char} (h : c ∈ hex8 n) : ∃ d, d < 16 ∧ c = hexChar d := by
  unfold hex8 at h
  have l : ∀ x, x % 16 < 16 := fun x => Nat.mod_lt _ (by decide)
  simp only [List.mem_cons, List.not_mem_nil, or_false] at h
  rcases h with h | h | h | h | h | h | h | h <;> exact ⟨_, l _, h⟩

theorem hex8_token (n : Nat) : ∀ c ∈ hex8 n, isTokenChar c = true := by
  intro c hc
  obtain ⟨d, hd, rfl⟩ := hex8_mem hc
  exact hexChar_token d hd

theorem hex8_len (n : Nat) : utf8Len (hex8 n) = 8 := by
  have l : ∀ x, x % 16 < 16 := fun x => Nat.mod_lt _ (by decide)
  simp only [utf8Len, hex8, List.map_cons, List.map_nil, hexChar_size _ (l _), List.sum_cons, List.sum_nil,
    Nat.add_zero, Nat.reduceAdd]

/-! ## Plain text -/

theorem plain_validParam {max : Nat} {s : Str} (h : Plain max s) : validParam s max = true := by
  unfold validParam
  rw [if_neg (by have := h.1; omega)]
  rw [if_neg]
  have hc : ∀ c : Char, isControl c = true → c ∉ s := by
    intro c hc hm
    have := (h.2 c hm).2.2
    rw [hc] at this; cases this
  simp only [Bool.or_eq_true, List.contains_iff_mem, not_or]
  exact ⟨⟨hc _ (by decide), hc _ (by decide)⟩, hc _ (by decide)⟩

theorem plain_mono {a b : Nat} {s : Str} (hab : a ≤ b) (h : Plain a s) : Plain b s := ⟨Nat.le_trans h.1 hab, h.2⟩

theorem token_values {s : Str} (h : ∀ c ∈ s, isTokenChar c = true) :
    ∀ c ∈ s, c ≠ '"' ∧ c ≠ '\\' ∧ isControl c = false := by
  intro c hc
  have := isTokenChar_facts (h c hc)
  exact ⟨this.1, this.2.1, this.2.2.2.2.2.2⟩

theorem good_quoted {n v : Str} {max : Nat} (hn : n ≠ [] ∧ (∀ c ∈ n, isLowerToken c = true) ∧ n.length ≤ 64)
    (hv : Plain max v) : GoodKV ⟨n, v, true⟩ := ⟨hn, hv.2, fun h => by cases h⟩

theorem good_bare {n v : Str} (hn : n ≠ [] ∧ (∀ c ∈ n, isLowerToken c = true) ∧ n.length ≤ 64)
    (hv : v ≠ [] ∧ ∀ c ∈ v, isTokenChar c = true) : GoodKV ⟨n, v, false⟩ :=
  ⟨hn, token_values hv.2, fun _ => hv⟩

theorem alg_token (a : Algorithm) : a.asStr ≠ [] ∧ ∀ c ∈ a.asStr, isTokenChar c = true := by
  cases a <;> decide
theorem alg_len (a : Algorithm) : utf8Len a.asStr ≤ 256 := by cases a <;> decide
theorem qop_token (q : Qop) : q.asStr ≠ [] ∧ ∀ c ∈ q.asStr, isTokenChar c = true := by
  cases q <;> decide
theorem qop_plain (q : Qop) : Plain 256 q.asStr :=
  ⟨by cases q <;> decide, token_values (qop_token q).2⟩
theorem alg_roundtrip (a : Algorithm) : Algorithm.parse a.asStr = some a := by cases a <;> decide
theorem qop_roundtrip (q : Qop) : Qop.parse q.asStr = some q := by cases q <;> decide

/-! ## What the client writes -/

/-- The digest the client computes is the RFC's. -/
def Client.response (H : Hash) (c : Client) (m : Method) (uri realm nonce : Str) (alg : Algorithm) (q : Qop)
    (body : Bytes) (cnonce : Str) : Str :=
  digest H alg q c.username realm c.password nonce (hex8 (min (c.nc + 1) U32_MAX)) cnonce m.asStr uri body

def credentialKVs (c : Client) (uri realm nonce : Str) (alg : Algorithm) (q : Qop) (opq cnonce resp : Str) :
    List KV :=
  [⟨"username".toList, c.username, true⟩, ⟨"realm".toList, realm, true⟩, ⟨"nonce".toList, nonce, true⟩,
   ⟨"uri".toList, uri, true⟩, ⟨"response".toList, resp, true⟩, ⟨"algorithm".toList, alg.asStr, false⟩,
   ⟨"qop".toList, q.asStr, false⟩, ⟨"nc".toList, hex8 (min (c.nc + 1) U32_MAX), false⟩,
   ⟨"cnonce".toList, cnonce, true⟩, ⟨"opaque".toList, opq, true⟩]

theorem append_right {a b c d : Str} (h : a = c) (h' : b = d) : a ++ b = c ++ d := by rw [h, h']

theorem generate_text (H : Hash) (c : Client) (m : Method) (uri realm nonce : Str) (alg : Algorithm) (q : Qop)
    (opq : Str) (body : Bytes) (cnonce : Str) :
    c.generateAuthorization H m uri realm nonce alg (some q) (some opq) body cnonce =
      ("Digest".toList ++ ' ' :: joinCommas (spaced (credentialKVs c uri realm nonce alg q opq cnonce
        (c.response H m uri realm nonce alg q body cnonce))), { c with nc := min (c.nc + 1) U32_MAX }) := by
  have key : ∀ R N A Q : Str,
      "Digest username=\"".toList ++ c.username ++ "\", realm=\"".toList ++ realm
        ++ "\", nonce=\"".toList ++ nonce ++ "\", uri=\"".toList ++ uri ++ "\", response=\"".toList
        ++ R ++ "\", algorithm=".toList ++ A ++ ", qop=".toList ++ Q ++ ", nc=".toList ++ N ++ ", cnonce=\"".toList
        ++ cnonce ++ "\"".toList ++ ", opaque=\"".toList ++ opq ++ "\"".toList =
      "Digest".toList ++ ' ' :: joinCommas (spaced
        [⟨"username".toList, c.username, true⟩, ⟨"realm".toList, realm, true⟩, ⟨"nonce".toList, nonce, true⟩,
         ⟨"uri".toList, uri, true⟩, ⟨"response".toList, R, true⟩, ⟨"algorithm".toList, A, false⟩,
         ⟨"qop".toList, Q, false⟩, ⟨"nc".toList, N, false⟩,
         ⟨"cnonce".toList, cnonce, true⟩, ⟨"opaque".toList, opq, true⟩]) := by
    intro R N A Q
    simp only [spaced, List.map_cons, List.map_nil, joinCommas, KV.text, if_true, Bool.false_eq_true, if_false,
      List.append_assoc, List.cons_append, List.nil_append]
    rfl
  unfold Client.generateAuthorization credentialKVs Client.response digest hashA1 hashA2
  rw [← key]
  rw [base_eq]
  simp only [qop_asStr]
  cases q <;> by_cases hs : session alg
  all_goals
    have hs' := hs
    rw [← isSess_iff] at hs'
    simp only [colons, hs, hs', if_true, if_false, Bool.false_eq_true, List.append_assoc, List.cons_append,
      List.nil_append]

theorem credentials_good {c : Client} {uri realm nonce opq cnonce resp : Str} {alg : Algorithm} {q : Qop}
    (hu : Plain 256 c.username) (hr : Plain 256 realm) (hn : Plain 256 nonce) (huri : Plain 256 uri)
    (ho : Plain 256 opq) (hc : Plain 256 cnonce) (hresp : Plain 256 resp) :
    (∀ k ∈ credentialKVs c uri realm nonce alg q opq cnonce resp, GoodKV k) ∧
    ∀ k ∈ credentialKVs c uri realm nonce alg q opq cnonce resp, utf8Len k.value ≤ 256 := by
  have hex : hex8 (min (c.nc + 1) U32_MAX) ≠ [] ∧ ∀ x ∈ hex8 (min (c.nc + 1) U32_MAX), isTokenChar x = true :=
    ⟨by simp [hex8], hex8_token _⟩
  constructor
  · intro k hk
    simp only [credentialKVs, List.mem_cons, List.not_mem_nil, or_false] at hk
    rcases hk with rfl | rfl | rfl | rfl | rfl | rfl | rfl | rfl | rfl | rfl
    · exact good_quoted (by decide) hu
    · exact good_quoted (by decide) hr
    · exact good_quoted (by decide) hn
    · exact good_quoted (by decide) huri
    · exact good_quoted (by decide) hresp
    · exact good_bare (by decide) (alg_token alg)
    · exact good_bare (by decide) (qop_token q)
    · exact good_bare (by decide) hex
    · exact good_quoted (by decide) hc
    · exact good_quoted (by decide) ho
  · intro k hk
    simp only [credentialKVs, List.mem_cons, List.not_mem_nil, or_false] at hk
    rcases hk with rfl | rfl | rfl | rfl | rfl | rfl | rfl | rfl | rfl | rfl
    · exact hu.1
    · exact hr.1
    · exact hn.1
    · exact huri.1
    · exact hresp.1
    · exact alg_len alg
    · exact (qop_plain q).1
    · show utf8Len (hex8 _) ≤ 256
      rw [hex8_len]; decide
    · exact hc.1
    · exact ho.1

theorem credentialKVs_nodup (c : Client) (uri realm nonce : Str) (alg : Algorithm) (q : Qop)
    (opq cnonce resp : Str) :
    ((credentialKVs c uri realm nonce alg q opq cnonce resp).map KV.name).Nodup := by
  have : (credentialKVs c uri realm nonce alg q opq cnonce resp).map KV.name =
      ["username".toList, "realm".toList, "nonce".toList, "uri".toList, "response".toList, "algorithm".toList,
       "qop".toList, "nc".toList, "cnonce".toList, "opaque".toList] := rfl
  rw [this]; decide

/-- One request with credentials written by the client is accepted. -/
theorem accept_one {H : Hash} (hH : ∀ f b, Plain 256 (H f b)) {s s1 : Server} {c c' : Client} {req : Request}
    {hs : Headers} {now : Nat} {ν cn auth : Str} {n : Nonce}
    (hauth : c.generateAuthorization H req.method req.uri s.realm ν s.algorithm (some s.qop) (some s.opaqueTok)
      req.body cn = (auth, c'))
    (hget : hs.get s.credentialsHeader = some auth)
    (hstore : s.store c.username s.realm = some c.password)
    (hu : Plain 256 c.username) (hr : Plain 256 s.realm) (hν : Plain 128 ν) (huri : Plain 256 req.uri)
    (ho : Plain 256 s.opaqueTok) (hcn : Plain 256 cn)
    (hbody : req.body.length ≤ MAX_BODY_SIZE) (hlim : s.checkLimit hs now = (true, s1))
    (got : s.mgr.nonces.get ν = some n) (hvalid : n.isValid now = true)
    (hage : n.lastNc = 0 ∨ now - n.lastUsed ≤ s.mgr.maxAge) (hlt : n.lastNc < c.nc + 1)
    (hjump : c.nc + 1 ≤ n.lastNc + 1000) (hmax : c.nc + 1 ≤ 1000000) :
    c' = { c with nc := c.nc + 1 } ∧
    s.verify H req hs now = (.ok true, { s1 with mgr := { s.mgr with nonces := s.mgr.nonces.update ν (fun _ =>
      { n with lastNc := c.nc + 1, lastHash := some (H .sha256 (requestText req.method req.uri req.body)), lastUsed := now }) } }) := by
  have hle : c.nc + 1 ≤ U32_MAX := Nat.le_trans hmax (by decide)
  have hmin : min (c.nc + 1) U32_MAX = c.nc + 1 := Nat.min_eq_left hle
  rw [generate_text] at hauth
  simp only [Prod.mk.injEq] at hauth
  obtain ⟨rfl, rfl⟩ := hauth
  refine ⟨by rw [hmin], ?_⟩
  have hresp : Plain 256 (c.response H req.method req.uri s.realm ν s.algorithm s.qop req.body cn) := hH _ _
  obtain ⟨g1, g2⟩ := credentials_good (c := c) (alg := s.algorithm) (q := s.qop) hu hr (plain_mono (by decide) hν) huri ho hcn hresp
  obtain ⟨ah, hp, hsch, hpar, _⟩ := parse_render g1 (credentialKVs_nodup _ _ _ _ _ _ _ _ _)
    (by simp [credentialKVs]) (by simp [credentialKVs]) g2
  simp only [credentialKVs, List.forall_mem_cons, hmin] at hpar
  obtain ⟨p1, p2, p3, p4, p5, p6, p7, p8, p9, p10, _⟩ := hpar
  have read : ∃ raw, Read s req hs (DigestParams.mk c.username s.realm ν req.uri
      (c.response H req.method req.uri s.realm ν s.algorithm s.qop req.body cn)
      (some (hex8 (c.nc + 1))) (some cn) (some s.qop)) raw ah (hex8 (c.nc + 1)) cn := by
    refine ⟨_, hget, hp, by rw [hsch]; decide, p1, p2, p3, p4, p5, ?_, p10, ?_, p8, p9, ?_, ?_, rfl⟩
    · rw [p6]; exact alg_roundtrip _
    · rw [p7]; exact qop_roundtrip _
    · simp only [Bool.and_eq_true]
      exact ⟨⟨⟨⟨plain_validParam hu, plain_validParam hr⟩, plain_validParam hν⟩,
        plain_validParam (plain_mono (by decide) huri)⟩, plain_validParam (plain_mono (by decide) hresp)⟩
    · simp only [Bool.and_eq_true, validOptParam]
      refine ⟨⟨plain_validParam ⟨?_, token_values (hex8_token _)⟩, plain_validParam hcn⟩, plain_validParam ho⟩
      rw [hex8_len]; decide
  obtain ⟨raw, read⟩ := read
  have hv : n.validateNc H (c.nc + 1) req.method req.uri req.body s.mgr.maxAge now =
      (true, Nonce.mk n.createdAt n.ttl (c.nc + 1) (some (H .sha256 (requestText req.method req.uri req.body))) now) := by
    unfold Nonce.validateNc
    rw [if_neg (by omega)]
    simp only
    rw [if_pos (by omega)]
  refine verify_of hlim hbody read (parseHexU32_hex8 _ hle) hmax (Nat.le_min.mpr ⟨hjump, hle⟩) got hvalid hv hstore ?_
  show c.response H req.method req.uri s.realm ν s.algorithm s.qop req.body cn = _
  unfold Client.response
  rw [hmin]

/-! ## The challenge -/

def challengeKVs (s : Server) (ν : Str) (stale : Bool) : List KV :=
  [⟨"realm".toList, s.realm, true⟩, ⟨"nonce".toList, ν, true⟩, ⟨"algorithm".toList, s.algorithm.asStr, false⟩,
   ⟨"qop".toList, s.qop.asStr, true⟩, ⟨"opaque".toList, s.opaqueTok, true⟩] ++
  (if stale then [⟨"stale".toList, "true".toList, false⟩] else [])

theorem challenge_text (s : Server) (ν : Str) (stale : Bool) :
    s.challengeValue ν stale = "Digest".toList ++ ' ' :: joinCommas (spaced (challengeKVs s ν stale)) := by
  unfold Server.challengeValue challengeKVs
  cases stale
  · simp only [spaced, List.map_cons, List.map_nil, joinCommas, KV.text, if_true, Bool.false_eq_true, if_false,
      List.append_assoc, List.cons_append, List.nil_append, List.append_nil]
    rfl
  · simp only [spaced, List.map_cons, List.map_nil, joinCommas, KV.text, if_true, Bool.false_eq_true, if_false,
      List.append_assoc, List.cons_append, List.nil_append, List.append_nil]
    rfl

theorem challenge_read {s : Server} {ν : Str} {stale : Bool} (hr : Plain 256 s.realm) (hν : Plain 128 ν)
    (ho : Plain 256 s.opaqueTok) :
    ∃ ch, parseWwwAuthenticate (s.challengeValue ν stale) = .ok ch ∧
      ch.get "realm".toList = some s.realm ∧ ch.get "nonce".toList = some ν ∧
      ch.get "algorithm".toList = some s.algorithm.asStr ∧ ch.get "qop".toList = some s.qop.asStr ∧
      ch.get "opaque".toList = some s.opaqueTok := by
  have good : ∀ k ∈ challengeKVs s ν stale, GoodKV k := by
    have hst : ∀ k ∈ (if stale then [(⟨"stale".toList, "true".toList, false⟩ : KV)] else []), GoodKV k := by
      intro k hk
      split at hk
      · simp only [List.mem_singleton] at hk
        subst hk
        exact good_bare (by decide) (by decide)
      · simp at hk
    intro k hk
    simp only [challengeKVs, List.mem_append, List.mem_cons, List.not_mem_nil, or_false] at hk
    rcases hk with (rfl | rfl | rfl | rfl | rfl) | hk
    · exact good_quoted (by decide) hr
    · exact good_quoted (by decide) hν
    · exact good_bare (by decide) (alg_token _)
    · exact good_quoted (by decide) (qop_plain _)
    · exact good_quoted (by decide) ho
    · exact hst k hk
  have nd : ((challengeKVs s ν stale).map KV.name).Nodup := by
    have : (challengeKVs s ν stale).map KV.name = ["realm".toList, "nonce".toList, "algorithm".toList, "qop".toList,
        "opaque".toList] ++ (if stale then ["stale".toList] else []) := by
      unfold challengeKVs; cases stale <;> rfl
    rw [this]; cases stale <;> decide
  have hm : ∀ k ∈ challengeKVs s ν stale, (tableOf (challengeKVs s ν stale) []).get k.name = some k.value :=
    fun k hk => tableOf_mem nd hk []
  refine ⟨_, by rw [challenge_text]; exact uac_parse_render good (by simp [challengeKVs]) (by cases stale <;> simp [challengeKVs]), ?_⟩
  have hl : ∀ k ∈ [(⟨"realm".toList, s.realm, true⟩ : KV), ⟨"nonce".toList, ν, true⟩,
      ⟨"algorithm".toList, s.algorithm.asStr, false⟩, ⟨"qop".toList, s.qop.asStr, true⟩,
      ⟨"opaque".toList, s.opaqueTok, true⟩],
      (tableOf (challengeKVs s ν stale) []).get k.name = some k.value := by
    intro k hk
    exact hm k (by unfold challengeKVs; exact List.mem_append_left _ hk)
  simp only [List.forall_mem_cons] at hl
  obtain ⟨h1, h2, h3, h4, h5, _⟩ := hl
  exact ⟨h1, h2, h3, h4, h5⟩

theorem chosenAlgorithm_own (a : Algorithm) : chosenAlgorithm (some a.asStr) = a := by cases a <;> decide
theorem chosenQop_own (q : Qop) : chosenQop (some q.asStr) = some q := by cases q <;> decide

theorem copyHeader_head {src d r : Headers} {n : Str} {f : Str → Str} {a : Header} {l : List Header}
    (hd : d.inner = a :: l) (h : copyHeader src n f (.ok d) = .ok r) : ∃ l', r.inner = a :: l' := by
  unfold copyHeader at h
  simp only at h
  split at h
  · cases h; exact ⟨l, hd⟩
  · have := C24_push _ _ _ _ h
    rw [this, hd]; exact ⟨_, rfl⟩

theorem copyHeader_error {src r : Headers} {n : Str} {f : Str → Str} {d : Except HeaderError Headers}
    (h : copyHeader src n f d = .ok r) : ∃ x, d = .ok x := by
  unfold copyHeader at h
  cases d with
  | error e => simp at h
  | ok x => exact ⟨x, rfl⟩

theorem response_new {code : Nat} {reason : Str} {hs : Headers} {body : Bytes} {r : Response}
    (h : Response.new code reason hs body = .ok r) : r.code = code ∧ r.headers = hs := by
  unfold Response.new at h
  split at h
  · cases h
  · split at h
    · cases h
    · split at h
      · cases h
      · cases h; exact ⟨rfl, rfl⟩

/-- The response to a refused request carries the challenge, and the status says which kind. -/
theorem challenge_response {s s' : Server} {order : List Str → List Str} {req : Request} {stale : Bool}
    {ν tag : Str} {now : Nat} {resp : Response}
    (h : s.challenge order req stale ν tag now = (.ok resp, s')) :
    resp.code = (if s.proxyAuth then 407 else 401) ∧
    resp.headers.get s.challengeHeader = some (s.challengeValue ν stale) := by
  unfold Server.challenge at h
  simp only at h
  have q1 : Server.challengeHeader { s with mgr := s.mgr.generate order ν now } = s.challengeHeader := rfl
  have q2 : Server.challengeValue { s with mgr := s.mgr.generate order ν now } ν stale = s.challengeValue ν stale := rfl
  rw [q1, q2] at h
  generalize s.challengeHeader = N at *
  generalize s.challengeValue ν stale = V at *
  clear q1 q2
  split at h
  · simp at h
  · rename_i h0 hp
    have e0 := C24_push _ _ _ _ hp
    simp only [Headers.empty, List.nil_append] at e0
    split at h
    · simp at h
    · rename_i hh hc
      obtain ⟨x5, e5⟩ := copyHeader_error hc
      obtain ⟨x4, e4⟩ := copyHeader_error e5
      obtain ⟨x3, e3⟩ := copyHeader_error e4
      obtain ⟨x2, e2⟩ := copyHeader_error e3
      rw [e5] at hc
      rw [e4] at e5
      rw [e3] at e4
      rw [e2] at e3
      obtain ⟨l1, f1⟩ := copyHeader_head e0 e2
      obtain ⟨l2, f2⟩ := copyHeader_head f1 e3
      obtain ⟨l3, f3⟩ := copyHeader_head f2 e4
      obtain ⟨l4, f4⟩ := copyHeader_head f3 e5
      obtain ⟨l5, f5⟩ := copyHeader_head f4 hc
      split at h
      · simp at h
      · rename_i r hr
        simp only [Prod.mk.injEq, Except.ok.injEq] at h
        have hr' := h.1
        subst hr'
        obtain ⟨q3, q4⟩ := response_new hr
        refine ⟨q3, ?_⟩
        unfold Headers.get Headers.getHeader
        rw [q4, f5, List.find?_cons]
        have : Header.nameEq ⟨N, V⟩ N = true := by simp [Header.nameEq, eqIgnoreCase]
        rw [this]
        rfl

/-! ## The new request -/

theorem copyWithCseq_names (branch : Str) : ∀ (l : List Header) (done : Bool) (acc r : Headers),
    copyWithCseq branch l done acc = .ok r → r.inner.map Header.name = acc.inner.map Header.name ++ l.map Header.name
  | [], done, acc, r, h => by
    simp only [copyWithCseq, Except.ok.injEq] at h
    subst h; simp
  | x :: l, done, acc, r, h => by
    have hpush : ∀ (n v : Str) (d : Bool), n = x.name →
        (match acc.push n v with
          | .error _ => Except.error Fail.panic
          | .ok acc => copyWithCseq branch l d acc) = .ok r →
        r.inner.map Header.name = acc.inner.map Header.name ++ (x :: l).map Header.name := by
      intro n v d hn h
      cases hp : acc.push n v with
      | error e => rw [hp] at h; simp at h
      | ok acc' =>
        rw [hp] at h
        have := copyWithCseq_names branch l d acc' r h
        rw [this, C24_push _ _ _ _ hp]
        simp [hn]
    unfold copyWithCseq at h
    simp only at h
    split at h
    · rename_i hv; exact hpush _ _ _ hv.symm h
    · split at h
      · rename_i hc
        split at h
        · split at h
          · split at h
            · cases h
            · exact hpush _ _ _ hc.1.symm h
          · exact hpush _ _ _ rfl h
        · exact hpush _ _ _ rfl h
      · exact hpush _ _ _ rfl h

/-- What the user agent sends after a challenge of this server. -/
theorem create_request {H : Hash} {c c' : Client} {orig r : Request} {resp : Response} {cn branch : Str}
    {s : Server} {ν : Str} {stale : Bool}
    (hr : Plain 256 s.realm) (hν : Plain 128 ν) (ho : Plain 256 s.opaqueTok)
    (hcode : resp.code = (if s.proxyAuth then 407 else 401))
    (hch : resp.headers.get s.challengeHeader = some (s.challengeValue ν stale))
    (hno : ∀ h ∈ orig.headers.inner, ¬ SameName h.name s.credentialsHeader)
    (h : createAuthenticatedRequest H c orig resp cn branch = .ok (r, c')) :
    r.method = orig.method ∧ r.uri = orig.uri ∧ r.body = orig.body ∧ r.body.length ≤ MAX_BODY_SIZE ∧
    ∃ auth, c.generateAuthorization H r.method r.uri s.realm ν s.algorithm (some s.qop) (some s.opaqueTok)
        r.body cn = (auth, c') ∧ r.headers.get s.credentialsHeader = some auth := by
  obtain ⟨ch, hp, g1, g2, g3, g4, g5⟩ := challenge_read (stale := stale) hr hν ho
  have hproxy : (resp.code == 407) = s.proxyAuth := by rw [hcode]; cases s.proxyAuth <;> rfl
  have hname : (if s.proxyAuth then "Proxy-Authenticate".toList else "WWW-Authenticate".toList) = s.challengeHeader := rfl
  have hcname : (if s.proxyAuth then "Proxy-Authorization".toList else "Authorization".toList) = s.credentialsHeader := rfl
  unfold createAuthenticatedRequest at h
  simp only [hproxy, hname, hcname, hch, hp, g1, g2, g3, g4, g5, chosenAlgorithm_own, chosenQop_own] at h
  generalize hg : c.generateAuthorization H orig.method orig.uri s.realm ν s.algorithm (some s.qop) (some s.opaqueTok) orig.body cn = ga at h
  obtain ⟨auth, c1⟩ := ga
  simp only at h
  split at h
  · cases h
  · rename_i hs hcopy
    split at h
    · cases h
    · rename_i hs' hpush
      split at h
      · cases h
      · rename_i r' hnew
        simp only [Except.ok.injEq, Prod.mk.injEq] at h
        obtain ⟨rfl, rfl⟩ := h
        have hb : orig.body.length ≤ MAX_MSG_BODY ∧ r' = Request.mk orig.method orig.uri hs' orig.body := by
          unfold Request.new at hnew
          split at hnew
          · cases hnew
          · cases hnew; exact ⟨by omega, rfl⟩
        obtain ⟨hb, rfl⟩ := hb
        refine ⟨rfl, rfl, rfl, hb, auth, hg, ?_⟩
        have hn := copyWithCseq_names branch _ _ _ _ hcopy
        have hi := C24_push _ _ _ _ hpush
        unfold Headers.get Headers.getHeader
        simp only [hi, List.find?_append]
        have hnone : hs.inner.find? (·.nameEq s.credentialsHeader) = none := by
          rw [List.find?_eq_none]
          intro x hx
          rw [nameEq_iff]
          have : x.name ∈ hs.inner.map Header.name := List.mem_map_of_mem hx
          rw [hn] at this
          simp only [Headers.empty, List.map_nil, List.nil_append, List.mem_map] at this
          obtain ⟨y, hy, e⟩ := this
          rw [← e]
          exact hno y hy
        rw [hnone]
        have : Header.nameEq ⟨s.credentialsHeader, auth⟩ s.credentialsHeader = true := by
          simp [Header.nameEq, eqIgnoreCase]
        simp [this]

/-! ## Operations about other nonces -/

theorem prepareDigest_other {H : Hash} {s : Server} {req : Request} {hs : Headers} {now : Nat} {ν : Str}
    (h : ¬ Presents s.proxyAuth hs "nonce" ν) :
    (s.prepareDigest H req hs now).2.mgr.nonces.get ν = s.mgr.nonces.get ν ∧
    (s.prepareDigest H req hs now).2.mgr.nonces.length = s.mgr.nonces.length := by
  unfold Server.prepareDigest
  obtain ⟨hsame, hmgr⟩ := checkLimit_same s hs now
  generalize s.checkLimit hs now = cl at hsame hmgr
  obtain ⟨adm, s1⟩ := cl
  simp only at hsame hmgr
  have base : s1.mgr.nonces.get ν = s.mgr.nonces.get ν ∧ s1.mgr.nonces.length = s.mgr.nonces.length := by
    rw [hmgr]; exact ⟨rfl, rfl⟩
  split
  · exact ⟨rfl, rfl⟩
  · simp only
    split
    · exact base
    · rw [readCredentials_same hsame]
      cases hrc : s.readCredentials req hs with
      | error e => exact base
      | ok o =>
        cases o with
        | none => exact base
        | some p =>
          obtain ⟨raw, ah, nct, cn, hr⟩ := (readCredentials_iff s req hs p).mp hrc
          have hne : p.nonce ≠ ν := by
            intro e
            apply h
            rw [← e]
            exact (presentsOf hr "nonce" _ (by decide)).mpr hr.nonce
          simp only
          have key : ∀ nc, (s1.mgr.verifyWithNc H p.nonce nc req.method req.uri req.body now).2.nonces.get ν
                = s.mgr.nonces.get ν ∧
              (s1.mgr.verifyWithNc H p.nonce nc req.method req.uri req.body now).2.nonces.length
                = s.mgr.nonces.length := by
            intro nc
            unfold NonceMgr.verifyWithNc
            rw [hmgr]
            split
            · exact ⟨rfl, rfl⟩
            · split
              · exact ⟨rfl, rfl⟩
              · rename_i n _ _
                generalize n.validateNc H nc req.method req.uri req.body s.mgr.maxAge now = vn
                obtain ⟨ok, n'⟩ := vn
                simp only
                exact ⟨Tbl.get_update_ne _ _ (Ne.symm hne), Tbl.length_update _ _ _⟩
          split
          · exact base
          · split
            · exact base
            · split
              · exact base
              · split
                · exact base
                · split
                  · exact key _
                  · exact key _

theorem generate_room {m : NonceMgr} {order : List Str → List Str} {value ν : Str} {now : Nat}
    (hroom : m.nonces.length < m.maxNonces) (hne : value ≠ ν) :
    (m.generate order value now).nonces.get ν = m.nonces.get ν ∧
    (m.generate order value now).nonces.length ≤ m.nonces.length + 1 := by
  unfold NonceMgr.generate
  rw [if_neg (by omega)]
  simp only
  exact ⟨Tbl.get_insert_ne _ _ (Ne.symm hne), Tbl.length_insert_le _ _ _⟩

end Siphon.Auth
