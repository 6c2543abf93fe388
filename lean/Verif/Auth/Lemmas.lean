import Verif.Auth.LemmasText
import Verif.RateLimit.Lemmas
/-! Lemmas about the authenticator: what an accepted request satisfied, what each operation does to
the nonce table. -/
set_option linter.unusedSimpArgs false
namespace Siphon.Auth
open Spec HdrSpec

/-! ## Fixed fields -/

/-- everything but the nonce table and the rate limiter is the same -/
structure SameSetup (s s' : Server) : Prop where
  realm : s'.realm = s.realm
  algorithm : s'.algorithm = s.algorithm
  qop : s'.qop = s.qop
  store : s'.store = s.store
  proxyAuth : s'.proxyAuth = s.proxyAuth
  opaqueTok : s'.opaqueTok = s.opaqueTok
  ttl : s'.mgr.ttl = s.mgr.ttl
  maxNonces : s'.mgr.maxNonces = s.mgr.maxNonces
  maxAge : s'.mgr.maxAge = s.mgr.maxAge

theorem SameSetup.refl (s : Server) : SameSetup s s := ⟨rfl, rfl, rfl, rfl, rfl, rfl, rfl, rfl, rfl⟩

theorem SameSetup.trans {a b c : Server} (h : SameSetup a b) (h' : SameSetup b c) : SameSetup a c :=
  ⟨h'.realm.trans h.realm, h'.algorithm.trans h.algorithm, h'.qop.trans h.qop, h'.store.trans h.store,
   h'.proxyAuth.trans h.proxyAuth, h'.opaqueTok.trans h.opaqueTok, h'.ttl.trans h.ttl,
   h'.maxNonces.trans h.maxNonces, h'.maxAge.trans h.maxAge⟩

theorem checkLimit_same (s : Server) (hs : Headers) (now : Nat) :
    SameSetup s (s.checkLimit hs now).2 ∧ (s.checkLimit hs now).2.mgr = s.mgr := by
  unfold Server.checkLimit
  split
  · exact ⟨.refl s, rfl⟩
  · split
    · exact ⟨.refl s, rfl⟩
    · exact ⟨⟨rfl, rfl, rfl, rfl, rfl, rfl, rfl, rfl, rfl⟩, rfl⟩

theorem readCredentials_same {s s' : Server} (h : SameSetup s s') (req : Request) (hs : Headers) :
    s'.readCredentials req hs = s.readCredentials req hs := by
  unfold Server.readCredentials Server.credentialsHeader
  rw [h.proxyAuth, h.algorithm, h.realm, h.opaqueTok, h.qop]

/-! ## Reading the credentials -/

/-- What reading the credentials successfully means. -/
structure Read (s : Server) (req : Request) (hs : Headers) (p : DigestParams) (raw : Str)
    (ah : AuthHeader) (nct cn : Str) : Prop where
  got : hs.get s.credentialsHeader = some raw
  parsed : parseAuthorization raw = some ah
  scheme : eqIgnoreCase ah.scheme "Digest".toList = true
  username : ah.param "username".toList = some p.username
  realm : ah.param "realm".toList = some s.realm
  nonce : ah.param "nonce".toList = some p.nonce
  uri : ah.param "uri".toList = some req.uri
  response : ah.param "response".toList = some p.response
  algorithm : namedAlgorithm s.algorithm (ah.param "algorithm".toList) = some s.algorithm
  opq : ah.param "opaque".toList = some s.opaqueTok
  qop : (ah.param "qop".toList).bind Qop.parse = some s.qop
  nc : ah.param "nc".toList = some nct
  cnonce : ah.param "cnonce".toList = some cn
  lens : (validParam p.username MAX_PARAM_USERNAME_LEN && validParam s.realm MAX_PARAM_REALM_LEN
        && validParam p.nonce MAX_PARAM_NONCE_LEN && validParam req.uri MAX_PARAM_URI_LEN
        && validParam p.response MAX_PARAM_RESPONSE_LEN) = true
  lens' : (validOptParam (some nct) MAX_PARAM_NC_LEN && validOptParam (some cn) MAX_PARAM_CNONCE_LEN
          && validOptParam (some s.opaqueTok) MAX_PARAM_OPAQUE_LEN) = true
  eq : p = { username := p.username, realm := s.realm, nonce := p.nonce, uri := req.uri,
             response := p.response, ncRaw := some nct, cnonce := some cn, qop := some s.qop }

theorem readCredentials_iff (s : Server) (req : Request) (hs : Headers) (p : DigestParams) :
    s.readCredentials req hs = .ok (some p) ↔ ∃ raw ah nct cn, Read s req hs p raw ah nct cn := by
  constructor
  · intro h
    unfold Server.readCredentials at h
    split at h
    · cases h
    · rename_i raw hraw
      split at h
      · cases h
      · rename_i ah hah
        split at h
        · cases h
        · rename_i hsch
          split at h
          · rename_i username realm nonce uri response h1 h2 h3 h4 h5
            split at h; · cases h
            rename_i hl
            split at h; · cases h
            rename_i halg
            simp only at h
            split at h; · cases h
            rename_i hl'
            split at h; · cases h
            rename_i hrealm
            split at h; · cases h
            rename_i huri
            split at h; · cases h
            rename_i hopq
            split at h; · cases h
            rename_i hqop
            split at h; · cases h
            rename_i hnn
            simp only [Except.ok.injEq, Option.some.injEq] at h
            cases hnc : ah.param "nc".toList with
            | none => exact absurd (Or.inl hnc) hnn
            | some nct =>
              cases hcn : ah.param "cnonce".toList with
              | none => exact absurd (Or.inr hcn) hnn
              | some cn =>
                have e1 : realm = s.realm := by simpa using hrealm
                have e2 : uri = req.uri := by simpa using huri
                have e3 : ah.param "opaque".toList = some s.opaqueTok := by simpa using hopq
                have e4 : (ah.param "qop".toList).bind Qop.parse = some s.qop := by simpa using hqop
                subst e1 e2
                rw [hnc, hcn, e3] at hl'
                rw [hnc, hcn, e4] at h
                subst h
                exact ⟨raw, ah, nct, cn, ⟨hraw, hah, by simpa using hsch, h1, h2, h3, h4, h5,
                  by simpa using halg, e3, e4, hnc, hcn, by simpa using hl, by simpa using hl', rfl⟩⟩
          · cases h
  · rintro ⟨raw, ah, nct, cn, h⟩
    unfold Server.readCredentials
    simp only [h.got, h.parsed, h.scheme, h.username, h.realm, h.nonce, h.uri, h.response, h.algorithm,
      h.opq, h.qop, h.nc, h.cnonce, h.lens, h.lens', Bool.not_true, Bool.false_eq_true, if_false,
      ne_eq, not_true_eq_false, reduceCtorEq, or_self]
    rw [← h.eq]

/-! ## `prepare_digest` -/

theorem validateNc_true {H : Hash} {n n' : Nonce} {nc : Nat} {m : Method} {uri : Str} {body : Bytes}
    {maxAge now : Nat} (h : n.validateNc H nc m uri body maxAge now = (true, n')) :
    (n.lastNc = 0 ∨ now - n.lastUsed ≤ maxAge) ∧ n'.createdAt = n.createdAt ∧ n'.ttl = n.ttl ∧
    n'.lastUsed = now ∧ n'.lastNc = nc ∧ n'.lastHash = some (H .sha256 (requestText m uri body)) ∧
    (n.lastNc < nc ∨ n.lastNc = nc ∧
      (n.lastHash = none ∨ n.lastHash = some (H .sha256 (requestText m uri body)))) := by
  unfold Nonce.validateNc at h
  split at h
  · simp at h
  · rename_i hw
    have hw' : n.lastNc = 0 ∨ now - n.lastUsed ≤ maxAge := by omega
    simp only at h
    split at h
    · rename_i hgt
      simp only [Prod.mk.injEq, true_and] at h
      subst h
      exact ⟨hw', rfl, rfl, rfl, rfl, rfl, Or.inl hgt⟩
    · split at h
      · rename_i heq
        split at h
        · rename_i last hlast
          split at h
          · rename_i hl
            simp only [Prod.mk.injEq, true_and] at h
            subst h
            exact ⟨hw', rfl, rfl, rfl, heq.symm, by simp [hlast, hl], Or.inr ⟨heq.symm, Or.inr (by rw [hlast, hl])⟩⟩
          · simp at h
        · rename_i hlast
          simp only [Prod.mk.injEq, true_and] at h
          subst h
          exact ⟨hw', rfl, rfl, rfl, heq.symm, rfl, Or.inr ⟨heq.symm, Or.inl hlast⟩⟩
      · simp at h

theorem validateNc_false {H : Hash} {n n' : Nonce} {nc : Nat} {m : Method} {uri : Str} {body : Bytes}
    {maxAge now : Nat} (h : n.validateNc H nc m uri body maxAge now = (false, n')) : n' = n := by
  unfold Nonce.validateNc at h
  split at h
  · simpa using h.symm
  · simp only at h
    split at h
    · simp at h
    · split at h
      · split at h
        · split at h
          · simp at h
          · simpa using h.symm
        · simp at h
      · simpa using h.symm

/-- What one call of `prepare_digest` may do to the nonce table. -/
inductive Effect (H : Hash) (m m' : NonceMgr) : Prop
  | same : m' = m → Effect H m m'
  | used (k : Str) (n n' : Nonce) (nc : Nat) (meth : Method) (uri : Str) (body : Bytes) (now : Nat) :
      m.nonces.get k = some n → n.isValid now = true →
      n.validateNc H nc meth uri body m.maxAge now = (true, n') →
      m' = { m with nonces := m.nonces.update k (fun _ => n') } → Effect H m m'

theorem update_same (t : Tbl Str Nonce) (k : Str) (n : Nonce) (h : t.get k = some n) (hn : t.keys.Nodup) :
    t.update k (fun _ => n) = t := by
  induction t with
  | nil => rfl
  | cons p t ih =>
    obtain ⟨k', v⟩ := p
    simp only [Tbl.keys, List.map_cons, List.nodup_cons] at hn
    rw [Tbl.get_cons] at h
    simp only [Tbl.update, List.map_cons]
    by_cases hk : k' = k
    · subst hk
      rw [if_pos rfl] at h
      simp only [Option.some.injEq] at h
      subst h
      simp only [if_true, List.cons.injEq, true_and]
      have : ∀ q ∈ t, q.1 ≠ k' := by
        rintro q hq rfl
        exact hn.1 (List.mem_map_of_mem hq)
      conv => rhs; rw [← List.map_id t]
      apply List.map_congr_left
      intro q hq
      simp [this q hq]
    · rw [if_neg hk] at h
      simp only [hk, if_false, List.cons.injEq, true_and]
      exact ih h hn.2

/-- The facts behind an accepted `prepare_digest`. -/
structure Prep (H : Hash) (s : Server) (req : Request) (hs : Headers) (now : Nat) (p : DigestParams)
    (s' : Server) (raw : Str) (ah : AuthHeader) (nct cn : Str) (nc : Nat) (n n' : Nonce) : Prop where
  body : req.body.length ≤ MAX_BODY_SIZE
  read : Read s req hs p raw ah nct cn
  ncv : parseHexU32 nct = some nc
  small : nc ≤ MAX_NC_VALUE
  jump : nc ≤ min (n.lastNc + MAX_NC_JUMP) U32_MAX
  got : s.mgr.nonces.get p.nonce = some n
  valid : n.isValid now = true
  vnc : n.validateNc H nc req.method req.uri req.body s.mgr.maxAge now = (true, n')
  mgr : s'.mgr = { s.mgr with nonces := s.mgr.nonces.update p.nonce (fun _ => n') }
  setup : SameSetup s s'

theorem prepareDigest_ok {H : Hash} {s s' : Server} {req : Request} {hs : Headers} {now : Nat}
    {p : DigestParams} (h : s.prepareDigest H req hs now = (.ok (some p), s')) :
    ∃ raw ah nct cn nc n n', Prep H s req hs now p s' raw ah nct cn nc n n' := by
  unfold Server.prepareDigest at h
  split at h
  · simp at h
  · rename_i hb
    obtain ⟨hsame, hmgr⟩ := checkLimit_same s hs now
    generalize s.checkLimit hs now = cl at h hsame hmgr
    obtain ⟨adm, s1⟩ := cl
    simp only at h hsame hmgr
    split at h
    · simp at h
    · rw [readCredentials_same hsame] at h
      split at h
      · simp at h
      · simp at h
      · rename_i p' hread
        split at h
        · simp at h
        · rename_i ncText hnct
          split at h
          · simp at h
          · rename_i nc hnc
            split at h
            · simp at h
            · rename_i hsmall
              split at h
              · simp at h
              · rename_i hjump
                generalize hv : s1.mgr.verifyWithNc H p'.nonce nc req.method req.uri req.body now = vr at h
                obtain ⟨ok, mgr⟩ := vr
                simp only at h
                split at h
                · simp at h
                · rename_i hok
                  simp only [Prod.mk.injEq, Except.ok.injEq, Option.some.injEq] at h
                  obtain ⟨rfl, rfl⟩ := h
                  obtain ⟨raw, ah, nct, cn, hr⟩ := (readCredentials_iff s req hs p').mp hread
                  have e : ncText = nct := by
                    have := hr.eq
                    rw [this] at hnct
                    simpa using hnct.symm
                  subst e
                  unfold NonceMgr.verifyWithNc at hv
                  rw [hmgr] at hv hjump
                  cases hg : s.mgr.nonces.get p'.nonce with
                  | none => rw [hg] at hv; simp only [Prod.mk.injEq] at hv; simp [← hv.1] at hok
                  | some n =>
                    rw [hg] at hv
                    simp only at hv
                    by_cases hval : n.isValid now = true
                    · rw [hval] at hv
                      simp only [Bool.not_true, Bool.false_eq_true, if_false] at hv
                      generalize hvn : n.validateNc H nc req.method req.uri req.body s.mgr.maxAge now = vn at hv
                      obtain ⟨b, n'⟩ := vn
                      simp only [Prod.mk.injEq] at hv
                      obtain ⟨rfl, rfl⟩ := hv
                      have hb' : b = true := by simpa using hok
                      subst hb'
                      refine ⟨raw, ah, ncText, cn, nc, n, n', ⟨by omega, hr, hnc, by omega, ?_, hg, hval, hvn, rfl, ?_⟩⟩
                      · simp only [NonceMgr.jumpReasonable, hg] at hjump
                        simpa using hjump
                      · exact ⟨hsame.realm, hsame.algorithm, hsame.qop, hsame.store, hsame.proxyAuth,
                          hsame.opaqueTok, rfl, rfl, rfl⟩
                    · simp only [Bool.not_eq_true] at hval
                      rw [hval] at hv
                      simp only [Bool.not_false, if_true, Prod.mk.injEq] at hv
                      simp [← hv.1] at hok

theorem prepareDigest_effect (H : Hash) (s : Server) (req : Request) (hs : Headers) (now : Nat)
    (hn : s.mgr.nonces.keys.Nodup) :
    SameSetup s (s.prepareDigest H req hs now).2 ∧ Effect H s.mgr (s.prepareDigest H req hs now).2.mgr := by
  unfold Server.prepareDigest
  obtain ⟨hsame, hmgr⟩ := checkLimit_same s hs now
  generalize s.checkLimit hs now = cl at hsame hmgr
  obtain ⟨adm, s1⟩ := cl
  simp only at hsame hmgr
  have base : SameSetup s s1 ∧ Effect H s.mgr s1.mgr := ⟨hsame, .same hmgr⟩
  split
  · exact ⟨.refl s, .same rfl⟩
  · simp only
    split
    · exact base
    · split
      · exact base
      · exact base
      · split
        · exact base
        · split
          · exact base
          · split
            · exact base
            · split
              · exact base
              · rename_i p' _ _ _ _ _ nc _ _ _
                have key : SameSetup s { s1 with mgr := (s1.mgr.verifyWithNc H p'.nonce nc req.method req.uri req.body now).2 }
                    ∧ Effect H s.mgr (s1.mgr.verifyWithNc H p'.nonce nc req.method req.uri req.body now).2 := by
                  unfold NonceMgr.verifyWithNc
                  rw [hmgr]
                  cases hg : s.mgr.nonces.get p'.nonce with
                  | none =>
                    exact ⟨⟨hsame.realm, hsame.algorithm, hsame.qop, hsame.store, hsame.proxyAuth,
                      hsame.opaqueTok, rfl, rfl, rfl⟩, .same rfl⟩
                  | some n =>
                    simp only
                    by_cases hval : n.isValid now = true
                    · simp only [hval, Bool.not_true, Bool.false_eq_true, if_false]
                      refine ⟨⟨hsame.realm, hsame.algorithm, hsame.qop, hsame.store, hsame.proxyAuth,
                        hsame.opaqueTok, rfl, rfl, rfl⟩, ?_⟩
                      generalize hvn : n.validateNc H nc req.method req.uri req.body s.mgr.maxAge now = vn
                      obtain ⟨b, n'⟩ := vn
                      cases b with
                      | true => exact .used p'.nonce n n' nc req.method req.uri req.body now hg hval hvn rfl
                      | false =>
                        refine .same ?_
                        rw [validateNc_false hvn]
                        simp only [update_same _ _ _ hg hn]
                    · simp only [Bool.not_eq_true] at hval
                      simp only [hval, Bool.not_false, if_true]
                      exact ⟨⟨hsame.realm, hsame.algorithm, hsame.qop, hsame.store, hsame.proxyAuth,
                        hsame.opaqueTok, rfl, rfl, rfl⟩, .same rfl⟩
                split <;> exact key

theorem verify_state (H : Hash) (s : Server) (req : Request) (hs : Headers) (now : Nat) :
    (s.verify H req hs now).2 = (s.prepareDigest H req hs now).2 := by
  unfold Server.verify
  split
  · rename_i h; rw [h]
  · rename_i h; rw [h]
  · rename_i h; rw [h]; simp only; split <;> rfl

theorem challenge_state (s : Server) (order : List Str → List Str) (req : Request) (stale : Bool)
    (nonce tag : Str) (now : Nat) :
    (s.challenge order req stale nonce tag now).2 = { s with mgr := s.mgr.generate order nonce now } := by
  unfold Server.challenge
  simp only
  split
  · rfl
  · split
    · rfl
    · split <;> rfl

/-! ## `generate` and `cleanup` -/

theorem get_filter_some {t : Tbl Str Nonce} {p : Str × Nonce → Bool} (hn : t.keys.Nodup) {k : Str}
    {n : Nonce} (h : Tbl.get (t.filter p : Tbl Str Nonce) k = some n) : t.get k = some n := by
  have hm := Tbl.mem_of_get _ _ _ h
  exact Tbl.get_of_mem _ _ _ hn (List.mem_filter.mp hm).1

theorem foldl_remove_get (ks : List Str) : ∀ (t : Tbl Str Nonce) (k : Str),
    Tbl.get (ks.foldl (fun t k => t.remove k) t) k = if k ∈ ks then none else t.get k := by
  induction ks with
  | nil => intro t k; simp
  | cons x ks ih =>
    intro t k
    rw [List.foldl_cons, ih]
    by_cases hk : k ∈ ks
    · simp [hk]
    · by_cases hx : k = x
      · subst hx; simp [Tbl.get_remove_self]
      · simp [hk, hx, Tbl.get_remove_ne _ hx]

theorem foldl_remove_nodup (ks : List Str) : ∀ (t : Tbl Str Nonce), t.keys.Nodup →
    (Tbl.keys (ks.foldl (fun t k => t.remove k) t)).Nodup := by
  induction ks with
  | nil => intro t h; exact h
  | cons x ks ih => intro t h; exact ih _ (Tbl.nodup_remove _ _ h)

theorem foldl_remove_length (ks : List Str) : ∀ (t : Tbl Str Nonce),
    (ks.foldl (fun t k => t.remove k) t).length ≤ t.length := by
  induction ks with
  | nil => intro t; exact Nat.le_refl _
  | cons x ks ih => intro t; exact Nat.le_trans (ih _) (Tbl.length_remove_le _ _)

/-- What the table holds after `generate`. -/
theorem generate_spec (m : NonceMgr) (order : List Str → List Str) (value : Str) (now : Nat)
    (hn : m.nonces.keys.Nodup) :
    (m.generate order value now).ttl = m.ttl ∧ (m.generate order value now).maxNonces = m.maxNonces ∧
    (m.generate order value now).maxAge = m.maxAge ∧
    (m.generate order value now).nonces.keys.Nodup ∧
    (m.generate order value now).nonces.get value = some (Nonce.new m.ttl now) ∧
    (∀ k n, k ≠ value → (m.generate order value now).nonces.get k = some n → m.nonces.get k = some n) := by
  unfold NonceMgr.generate
  simp only
  have hc : (m.cleanup now).nonces.keys.Nodup :=
    List.Nodup.sublist (RateLimit.keys_filter_sublist _ _) hn
  split
  · split
    · refine ⟨rfl, rfl, rfl, ?_, ?_, ?_⟩
      · exact Tbl.nodup_insert _ _ _ (foldl_remove_nodup _ _ hc)
      · exact Tbl.get_insert_self _ _ _
      · intro k n hk h
        rw [Tbl.get_insert_ne _ _ hk] at h
        simp only [NonceMgr.removeOldest] at h
        rw [foldl_remove_get] at h
        split at h
        · cases h
        · exact get_filter_some hn h
    · refine ⟨rfl, rfl, rfl, Tbl.nodup_insert _ _ _ hc, Tbl.get_insert_self _ _ _, ?_⟩
      intro k n hk h
      rw [Tbl.get_insert_ne _ _ hk] at h
      exact get_filter_some hn h
  · refine ⟨rfl, rfl, rfl, Tbl.nodup_insert _ _ _ hn, Tbl.get_insert_self _ _ _, ?_⟩
    intro k n hk h
    rwa [Tbl.get_insert_ne _ _ hk] at h

/-! ## One operation, any operation -/

theorem step_nodup_same (H : Hash) (order : List Str → List Str) (s : Server) (op : Op)
    (hn : s.mgr.nonces.keys.Nodup) :
    (s.step H order op).mgr.nonces.keys.Nodup ∧ SameSetup s (s.step H order op) := by
  have hdig : ∀ req hs now, (s.prepareDigest H req hs now).2.mgr.nonces.keys.Nodup ∧
      SameSetup s (s.prepareDigest H req hs now).2 := by
    intro req hs now
    obtain ⟨h1, h2⟩ := prepareDigest_effect H s req hs now hn
    refine ⟨?_, h1⟩
    cases h2 with
    | same h => rw [h]; exact hn
    | used k n n' nc meth uri body now _ _ _ h => rw [h]; simpa using hn
  cases op with
  | challenge req stale nonce tag now =>
    simp only [Server.step, challenge_state]
    obtain ⟨h1, h2, h3, h4, _⟩ := generate_spec s.mgr order nonce now hn
    exact ⟨h4, ⟨rfl, rfl, rfl, rfl, rfl, rfl, h1, h2, h3⟩⟩
  | verify req hs now =>
    simp only [Server.step, verify_state]
    exact hdig _ _ _
  | authInfo req now => exact hdig _ _ _
  | generate nonce now =>
    simp only [Server.step]
    obtain ⟨h1, h2, h3, h4, _⟩ := generate_spec s.mgr order nonce now hn
    exact ⟨h4, ⟨rfl, rfl, rfl, rfl, rfl, rfl, h1, h2, h3⟩⟩
  | cleanup now =>
    simp only [Server.step]
    exact ⟨List.Nodup.sublist (RateLimit.keys_filter_sublist _ _) hn, ⟨rfl, rfl, rfl, rfl, rfl, rfl, rfl, rfl, rfl⟩⟩

theorem run_nodup_same (H : Hash) (order : List Str → List Str) : ∀ (ops : List Op) (s : Server),
    s.mgr.nonces.keys.Nodup →
    (s.run H order ops).mgr.nonces.keys.Nodup ∧ SameSetup s (s.run H order ops)
  | [], s, hn => ⟨hn, .refl s⟩
  | op :: ops, s, hn => by
    obtain ⟨h1, h2⟩ := step_nodup_same H order s op hn
    obtain ⟨h3, h4⟩ := run_nodup_same H order ops _ h1
    exact ⟨h3, h2.trans h4⟩

theorem run_append (H : Hash) (order : List Str → List Str) (s : Server) (a b : List Op) :
    s.run H order (a ++ b) = (s.run H order a).run H order b := by
  simp [Server.run]

/-- A property of the record of one nonce that `validate_nc` keeps holds along any history that does
not issue that nonce again. -/
theorem run_record (H : Hash) (order : List Str → List Str) (ν : Str) (P : Nonce → Prop)
    (hP : ∀ n n' nc meth uri body maxAge now, P n →
      n.validateNc H nc meth uri body maxAge now = (true, n') → P n') :
    ∀ (ops : List Op) (s : Server), s.mgr.nonces.keys.Nodup → (∀ t, (ν, t) ∉ issued ops) →
      (∀ n, s.mgr.nonces.get ν = some n → P n) →
      ∀ n, (s.run H order ops).mgr.nonces.get ν = some n → P n
  | [], s, _, _, h0, n, h => h0 n h
  | op :: ops, s, hn, hi, h0, n, h => by
    obtain ⟨h1, _⟩ := step_nodup_same H order s op hn
    have hi' : ∀ t, (ν, t) ∉ issued ops := by
      intro t ht
      apply hi t
      cases op <;> simp [issued, ht]
    refine run_record H order ν P hP ops (s.step H order op) h1 hi' ?_ n h
    intro n0 hg
    have hdig : ∀ req hs now, (s.prepareDigest H req hs now).2.mgr.nonces.get ν = some n0 → P n0 := by
      intro req hs now hg
      obtain ⟨_, h2⟩ := prepareDigest_effect H s req hs now hn
      cases h2 with
      | same h => rw [h] at hg; exact h0 n0 hg
      | used k m m' nc meth uri body now' hk hval hv h =>
        rw [h] at hg
        by_cases he : ν = k
        · subst he
          rw [Tbl.get_update_self, hk] at hg
          simp only [Option.map_some, Option.some.injEq] at hg
          subst hg
          exact hP m m' _ _ _ _ _ _ (h0 m hk) hv
        · simp only [Tbl.get_update_ne _ _ he] at hg
          exact h0 n0 hg
    cases op with
    | challenge req stale nonce tag now =>
      simp only [Server.step, challenge_state] at hg
      obtain ⟨_, _, _, _, _, h5⟩ := generate_spec s.mgr order nonce now hn
      have hne : ν ≠ nonce := by rintro rfl; exact hi now (by simp [issued])
      exact h0 n0 (h5 ν n0 hne hg)
    | verify req hs now =>
      simp only [Server.step, verify_state] at hg
      exact hdig _ _ _ hg
    | authInfo req now => exact hdig _ _ _ hg
    | generate nonce now =>
      simp only [Server.step] at hg
      obtain ⟨_, _, _, _, _, h5⟩ := generate_spec s.mgr order nonce now hn
      have hne : ν ≠ nonce := by rintro rfl; exact hi now (by simp [issued])
      exact h0 n0 (h5 ν n0 hne hg)
    | cleanup now => exact h0 n0 (get_filter_some hn hg)

theorem issued_append (a b : List Op) : issued (a ++ b) = issued a ++ issued b := by
  induction a with
  | nil => rfl
  | cons op a ih => cases op <;> simp [issued, ih]

/-- Every record was created by the last issue of its nonce. -/
theorem run_issued (H : Hash) (order : List Str → List Str) (s : Server) (h0 : s.mgr.nonces = []) :
    ∀ (ops : List Op) (ν : Str) (n : Nonce), (s.run H order ops).mgr.nonces.get ν = some n →
      lastIssue ops ν = some n.createdAt ∧ n.ttl = s.mgr.ttl := by
  intro ops
  have hrev : ∀ l : List Op, ∀ (ν : Str) (n : Nonce), (s.run H order l.reverse).mgr.nonces.get ν = some n →
      lastIssue l.reverse ν = some n.createdAt ∧ n.ttl = s.mgr.ttl := by
    intro l
    induction l with
    | nil =>
      intro ν n h
      simp [Server.run, h0] at h
    | cons op l ih =>
      intro ν n h
      have hn0 : s.mgr.nonces.keys.Nodup := by rw [h0]; simp [Tbl.keys]
      obtain ⟨hnd, hsame⟩ := run_nodup_same H order l.reverse s hn0
      rw [List.reverse_cons, run_append] at h
      rw [List.reverse_cons]
      simp only [Server.run, List.foldl_cons, List.foldl_nil] at h
      rw [show (List.foldl (Server.step H order) s l.reverse) = s.run H order l.reverse from rfl] at h
      generalize hs1 : s.run H order l.reverse = s1 at *
      have hdig : ∀ req hs now, (s1.prepareDigest H req hs now).2.mgr.nonces.get ν = some n →
          lastIssue l.reverse ν = some n.createdAt ∧ n.ttl = s.mgr.ttl := by
        intro req hs now hg
        obtain ⟨_, h2⟩ := prepareDigest_effect H s1 req hs now hnd
        cases h2 with
        | same h => rw [h] at hg; exact ih ν n hg
        | used k m m' nc meth uri body now' hk hval hv h =>
          rw [h] at hg
          by_cases he : ν = k
          · subst he
            rw [Tbl.get_update_self, hk] at hg
            simp only [Option.map_some, Option.some.injEq] at hg
            subst hg
            obtain ⟨_, h1, h2, _⟩ := validateNc_true hv
            rw [h1, h2]; exact ih ν m hk
          · simp only [Tbl.get_update_ne _ _ he] at hg
            exact ih ν n hg
      have hgen : ∀ nonce now, (s1.mgr.generate order nonce now).nonces.get ν = some n →
          lastIssue l.reverse ν = some n.createdAt ∧ n.ttl = s.mgr.ttl ∧ ν ≠ nonce ∨
          (ν = nonce ∧ n.createdAt = now ∧ n.ttl = s.mgr.ttl) := by
        intro nonce now hg
        obtain ⟨_, _, _, _, h4, h5⟩ := generate_spec s1.mgr order nonce now hnd
        by_cases he : ν = nonce
        · subst he
          rw [h4] at hg
          simp only [Option.some.injEq] at hg
          subst hg
          exact Or.inr ⟨rfl, rfl, hsame.ttl⟩
        · have := ih ν n (h5 ν n he hg)
          exact Or.inl ⟨this.1, this.2, he⟩
      have hskip : ∀ op', issued [op'] = [] → lastIssue (l.reverse ++ [op']) ν = lastIssue l.reverse ν := by
        intro op' h'
        simp [lastIssue, issued_append, h']
      have hlast : ∀ op' nonce now, issued [op'] = [(nonce, now)] →
          lastIssue (l.reverse ++ [op']) ν = if nonce = ν then some now else lastIssue l.reverse ν := by
        intro op' nonce now h'
        unfold lastIssue
        rw [issued_append, h', List.filter_append]
        by_cases he : nonce = ν
        · simp [he]
        · simp [he]
      cases op with
      | challenge req stale nonce tag now =>
        simp only [Server.step, challenge_state] at h
        rw [hlast _ nonce now rfl]
        rcases hgen nonce now h with ⟨h1, h2, h3⟩ | ⟨rfl, h1, h2⟩
        · rw [if_neg (Ne.symm h3)]; exact ⟨h1, h2⟩
        · rw [if_pos rfl, h1]; exact ⟨rfl, h2⟩
      | generate nonce now =>
        simp only [Server.step] at h
        rw [hlast _ nonce now rfl]
        rcases hgen nonce now h with ⟨h1, h2, h3⟩ | ⟨rfl, h1, h2⟩
        · rw [if_neg (Ne.symm h3)]; exact ⟨h1, h2⟩
        · rw [if_pos rfl, h1]; exact ⟨rfl, h2⟩
      | verify req hs now =>
        simp only [Server.step, verify_state] at h
        rw [hskip _ rfl]; exact hdig _ _ _ h
      | authInfo req now => rw [hskip _ rfl]; exact hdig _ _ _ h
      | cleanup now => rw [hskip _ rfl]; exact ih ν n (get_filter_some hnd h)
  intro ν n h
  have := hrev ops.reverse ν n
  rw [List.reverse_reverse] at this
  exact this h

/-! ## Acceptance in terms of the request's text -/

theorem credentialsHeader_eq (s : Server) : s.credentialsHeader = credentialsName s.proxyAuth := rfl

theorem selects_of_get {hs : Headers} {n raw : Str} (h : hs.get n = some raw) :
    ∃ more, Selects n hs.inner (raw :: more) := by
  have h2 := C24_getAll hs n
  have : ∃ more, hs.getAll n = raw :: more := by
    unfold Headers.get Headers.getHeader at h
    unfold Headers.getAll
    rw [← List.head?_filter] at h
    cases hf : hs.inner.filter (·.nameEq n) with
    | nil => rw [hf] at h; simp at h
    | cons a l => rw [hf] at h; simp at h; exact ⟨l.map (·.value), by simp [h]⟩
  obtain ⟨more, hm⟩ := this
  exact ⟨more, hm ▸ h2⟩

theorem get_of_selects {hs : Headers} {n raw : Str} {more : List Str}
    (h : Selects n hs.inner (raw :: more)) : hs.get n = some raw := by
  have e := selects_unique h (C24_getAll hs n)
  unfold Headers.getAll at e
  unfold Headers.get Headers.getHeader
  rw [← List.head?_filter]
  cases hf : hs.inner.filter (·.nameEq n) with
  | nil => rw [hf] at e; simp at e
  | cons a l => rw [hf] at e; simp at e; simp [e.1]

theorem presents_iff {proxy : Bool} {hs : Headers} {raw : Str} {ah : AuthHeader}
    (hg : hs.get (credentialsName proxy) = some raw) (hp : parseAuthorization raw = some ah)
    (hd : eqIgnoreCase ah.scheme "Digest".toList = true) (name : String) (value : Str)
    (hl : lower name.toList = name.toList) :
    Presents proxy hs name value ↔ ah.param name.toList = some value := by
  rw [parseAuthorization_param hp _ _ hl]
  constructor
  · rintro ⟨raw', more, scheme, h1, h2, h3⟩
    rw [get_of_selects h1] at hg
    simp only [Option.some.injEq] at hg
    subst hg
    rw [← parseAuthorization_scheme hp h3]; exact h3
  · intro h
    obtain ⟨more, hm⟩ := selects_of_get hg
    exact ⟨raw, more, ah.scheme, hm, (sameName_iff _ _).mpr hd, h⟩

theorem presentsOf {s : Server} {req : Request} {hs : Headers} {p : DigestParams} {raw : Str}
    {ah : AuthHeader} {nct cn : Str} (h : Read s req hs p raw ah nct cn) (name : String) (value : Str)
    (hl : lower name.toList = name.toList) :
    Presents s.proxyAuth hs name value ↔ ah.param name.toList = some value :=
  presents_iff h.got h.parsed h.scheme name value hl

/-! ## Hexadecimal numbers are functional -/

def hexDigVal (c : Char) : Nat :=
  if c.toNat ≤ 57 then c.toNat - 48 else if c.toNat ≤ 70 then c.toNat - 55 else c.toNat - 87

theorem hexDigit_val {c : Char} {d : Nat} (h : HexDigit c d) : d = hexDigVal c ∧ c ≠ '+' := by
  unfold hexDigVal
  rw [ne_eq, char_eq_iff]
  have : '+'.toNat = 43 := rfl
  cases h with
  | dec h1 h2 => rw [if_pos h2]; exact ⟨rfl, by omega⟩
  | low h1 h2 => rw [if_neg (by omega), if_neg (by omega)]; exact ⟨rfl, by omega⟩
  | upp h1 h2 => rw [if_neg (by omega), if_pos h2]; exact ⟨rfl, by omega⟩

theorem hexDigits_val {t : Str} {n : Nat} (h : HexDigits t n) :
    n = t.foldl (fun a c => a * 16 + hexDigVal c) 0 ∧ '+' ∉ t := by
  induction h with
  | one h => have := hexDigit_val h; exact ⟨by simp [this.1], by simpa using Ne.symm this.2⟩
  | snoc _ h ih =>
    have := hexDigit_val h
    refine ⟨by rw [List.foldl_append, ← ih.1]; simp [this.1], ?_⟩
    simp [ih.2, Ne.symm this.2]

theorem hexNumber_fun {t : Str} {a b : Nat} (ha : HexNumber t a) (hb : HexNumber t b) : a = b := by
  rcases ha with ha | ⟨r, rfl, ha⟩ <;> rcases hb with hb | ⟨r', e, hb⟩
  · rw [(hexDigits_val ha).1, (hexDigits_val hb).1]
  · exact absurd (by rw [e]; simp) (hexDigits_val ha).2
  · exact absurd (by simp) (hexDigits_val hb).2
  · simp only [List.cons.injEq, true_and] at e
    subst e
    rw [(hexDigits_val ha).1, (hexDigits_val hb).1]

/-! ## The digest -/

theorem base_eq (a : Algorithm) : a.base = hashOf a := by cases a <;> rfl
theorem isSess_iff (a : Algorithm) : a.isSess = true ↔ session a := by cases a <;> simp [Algorithm.isSess, session]
theorem qop_asStr (q : Qop) : q.asStr = qopName q := by cases q <;> rfl
theorem alg_asStr (a : Algorithm) : a.asStr = algorithmName a := by cases a <;> rfl

theorem computeResponse_eq (H : Hash) (s : Server) (user pw : Str) (m : Method) (uri nonce nc cn : Str)
    (body : Bytes) :
    s.computeResponse H user pw m uri nonce (some nc) (some cn) (some s.qop) body =
      digest H s.algorithm s.qop user s.realm pw nonce nc cn m.asStr uri body := by
  unfold Server.computeResponse Server.applySess Server.computeHa1 Server.computeHa2 digest hashA1 hashA2
  rw [base_eq]
  simp only [qop_asStr]
  cases s.qop <;> by_cases hs : session s.algorithm
  all_goals
    have hs' := hs
    rw [← isSess_iff] at hs'
    simp [colons, hs, hs']

theorem algorithm_parse {a : Str} {x : Algorithm} (h : Algorithm.parse a = some x) :
    SameName a (algorithmName x) := by
  rw [sameName_iff]
  unfold eqIgnoreCase
  rw [beq_iff_eq, ← lower_upper a]
  unfold Algorithm.parse at h
  simp only at h
  repeat (first | (split at h; · (rename_i hu; rw [hu]; cases h; decide)) | cases h)

theorem qop_parse {a : Str} {q : Qop} (h : Qop.parse a = some q) : SameName a (qopName q) := by
  rw [sameName_iff]
  unfold eqIgnoreCase
  rw [beq_iff_eq]
  unfold Qop.parse at h
  split at h
  · rename_i hu; rw [hu]; cases h; decide
  · split at h
    · rename_i hu; rw [hu]; cases h; decide
    · cases h

theorem verify_true {H : Hash} {s s' : Server} {req : Request} {hs : Headers} {now : Nat}
    (h : s.verify H req hs now = (.ok true, s')) :
    ∃ p raw ah nct cn nc n n' pw, Prep H s req hs now p s' raw ah nct cn nc n n' ∧
      s.store p.username s.realm = some pw ∧
      p.response = digest H s.algorithm s.qop p.username s.realm pw p.nonce nct cn req.method.asStr req.uri req.body := by
  unfold Server.verify at h
  split at h
  · simp at h
  · simp at h
  · rename_i p s1 hp
    obtain ⟨raw, ah, nct, cn, nc, n, n', hP⟩ := prepareDigest_ok hp
    split at h
    · simp at h
    · rename_i pw hpw
      simp only [Prod.mk.injEq, Except.ok.injEq, beq_iff_eq] at h
      obtain ⟨h1, rfl⟩ := h
      have e := hP.read.eq
      rw [hP.setup.store] at hpw
      have e1 : p.realm = s.realm := by rw [e]
      have e2 : p.uri = req.uri := by rw [e]
      have e3 : p.ncRaw = some nct := by rw [e]
      have e4 : p.cnonce = some cn := by rw [e]
      have e5 : p.qop = some s.qop := by rw [e]
      rw [e1] at hpw
      rw [e2, e3, e4, e5, ← hP.setup.qop, computeResponse_eq, hP.setup.algorithm, hP.setup.realm,
        hP.setup.qop] at h1
      exact ⟨p, raw, ah, nct, cn, nc, n, n', pw, hP, hpw, h1.symm⟩

end Siphon.Auth
