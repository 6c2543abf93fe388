import Verif.Registrar.Props
import Verif.Registrar.PropsKeys
/-!
# C42: whose bindings a REGISTER can change
-/
set_option linter.unusedSimpArgs false
namespace Siphon.Registrar
open Spec HdrSpec TextSpec Auth.Spec KeySpec

/-! ## C42: whose bindings -/

theorem extractAuthUsername_some {hs : Headers} {u raw : Str} (hraw : hs.get "Authorization".toList = some raw)
    (h : Auth.extractAuthUsername hs = some u) : Presents false hs "username" u := by
  unfold Auth.extractAuthUsername at h
  rw [hraw] at h
  simp only at h
  split at h
  · cases h
  · rename_i p hp
    split at h
    · cases h
    · rename_i hd
      exact (Auth.presents_iff (proxy := false) hraw hp (by simpa using hd) "username" u (by decide)).mpr h

/-- C42: with authentication of the non-proxy kind, whenever a REGISTER changes what a lookup of some
address-of-record shows, the request presents the correct digest response for a known user, and that user's
name is the user part of that very address, the one the To header names (up to Unicode normalisation and letter case).
(Missing: the host of the address is not compared with anything, see `C42_any_host`; proxy authentication,
see `C42_proxy_bypass`.) -/
theorem C42_own_address_partial (w : World) (r : Reg) (srv : Auth.Server) (req : Request) (d : Draw)
    (hauth : r.auth = some srv) (hproxy : srv.proxyAuth = false) (aor : Str) (t₁ t₂ : Nat)
    (h1 : d.now ≤ t₁) (h2 : t₁ ≤ t₂) (x : Binding)
    (hchange : ¬ (x ∈ ((r.handle w req d).2.store.lookup aor t₁ t₂).1 ↔ x ∈ (r.store.lookup aor t₁ t₂).1)) :
    ∃ user pw nonce nc cnonce id,
      Presents false req.headers "username" user ∧ Presents false req.headers "realm" srv.realm ∧
      srv.store user srv.realm = some pw ∧ Presents false req.headers "nonce" nonce ∧
      Presents false req.headers "response"
        (digest w.hash srv.algorithm srv.qop user srv.realm pw nonce nc cnonce req.method.asStr req.uri req.body) ∧
      ToNames req.headers aor ∧ UserOf aor id ∧ SameName (w.nfc id) (w.nfc user) ∧
      (∀ to more n, Selects "To".toList req.headers.inner (to :: more) → parseNameAddr to = some n → Names n.uri id) := by
  rcases handle_cases w r req d with ⟨hst, _⟩ | ⟨aor', a, hg, ha, hau, hway⟩
  · rw [hst] at hchange; exact absurd Iff.rfl hchange
  · have hm := (gate_none hg).1
    have hk : aor = aor' := by
      apply Classical.byContradiction
      intro hk
      apply hchange
      have key : ∀ (c : Ctx) (done : List Str) (s' : Store), CtxOf r req d aor' c →
          (∀ v ∈ done, Fine w r req d c v) → Effect w r req d c done (r.store.lookup aor' d.now d.now).2 s' →
          (x ∈ (s'.lookup aor t₁ t₂).1 ↔ x ∈ (r.store.lookup aor t₁ t₂).1) :=
        fun c done s' hctx hf heff => (effect_lookup hctx hm hf heff).1 aor hk t₁ t₂ h2 x
      generalize (r.handle w req d).2.store = s2 at hway ⊢
      generalize (r.handle w req d).1 = o at hway
      cases hway with
      | refused _ hr => exact Iff.rfl
      | wildcard v h3 h4 => rw [lookup_fst, lookup_fst, at_removeAll, if_neg hk]
      | stopped c hctx done rest v _ _ s1 e1 e2 e3 e4 e5 e6 => exact key c done _ hctx e3 e4
      | done c hctx s' e2 e0 e3 e4 e6 =>
        rw [lookup_lookup _ _ _ _ _ _ h1 h2]
        exact key c _ s' hctx e3 e4
    subst hk
    rcases (gate_none hg).2.2 with ⟨hno, _⟩ | ⟨s, s', hs, hv, _⟩
    · rw [hno] at hauth; cases hauth
    · rw [hauth] at hs
      simp only [Option.some.injEq] at hs
      subst hs
      obtain ⟨user, pw, nonce, nc, cnonce, qop, rec, p1, p2, _, _, _, _, p3, _, _, _, p4, p5⟩ :=
        Auth.C36_sound w.hash _ _ req req.headers d.now hv
      have huniq := Auth.C36_presents_unique w.hash _ _ req req.headers d.now hv "username" (by decide)
      rw [hproxy] at p1 p2 p3 p5 huniq
      have hauz := hau (by rw [hauth]; rfl)
      unfold authorized at hauz
      cases hu : Auth.extractAuthUsername req.headers with
      | none => rw [hu] at hauz; cases hauz
      | some u =>
        rw [hu] at hauz
        simp only at hauz
        cases hi : aorIdentity aor with
        | none => rw [hi] at hauz; cases hauz
        | some id =>
          rw [hi] at hauz
          simp only at hauz
          obtain ⟨raw, more, scheme, hsel, _⟩ := p1
          have hraw := Auth.get_of_selects hsel
          have hpu := extractAuthUsername_some hraw hu
          have huu : user = u := huniq _ _ ⟨raw, more, scheme, hsel, by assumption⟩ hpu
          obtain ⟨to, n, hto, hpn, hnorm⟩ := requestAor_ok ha
          refine ⟨user, pw, nonce, nc, cnonce, id, ⟨raw, more, scheme, hsel, by assumption⟩, p2, p4, p3, p5, toNames_of ha,
            aorIdentity_userOf hnorm hi, (sameName_iff _ _).mpr (by rw [huu]; exact hauz), ?_⟩
          intro to' more' n' hsel' hn'
          have hget := Auth.get_of_selects hsel'
          rw [hto] at hget
          cases hget
          rw [hpn] at hn'
          cases hn'
          exact identity_names hpn hnorm hi

namespace Demo
/-- a registrar that authenticates bob -/
def server (proxy : Bool) : Auth.Server :=
  { (Auth.Demo.server.run Auth.Demo.H id [.generate "n1".toList 0]) with proxyAuth := proxy }

def guarded (proxy : Bool) : Reg := { reg with auth := some (server proxy) }

/-- a REGISTER for `to` with bob's credentials in header `name`, and one more header -/
def signed (to : String) (name : String) (more : List (String × String)) : Request :=
  { register "c" 1 [] with
    headers := ⟨[("Via", "v"), ("From", "<sip:bob@ex>;tag=1"), ("To", to), ("Call-ID", "c"), ("CSeq", "1 REGISTER"),
      ("Contact", "<sip:bob@1>")].map (fun h => ⟨h.1.toList, h.2.toList⟩) ++ [⟨name.toList, Auth.Demo.auth "n1" 1⟩]
      ++ more.map (fun h => ⟨h.1.toList, h.2.toList⟩)⟩,
    body := [1, 2] }
end Demo

-- the hypotheses are met: bob registers, nobody else's address can be changed by bob
example : Demo.contacts ((Demo.guarded false).handle Demo.world (Demo.signed "<sip:bob@ex>" "Authorization" []) (Demo.at_ 0)).2.store 0
    = [("sip:bob@1".toList, 3600)] := by decide +kernel
example : Demo.code ((Demo.guarded false).handle Demo.world (Demo.signed "<sip:eve@ex>" "Authorization" []) (Demo.at_ 0)).1 = 403 := by
  decide +kernel

/-- C42, the host is not checked: bob of realm `ex` can bind `sip:bob@other.org`. -/
theorem C42_any_host : ∃ (w : World) (r : Reg) (srv : Auth.Server) (req : Request) (d : Draw),
    r.auth = some srv ∧ srv.proxyAuth = false ∧ Presents false req.headers "username" "bob".toList ∧
    srv.store "bob".toList "ex".toList = some "pw".toList ∧ srv.realm = "ex".toList ∧
    (r.store.lookup "sip:bob@other.org".toList d.now d.now).1 = [] ∧
    ((r.handle w req d).2.store.lookup "sip:bob@other.org".toList d.now d.now).1.length = 1 := by
  refine ⟨Demo.world, Demo.guarded false, Demo.server false, Demo.signed "<sip:bob@other.org>" "Authorization" [], Demo.at_ 0, rfl, rfl, ?_,
    by decide +kernel, by decide +kernel, by decide +kernel, ?_⟩
  · exact extractAuthUsername_some (raw := Auth.Demo.auth "n1" 1) (by decide +kernel) (by decide +kernel)
  · decide +kernel

/-- C42 fails with proxy authentication: bob proves who they are in Proxy-Authorization and names eve in an
Authorization header nobody verifies; eve's address is then bound to bob's contact. -/
theorem C42_proxy_bypass : ∃ (w : World) (r : Reg) (srv : Auth.Server) (req : Request) (d : Draw),
    r.auth = some srv ∧ srv.proxyAuth = true ∧ srv.store "eve".toList srv.realm = none ∧
    (r.store.lookup "sip:eve@ex".toList d.now d.now).1 = [] ∧
    ((r.handle w req d).2.store.lookup "sip:eve@ex".toList d.now d.now).1.map (·.contact) = ["sip:bob@1".toList] := by
  refine ⟨Demo.world, Demo.guarded true, Demo.server true,
    Demo.signed "<sip:eve@ex>" "Proxy-Authorization" [("Authorization", "Digest username=\"eve\"")], Demo.at_ 0,
    rfl, rfl, by decide +kernel, by decide +kernel, by decide +kernel⟩

end Siphon.Registrar
