import Verif.Sub.PropsReplaces
import Verif.Sub.PropsNotify
import Verif.Dns.Lemmas
/-!
# C104 and C106: the transport that is named

What a NOTIFY and the INVITE of a transfer say about the transport in their Via.
-/
namespace Siphon.Sub
open Spec TextSpec HdrSpec Dlg.Spec
open Siphon.Dns (sameName_lower)

/-- The transports that a `transport` parameter of a Refer-To can name, and how the Via names them. -/
def namedTransports : List (String × String) := [("ws", "WS"), ("wss", "WSS"), ("tls", "TLS"), ("udp", "UDP")]

/-- The transport of a call to the URI: the one its `transport` parameter names, in whatever letter case, and otherwise TCP. -/
def GoesOver (u : SipUri) (t : String) : Prop :=
  (∃ v w, u.params.get "transport".toList = some (some v) ∧ (w, t) ∈ namedTransports ∧ SameName v w.toList) ∨
  (t = "TCP" ∧ ∀ v, u.params.get "transport".toList = some (some v) → ∀ p ∈ namedTransports, ¬ SameName v p.1.toList)

theorem transportOf_goesOver (u : SipUri) : GoesOver u (transportOf u) := by
  have h1 : ∀ v, SameName v "ws".toList ↔ lower v = "ws".toList := fun v => sameName_lower (by decide)
  have h2 : ∀ v, SameName v "wss".toList ↔ lower v = "wss".toList := fun v => sameName_lower (by decide)
  have h3 : ∀ v, SameName v "tls".toList ↔ lower v = "tls".toList := fun v => sameName_lower (by decide)
  have h4 : ∀ v, SameName v "udp".toList ↔ lower v = "udp".toList := fun v => sameName_lower (by decide)
  unfold GoesOver transportOf
  cases hg : u.params.get "transport".toList with
  | none => exact .inr ⟨rfl, fun v hv => by cases hv⟩
  | some x =>
    cases x with
    | none => exact .inr ⟨rfl, fun v hv => by cases hv⟩
    | some v =>
      simp only
      split
      · rename_i e; exact .inl ⟨v, "ws", rfl, by simp [namedTransports], (h1 v).mpr e⟩
      · split
        · rename_i e; exact .inl ⟨v, "wss", rfl, by simp [namedTransports], (h2 v).mpr e⟩
        · split
          · rename_i e; exact .inl ⟨v, "tls", rfl, by simp [namedTransports], (h3 v).mpr e⟩
          · split
            · rename_i e; exact .inl ⟨v, "udp", rfl, by simp [namedTransports], (h4 v).mpr e⟩
            · rename_i a b c d
              refine .inr ⟨rfl, ?_⟩
              intro v' hv' p hp
              cases hv'
              simp only [namedTransports, List.mem_cons, List.not_mem_nil, or_false] at hp
              rcases hp with rfl | rfl | rfl | rfl
              · exact fun h => a ((h1 v).mp h)
              · exact fun h => b ((h2 v).mp h)
              · exact fun h => c ((h3 v).mp h)
              · exact fun h => d ((h4 v).mp h)

theorem upper_not_low {v : Str} {c : Char} (h : c ∈ upper v) : ¬ (97 ≤ c.toNat ∧ c.toNat ≤ 122) := by
  obtain ⟨d, hd, rfl⟩ := List.mem_map.mp h
  rw [toUpper_toNat]
  split <;> omega

theorem without_params (u : SipUri) : u.withoutUriHeaders.params = u.params := by
  unfold SipUri.withoutUriHeaders
  split <;> rfl

/-- **C106.** The call that a REFER leads to goes over the transport that the Refer-To URI names, over TCP if it names none of the known
ones, and the Via of the INVITE says so. -/
theorem C106_transport (cfg : RCfg) (ds : Dlg.Mgr) (m m' : SubMgr) (rq : Request) (rnd : Rand) (r : Response) (t : Told) (inv : Request)
    (a : Addr) (p : Nat) (tr : String) (h : handleRefer cfg ds m rq rnd = .done (.accepted r (.calling t inv a p tr), m')) :
    ∃ v u rest, First rq.headers "Refer-To" v ∧ Target v u ∧ GoesOver u tr ∧
      inv.headers.inner = ⟨"Via".toList, "SIP/2.0/".toList ++ tr.toList ++ " placeholder;branch=".toList ++ rnd.invite⟩ :: rest := by
  obtain ⟨v, d, hv, _, _, _, _, h⟩ := refer_accepted h
  rcases h with ⟨_, h, _⟩ | ⟨s, t', _, _, _, h⟩
  · cases h
  · obtain ⟨u, x, y, z, w, h1, h2, h3, h4, _, h6, _, htr, o, i, h7, _, h8⟩ := transfer_calling h
    obtain ⟨i1, i2, hi⟩ := invite_inner h7
    have hg := transportOf_goesOver u.withoutUriHeaders
    rw [← htr] at hg
    unfold GoesOver at hg
    rw [without_params] at hg
    have hr : ∃ tl, (replacing v i.headers).inner = ⟨"Via".toList, "SIP/2.0/UDP placeholder;branch=".toList ++ rnd.invite⟩ :: tl := by
      have h0 : ∃ tl, i.headers.inner = ⟨"Via".toList, "SIP/2.0/UDP placeholder;branch=".toList ++ rnd.invite⟩ :: tl := by
        rw [hi]
        exact ⟨_, rfl⟩
      obtain ⟨tl, h0⟩ := h0
      unfold replacing
      split
      · unfold pushQuiet
        split
        · rename_i hs' hp
          rw [C24_push _ _ _ _ hp, h0, List.cons_append]
          exact ⟨_, rfl⟩
        · exact ⟨tl, h0⟩
      · exact ⟨tl, h0⟩
    obtain ⟨tl, hr⟩ := hr
    refine ⟨v, u, tl, hv, h1, hg, ?_⟩
    rw [h8]
    unfold withVia
    simp only [hr]

/-- **C104.** The Via of a NOTIFY with a status line names the transport and the host of the notifier's Contact, its port exactly if it has
one, and the branch. -/
theorem C104_via (l contact : SipUri) (branch : Str) (s s' : Sub) (code : Nat) (reason : Str) (r : Request)
    (h : createNotifySipfrag l contact branch s code reason = .done (some (r, s'))) :
    ∃ tr port rest, r.headers.inner = ⟨"Via".toList, "SIP/2.0/".toList ++ tr ++ " ".toList ++ contact.host ++ port ++ ";branch=".toList ++ branch⟩ :: rest ∧
      ((∃ v, contact.params.get "transport".toList = some (some v) ∧ SameName tr v ∧ ∀ c ∈ tr, ¬ (97 ≤ c.toNat ∧ c.toNat ≤ 122)) ∨
        ((∀ v, contact.params.get "transport".toList ≠ some (some v)) ∧ tr = "UDP".toList)) ∧
      ((contact.port = none ∧ port = []) ∨ ∃ p, contact.port = some p ∧ port = ':' :: showNat p) := by
  obtain ⟨_, _, _, _, _, _, hi⟩ := sipfrag_inner h
  have hv : ∃ tr port, viaOf contact branch = "SIP/2.0/".toList ++ tr ++ " ".toList ++ contact.host ++ port ++ ";branch=".toList ++ branch ∧
      ((∃ v, contact.params.get "transport".toList = some (some v) ∧ SameName tr v ∧ ∀ c ∈ tr, ¬ (97 ≤ c.toNat ∧ c.toNat ≤ 122)) ∨
        ((∀ v, contact.params.get "transport".toList ≠ some (some v)) ∧ tr = "UDP".toList)) ∧
      ((contact.port = none ∧ port = []) ∨ ∃ p, contact.port = some p ∧ port = ':' :: showNat p) := by
    have e : " ".toList = [' '] := rfl
    have key : ∀ port, ((contact.port = none ∧ port = []) ∨ ∃ p, contact.port = some p ∧ port = ':' :: showNat p) →
        viaOf contact branch = "SIP/2.0/".toList ++ (match contact.params.get "transport".toList with | some (some t) => upper t | _ => "UDP".toList) ++
          [' '] ++ contact.host ++ port ++ ";branch=".toList ++ branch := by
      intro port hp
      unfold viaOf
      rcases hp with ⟨hp, rfl⟩ | ⟨p, hp, rfl⟩
      · rw [hp]
        simp only [List.append_assoc, List.cons_append, List.nil_append]
        cases contact.params.get "transport".toList with
        | none => rfl
        | some x => cases x <;> rfl
      · rw [hp]
        simp only [List.append_assoc, List.cons_append, List.nil_append]
        cases contact.params.get "transport".toList with
        | none => rfl
        | some x => cases x <;> rfl
    have hport : ∃ port, ((contact.port = none ∧ port = []) ∨ ∃ p, contact.port = some p ∧ port = ':' :: showNat p) := by
      cases contact.port with
      | none => exact ⟨_, .inl ⟨rfl, rfl⟩⟩
      | some p => exact ⟨_, .inr ⟨p, rfl, rfl⟩⟩
    obtain ⟨port, h2⟩ := hport
    have h1 := key port h2
    rw [e]
    cases hg : contact.params.get "transport".toList with
    | none =>
      rw [hg] at h1
      exact ⟨_, port, h1, .inr ⟨fun v hv => (by cases hv), rfl⟩, h2⟩
    | some x =>
      rw [hg] at h1
      cases x with
      | none => exact ⟨_, port, h1, .inr ⟨fun v hv => (by cases hv), rfl⟩, h2⟩
      | some v =>
        refine ⟨upper v, port, h1, .inl ⟨v, rfl, ?_, fun c hc => upper_not_low hc⟩, h2⟩
        rw [sameName_iff, eqIgnoreCase, beq_iff_eq]
        exact lower_upper v
  obtain ⟨tr, port, hv, h1, h2⟩ := hv
  refine ⟨tr, port, (fragHead l contact branch s code reason).tail.map (fun p => ⟨p.1.toList, p.2⟩), ?_, h1, h2⟩
  rw [hi, ← hv]
  rfl

-- the examples: a transfer over WebSocket, one over TCP, and a NOTIFY
/-- the first header of the INVITE, and the transport -/
def transferVia (to : String) : Option (String × Str) :=
  match handleRefer (cfgEx true) (.run dialogsEx) [] (referEx to) rndEx with
  | .done (.accepted _ (.calling _ inv _ _ tr), _) => inv.headers.inner.head?.map (fun h => (tr, h.value))
  | _ => none

example : transferVia "<sip:carol@8.8.4.4;transport=Wss>" = some ("WSS", "SIP/2.0/WSS placeholder;branch=z9hG4bKi".toList) := by decide +kernel
example : transferVia "<sip:carol@8.8.4.4>" = some ("TCP", "SIP/2.0/TCP placeholder;branch=z9hG4bKi".toList) := by decide +kernel

/-- a Contact with a transport parameter and a port -/
def tcpContact : SipUri := match SipUri.parse "sip:bob@b.example:5070;transport=tcp".toList with | some u => u | none => bobUri

example : (match createNotifySipfrag bobUri tcpContact "z9hG4bK1".toList (served "refer") 100 "Trying".toList with
    | .done (some (r, _)) => r.headers.inner.head?.map (·.value)
    | _ => none) = some "SIP/2.0/TCP b.example:5070;branch=z9hG4bK1".toList := by decide +kernel

end Siphon.Sub
