import Verif.Registrar.LemmasShow
import Verif.Registrar.PropsStore
import Verif.Auth.PropsServer
/-!
# C40–C46: the registrar

The theorems hold for every hash function, every Unicode normalisation, every credential store and every
clock reading; requests are arbitrary header lists.
-/
set_option linter.unusedSimpArgs false
namespace Siphon.Registrar
open Spec HdrSpec TextSpec Auth.Spec

/-! ## Concrete registrars and requests used by the examples -/
namespace Demo
def world : World := { hash := Auth.Demo.H, order := id, nfc := id, qText := fun t => some t }

def reg : Reg := Reg.new [] none

def msg (hs : List (String × String)) : Request :=
  { method := .register, uri := "sip:ex".toList, headers := ⟨hs.map (fun h => ⟨h.1.toList, h.2.toList⟩)⟩, body := [] }

def register (callId : String) (cseq : Nat) (more : List (String × String)) : Request :=
  msg ([("Via", "v"), ("From", "<sip:bob@ex>;tag=1"), ("To", "Bob <sip:bob@EX>"), ("Call-ID", callId),
    ("CSeq", String.ofList (showNat cseq) ++ " REGISTER")] ++ more)

def at_ (t : Nat) : Draw := { now := t * SEC, nonce := "n1".toList, tag := "t".toList, date := "now".toList, admitted := true }

def bob : Str := "sip:bob@ex".toList

/-- the contacts of an address-of-record with their lifetimes in seconds -/
def contacts (s : Store) (t : Nat) (aor : Str := bob) : List (Str × Nat) :=
  ((s.lookup aor (t * SEC) (t * SEC)).1).map (fun x => (x.contact, x.expires / SEC))

def code : Outcome → Nat
  | .response r => r.code
  | .error => 0
  | .panic => 1
end Demo

/-! ## C45, C46: a REGISTER that is answered 200 -/

/-- The requests behind a 200: the way they were handled. -/
theorem handle_200 {w : World} {r : Reg} {req : Request} {d : Draw} {resp : Response}
    (h : (r.handle w req d).1 = .response resp) (hc : resp.code = 200) :
    ∃ aor a, r.gate w req d = (none, a) ∧ requestAor req = .ok aor ∧ (r.auth.isSome = true → authorized w req aor = true) ∧
      ((∃ v n, contactHeaders req.headers = [v] ∧ trim v = ['*'] ∧ parseCseq req = some n ∧
          parseOpt U64_MAX (req.headers.get "Expires".toList) = .ok (some 0) ∧
          (r.handle w req d).2.store = r.store.removeAll aor) ∨
       ∃ c s', CtxOf r req d aor c ∧ (∀ v ∈ contactHeaders req.headers, trim v ≠ ['*']) ∧
          (∀ v ∈ contactHeaders req.headers, Fine w r req d c v) ∧
          Effect w r req d c (contactHeaders req.headers) (r.store.lookup aor d.now d.now).2 s' ∧
          (r.handle w req d).2.store = (s'.lookup aor d.now d.now).2 ∧
          (r.handle w req d).1 = r.listResponse req d (s'.lookup aor d.now d.now).1) := by
  rcases handle_cases w r req d with ⟨_, hbad⟩ | ⟨aor, a, hg, ha, hau, hway⟩
  · rcases hbad resp h with e | e | e | e | e <;> rw [hc] at e <;> cases e
  · refine ⟨aor, a, hg, ha, hau, ?_⟩
    generalize (r.handle w req d).2.store = s2 at hway
    generalize ho : (r.handle w req d).1 = o at hway h
    cases hway with
    | refused _ hr => have := hr resp h; rw [hc] at this; cases this
    | wildcard v h1 h2 n h3 h4 => exact Or.inl ⟨v, n, h1, h2, h3, h4, rfl⟩
    | stopped c hctx done rest v _ _ s1 h1 h2 h3 h4 h5 h6 =>
      exfalso
      rw [h] at h5
      rcases applyContact_code h5 with e | e <;> rw [hc] at e <;> cases e
    | done c hctx s' h2 h0 h3 h4 h6 => exact Or.inr ⟨c, s', hctx, h2, h3, h4, rfl, rfl⟩

theorem toNames_of {req : Request} {aor : Str} (h : requestAor req = .ok aor) : ToNames req.headers aor := by
  obtain ⟨to, n, h1, h2, h3⟩ := requestAor_ok h
  obtain ⟨more, h4⟩ := Auth.selects_of_get h1
  exact ⟨to, more, n, h4, h2, h3⟩

theorem not_star {vs : List Str} (h : ∀ v ∈ vs, ¬ Strips isWs v ['*']) : ∀ v ∈ vs, trim v ≠ ['*'] :=
  fun v hv e => h v hv ((strips_trim v _).mpr e.symm)

/-- C45, C46: a REGISTER without wildcard that is answered 200 changes the bindings of the address named by
To and of no other.  Looked up at any later time, that address has exactly: the earlier bindings whose
contact the request does not mention, with the lifetime they had; and, for each contact the request mentions,
what the last Contact value about it asks for if that is not zero seconds, with the lifetime asked for
counted from the request.  The number of seconds is the Contact's own `expires`, else the Expires header,
else the default; it is zero, or within the configured minimum and maximum and within 60 to 86400. -/
theorem C45_C46_effect (w : World) (r : Reg) (req : Request) (d : Draw) (resp : Response)
    (h : (r.handle w req d).1 = .response resp) (h200 : resp.code = 200) (vs : List Str)
    (hvs : Contacts req.headers vs) (hstar : ∀ v ∈ vs, ¬ Strips isWs v ['*']) :
    ∃ aor, ToNames req.headers aor ∧
      (∀ a, a ≠ aor → ∀ t₁ t₂, t₁ ≤ t₂ → ∀ x,
        x ∈ ((r.handle w req d).2.store.lookup a t₁ t₂).1 ↔ x ∈ (r.store.lookup a t₁ t₂).1) ∧
      (∀ t₁ t₂, d.now ≤ t₁ → t₁ ≤ t₂ → ∀ x, x ∈ ((r.handle w req d).2.store.lookup aor t₁ t₂).1 ↔
        (x ∈ (r.store.lookup aor t₁ t₂).1 ∧ ∀ v ∈ vs, ¬ About v x.contact) ∨
        ∃ pre v post n, vs = pre ++ v :: post ∧ (∀ v' ∈ post, ¬ About v' x.contact) ∧
          AsAsked w req.headers (r.defaultExpires / SEC) v n x ∧ 0 < n ∧ x.aor = aor ∧
          t₂ < d.now + n * SEC ∧ x.expires = d.now + n * SEC - t₂) ∧
      (∀ v ∈ vs, ∃ uri n, Asks req.headers (r.defaultExpires / SEC) v uri n ∧
        (n = 0 ∨ (r.minExpires / SEC ≤ n ∧ n ≤ r.maxExpires / SEC ∧ 60 ≤ n ∧ n ≤ 86400))) := by
  obtain ⟨aor, a, hg, ha, hau, hway⟩ := handle_200 h h200
  have hm := (gate_none hg).1
  rw [contacts_iff] at hvs
  subst hvs
  rcases hway with ⟨v, n, h1, h2, _⟩ | ⟨c, s', hctx, h2, hf, heff, hst, _⟩
  · exact absurd h2 (not_star hstar v (by rw [h1]; simp))
  · obtain ⟨g1, g2⟩ := effect_lookup hctx hm hf heff
    refine ⟨aor, toNames_of ha, ?_, ?_, ?_⟩
    · intro k hk t₁ t₂ ht x
      rw [hst, same_of_mem (s := s') (fun y => by rw [at_lookup, if_neg hk]) x t₁ t₂ ht]
      exact g1 k hk t₁ t₂ ht x
    · intro t₁ t₂ ht ht' x
      rw [hst, lookup_lookup _ _ _ _ _ _ ht ht']
      exact g2 t₁ t₂ ht ht' x
    · intro v hv
      obtain ⟨a, ha, _, hor⟩ := hf v hv
      have hr := readContact_ok ha
      refine ⟨a.uri, a.expires, hr.asks, ?_⟩
      rcases hr.policy with h0 | hp
      · exact Or.inl h0
      · rcases hor with h0 | ⟨b, hb⟩
        · exact Or.inl h0
        · have := (makeBinding_some hb).2
          exact Or.inr ⟨hp.1, hp.2, this.1, this.2⟩

/-- C45: `Contact: *` answered 200 was the only Contact, came with `Expires: 0`, and leaves the address named
by To without bindings and every other address as it was. -/
theorem C45_wildcard (w : World) (r : Reg) (req : Request) (d : Draw) (resp : Response)
    (h : (r.handle w req d).1 = .response resp) (h200 : resp.code = 200) (vs : List Str)
    (hvs : Contacts req.headers vs) (star : Str) (hmem : star ∈ vs) (hstar : Strips isWs star ['*']) :
    vs = [star] ∧ (∃ e more, Selects "Expires".toList req.headers.inner (e :: more) ∧ Decimal e 0) ∧
    ∃ aor, ToNames req.headers aor ∧ (∀ t₁ t₂, ((r.handle w req d).2.store.lookup aor t₁ t₂).1 = []) ∧
      ∀ a, a ≠ aor → ∀ t₁ t₂, ((r.handle w req d).2.store.lookup a t₁ t₂).1 = (r.store.lookup a t₁ t₂).1 := by
  obtain ⟨aor, a, hg, ha, hau, hway⟩ := handle_200 h h200
  rw [contacts_iff] at hvs
  subst hvs
  rcases hway with ⟨v, n, h1, h2, h3, h4, h5⟩ | ⟨c, s', hctx, h2, _⟩
  · refine ⟨?_, ?_, aor, toNames_of ha, ?_, ?_⟩
    · rw [h1] at hmem ⊢
      rw [List.mem_singleton.mp hmem]
    · cases hx : req.headers.get "Expires".toList with
      | none => rw [hx] at h4; simp [parseOpt] at h4
      | some e =>
        rw [hx] at h4
        obtain ⟨more, hm⟩ := Auth.selects_of_get hx
        refine ⟨e, more, hm, ?_⟩
        simp only [parseOpt] at h4
        split at h4
        · rename_i m hd
          simp only [Except.ok.injEq, Option.some.injEq] at h4
          subst h4
          exact parseDec_some hd
        · cases h4
    · intro t₁ t₂
      rw [h5, lookup_fst, at_removeAll, if_pos rfl]; rfl
    · intro k hk t₁ t₂
      rw [h5, lookup_fst, lookup_fst, at_removeAll, if_neg hk]
  · exact absurd ((strips_trim _ _).mp hstar).symm (h2 star hmem)

-- two contacts are registered, one is refreshed, one removed, then all
example : Demo.contacts (Demo.reg.handle Demo.world
      (Demo.register "c" 1 [("Contact", "<sip:bob@1>;expires=100, \"B, ob\" <sip:bob@2;transport=tcp>"), ("expires", "90")])
      (Demo.at_ 0)).2.store 10 = [("sip:bob@1".toList, 90), ("sip:bob@2;transport=tcp".toList, 80)] := by
  decide +kernel
example : Demo.contacts (Demo.reg.run Demo.world
    [.register (Demo.register "c" 1 [("Contact", "<sip:bob@1>;expires=100"), ("Contact", "<sip:bob@2>")]) (Demo.at_ 0),
     .register (Demo.register "c" 2 [("Contact", "<sip:bob@1>;expires=0"), ("Contact", "<sip:bob@3> ; EXPIRES = 60")]) (Demo.at_ 5)]).store 10
      = [("sip:bob@2".toList, 3590), ("sip:bob@3".toList, 55)] := by decide +kernel
example : Demo.contacts (Demo.reg.run Demo.world
    [.register (Demo.register "c" 1 [("Contact", "<sip:bob@1>;expires=100"), ("Contact", "<sip:bob@2>")]) (Demo.at_ 0),
     .register (Demo.register "c" 2 [("Contact", " * "), ("Expires", "0")]) (Demo.at_ 5)]).store 10 = [] := by decide +kernel

/-! ## C46: requests that are too brief -/

theorem wanted_parse {r : Reg} {req : Request} {v uri sec : Str} {n : Nat} (hc : ContactOf v uri sec)
    (hw : Wanted req.headers (r.defaultExpires / SEC) sec n) (hn : n ≤ U64_MAX)
    (hx : ∀ e more, Selects "Expires".toList req.headers.inner (e :: more) → ∃ m, Decimal e m ∧ m ≤ U64_MAX) :
    r.parseExpires req v = if n = 0 then .ok 0 else if n < r.minExpires / SEC then .error (.tooBrief (r.minExpires / SEC))
      else if n > r.maxExpires / SEC then .error .tooLong else .ok n := by
  have hne : "expires".toList ≠ [] := by decide
  unfold Reg.parseExpires
  rw [contactOf_param hc _ hne]
  have hhdr : ∃ he, parseOpt U64_MAX (req.headers.get "Expires".toList) = .ok he := by
    cases hg : req.headers.get "Expires".toList with
    | none => exact ⟨none, rfl⟩
    | some e =>
      obtain ⟨more, hm⟩ := Auth.selects_of_get hg
      obtain ⟨m, h1, h2⟩ := hx e more hm
      exact ⟨some m, by simp only [parseOpt, parseDec_complete h1 h2]⟩
  rcases hw with ⟨e, h1, h2⟩ | ⟨h1, e, more, h2, h3⟩ | ⟨h1, h2, h3⟩
  · rw [(param_iff _ _ _ hne).mp h1]
    simp only [parseOpt, parseDec_complete h2 hn]
    obtain ⟨he, hhe⟩ := hhdr
    simp only [parseOpt] at hhe
    rw [hhe]
    rfl
  · rw [(noParam_iff _ _ hne).mp h1, Auth.get_of_selects h2]
    simp only [parseOpt, parseDec_complete h3 hn]
    rfl
  · rw [(noParam_iff _ _ hne).mp h1, (selects_nil_iff _ _).mp h2, h3]
    rfl

/-- C46: a REGISTER that needs no authentication, is complete, and has one Contact, asking for a SIP URI to
be bound for less than the minimum (but not zero), is answered 423 with the minimum in Min-Expires, and nothing
is stored.  (The handler's `Err`, in case the answer cannot be built, is the only alternative.) -/
theorem C46_too_brief (w : World) (r : Reg) (req : Request) (d : Draw) (v uri aor t1 t2 t3 : Str) (n k : Nat) (u : SipUri)
    (hauth : r.auth = none) (hadm : d.admitted = true)
    (hvia : ∃ more, Selects "Via".toList req.headers.inner (t1 :: more))
    (hfrom : ∃ more, Selects "From".toList req.headers.inner (t2 :: more))
    (hcall : ∃ more, Selects "Call-ID".toList req.headers.inner (t3 :: more))
    (hcseq : ∃ t more, Selects "CSeq".toList req.headers.inner (t :: more) ∧ CSeqOf t k ∧ k ≤ 4294967295)
    (hto : ToNames req.headers aor) (hpath : Selects "Path".toList req.headers.inner [])
    (hvs : Contacts req.headers [v]) (hasks : Asks req.headers (r.defaultExpires / SEC) v uri n)
    (huri : Uri.parse uri = some (.sip u)) (hstar : ¬ Strips isWs v ['*'])
    (hx : ∀ e more, Selects "Expires".toList req.headers.inner (e :: more) → ∃ m, Decimal e m ∧ m ≤ U64_MAX)
    (hmin : r.minExpires / SEC ≤ U64_MAX) (h0 : 0 < n) (hlt : n < r.minExpires / SEC) :
    ((r.handle w req d).1 = .error ∨ ∃ resp, (r.handle w req d).1 = .response resp ∧ resp.code = 423 ∧
      Selects "Min-Expires".toList resp.headers.inner [showNat (r.minExpires / SEC)]) ∧
    SameBindings d.now r.store (r.handle w req d).2.store := by
  obtain ⟨m1, hvia⟩ := hvia
  obtain ⟨m2, hfrom⟩ := hfrom
  obtain ⟨m3, hcall⟩ := hcall
  have hcs := (parseCseq_iff req k).mpr (by obtain ⟨t, m, h1, h2, h3⟩ := hcseq; exact ⟨t, m, h1, h2, h3⟩)
  obtain ⟨t4, m4, hcseq, _⟩ := hcseq
  have hmiss : missingHeader req = none := by
    unfold missingHeader
    rw [Auth.get_of_selects hvia, Auth.get_of_selects hfrom, Auth.get_of_selects hcall, Auth.get_of_selects hcseq]
    rfl
  have hgate : r.gate w req d = (none, none) := by
    unfold Reg.gate
    rw [hmiss, hadm, hauth]
    rfl
  have haor : requestAor req = .ok aor := by
    obtain ⟨to, more, na, h1, h2, h3⟩ := hto
    unfold requestAor
    rw [Auth.get_of_selects h1]
    simp only [h2, h3]
  rw [contacts_iff] at hvs
  have hst : trim v ≠ ['*'] := fun e => hstar ((strips_trim v _).mpr e.symm)
  obtain ⟨sec, hc, hw⟩ := hasks
  have hread : r.readContact w req d v = .error (refuseBrief req d (r.minExpires / SEC)) := by
    unfold Reg.readContact
    rw [contactOf_extract hc]
    simp only [huri]
    rw [wanted_parse hc hw (by omega) hx, if_neg (by omega), if_pos hlt]
  have hcon : req.headers.contains "Path".toList = false := by
    have := (selects_nil_iff _ _).mp hpath
    rw [C24_get_none] at this
    cases hh : req.headers.contains "Path".toList with
    | false => rfl
    | true =>
      obtain ⟨h, h1, h2⟩ := (C24_contains _ _).mp hh
      exact absurd h2 (this h h1)
  have hupd : r.update w req d aor = (refuseBrief req d (r.minExpires / SEC), (r.store.lookup aor d.now d.now).2) := by
    unfold Reg.update
    rw [hcs]
    simp only [← hvs]
    rw [if_neg (by simp), if_neg (by simp [hst]), if_neg (by simp [hst]), hcon]
    simp only [Bool.false_eq_true, if_false, Reg.applyContacts, Reg.applyContact, hread]
  have hh : r.handle w req d = (refuseBrief req d (r.minExpires / SEC),
      { r with auth := none, store := (r.store.lookup aor d.now d.now).2 }) := by
    unfold Reg.handle
    rw [hgate]
    simp only [haor, Option.isSome_none, Bool.false_and, Bool.false_eq_true, if_false]
    rw [update_auth, hupd]
  rw [hh]
  constructor
  · simp only
    cases hb : refuseBrief req d (r.minExpires / SEC) with
    | error => exact Or.inl rfl
    | panic =>
      unfold refuseBrief at hb
      split at hb
      · cases hb
      · split at hb <;> cases hb
    | response resp =>
      right
      refine ⟨resp, rfl, refuseBrief_code hb, ?_⟩
      unfold refuseBrief at hb
      split at hb
      · cases hb
      · rename_i resp0 hb0
        split at hb
        · cases hb
        · rename_i hdr hp
          simp only [Outcome.response.injEq] at hb
          rw [← hb]
          simp only
          have hin := C24_push _ _ _ _ hp
          have hnames := buildError_names hb0
          have hsel := C24_getAll hdr "Min-Expires".toList
          have : hdr.getAll "Min-Expires".toList = [showNat (r.minExpires / SEC)] := by
            unfold Headers.getAll
            rw [hin, List.filter_append]
            have h1 : resp0.headers.inner.filter (·.nameEq "Min-Expires".toList) = [] := by
              rw [List.filter_eq_nil_iff]
              intro h hh
              have hm := hnames h hh
              simp only [List.mem_cons, List.not_mem_nil, or_false] at hm
              unfold Header.nameEq
              rcases hm with e | e | e | e | e | e <;> rw [e] <;> decide
            rw [h1]
            rfl
          rw [this] at hsel
          exact hsel
  · intro k t₁ t₂ ht ht'
    exact lookup_lookup r.store aor d.now d.now t₁ t₂ ht ht' k

-- a request for 30 seconds meets the hypotheses and is answered so
example : (Demo.reg.handle Demo.world (Demo.register "c" 1 [("Contact", "<sip:bob@1>;expires=30")]) (Demo.at_ 0)).1
    = refuseBrief (Demo.register "c" 1 [("Contact", "<sip:bob@1>;expires=30")]) (Demo.at_ 0) 60 := by decide +kernel
example : (match (Demo.reg.handle Demo.world (Demo.register "c" 1 [("Contact", "<sip:bob@1>;expires=30")]) (Demo.at_ 0)).1 with
    | .response resp => (resp.code, resp.headers.get "Min-Expires".toList) | _ => (0, none)) = (423, some "60".toList) := by
  decide +kernel

/-- C46, the configured minimum is not honoured below 60 seconds: with a minimum of 10 seconds, a request for
30 seconds is neither granted nor answered 423: the handler returns `Err`. -/
theorem C46_min_below_60_fails : ∃ (w : World) (r : Reg) (req : Request) (d : Draw),
    r.minExpires = 10 * SEC ∧ Asks req.headers (r.defaultExpires / SEC) "<sip:bob@1>;expires=30".toList "sip:bob@1".toList 30 ∧
    Contacts req.headers ["<sip:bob@1>;expires=30".toList] ∧ (r.handle w req d).1 = .error := by
  refine ⟨Demo.world, { Demo.reg with minExpires := 10 * SEC },
    Demo.register "c" 1 [("Contact", "<sip:bob@1>;expires=30")], Demo.at_ 0, rfl, ?_, ?_, ?_⟩
  · obtain ⟨sec, hc⟩ := extract_contactOf (v := "<sip:bob@1>;expires=30".toList) (uri := "sip:bob@1".toList) (by decide +kernel)
    exact ⟨sec, hc, (parseExpires_wanted (r := { Demo.reg with minExpires := 10 * SEC })
      (req := Demo.register "c" 1 [("Contact", "<sip:bob@1>;expires=30")]) hc (by decide +kernel)).1⟩
  · rw [contacts_iff]; decide +kernel
  · decide +kernel

/-! ## C44: all or nothing -/

/-- C44 fails: a REGISTER with two contacts is answered 423 because of the second, yet the first is bound. -/
theorem C44_not_atomic : ∃ (w : World) (r : Reg) (req : Request) (d : Draw) (resp : Response),
    (r.handle w req d).1 = .response resp ∧ resp.code = 423 ∧
    (r.store.lookup Demo.bob d.now d.now).1 = [] ∧
    ((r.handle w req d).2.store.lookup Demo.bob d.now d.now).1.map (·.contact) = ["sip:bob@1".toList] := by
  have h : (match (Demo.reg.handle Demo.world (Demo.register "c" 1 [("Contact", "<sip:bob@1>, <sip:bob@2>;expires=30")]) (Demo.at_ 0)).1 with
      | .response resp => resp.code | _ => 0) = 423 := by decide +kernel
  cases ho : (Demo.reg.handle Demo.world (Demo.register "c" 1 [("Contact", "<sip:bob@1>, <sip:bob@2>;expires=30")]) (Demo.at_ 0)).1 with
  | response resp =>
    rw [ho] at h
    exact ⟨Demo.world, Demo.reg, _, Demo.at_ 0, resp, ho, h, rfl, by decide +kernel⟩
  | error => rw [ho] at h; cases h
  | panic => rw [ho] at h; cases h

/-- C44, what does hold: a REGISTER with at most one Contact that is answered with anything but 200 changes no
binding.  (Missing: requests with several contacts, for which it fails, and `Err` outcomes.) -/
theorem C44_one_contact_partial (w : World) (r : Reg) (req : Request) (d : Draw) (resp : Response)
    (h : (r.handle w req d).1 = .response resp) (hc : resp.code ≠ 200) (vs : List Str)
    (hvs : Contacts req.headers vs) (hlen : vs.length ≤ 1) :
    SameBindings d.now r.store (r.handle w req d).2.store := by
  rw [contacts_iff] at hvs
  subst hvs
  rcases handle_cases w r req d with ⟨hst, _⟩ | ⟨aor, a, hg, ha, hau, hway⟩
  · rw [hst]; intro k t₁ t₂ _ _; rfl
  · generalize (r.handle w req d).2.store = s2 at hway
    generalize (r.handle w req d).1 = o at hway h
    cases hway with
    | refused _ hr => intro k t₁ t₂ _ _; rfl
    | wildcard v h1 h2 n h3 h4 => exact absurd (okResponse_code h) hc
    | stopped c hctx done rest v _ _ s1 h1 h2 h3 h4 h5 h6 =>
      obtain ⟨ops, hops, rfl⟩ := h6
      have : done = [] := by
        rw [h1] at hlen
        simp only [List.length_append, List.length_cons] at hlen
        exact List.length_eq_zero_iff.mp (by omega)
      subst this
      cases hops
      intro k t₁ t₂ ht ht'
      exact lookup_lookup _ _ _ _ _ _ ht ht' k
    | done c hctx s' h2 h0 h3 h4 h6 => exact absurd (okResponse_code h) hc

example : Demo.code (Demo.reg.handle Demo.world (Demo.register "c" 1 [("Contact", "mailto:bob@1")]) (Demo.at_ 0)).1 = 400 := by
  decide +kernel

/-- C44: whatever the outcome, a request without wildcard leaves alone every contact it does not mention, and
every address but the one named by To. -/
theorem C44_others_untouched_partial (w : World) (r : Reg) (req : Request) (d : Draw) (vs : List Str)
    (hvs : Contacts req.headers vs) (hstar : ∀ v ∈ vs, ¬ Strips isWs v ['*']) (aor : Str) (x : Binding)
    (hx : ToNames req.headers aor → ∀ v ∈ vs, ¬ About v x.contact) (t₁ t₂ : Nat) (h1 : d.now ≤ t₁) (h2 : t₁ ≤ t₂) :
    x ∈ ((r.handle w req d).2.store.lookup aor t₁ t₂).1 ↔ x ∈ (r.store.lookup aor t₁ t₂).1 := by
  rw [contacts_iff] at hvs
  subst hvs
  rcases handle_cases w r req d with ⟨hst, _⟩ | ⟨aor', a, hg, ha, hau, hway⟩
  · rw [hst]
  · have hm := (gate_none hg).1
    have key : ∀ (c : Ctx) (done : List Str) (s' : Store), CtxOf r req d aor' c → (∀ v ∈ done, v ∈ contactHeaders req.headers) →
        (∀ v ∈ done, Fine w r req d c v) → Effect w r req d c done (r.store.lookup aor' d.now d.now).2 s' →
        (x ∈ (s'.lookup aor t₁ t₂).1 ↔ x ∈ (r.store.lookup aor t₁ t₂).1) := by
      intro c done s' hctx hsub hf heff
      obtain ⟨g1, g2⟩ := effect_lookup hctx hm hf heff
      by_cases hk : aor = aor'
      · subst hk
        have hno := hx (toNames_of ha)
        rw [g2 t₁ t₂ h1 h2 x]
        constructor
        · rintro (⟨h, _⟩ | ⟨pre, v, post, n, e1, _, e3, _⟩)
          · exact h
          · obtain ⟨sec, hs, _⟩ := e3.uri
            exact absurd ⟨sec, hs⟩ (hno v (hsub v (by rw [e1]; simp)))
        · intro h; exact Or.inl ⟨h, fun v hv => hno v (hsub v hv)⟩
      · exact g1 aor hk t₁ t₂ h2 x
    generalize (r.handle w req d).2.store = s2 at hway ⊢
    generalize (r.handle w req d).1 = o at hway
    cases hway with
    | refused _ hr => rfl
    | wildcard v h3 h4 => exact absurd ((strips_trim v _).mpr h4.symm) (hstar v (by rw [h3]; simp))
    | stopped c hctx done rest v _ _ s1 e1 e2 e3 e4 e5 e6 =>
      exact key c done _ hctx (fun v hv => by rw [e1]; simp [hv]) e3 e4
    | done c hctx s' e2 e0 e3 e4 e6 =>
      rw [lookup_lookup _ _ _ _ _ _ h1 h2]
      exact key c _ s' hctx (fun v hv => hv) e3 e4

/-- C44: requests turned away for lack of credentials, for the wrong user, or by the rate limiter change
nothing at all. -/
theorem C44_turned_away (w : World) (r : Reg) (req : Request) (d : Draw) (resp : Response)
    (h : (r.handle w req d).1 = .response resp)
    (hc : resp.code = 401 ∨ resp.code = 403 ∨ resp.code = 407 ∨ resp.code = 503) :
    (r.handle w req d).2.store = r.store := by
  rcases handle_cases w r req d with ⟨hst, _⟩ | ⟨aor, a, hg, ha, hau, hway⟩
  · exact hst
  · generalize (r.handle w req d).2.store = s2 at hway ⊢
    generalize (r.handle w req d).1 = o at hway h
    cases hway with
    | refused _ hr => rfl
    | wildcard v h1 h2 n h3 h4 => have := okResponse_code h; omega
    | stopped c hctx done rest v _ _ s1 h1 h2 h3 h4 h5 h6 =>
      rw [h] at h5
      rcases applyContact_code h5 with e | e <;> omega
    | done c hctx s' h2 h0 h3 h4 h6 => have := okResponse_code h; omega

/-! ## C43: replays -/

theorem outOfOrder_of_mem {c : Ctx} {b : Binding} (hb : b ∈ c.existing) (hn : (c.existing.map (·.contact)).Nodup)
    (h1 : b.callId = c.callId) (h2 : c.cseq ≤ b.cseq) : outOfOrder c b.contact = true := by
  unfold outOfOrder
  cases hf : c.existing.reverse.find? (fun x => x.contact == b.contact) with
  | none =>
    have := List.find?_eq_none.mp hf b (by simpa using hb)
    simp at this
  | some x =>
    have hx := List.mem_of_find?_eq_some hf
    have hc := List.find?_some hf
    have : x = b := by
      have inj : ∀ (l : List Binding), (l.map (·.contact)).Nodup → ∀ x ∈ l, ∀ y ∈ l, x.contact = y.contact → x = y := by
        intro l
        induction l with
        | nil => intro _ x hx; cases hx
        | cons z l ih =>
          intro hnd x hx y hy e
          simp only [List.map_cons, List.nodup_cons, List.mem_map, not_exists, not_and] at hnd
          rcases List.mem_cons.mp hx with hx1 | hx1 <;> rcases List.mem_cons.mp hy with hy1 | hy1
          · rw [hx1, hy1]
          · subst hx1; exact absurd e.symm (hnd.1 y hy1)
          · subst hy1; exact absurd e (hnd.1 x hx1)
          · exact ih hnd.2 x hx1 y hy1 e
      exact inj _ hn x (by simpa using hx) b hb (by simpa using hc)
    subst this
    simp [h1, h2]

theorem reg_good (w : World) (r0 : Reg) (h0 : Good r0.store) (ops : List RegOp) : Good (r0.run w ops).store := by
  unfold Reg.run
  induction ops generalizing r0 with
  | nil => exact h0
  | cons op ops ih =>
    rw [List.foldl_cons]
    refine ih _ ?_
    cases op with
    | store op => exact good_step _ op h0
    | register req d =>
      show Good (r0.handle w req d).2.store
      rcases handle_cases w r0 req d with ⟨hst, _⟩ | ⟨aor, a, hg, ha, hau, hway⟩
      · rw [hst]; exact h0
      · generalize (r0.handle w req d).2.store = s2 at hway ⊢
        generalize (r0.handle w req d).1 = o at hway
        cases hway with
        | refused _ hr => exact h0
        | wildcard v h1 h2 n h3 h4 => exact good_step _ (.removeAll aor d.now) h0
        | stopped c hctx done rest v _ _ s1 h1 h2 h3 h4 h5 h6 =>
          obtain ⟨ops', _, rfl⟩ := h6
          exact good_run _ _ (good_step _ (.lookup aor d.now d.now) h0)
        | done c hctx s' h2 h0' h3 h4 h6 =>
          obtain ⟨ops', _, rfl⟩ := h6
          exact good_step _ (.lookup aor d.now d.now) (good_run _ _ (good_step _ (.lookup aor d.now d.now) h0))

/-- C43: after any history, a REGISTER without wildcard whose Call-ID is that of a binding and whose CSeq is
not greater leaves that binding as it is, whatever else the request contains and whatever the answer.
(Missing: requests with a wildcard, see `C43_wildcard_ignores_cseq`; bindings that were removed, see
`C43_removed_comes_back`; concurrent requests, see `Race`.) -/
theorem C43_partial (w : World) (r0 : Reg) (h0 : r0.store = []) (ops : List RegOp) (req : Request) (d : Draw)
    (vs : List Str) (hvs : Contacts req.headers vs) (hstar : ∀ v ∈ vs, ¬ Strips isWs v ['*'])
    (aor : Str) (x : Binding) (t₁ t₂ : Nat) (h1 : d.now ≤ t₁) (h2 : t₁ ≤ t₂)
    (hx : x ∈ ((r0.run w ops).store.lookup aor t₁ t₂).1)
    (hcall : ∃ more, Selects "Call-ID".toList req.headers.inner (x.callId :: more))
    (hseq : ∀ v more n, Selects "CSeq".toList req.headers.inner (v :: more) → CSeqOf v n → n ≤ x.cseq) :
    x ∈ (((r0.run w ops).handle w req d).2.store.lookup aor t₁ t₂).1 := by
  have hgood := reg_good w r0 (by rw [h0]; exact good_init) ops
  generalize r0.run w ops = r at hx hgood ⊢
  rw [contacts_iff] at hvs
  subst hvs
  rcases handle_cases w r req d with ⟨hst, _⟩ | ⟨aor', a, hg, ha, hau, hway⟩
  · rw [hst]; exact hx
  · have hm := (gate_none hg).1
    have key : ∀ (c : Ctx) (done : List Str) (s' : Store), CtxOf r req d aor' c →
        (∀ v ∈ done, Fine w r req d c v) → Effect w r req d c done (r.store.lookup aor' d.now d.now).2 s' →
        x ∈ (s'.lookup aor t₁ t₂).1 := by
      intro c done s' hctx hf heff
      obtain ⟨g1, g2⟩ := effect_lookup hctx hm hf heff
      by_cases hk : aor = aor'
      · subst hk
        rw [g2 t₁ t₂ h1 h2 x]
        refine Or.inl ⟨hx, fun v hv hab => ?_⟩
        obtain ⟨ask, hread, hord, _⟩ := hf v hv
        have huri := (readAs_about (readContact_ok hread) _).mp hab
        obtain ⟨y, hy, hlt, hxy⟩ := (mem_lookup _ _ _ _ h2 _).mp hx
        have hmem : y.binding aor d.now ∈ c.existing := by
          rw [hctx.existing]
          exact (mem_lookup _ _ _ _ (Nat.le_refl _) _).mpr ⟨y, hy, by omega, rfl⟩
        have hnd : (c.existing.map (·.contact)).Nodup := by
          rw [hctx.existing, lookup_fst_le _ _ _ _ (Nat.le_refl _), List.map_map]
          exact (List.Sublist.map _ List.filter_sublist).nodup (hgood.contacts aor)
        have hb : (y.binding aor d.now).callId = c.callId := by
          obtain ⟨m1, k1⟩ := hcall
          obtain ⟨m2, k2⟩ := ctx_callId hctx hm
          have := selects_unique k1 k2
          simp only [List.cons.injEq] at this
          rw [← this.1, hxy]; rfl
        have hq : c.cseq ≤ (y.binding aor d.now).cseq := by
          obtain ⟨v', m, k1, k2, _⟩ := (parseCseq_iff req _).mp hctx.cseq
          have := hseq v' m _ k1 k2
          rw [hxy] at this; exact this
        have := outOfOrder_of_mem hmem hnd hb hq
        rw [huri, hxy] at hord
        rw [show (y.binding aor d.now).contact = (y.binding aor t₂).contact from rfl, hord] at this
        cases this
      · rw [g1 aor hk t₁ t₂ h2 x]; exact hx
    generalize (r.handle w req d).2.store = s2 at hway ⊢
    generalize (r.handle w req d).1 = o at hway
    cases hway with
    | refused _ hr => exact hx
    | wildcard v h3 h4 => exact absurd ((strips_trim v _).mpr h4.symm) (hstar v (by rw [h3]; simp))
    | stopped c hctx done rest v _ _ s1 e1 e2 e3 e4 e5 e6 => exact key c done _ hctx e3 e4
    | done c hctx s' e2 e0 e3 e4 e6 =>
      rw [lookup_lookup _ _ _ _ _ _ h1 h2]
      exact key c _ s' hctx e3 e4

-- a replayed refresh is refused and the binding keeps its lifetime
example : let r := Demo.reg.run Demo.world [.register (Demo.register "c" 5 [("Contact", "<sip:bob@1>;expires=100")]) (Demo.at_ 0)]
    Demo.code (r.handle Demo.world (Demo.register "c" 5 [("Contact", "<sip:bob@1>;expires=0")]) (Demo.at_ 9)).1 = 400 ∧
    Demo.contacts (r.handle Demo.world (Demo.register "c" 5 [("Contact", "<sip:bob@1>;expires=0")]) (Demo.at_ 9)).2.store 9
      = [("sip:bob@1".toList, 91)] := by decide +kernel

/-- C43 fails for `Contact: *`: an old wildcard removal, CSeq 1, removes a binding made with CSeq 5 of the
same Call-ID. -/
theorem C43_wildcard_ignores_cseq : ∃ (w : World) (r0 : Reg) (ops : List RegOp) (req : Request) (d : Draw) (x : Binding),
    r0.store = [] ∧ (∃ more, Selects "Call-ID".toList req.headers.inner (x.callId :: more)) ∧
    (∃ t more, Selects "CSeq".toList req.headers.inner (t :: more) ∧ CSeqOf t 1) ∧ x.cseq = 5 ∧
    x ∈ ((r0.run w ops).store.lookup x.aor d.now d.now).1 ∧
    x ∉ (((r0.run w ops).handle w req d).2.store.lookup x.aor d.now d.now).1 := by
  refine ⟨Demo.world, Demo.reg, [.register (Demo.register "c" 5 [("Contact", "<sip:bob@1>;expires=100")]) (Demo.at_ 0)],
    Demo.register "c" 1 [("Contact", "*"), ("Expires", "0")], Demo.at_ 9,
    { aor := Demo.bob, contact := "sip:bob@1".toList, expires := 91 * SEC, callId := "c".toList, cseq := 5, q := ['1'],
      userAgent := none, path := none, flowToken := none, instanceId := none, regId := none }, rfl, ?_, ?_, rfl, ?_, ?_⟩
  · exact Auth.selects_of_get (by decide +kernel)
  · obtain ⟨t, more, h1, h2, _⟩ := (parseCseq_iff (Demo.register "c" 1 [("Contact", "*"), ("Expires", "0")]) 1).mp (by decide +kernel)
    exact ⟨t, more, h1, h2⟩
  · decide +kernel
  · decide +kernel

/-- C43 fails once a binding is removed: register with CSeq 1, remove with CSeq 2, and a replay of the first
request registers the contact again. -/
theorem C43_removed_comes_back : ∃ (w : World) (r0 : Reg) (first second : Request) (d1 d2 d3 : Draw),
    r0.store = [] ∧ parseCseq first = some 1 ∧ parseCseq second = some 2 ∧ d1.now < d2.now ∧ d2.now < d3.now ∧
    first.headers.get "Call-ID".toList = second.headers.get "Call-ID".toList ∧
    ((r0.run w [.register first d1, .register second d2]).store.lookup Demo.bob d2.now d2.now).1 = [] ∧
    (((r0.run w [.register first d1, .register second d2]).handle w first d3).2.store.lookup Demo.bob d3.now d3.now).1.length = 1 := by
  refine ⟨Demo.world, Demo.reg, Demo.register "c" 1 [("Contact", "<sip:bob@1>;expires=100")],
    Demo.register "c" 2 [("Contact", "<sip:bob@1>;expires=0")], Demo.at_ 0, Demo.at_ 1, Demo.at_ 2, rfl, ?_⟩
  decide +kernel

/-! ## C40, C41 for the registrar -/

theorem paired_ops {w : World} {r : Reg} {req : Request} {d : Draw} {c : Ctx} : ∀ {vs : List Str} {ops : List StoreOp},
    Paired (OpFor w r req d c) vs ops → ∀ op ∈ ops, start op = d.now ∧ finish op = d.now
  | _, _, .nil, op, h => by cases h
  | _, _, .cons hp rest, op, h => by
    rcases List.mem_cons.mp h with rfl | h
    · obtain ⟨a, _, ⟨_, rfl⟩ | ⟨_, b, _, rfl⟩⟩ := hp <;> exact ⟨rfl, rfl⟩
    · exact paired_ops rest op h

theorem timed_instant (t : Nat) : ∀ (ops more : List StoreOp) (T' : Nat), (∀ op ∈ ops, start op = t ∧ finish op = t) →
    Timed t more T' → Timed t (ops ++ more) T'
  | [], _, _, _, h => h
  | op :: ops, more, T', hi, h => by
    obtain ⟨h1, h2⟩ := hi op (by simp)
    refine ⟨by omega, by omega, ?_⟩
    rw [h2]
    exact timed_instant t ops more T' (fun o ho => hi o (by simp [ho])) h

theorem timed_append : ∀ (a b : List StoreOp) (T T1 T' : Nat), Timed T a T1 → Timed T1 b T' → Timed T (a ++ b) T'
  | [], b, T, T1, T', h1, h2 => by
    cases b with
    | nil => exact Nat.le_trans h1 h2
    | cons op b => exact ⟨Nat.le_trans h1 h2.1, h2.2⟩
  | op :: a, b, T, T1, T', h1, h2 => ⟨h1.1, h1.2.1, timed_append a b _ T1 T' h1.2.2 h2⟩

/-- what one request does is a list of store operations at its instant -/
theorem handle_ops (w : World) (r : Reg) (req : Request) (d : Draw) :
    ∃ ops : List StoreOp, (∀ op ∈ ops, start op = d.now ∧ finish op = d.now) ∧
      (r.handle w req d).2.store = r.store.run ops := by
  rcases handle_cases w r req d with ⟨hst, _⟩ | ⟨aor, a, hg, ha, hau, hway⟩
  · exact ⟨[], by simp, hst⟩
  · generalize (r.handle w req d).2.store = s2 at hway ⊢
    generalize (r.handle w req d).1 = o at hway
    cases hway with
    | refused _ hr => exact ⟨[], by simp, rfl⟩
    | wildcard v h1 h2 n h3 h4 => exact ⟨[.removeAll aor d.now], by simp [start, finish], rfl⟩
    | stopped c hctx done rest v _ _ s1 h1 h2 h3 h4 h5 h6 =>
      obtain ⟨ops', hp, rfl⟩ := h6
      refine ⟨.lookup aor d.now d.now :: ops', ?_, rfl⟩
      intro op ho
      rcases List.mem_cons.mp ho with rfl | ho
      · exact ⟨rfl, rfl⟩
      · exact paired_ops hp op ho
    | done c hctx s' h2 h0' h3 h4 h6 =>
      obtain ⟨ops', hp, rfl⟩ := h6
      refine ⟨.lookup aor d.now d.now :: (ops' ++ [.lookup aor d.now d.now]), ?_, ?_⟩
      · intro op ho
        rcases List.mem_cons.mp ho with rfl | ho
        · exact ⟨rfl, rfl⟩
        · rcases List.mem_append.mp ho with ho | ho
          · exact paired_ops hp op ho
          · rw [List.mem_singleton.mp ho]; exact ⟨rfl, rfl⟩
      · simp only [Store.run, List.foldl_cons, List.foldl_append, List.foldl_nil]
        rfl

/-- C40, C41: every history of REGISTER requests and direct uses of the store is, for the store, a history
of its own operations in the same order of time; so `C40_lookup` and `C41_bounds` hold of it. -/
theorem C40_registrar (w : World) (r0 : Reg) (ops : List RegOp) (T T' : Nat) (ht : RegTimed T ops T') :
    ∃ sops, Timed T sops T' ∧ (r0.run w ops).store = r0.store.run sops := by
  induction ops generalizing r0 T with
  | nil => exact ⟨[], ht, rfl⟩
  | cons op ops ih =>
    cases op with
    | store op =>
      obtain ⟨sops, h1, h2⟩ := ih (r0.step w (.store op)) _ ht.2.2
      exact ⟨op :: sops, ⟨ht.1, ht.2.1, h1⟩, h2⟩
    | register req d =>
      obtain ⟨sops, h1, h2⟩ := ih (r0.step w (.register req d)) _ ht.2
      obtain ⟨o, h3, h4⟩ := handle_ops w r0 req d
      refine ⟨o ++ sops, ?_, ?_⟩
      · exact timed_append [] _ T d.now T' ht.1 (timed_instant _ _ _ _ h3 h1)
      · show ((r0.step w (.register req d)).run w ops).store = _
        rw [h2]
        show (r0.handle w req d).2.store.run sops = _
        rw [h4]
        simp only [Store.run, List.foldl_append]

/-- C41 for the registrar: after any history of requests (in any order of clock readings), an
address-of-record has no contact twice and at most 20 bindings, and there are at most 100000 in all. -/
theorem C41_registrar (w : World) (r0 : Reg) (h0 : r0.store = []) (ops : List RegOp) :
    (∀ aor t₁ t₂, ((((r0.run w ops).store.lookup aor t₁ t₂).1).map (·.contact)).Nodup ∧
      (((r0.run w ops).store.lookup aor t₁ t₂).1).length ≤ 20) ∧
    ((r0.run w ops).store.map (fun e => e.2.length)).sum ≤ 100000 := by
  have : ∃ sops, (r0.run w ops).store = r0.store.run sops := by
    clear h0
    induction ops generalizing r0 with
    | nil => exact ⟨[], rfl⟩
    | cons op ops ih =>
      obtain ⟨sops, h2⟩ := ih (r0.step w op)
      cases op with
      | store op => exact ⟨op :: sops, h2⟩
      | register req d =>
        obtain ⟨o, _, h4⟩ := handle_ops w r0 req d
        refine ⟨o ++ sops, ?_⟩
        show ((r0.step w (.register req d)).run w ops).store = _
        rw [h2]
        show (r0.handle w req d).2.store.run sops = _
        rw [h4]
        simp only [Store.run, List.foldl_append]
  obtain ⟨sops, e⟩ := this
  rw [e, h0]
  exact ⟨(C41_bounds sops).1, (C41_bounds sops).2.2⟩

example : RegTimed 0 [.register (Demo.register "c" 1 [("Contact", "<sip:bob@1>")]) (Demo.at_ 3), .store (.cleanup (5 * SEC)),
    .register (Demo.register "c" 2 [("Contact", "<sip:bob@1>;expires=0")]) (Demo.at_ 9)] (10 * SEC) := by
  simp only [RegTimed, Demo.at_, start, finish]; decide

end Siphon.Registrar
