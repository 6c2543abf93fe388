import Verif.Relay.PropsForward
set_option linter.unusedSimpArgs false
/-!
# C127: calls through the proxy
-/
namespace Siphon.Relay
open HdrSpec TextSpec Spec MfSpec
open Siphon.Proxy (addVia prependVia_iff viaValue checkMaxForwards addRecordRoute addRecordRoute_some)
open Siphon.Proxy.FwdSpec (ViaText RecordRouteText)
open Siphon.Bridge (socketOf firstFound firstFound_iff firstFound_nil keysFor Lookup)
open Siphon.Bridge.Spec (FirstHit)
open Siphon.Daemon (Gate exempt)
open Siphon.Daemon.Spec (Hops Fine GoodTag Answers)

theorem recordRouteText_unique {u : SipUri} {v w : Str} (h : RecordRouteText u v) (h' : RecordRouteText u w) : v = w := by
  rcases h with ⟨⟨e, he, hs⟩, rfl⟩ | ⟨hn, rfl⟩
  · rcases h' with ⟨_, rfl⟩ | ⟨hn, _⟩
    · rfl
    · exact absurd hs (hn e he)
  · rcases h' with ⟨⟨e, he, hs⟩, _⟩ | ⟨_, rfl⟩
    · exact absurd hs (hn e he)
    · rfl

theorem recordRouteText_exists (u : SipUri) : ∃ v, RecordRouteText u v := by
  by_cases h : ∃ e ∈ u.params, SameName e.1 "lr".toList
  · exact ⟨_, .inl ⟨h, rfl⟩⟩
  · refine ⟨_, .inr ⟨?_, rfl⟩⟩
    intro e he hs
    exact h ⟨e, he, hs⟩

theorem addRecordRoute_iff (r q : Request) (me : SipUri) : addRecordRoute r me = some q ↔
    ∃ v, RecordRouteText me v ∧ Fits v ∧ r.headers.inner.length < 200 ∧
      q = { r with headers := ⟨r.headers.inner ++ [⟨"Record-Route".toList, v⟩]⟩ } := by
  constructor
  · intro h
    obtain ⟨v, h1, h2⟩ := addRecordRoute_some h
    unfold addRecordRoute at h
    simp only at h
    split at h
    · cases h
    · rename_i hs hp
      have hp0 := hp
      unfold Headers.push at hp
      split at hp
      · cases hp
      · rename_i hl
        split at hp
        · cases hp
        · rename_i x hx
          obtain ⟨rfl, _, _, h3, h4⟩ := (header_new_ok_iff _ _ _).mp hx
          refine ⟨v, h1, ?_, by simp only [MAX_HEADERS] at hl; omega, h2⟩
          have := C24_push _ _ _ _ hp0
          cases h
          have h2 := congrArg (fun z : Request => z.headers.inner) h2
          simp only at h2
          rw [this] at h2
          have h2 := List.append_cancel_left h2
          simp only [List.cons.injEq, Header.mk.injEq, and_true, true_and] at h2
          subst h2
          exact ⟨h3, h4⟩
  · rintro ⟨v, h1, h2, h3, rfl⟩
    have htok : Token "Record-Route".toList := ((validateHeaderName_ok_iff "Record-Route".toList).mp (by decide +kernel)).1
    unfold addRecordRoute
    simp only
    have hv : (if (me.params.any fun e => eqIgnoreCase e.1 "lr".toList) = true then '<' :: me.raw ++ ['>']
        else '<' :: me.raw ++ ";lr>".toList) = v := by
      refine recordRouteText_unique ?_ h1
      by_cases hc : (me.params.any fun e => eqIgnoreCase e.1 "lr".toList) = true
      · rw [if_pos hc]
        obtain ⟨e, he, hs⟩ := List.any_eq_true.mp hc
        exact .inl ⟨⟨e, he, (sameName_iff _ _).mpr hs⟩, rfl⟩
      · rw [if_neg hc]
        refine .inr ⟨?_, rfl⟩
        intro e he hs
        exact hc (List.any_eq_true.mpr ⟨e, he, (sameName_iff _ _).mp hs⟩)
    rw [hv, C24_push_ok r.headers _ _ h3 htok (by decide +kernel) h2.1 h2.2]

theorem marked_iff (c : Cfg) (r q : Request) :
    recordRoute c true r = some q ↔ ∃ l, Marked c r.headers.inner l ∧ q = { r with headers := ⟨l⟩ } := by
  unfold recordRoute Marked
  rw [if_pos rfl]
  cases hme : SipUri.parse c.localUri with
  | none =>
    simp only
    constructor
    · intro h; cases h; exact ⟨_, .inr ⟨by trivial, rfl⟩, rfl⟩
    · rintro ⟨l, ⟨me, v, h, _⟩ | ⟨_, rfl⟩, rfl⟩
      · cases h
      · rfl
  | some me =>
    simp only
    rw [addRecordRoute_iff]
    constructor
    · rintro ⟨v, h1, h2, h3, rfl⟩
      exact ⟨_, .inl ⟨me, v, rfl, h1, h2, h3, rfl⟩, rfl⟩
    · rintro ⟨l, ⟨me', v, h, h1, h2, h3, rfl⟩ | ⟨h, _⟩, rfl⟩
      · cases h
        exact ⟨v, h1, h2, h3, rfl⟩
      · cases h

theorem keys_iff (rq : Request) (ks : List Str) : Keys rq ks ↔ ∃ u, SipUri.parse rq.uri = some u ∧ ks = keysFor u := by
  unfold Keys keysFor
  constructor
  · rintro ⟨u, user, h1, h2, rfl⟩
    refine ⟨u, h1, ?_⟩
    rw [(UriP.parse_sound h1).2]
    rcases h2 with h2 | ⟨h2, rfl⟩
    · rw [h2]
    · rw [h2]
  · rintro ⟨u, h1, rfl⟩
    cases hu : u.user with
    | none =>
      refine ⟨u, [], h1, .inr ⟨hu, rfl⟩, ?_⟩
      rw [(UriP.parse_sound h1).2]
    | some x =>
      refine ⟨u, x, h1, .inl hu, ?_⟩
      rw [(UriP.parse_sound h1).2]

theorem inviteCarrier_unique {u : SipUri} {k k' : Manager.TransportKind} (h : InviteCarrier u k) (h' : InviteCarrier u k') : k = k' :=
  ((inviteCarrier_iff u k).mp h).symm.trans ((inviteCarrier_iff u k').mp h')

theorem place_call (c : Cfg) (rq : Request) (hs : List Header) (look : Lookup) (d : Dest) (q : Request) :
    place c rq { rq with headers := ⟨hs⟩ } look = some (.inr (d, q)) ↔ Calls c rq hs look d q := by
  unfold place
  cases hr : recordRoute c true { rq with headers := ⟨hs⟩ } with
  | none =>
    simp only [reduceCtorEq, false_iff]
    rintro ⟨_, _, hm, _⟩
    rw [(marked_iff c _ _).mpr ⟨_, hm, rfl⟩] at hr
    cases hr
  | some p =>
    obtain ⟨l, hm, rfl⟩ := (marked_iff c _ _).mp hr
    have hmu : ∀ l', Marked c hs l' → l' = l := by
      intro l' h
      have := (marked_iff c { rq with headers := ⟨hs⟩ } _).mpr ⟨l', h, rfl⟩
      rw [hr] at this
      cases this
      rfl
    simp only
    cases ht : SipUri.parse rq.uri with
    | none =>
      simp only [reduceCtorEq, false_iff]
      rintro ⟨⟨ks, _, _, _, ⟨t, _, h, _⟩, _⟩, _⟩
      rw [ht] at h
      cases h
    | some target =>
      simp only
      have hks : ∀ ks, Keys rq ks ↔ ks = keysFor target := by
        intro ks
        rw [keys_iff]
        constructor
        · rintro ⟨u, h, rfl⟩; rw [ht] at h; cases h; rfl
        · rintro rfl; exact ⟨target, ht, rfl⟩
      cases hf : firstFound look (keysFor target) with
      | nil =>
        simp only [Option.some.injEq, reduceCtorEq, false_iff]
        rintro ⟨⟨ks, ct, _, _, h, h', _⟩, _⟩
        rw [(hks ks).mp h] at h'
        obtain ⟨rest, e⟩ := (firstFound_iff look _ ct).mpr h'
        rw [hf] at e
        cases e
      | cons contact more =>
        simp only
        have hhit := (firstFound_iff look _ contact).mp ⟨more, hf⟩
        have hun : ∀ ct, FirstHit look (keysFor target) ct → ct = contact := by
          intro ct h
          obtain ⟨rest, e⟩ := (firstFound_iff look _ ct).mpr h
          rw [hf] at e
          cases e
          rfl
        cases hc : SipUri.parse contact with
        | none =>
          simp only [reduceCtorEq, false_iff]
          rintro ⟨⟨ks, ct, u, _, h, h', h'', _⟩, _⟩
          rw [(hks ks).mp h] at h'
          rw [hun ct h', hc] at h''
          cases h''
        | some u =>
          simp only
          have hpl := fun k d => place_iff c ⟨contact, hc⟩ k d
          constructor
          · intro h
            cases ha : socketOf u with
            | none => rw [ha] at h; cases h
            | some a =>
              rw [ha] at h
              simp only at h
              obtain ⟨d', hd, e⟩ := Option.map_eq_some_iff.mp h
              have e := Sum.inr.inj e
              have e1 := congrArg Prod.fst e
              have e2 := congrArg Prod.snd e
              simp only at e1 e2
              subst e1 e2
              exact ⟨⟨_, contact, u, _, (hks _).mpr rfl, hhit, hc, (inviteCarrier_iff u _).mpr rfl, (hpl _ _).mpr ⟨a, ha, hd⟩,
                (UriP.parse_sound hc).2⟩, rfl, hm, rfl⟩
          · rintro ⟨⟨ks, ct, u', k, h1, h2, h3, h4, h5, h6⟩, hmt, hmk, hb⟩
            rw [(hks ks).mp h1] at h2
            have := hun ct h2
            subst this
            rw [hc] at h3
            cases h3
            have := (inviteCarrier_iff u k).mp h4
            subst this
            obtain ⟨a, ha, hd⟩ := (hpl _ _).mp h5
            rw [ha]
            simp only
            rw [hd, Option.map_some]
            have := hmu _ hmk
            have e : q = { rq with uri := u.raw, headers := ⟨l⟩ } := by
              rw [(UriP.parse_sound hc).2, ← h6, ← this]
              cases q
              simp only at hmt hb
              subst hmt hb
              rfl
            rw [e]

theorem place_notFound (c : Cfg) (rq : Request) (hs : List Header) (look : Lookup) (r : Response) :
    place c rq { rq with headers := ⟨hs⟩ } look = some (.inl r) ↔
      (∃ l, Marked c hs l) ∧ NotFound rq look ∧ r = ⟨404, "Not Found".toList, rq.headers, []⟩ := by
  unfold place
  cases hr : recordRoute c true { rq with headers := ⟨hs⟩ } with
  | none =>
    simp only [reduceCtorEq, false_iff]
    rintro ⟨⟨l, hm⟩, _⟩
    rw [(marked_iff c _ _).mpr ⟨_, hm, rfl⟩] at hr
    cases hr
  | some p =>
    obtain ⟨l, hm, rfl⟩ := (marked_iff c _ _).mp hr
    simp only
    cases ht : SipUri.parse rq.uri with
    | none =>
      simp only [reduceCtorEq, false_iff]
      rintro ⟨_, ⟨ks, ⟨t, _, h, _⟩, _⟩, _⟩
      rw [ht] at h
      cases h
    | some target =>
      simp only
      have hks : ∀ ks, Keys rq ks ↔ ks = keysFor target := by
        intro ks
        rw [keys_iff]
        constructor
        · rintro ⟨u, h, rfl⟩; rw [ht] at h; cases h; rfl
        · rintro rfl; exact ⟨target, ht, rfl⟩
      cases hf : firstFound look (keysFor target) with
      | nil =>
        simp only [Option.some.injEq, Sum.inl.injEq]
        constructor
        · rintro rfl
          exact ⟨⟨l, hm⟩, ⟨_, (hks _).mpr rfl, (firstFound_nil look _).mp hf⟩, rfl⟩
        · rintro ⟨_, _, rfl⟩; rfl
      | cons contact more =>
        simp only
        constructor
        · intro h
          exfalso
          split at h
          · cases h
          · split at h
            · cases h
            · obtain ⟨d', _, e⟩ := Option.map_eq_some_iff.mp h
              cases e
        · rintro ⟨_, ⟨ks, h1, h2⟩, _⟩
          rw [(hks ks).mp h1] at h2
          rw [(firstFound_nil look _).mpr h2] at hf
          cases hf

theorem called_iff (c : Cfg) (rq : Request) (x : Ctx) (b : Str) :
    (∃ hs, Called c rq x b hs ∧ (∃ q, checkMaxForwards rq = some q ∧
      addVia q (proxyHost c) (transportName x.transport) b = some { rq with headers := ⟨hs⟩ })) ∨
    ((∀ hs, ¬ Called c rq x b hs) ∧ (checkMaxForwards rq = none ∧ (∀ l, ¬ Lowered rq.headers.inner l) ∨
      ∃ q, checkMaxForwards rq = some q ∧ (∃ l, Lowered rq.headers.inner l) ∧
        addVia q (proxyHost c) (transportName x.transport) b = none)) := by
  cases hm : checkMaxForwards rq with
  | none =>
    right
    have hn : ∀ l, ¬ Lowered rq.headers.inner l := by
      intro l h
      rw [(checkMaxForwards_iff _ _).mpr ⟨l, h, rfl⟩] at hm
      cases hm
    refine ⟨?_, .inl ⟨rfl, hn⟩⟩
    rintro hs ⟨_, l, _, h, _⟩
    exact hn l h
  | some q =>
    obtain ⟨l, hl, rfl⟩ := (checkMaxForwards_iff _ _).mp hm
    cases hv : addVia { rq with headers := ⟨l⟩ } (proxyHost c) (transportName x.transport) b with
    | none =>
      right
      refine ⟨?_, .inr ⟨_, rfl, ⟨l, hl⟩, hv⟩⟩
      rintro hs ⟨host, l', h1, h2, h3, h4, _⟩
      have := (hostText_iff c host).mp h1
      subst this
      rw [lowered_unique h2 hl] at h4
      have e := (prependVia_iff { rq with headers := ⟨l⟩ } _ _).mpr ⟨h3.1, h3.2, h4, rfl⟩
      unfold addVia at hv
      rw [viaName_eq, show viaValue = ViaText from rfl, e] at hv
      cases hv
    | some p =>
      left
      unfold addVia at hv
      obtain ⟨h1, h2, h3, rfl⟩ := (prependVia_iff _ _ _).mp hv
      rw [viaName_eq, show viaValue = ViaText from rfl] at h1 h2
      refine ⟨_, ⟨proxyHost c, l, (hostText_iff _ _).mpr rfl, hl, ⟨h1, h2⟩, h3, rfl⟩, _, rfl, ?_⟩
      unfold addVia
      rw [hv, viaName_eq]
      rfl

theorem called_unique {c : Cfg} {rq : Request} {x : Ctx} {b : Str} {hs hs' : List Header} (h : Called c rq x b hs)
    (h' : Called c rq x b hs') : hs = hs' := by
  obtain ⟨host, l, g1, g3, _, _, rfl⟩ := h
  obtain ⟨host', l', g1', g3', _, _, rfl⟩ := h'
  have := ((hostText_iff c _).mp g1).trans ((hostText_iff c _).mp g1').symm
  subst this
  rw [lowered_unique g3 g3']

theorem dispatch_reaches {c : Cfg} {st : St} {txn : Nat} {rq : Request} {x : Ctx} {i : Info} (hr : Reaches rq i.gate)
    (hm : rq.method = .invite) : step c st (.request txn rq x i) = onInvite c st txn rq x i := by
  show dispatch c st txn rq x i = _
  unfold dispatch
  rw [(noHops_hops _).mpr hr.1, hm]
  simp only [Bool.false_eq_true, if_false]
  have : exempt .invite = false := by decide
  rw [this]
  simp only [Bool.false_eq_true, if_false]
  rcases hr.2 with h | h
  · rw [h]
    simp
  · rw [hm] at h
    simp at h

/-- C127: an INVITE is answered with 100 at once.  It is then sent to the first contact registered for its Request-URI, which becomes
the Request-URI; Max-Forwards is one less, the proxy's Via is in front and its Record-Route at the end, and everything else is as it
came.  If Max-Forwards cannot be lowered it is answered with 483, and if no contact is registered with 404; in every other case nothing
more happens. -/
theorem C127_invite (c : Cfg) (st : St) (txn : Nat) (rq : Request) (x : Ctx) (i : Info) (hf : Fine rq) (ht : GoodTag i.tag)
    (hm : rq.method = .invite) (hr : Reaches rq i.gate) :
    ∃ t os, (step c st (.request txn rq x i)).2 = .provisional txn t :: os ∧ Answers rq 100 i.tag t ∧ t.body = [] ∧
      (∀ d q, os = [.request d q] ↔ ∃ hs, Called c rq x i.branch hs ∧ Calls c rq hs i.look d q) ∧
      (∀ r, os = [.final txn r] ↔
        (∀ l, ¬ Lowered rq.headers.inner l) ∧ r = ⟨483, "Too Many Hops".toList, rq.headers, []⟩ ∨
        (∃ hs l, Called c rq x i.branch hs ∧ Marked c hs l) ∧ NotFound rq i.look ∧ r = ⟨404, "Not Found".toList, rq.headers, []⟩) ∧
      (os = [] ∨ (∃ d q, os = [.request d q]) ∨ ∃ r, os = [.final txn r]) := by
  have hdone : ∃ t, Uas.createResponse rq.headers 100 "Trying".toList i.tag = .done t ∧ Answers rq 100 i.tag t ∧ t.body = [] := by
    let j : Daemon.Info := { gate := .pass, now := 0, tag := i.tag, rnd := 0, answer := fun _ => .panic, offer := none }
    exact Daemon.plain_done (i := j) (reason := "Trying") hf ht (code := 100) (by omega) (by unfold Uas.ReasonOk; decide)
  obtain ⟨t, h1, h2, h3⟩ := hdone
  rw [dispatch_reaches hr hm]
  unfold onInvite
  rw [h1]
  simp only
  rcases called_iff c rq x i.branch with ⟨hs, hc, q, e1, e2⟩ | ⟨hn, ⟨e1, hl⟩ | ⟨q, e1, hl, e2⟩⟩
  · rw [e1]
    simp only
    rw [e2]
    simp only
    have hlow : ∃ l, Lowered rq.headers.inner l := by obtain ⟨_, l, _, h, _⟩ := hc; exact ⟨l, h⟩
    have hp1 := place_call c rq hs i.look
    have hp2 := place_notFound c rq hs i.look
    cases hp : place c rq { rq with headers := ⟨hs⟩ } i.look with
    | none =>
      rw [hp] at hp1 hp2
      refine ⟨t, [], rfl, h2, h3, fun d q => ⟨fun h => (by cases h), ?_⟩, fun r => ⟨fun h => (by cases h), ?_⟩, .inl rfl⟩
      · rintro ⟨hs', g1, g2⟩
        rw [called_unique g1 hc] at g2
        cases (hp1 d q).mpr g2
      · rintro (⟨h, _⟩ | ⟨⟨hs', l, g1, g2⟩, g3, g4⟩)
        · obtain ⟨l, h'⟩ := hlow
          exact absurd h' (h l)
        · rw [called_unique g1 hc] at g2
          cases (hp2 r).mpr ⟨⟨l, g2⟩, g3, g4⟩
    | some y =>
      rw [hp] at hp1 hp2
      cases y with
      | inl r =>
        refine ⟨t, [.final txn r], rfl, h2, h3, fun d q => ⟨fun h => (by cases h), ?_⟩, fun r' => ?_, .inr (.inr ⟨r, rfl⟩)⟩
        · rintro ⟨hs', g1, g2⟩
          rw [called_unique g1 hc] at g2
          cases (hp1 d q).mpr g2
        · obtain ⟨⟨l, g1⟩, g2, g3⟩ := (hp2 r).mp rfl
          constructor
          · intro h
            cases h
            exact .inr ⟨⟨hs, l, hc, g1⟩, g2, g3⟩
          · rintro (⟨h, _⟩ | ⟨_, _, rfl⟩)
            · obtain ⟨l, h'⟩ := hlow
              exact absurd h' (h l)
            · rw [g3]
      | inr y =>
        obtain ⟨d, q⟩ := y
        refine ⟨t, [.request d q], rfl, h2, h3, fun d' q' => ?_, fun r' => ⟨fun h => (by cases h), ?_⟩, .inr (.inl ⟨d, q, rfl⟩)⟩
        · constructor
          · intro h
            cases h
            exact ⟨hs, hc, (hp1 d q).mp rfl⟩
          · rintro ⟨hs', g1, g2⟩
            rw [called_unique g1 hc] at g2
            have := (hp1 d' q').mpr g2
            cases this
            rfl
        · rintro (⟨h, _⟩ | ⟨⟨hs', l, g1, g2⟩, g3, g4⟩)
          · obtain ⟨l, h'⟩ := hlow
            exact absurd h' (h l)
          · rw [called_unique g1 hc] at g2
            cases (hp2 r').mpr ⟨⟨l, g2⟩, g3, g4⟩
  · rw [e1]
    refine ⟨t, _, rfl, h2, h3, fun d q => ⟨fun h => (by cases h), ?_⟩, fun r => ?_, .inr (.inr ⟨_, rfl⟩)⟩
    · rintro ⟨hs', g1, _⟩
      exact absurd g1 (hn _)
    · constructor
      · intro h
        cases h
        exact .inl ⟨hl, rfl⟩
      · rintro (⟨_, rfl⟩ | ⟨⟨hs', l, g1, g2⟩, _⟩)
        · rfl
        · exact absurd g1 (hn _)
  · rw [e1]
    simp only
    rw [e2]
    refine ⟨t, [], rfl, h2, h3, fun d q => ⟨fun h => (by cases h), ?_⟩, fun r => ⟨fun h => (by cases h), ?_⟩, .inl rfl⟩
    · rintro ⟨hs', g1, _⟩
      exact absurd g1 (hn _)
    · rintro (⟨h, _⟩ | ⟨⟨hs', l, g1, g2⟩, _⟩)
      · obtain ⟨l, h'⟩ := hl
        exact absurd h' (h l)
      · exact absurd g1 (hn _)

end Siphon.Relay
