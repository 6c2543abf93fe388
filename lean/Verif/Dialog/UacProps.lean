import Verif.Dialog.UacLemmas
set_option linter.unusedSimpArgs false
/-!
# Requests inside a dialog: C77, C78, C80

The route set of a new dialog, the routing of a request in a dialog, and its reception by the other end.
-/
namespace Siphon.Dlg
open Spec TextSpec HdrSpec

/-! ## C77: the route set of a new dialog -/

/-- **C77.** The caller's route set is the Record-Route list of the response from bottom to top. -/
theorem C77_uac_routes (req : Request) (resp : Response) (l r : SipUri) (d : Dialog) (us : List SipUri)
    (hr : Recorded resp.headers us) (h : Dialog.newUac req resp l r = .done (some d)) : d.routeSet = us.reverse := by
  unfold Dialog.newUac at h
  split at h
  · cases h
  · cases h
  · split at h
    · cases h
    · simp only [Run.done.injEq] at h
      exact buildRouteSet_recorded hr (assemble_routes h)

/-- **C77.** The callee's route set is the Record-Route list of the request from top to bottom. -/
theorem C77_uas_routes (req : Request) (resp : Response) (l r : SipUri) (d : Dialog) (us : List SipUri)
    (hr : Recorded req.headers us) (h : Dialog.newUas req resp l r = .done (some d)) : d.routeSet = us := by
  unfold Dialog.newUas at h
  split at h
  · cases h
  · cases h
  · split at h
    · cases h
    · simp only [Run.done.injEq] at h
      exact buildRouteSet_recorded hr (assemble_routes h)

/-- **C77.** So when the response carries the Record-Route list of the request, as a callee must send it, the two
ends hold the same proxies in opposite order. -/
theorem C77_opposite (req req' : Request) (resp resp' : Response) (l r l' r' : SipUri) (d d' : Dialog)
    (us : List SipUri) (h1 : Recorded req'.headers us) (h2 : Recorded resp.headers us)
    (hc : Dialog.newUac req resp l r = .done (some d)) (hs : Dialog.newUas req' resp' l' r' = .done (some d')) :
    d.routeSet = d'.routeSet.reverse := by
  rw [C77_uac_routes req resp l r d us h2 hc, C77_uas_routes req' resp' l' r' d' us h1 hs]

/-- **C77.** A 2xx for an early dialog replaces the route set in the same way. -/
theorem C77_confirmed_routes (d : Dialog) (resp : Response) (us : List SipUri) (hr : Recorded resp.headers us)
    (h : (d.updateFromResponse resp).routeSet ≠ d.routeSet) : (d.updateFromResponse resp).routeSet = us.reverse :=
  buildRouteSet_recorded hr (response_routeSet d resp h).2.2.1

/-! ## C78: routing a request in a dialog -/

theorem isLoose_iff (u : SipUri) : isLoose u = true ↔ ∃ v, ("lr".toList, v) ∈ u.params := by
  unfold isLoose BMap.has
  rw [List.any_eq_true]
  constructor
  · rintro ⟨⟨k, v⟩, hm, hk⟩
    rw [beq_iff_eq] at hk
    simp only at hk
    exact ⟨v, hk ▸ hm⟩
  · rintro ⟨v, hm⟩
    exact ⟨_, hm, by simp⟩

theorem routing_routed (d : Dialog) : Routed d (routing d).1.raw ((routing d).2.1.map Bracketed) (routing d).2.2 := by
  unfold routing
  split
  · rename_i h
    exact .direct h
  · rename_i first rest h
    split
    · rename_i hl
      have := Routed.loose h ((isLoose_iff first).1 hl)
      rw [h] at this
      exact this
    · rename_i hl
      have := Routed.strict (d := d) h (fun v hv => hl ((isLoose_iff first).2 ⟨v, hv⟩))
      simpa using this

theorem getAll_named (l : List Str) (n m : Str) :
    Headers.getAll ⟨l.map (fun v => ⟨n, v⟩)⟩ m = if eqIgnoreCase n m then l else [] := by
  unfold Headers.getAll
  induction l with
  | nil => simp
  | cons v l ih =>
    simp only [List.map_cons, List.filter_cons, Header.nameEq] at ih ⊢
    split
    · rename_i h
      rw [if_pos h] at ih
      rw [List.map_cons, ih]
    · rename_i h
      rw [if_neg h] at ih
      exact ih

theorem getAll_remove_self (hs : Headers) (n m : Str) (h : SameName m n) : (hs.remove n).1.getAll m = [] := by
  unfold Headers.getAll
  rw [List.filter_eq_nil_iff.2]
  · rfl
  · intro x hx hm
    exact (C24_remove hs n).1 x hx (sameName_trans ((nameEq_iff _ _).1 hm) h)

theorem withRouting_spec {d : Dialog} {m : Method} {hs : Headers} {b : Bytes} {r : Request}
    (h : withRouting d m hs b = .done r) :
    r.method = m ∧ r.body = b ∧ (∃ hop, Routed d r.uri (r.headers.getAll "Route".toList) hop ∧ hop = (routing d).2.2) ∧
      ∀ n, ¬ SameName n "Route".toList → r.headers.getAll n = hs.getAll n := by
  unfold withRouting at h
  split at h
  · cases h
  · rename_i hs' he
    have hi := addAll_inner _ _ _ he
    unfold Request.new at h
    split at h
    · rename_i h'
      split at h' <;> cases h
    · rename_i r' h'
      split at h'
      · cases h'
      · cases h'
        cases h
        simp only
        have hg : ∀ n, hs'.getAll n = (hs.remove "Route".toList).1.getAll n ++
            Headers.getAll ⟨((routing d).2.1.map angle).map (fun v => ⟨"Route".toList, v⟩)⟩ n := by
          intro n
          have : hs' = ⟨(hs.remove "Route".toList).1.inner ++ ((routing d).2.1.map angle).map (fun v => ⟨"Route".toList, v⟩)⟩ := by
            cases hs'
            simp only at hi
            rw [hi]
            simp
          rw [this, getAll_append]
        refine ⟨trivial, trivial, ⟨_, ?_, rfl⟩, ?_⟩
        · rw [hg, getAll_remove_self hs _ _ (sameName_refl _), getAll_named, if_pos ((sameName_iff _ _).1 (sameName_refl _))]
          have : (routing d).2.1.map angle = (routing d).2.1.map Bracketed := by
            apply List.map_congr_left
            intro u _
            simp [angle, Bracketed]
          rw [List.nil_append, this]
          exact routing_routed d
        · intro n hn
          rw [hg, getAll_named, if_neg (fun h => hn (sameName_symm ((sameName_iff _ _).2 h))), List.append_nil]
          exact (C24_remove hs _).2.2.1 n hn

theorem decimal_showNat (n : Nat) : Decimal (showNat n) n := parseDec_some (parseDec_showNat n n (Nat.le_refl n))

/-- **C78.** A request sent in a dialog: it keeps its method, body and all headers but CSeq and Route; its only
CSeq is the next number and the method; Request-URI, Route headers and next hop are those of RFC 3261, 12.2.1.1; and
the dialog's number advances by one. -/
theorem C78_sent (d d' : Dialog) (r r' : Request) (hop : SipUri) (h : prepare d r = .done (d', r', hop))
    (hroom : d.localCSeq + 1 < 2 ^ 32) :
    r'.method = r.method ∧ r'.body = r.body ∧
    (∀ n vs, ¬ SameName n "CSeq".toList → ¬ SameName n "Route".toList → Selects n r.headers.inner vs → Selects n r'.headers.inner vs) ∧
    (∃ w, Decimal w (d.localCSeq + 1) ∧ Selects "CSeq".toList r'.headers.inner [w ++ " ".toList ++ r.method.asStr]) ∧
    (∃ vs, Selects "Route".toList r'.headers.inner vs ∧ Routed d r'.uri vs hop) ∧
    d' = { d with localCSeq := d.localCSeq + 1 } := by
  unfold prepare at h
  split at h
  · cases h
  · rename_i hs he
    split at h
    · cases h
    · rename_i r1 hw
      simp only [Run.done.injEq, Prod.mk.injEq] at h
      obtain ⟨h1, h2, h3⟩ := h
      subst h2 h3
      obtain ⟨w1, w2, ⟨hop, w3, w4⟩, w5⟩ := withRouting_spec hw
      have hi := addAll_inner _ _ _ he
      have hn : d.nextLocalCSeq.1 = d.localCSeq + 1 := by
        unfold Dialog.nextLocalCSeq; simp only; rw [if_pos (by unfold MAX_U32; omega)]
      have hg : ∀ n, hs.getAll n = (r.headers.remove "CSeq".toList).1.getAll n ++
          Headers.getAll ⟨[cseqValue d.nextLocalCSeq.1 r.method].map (fun v => ⟨"CSeq".toList, v⟩)⟩ n := by
        intro n
        have : hs = ⟨(r.headers.remove "CSeq".toList).1.inner ++ [cseqValue d.nextLocalCSeq.1 r.method].map (fun v => ⟨"CSeq".toList, v⟩)⟩ := by
          cases hs; simp only at hi; rw [hi]; rfl
        rw [this, getAll_append]
      have hcr : ¬ SameName "CSeq".toList "Route".toList := by
        rw [sameName_iff]; decide
      refine ⟨w1, w2, ?_, ⟨showNat (d.localCSeq + 1), decimal_showNat _, ?_⟩, ⟨_, (selects_iff _ _ _).2 rfl, ?_⟩, ?_⟩
      · intro n vs hn1 hn2 hs'
        rw [selects_iff] at hs' ⊢
        rw [hs', w5 n hn2, hg, (C24_remove r.headers _).2.2.1 n hn1, getAll_named, if_neg, List.append_nil]
        exact fun h => hn1 (sameName_symm ((sameName_iff _ _).2 h))
      · rw [selects_iff, w5 _ hcr, hg, getAll_remove_self _ _ _ (sameName_refl _), getAll_named,
          if_pos ((sameName_iff _ _).1 (sameName_refl _)), hn]
        simp [cseqValue]
      · rw [← w4]; exact w3
      · rw [← h1]
        unfold Dialog.nextLocalCSeq
        simp only
        rw [if_pos (by unfold MAX_U32; omega)]

/-- **C78.** The ACK for a 2xx is routed in the same way; only its Route headers and Request-URI change. -/
theorem C78_ack (d : Dialog) (r r' : Request) (h : applyRouteSet d r = .done r') :
    r'.method = r.method ∧ r'.body = r.body ∧
    (∀ n vs, ¬ SameName n "Route".toList → Selects n r.headers.inner vs → Selects n r'.headers.inner vs) ∧
    ∃ vs hop, Selects "Route".toList r'.headers.inner vs ∧ Routed d r'.uri vs hop := by
  obtain ⟨w1, w2, ⟨hop, w3, _⟩, w5⟩ := withRouting_spec h
  refine ⟨w1, w2, ?_, ⟨_, hop, (selects_iff _ _ _).2 rfl, w3⟩⟩
  intro n vs hn hs
  rw [selects_iff] at hs ⊢
  rw [hs, w5 n hn]

/-- **C78 with C77.** A request of the caller visits the recording proxies from the nearest to the farthest. -/
theorem C78_visits_recorded (req : Request) (resp : Response) (l r : SipUri) (d d' : Dialog) (us : List SipUri)
    (last : SipUri) (q q' : Request) (hop : SipUri) (hr : Recorded resp.headers (us ++ [last]))
    (hlr : ∃ v, ("lr".toList, v) ∈ last.params) (hc : Dialog.newUac req resp l r = .done (some d))
    (h : prepare d q = .done (d', q', hop)) (hroom : d.localCSeq + 1 < 2 ^ 32) :
    Selects "Route".toList q'.headers.inner ((last :: us.reverse).map Bracketed) ∧ hop = last ∧ q'.uri = d.remoteTarget.raw := by
  have he := C77_uac_routes req resp l r d _ hr hc
  rw [List.reverse_append, List.reverse_singleton, List.singleton_append] at he
  obtain ⟨_, _, _, _, ⟨vs, h1, h2⟩, _⟩ := C78_sent d d' q q' hop h hroom
  generalize q'.uri = uri at h2 ⊢
  cases h2 with
  | direct hd => rw [hd] at he; cases he
  | loose hf hl =>
    rw [he] at hf
    simp only [List.cons.injEq] at hf
    rw [he] at h1
    exact ⟨h1, hf.1.symm, rfl⟩
  | strict hf hl =>
    rw [he] at hf
    simp only [List.cons.injEq] at hf
    obtain ⟨v, hv⟩ := hlr
    rw [hf.1] at hv
    exact absurd hv (hl v)

/-! ## C80: the other end recognises the request -/

theorem Kind.not_ack (k : Kind) : k.method.asStr ≠ "ACK".toList := by
  cases k <;> simp only [Kind.method] <;> decide

/-- What stands before the tag in the From of a request. -/
def fromText (ua : Ua) (d : Dialog) : Kind → Str
  | .bye => Bracketed d.localUri
  | .reinvite _ | .update _ | .prack _ =>
    match ua.display with
    | some n => "\"".toList ++ n ++ "\" ".toList ++ Bracketed ua.localUri
    | none => Bracketed ua.localUri
  | .info _ _ | .refer _ _ => Bracketed ua.localUri

theorem from_eq (ua : Ua) (d : Dialog) (k : Kind) : k.from ua d = fromText ua d k ++ ";tag=".toList ++ d.id.localTag := by
  cases hd : ua.display <;> cases k <;> simp [Kind.from, fromText, ownAddr, hd, bareAddr, Bracketed]

theorem create_inner {ua : Ua} {branch : Str} {d : Dialog} {k : Kind} {r : Request} (h : create ua branch d k = .done r) :
    r.method = k.method ∧ r.uri = d.remoteTarget.raw ∧ r.body = k.body ∧
    r.headers.inner = ([("Via", "SIP/2.0/UDP placeholder;branch=".toList ++ branch), ("From", k.from ua d),
      ("To", bareAddr d.remoteUri d.id.remoteTag), ("Call-ID", d.id.callId),
      ("CSeq", cseqValue d.nextLocalCSeq.1 k.method)] ++ k.tail ua).map (fun p : String × Str => ⟨p.1.toList, p.2⟩) := by
  unfold create at h
  split at h
  · cases h
  · rename_i hs he
    have hi := addAll_inner _ _ _ he
    unfold Request.new at h
    split at h
    · cases h
    · rename_i r' h'
      split at h'
      · cases h'
      · cases h'
        cases h
        exact ⟨rfl, rfl, rfl, by simpa [Headers.empty] using hi⟩

theorem create_get {ua : Ua} {branch : Str} {d : Dialog} {k : Kind} {r : Request} (h : create ua branch d k = .done r) :
    First r.headers "From" (k.from ua d) ∧ First r.headers "To" (bareAddr d.remoteUri d.id.remoteTag) ∧
    First r.headers "Call-ID" d.id.callId ∧ First r.headers "CSeq" (cseqValue d.nextLocalCSeq.1 k.method) := by
  obtain ⟨_, _, _, hi⟩ := create_inner h
  simp only [first_iff]
  unfold Headers.get Headers.getHeader
  rw [hi]
  simp only [List.cons_append, List.map_cons]
  generalize "SIP/2.0/UDP placeholder;branch=".toList ++ branch = via
  have e : ∀ (nm v n : Str) (l : List Header), (Header.mk nm v :: l).find? (·.nameEq n) =
      if eqIgnoreCase nm n then some ⟨nm, v⟩ else l.find? (·.nameEq n) := by
    intro nm v n l
    rw [List.find?_cons]
    unfold Header.nameEq
    simp only
    cases eqIgnoreCase nm n <;> rfl
  refine ⟨?_, ?_, ?_, ?_⟩
  · rw [e, if_neg (by decide), e, if_pos (by decide), Option.map_some]
  · rw [e, if_neg (by decide), e, if_neg (by decide), e, if_pos (by decide), Option.map_some]
  · rw [e, if_neg (by decide), e, if_neg (by decide), e, if_neg (by decide), e, if_pos (by decide), Option.map_some]
  · rw [e, if_neg (by decide), e, if_neg (by decide), e, if_neg (by decide), e, if_neg (by decide), e,
      if_pos (by decide), Option.map_some]

theorem bareAddr_eq (u : SipUri) (t : Str) : bareAddr u t = Bracketed u ++ ";tag=".toList ++ t := by
  simp [bareAddr, Bracketed]

/-- **C80 (partial).** A request built for a dialog carries the dialog's Call-ID, its own tag in From and the
peer's in To.  Missing: an own address (URI or display name) containing `;tag=` (`C80_display_name`). -/
theorem C80_named_partial (ua : Ua) (branch : Str) (d : Dialog) (k : Kind) (r : Request)
    (h : create ua branch d k = .done r) (ht : TagText d.id.localTag ∧ TagText d.id.remoteTag)
    (hf : NoTag (fromText ua d k)) (hto : NoTag (Bracketed d.remoteUri)) :
    Names r.headers d.id.callId d.id.localTag d.id.remoteTag := by
  obtain ⟨h1, h2, h3, _⟩ := create_get h
  refine ⟨h3, ⟨_, h1, ?_⟩, ⟨_, h2, ?_⟩⟩
  · rw [from_eq]; exact tagOf_mk hf ht.1
  · rw [bareAddr_eq]; exact tagOf_mk hto ht.2

/-- **C80.** The tags of every dialog made from a message are such tags. -/
theorem C80_tags (req : Request) (resp : Response) (l r : SipUri) (d : Dialog)
    (h : Dialog.newUac req resp l r = .done (some d) ∨ Dialog.newUas req resp l r = .done (some d)) :
    TagText d.id.localTag ∧ TagText d.id.remoteTag := by
  rcases h with h | h
  · obtain ⟨_, ⟨_, _, h1⟩, ⟨_, _, h2⟩⟩ := C19_uac_named req resp l r d h
    exact ⟨tagOf_text h1, tagOf_text h2⟩
  · obtain ⟨_, ⟨_, _, h1⟩, ⟨_, _, h2⟩⟩ := C19_uas_named req resp l r d h
    exact ⟨tagOf_text h2, tagOf_text h1⟩

theorem cseqOf_value {hs : Headers} {n : Nat} {m : Method} (h : First hs "CSeq" (cseqValue n m)) (hn : n < 2 ^ 32) :
    CSeqOf hs n := by
  rw [← cseqNumber_iff]
  unfold cseqNumber
  rw [(first_iff _ _ _).1 h]
  simp only
  have hw : ∃ ws, splitWhitespace (cseqValue n m) = showNat n :: ws := by
    have := splitWs_word (' ' :: m.asStr) (showNat n) [] (fun c hc => isDigit_not_ws c (showNat_digits n c hc))
    unfold splitWhitespace cseqValue
    rw [this]
    rw [splitWhitespace.go]
    rw [if_pos (by decide)]
    simp only [List.append_nil]
    have hne : (showNat n).reverse ≠ [] := by simp [showNat_ne_nil]
    cases hr : (showNat n).reverse with
    | nil => exact absurd hr hne
    | cons c cs =>
      simp only [List.isEmpty_cons, Bool.false_eq_true, if_false]
      exact ⟨splitWhitespace.go m.asStr [], by rw [← hr, List.reverse_reverse]⟩
  obtain ⟨ws, hw⟩ := hw
  rw [hw]
  exact parseDec_showNat _ _ (by unfold MAX_U32; omega)

/-- **C80 (partial).** The peer, whatever its manager has been through, finds its own dialog for the request and
accepts it, as long as it is not more than 999 numbers behind.  Missing: addresses containing `;tag=`, and header
values that are not ASCII (C74). -/
theorem C80_accepted_partial (ua : Ua) (branch : Str) (d e : Dialog) (k : Kind) (r : Request) (ops : List MOp)
    (h : create ua branch d k = .done r) (ht : TagText d.id.localTag ∧ TagText d.id.remoteTag)
    (hf : NoTag (fromText ua d k)) (hto : NoTag (Bracketed d.remoteUri)) (ha : AsciiHeaders r.headers)
    (he : (Mgr.run ops).get e.id = some e)
    (hm : e.id = { callId := d.id.callId, localTag := d.id.remoteTag, remoteTag := d.id.localTag })
    (hnum : 0 < e.remoteCSeq → e.remoteCSeq ≤ d.localCSeq ∧ d.localCSeq ≤ e.remoteCSeq + 999)
    (hroom : d.localCSeq + 1 ≤ 2 ^ 31 - 1) :
    (Mgr.run ops).findByRequest r.headers = .done (some e) ∧
    ∃ e', e.updateFromRequest r = (.ok (), e') ∧ e'.remoteCSeq = d.localCSeq + 1 := by
  have hN := C80_named_partial ua branch d k r h ht hf hto
  refine ⟨C19_delivered ops r.headers e ha he (by rw [hm]; exact hN), ?_⟩
  obtain ⟨_, _, _, hcs⟩ := create_get h
  have hn : d.nextLocalCSeq.1 = d.localCSeq + 1 := by
    unfold Dialog.nextLocalCSeq; simp only; rw [if_pos (by unfold MAX_U32; omega)]
  rw [hn] at hcs
  have hc := cseqOf_value hcs (by omega)
  have hmeth : r.method.asStr ≠ "ACK".toList := by
    rw [(create_inner h).1]
    exact k.not_ack
  obtain ⟨e', he'⟩ := (C14_accepted_iff e r hmeth).2 ⟨_, hc, by omega, by omega, fun hp => by have := hnum hp; omega⟩
  exact ⟨e', he', C14_accepted_recorded e r e' _ hmeth hc he'⟩

/-- **C80, violated.** Two requests built from one dialog value carry the same number, and the peer that accepted
the first refuses the second.  This is what happens to the PRACKs sent automatically for several reliable
provisional responses of one early dialog, and to a request built while a BYE is under way. -/
theorem C80_second_refused (ua : Ua) (b1 b2 : Str) (d e e' : Dialog) (k1 k2 : Kind) (r1 r2 : Request)
    (h1 : create ua b1 d k1 = .done r1) (h2 : create ua b2 d k2 = .done r2) (hroom : d.localCSeq + 1 < 2 ^ 32)
    (ha : e.updateFromRequest r1 = (.ok (), e')) : e'.updateFromRequest r2 = (.error .invalidCSeq, e') := by
  have hn : d.nextLocalCSeq.1 = d.localCSeq + 1 := by
    unfold Dialog.nextLocalCSeq; simp only; rw [if_pos (by unfold MAX_U32; omega)]
  have c1 := (create_get h1).2.2.2
  have c2 := (create_get h2).2.2.2
  rw [hn] at c1 c2
  have c1 := cseqOf_value c1 hroom
  have c2 := cseqOf_value c2 hroom
  have m1 : r1.method.asStr ≠ "ACK".toList := by rw [(create_inner h1).1]; exact k1.not_ack
  have m2 : r2.method.asStr ≠ "ACK".toList := by rw [(create_inner h2).1]; exact k2.not_ack
  have hr := C14_accepted_recorded e r1 e' _ m1 c1 ha
  obtain ⟨k, hk, k1, k2, _⟩ := (C14_accepted_iff e r1 m1).1 ⟨e', ha⟩
  obtain rfl := cseqOf_unique c1 hk
  unfold Dialog.updateFromRequest
  rw [(cseqNumber_iff _ _).2 c2]
  simp only
  rw [if_neg (by omega), if_neg m2, (validateCSeq_iff _).2 ⟨k1, by omega⟩]
  simp only
  rw [if_pos (by omega), hr]
  unfold validateIncrement
  rw [if_pos (by omega)]

/-- The header names the builders use. -/
def headerNames : List String := ["Via", "From", "To", "Call-ID", "CSeq", "Max-Forwards", "User-Agent",
  "Content-Length", "Contact", "Content-Type", "RAck", "Refer-To", "Referred-By"]

theorem headerNames_ok : ∀ n ∈ headerNames, validateHeaderName n.toList = .ok () := by decide

theorem tail_names (ua : Ua) (k : Kind) : ∀ p ∈ k.tail ua, p.1 ∈ headerNames := by
  intro p hp
  cases k with
  | bye => simp [Kind.tail] at hp; rcases hp with rfl | rfl | rfl <;> simp [headerNames]
  | reinvite b =>
    cases b <;> simp [Kind.tail, sdpHeaders] at hp
    · rcases hp with rfl | rfl | rfl | rfl <;> simp [headerNames]
    · rcases hp with rfl | rfl | rfl | rfl | rfl <;> simp [headerNames]
  | update b =>
    cases b <;> simp [Kind.tail, sdpHeaders] at hp
    · rcases hp with rfl | rfl | rfl | rfl <;> simp [headerNames]
    · rcases hp with rfl | rfl | rfl | rfl | rfl <;> simp [headerNames]
  | info a b => simp [Kind.tail] at hp; rcases hp with rfl | rfl | rfl | rfl <;> simp [headerNames]
  | prack r => simp [Kind.tail] at hp; rcases hp with rfl | rfl | rfl | rfl | rfl <;> simp [headerNames]
  | refer t b =>
    cases b <;> simp [Kind.tail] at hp
    · rcases hp with rfl | rfl | rfl | rfl | rfl <;> simp [headerNames]
    · rcases hp with rfl | rfl | rfl | rfl | rfl | rfl <;> simp [headerNames]

/-- **C80.** When a request is built at all: every header value fits into 8192 bytes and is one line. -/
theorem C80_built (ua : Ua) (branch : Str) (d : Dialog) (k : Kind)
    (hok : ∀ p ∈ [("Via", "SIP/2.0/UDP placeholder;branch=".toList ++ branch), ("From", k.from ua d),
      ("To", bareAddr d.remoteUri d.id.remoteTag), ("Call-ID", d.id.callId),
      ("CSeq", cseqValue d.nextLocalCSeq.1 k.method)] ++ k.tail ua, OneLine p.2 ∧ utf8Len p.2 ≤ 8192)
    (hb : k.body.length ≤ 10 * 1024 * 1024) : ∃ r, create ua branch d k = .done r := by
  unfold create
  rw [addAll_ok]
  · simp only
    unfold Request.new MAX_MSG_BODY
    rw [if_neg (by omega)]
    exact ⟨_, rfl⟩
  · simp only [Headers.empty, List.length_nil, List.length_append, List.length_cons]
    have : (k.tail ua).length ≤ 7 := by
      cases k with
      | bye => simp [Kind.tail]
      | reinvite b => cases b <;> simp [Kind.tail, sdpHeaders]
      | update b => cases b <;> simp [Kind.tail, sdpHeaders]
      | info a b => simp [Kind.tail]
      | prack r => simp [Kind.tail]
      | refer t b => cases b <;> simp [Kind.tail]
    omega
  · intro p hp
    have hn : p.1 ∈ headerNames := by
      simp only [List.mem_append] at hp
      rcases hp with hp | hp
      · simp only [List.mem_cons, List.not_mem_nil, or_false] at hp
        rcases hp with rfl | rfl | rfl | rfl | rfl <;> simp [headerNames]
      · exact tail_names ua k p hp
    have := (validateHeaderName_ok_iff _).1 (headerNames_ok _ hn)
    exact ⟨this.1, this.2, hok p hp⟩

end Siphon.Dlg
