import Verif.Sub.Lemmas
set_option linter.unusedSimpArgs false
namespace Siphon.Sub
open Spec TextSpec HdrSpec Dlg.Spec
open Siphon.Dlg (headerTag contactUri cseqNumber addAll angle bareAddr cseqValue Ua first_iff absent_iff headerTag_some
  headerTag_none headerTag_ascii cseqNumber_iff contactOf_iff addAll_inner selects_iff tagOf_mk bareAddr_eq tagOf_unique)
open Siphon.Uas (pushU createResponse ensureToTag extractFromUri)
open Siphon.Uas.Spec (Belongs Copied Tagged)

/-! ## C103: what a subscription records -/

/-- C103: a subscription made by its notifier from a SUBSCRIBE and the answer to it records exactly what they say; and
one is made whenever they say it all, in messages of ASCII text. -/
theorem C103_notifier (rq rs : Headers) (l r : SipUri) :
    (∀ s, newNotifier rq rs l r = .done (some s) → Records rq rs l r s ∧ ServedFor rq rs s.expires) ∧
    (AsciiHeaders rq → AsciiHeaders rs → ∀ s, Records rq rs l r s → ServedFor rq rs s.expires →
      newNotifier rq rs l r = .done (some s)) := by
  constructor
  · intro s h
    obtain ⟨h1, h2⟩ := newSub_some h
    exact ⟨h1, (servedFor_iff _ _ _).2 h2⟩
  · intro h1 h2 s h3 h4
    unfold newNotifier
    rw [(servedFor_iff _ _ _).1 h4]
    exact newSub_of h1 h2 h3

/-- C103: the same for the subscriber. -/
theorem C103_subscriber (rq rs : Headers) (l r : SipUri) :
    (∀ s, newSubscriber rq rs l r = .done (some s) → Records rq rs l r s ∧ HeldFor rs s.expires) ∧
    (AsciiHeaders rq → AsciiHeaders rs → ∀ s, Records rq rs l r s → HeldFor rs s.expires →
      newSubscriber rq rs l r = .done (some s)) := by
  constructor
  · intro s h
    obtain ⟨h1, h2⟩ := newSub_some h
    exact ⟨h1, (heldFor_iff _ _).2 h2⟩
  · intro h1 h2 s h3 h4
    unfold newSubscriber
    rw [(heldFor_iff _ _).1 h4]
    exact newSub_of h1 h2 h3

/-- C103: both ends name the subscription alike. -/
theorem C103_same_name (rq rs : Headers) (l r l' r' : SipUri) (s s' : Sub) (h : newNotifier rq rs l r = .done (some s))
    (h' : newSubscriber rq rs l' r' = .done (some s')) : s.id = s'.id :=
  named_unique (newSub_some h).1.named (newSub_some h').1.named

/-! ## URIs -/

/-- the URI in a From or To value -/
def uriText (v : Str) : Option SipUri :=
  match splitOnce '<' v with
  | some (_, rest) =>
    match splitOnce '>' rest with
    | some (u, _) => SipUri.parse (trim u)
    | none => none
  | none =>
    match splitOnce ';' v with
    | some (u, _) => SipUri.parse (trim u)
    | none => SipUri.parse (trim v)

theorem head_piece (v p : Str) (ps : List Str) (h : splitChar ';' v = p :: ps) :
    (match splitOnce ';' v with
    | some (u, _) => SipUri.parse (trim u)
    | none => SipUri.parse (trim v)) = SipUri.parse (trim p) := by
  cases hs : splitOnce ';' v with
  | none =>
    have := Dlg.splitOnce_none_mem hs
    rw [splitChar_of_not_mem _ _ this] at h
    cases h
    rfl
  | some q =>
    obtain ⟨a, b⟩ := q
    obtain ⟨h1, h2⟩ := (Auth.splitOnce_some_iff _ _ _ _).1 hs
    subst h1
    rw [splitChar_append_sep _ _ _ h2] at h
    cases h
    rfl

theorem uriIn_iff (v : Str) (u : SipUri) : UriIn v u ↔ uriText v = some u := by
  unfold uriText
  constructor
  · intro h
    cases h with
    | @bracketed a x b t h1 h2 h3 h4 h5 =>
      rw [strips_trim] at h4
      rw [h1, show a ++ '<' :: x ++ '>' :: b = a ++ '<' :: (x ++ '>' :: b) by simp, splitOnce_append _ _ _ h2]
      simp only
      rw [splitOnce_append _ _ _ h3]
      simp only
      rw [← h4, h5]
    | @bare p ps t h2 h3 h4 h5 =>
      rw [strips_trim] at h4
      rw [splitOnce_none _ _ h2]
      simp only
      rw [head_piece v p ps ((pieces_iff _ _ _).1 h3).symm, ← h4, h5]
  · intro h
    split at h
    · rename_i a rest hs
      obtain ⟨h1, h2⟩ := (Auth.splitOnce_some_iff _ _ _ _).1 hs
      split at h
      · rename_i x b hx
        obtain ⟨h3, h4⟩ := (Auth.splitOnce_some_iff _ _ _ _).1 hx
        refine .bracketed (a := a) (x := x) (b := b) ?_ h2 h4 ((strips_trim _ _).2 rfl) h
        rw [h1, h3]
        simp
      · cases h
    · rename_i hs
      cases hp : splitChar ';' v with
      | nil => exact absurd hp (splitChar_ne_nil _ _)
      | cons p ps =>
        rw [head_piece v p ps hp] at h
        exact .bare (Dlg.splitOnce_none_mem hs) ((pieces_iff _ _ _).2 hp.symm) ((strips_trim _ _).2 rfl) h

theorem extractFrom_iff (hs : Headers) (u : SipUri) : extractFromUri hs = some u ↔ ∃ v, First hs "From" v ∧ UriIn v u := by
  unfold extractFromUri
  constructor
  · intro h
    split at h
    · cases h
    · rename_i v hv
      exact ⟨v, (first_iff _ _ _).2 hv, (uriIn_iff _ _).2 h⟩
  · rintro ⟨v, h1, h2⟩
    rw [(first_iff _ _ _).1 h1]
    exact (uriIn_iff _ _).1 h2

theorem extractTo_iff (hs : Headers) (u : SipUri) : extractToUri hs = some u ↔ ∃ v, First hs "To" v ∧ UriIn v u := by
  unfold extractToUri
  constructor
  · intro h
    split at h
    · cases h
    · rename_i v hv
      exact ⟨v, (first_iff _ _ _).2 hv, (uriIn_iff _ _).2 h⟩
  · rintro ⟨v, h1, h2⟩
    rw [(first_iff _ _ _).1 h1]
    exact (uriIn_iff _ _).1 h2

/-! ## C103: accepting a SUBSCRIBE -/

theorem insert_room (m : SubMgr) (s : Sub) (h : m.length < 10000) : SubMgr.get (m.insert s).2 s.id = some s := by
  unfold SubMgr.insert
  rw [if_neg (by unfold MAX_SUBSCRIPTIONS; omega)]
  exact Tbl.get_insert_self _ _ _

theorem framed_eq {rq : Headers} {r : Response} {cs to : List Str} {cl : Str} {ex : List Header}
    (f : Uas.Framed rq r cs to cl ex) : r.headers = ⟨Uas.frame rq cs to cl ex⟩ := by
  unfold Uas.Framed at f
  rw [← f]

theorem accept_some {srv srv' : Srv} {au : Bool} {rq : Request} {e : Option Nat} {tag : Str} {r : Response} {s : Sub}
    (h : acceptSubscribe srv au rq e tag = .done (some (r, s), srv')) :
    rq.method.asStr = "SUBSCRIBE".toList ∧ au = true ∧
    Uas.Framed rq.headers r (rq.headers.get "CSeq".toList).toList (Uas.toOf rq.headers 200 tag).toList "0".toList
      ([("Contact", angle srv.contactUri), ("Expires", showNat (grantedExpires rq.headers e))].map
        (fun p : String × Str => (⟨p.1.toList, p.2⟩ : Header))) ∧
    r.code = 200 ∧
    ∃ remote, extractFromUri rq.headers = some remote ∧ newNotifier rq.headers r.headers srv.localUri remote = .done (some s) ∧
      srv' = { srv with subs := (srv.subs.insert s).2 } := by
  unfold acceptSubscribe at h
  split at h
  · cases h
  · rename_i hm
    split at h
    · cases h
    · rename_i ha
      simp only [Run.bind_eq_done] at h
      obtain ⟨r1, h1, r2, h2, r3, h3, r4, h4, h5⟩ := h
      obtain ⟨f1, c1, _⟩ := Uas.framed_create h1
      obtain ⟨f2, c2, _⟩ := Uas.framed_push f1 h2
      obtain ⟨f3, c3, _⟩ := Uas.framed_push f2 h3
      obtain ⟨f4, c4, _⟩ := Uas.framed_ensure f3 (by
        intro x hx
        simp only [List.nil_append, List.cons_append, List.mem_cons, List.mem_nil_iff, or_false] at hx
        rcases hx with rfl | rfl
        · exact (by decide : ("Contact".toList == "To".toList) = false)
        · exact (by decide : ("Expires".toList == "To".toList) = false)) h4
      rw [Uas.toOf_idem _ _ _ (by decide)] at f4
      split at h5
      · cases h5
      · rename_i remote hr
        split at h5
        · cases h5
        · cases h5
        · rename_i s' hs
          cases h5
          refine ⟨Classical.byContradiction hm, by simpa using ha, f4, by rw [c4, c3, c2, c1], remote, hr, hs, rfl⟩

/-- C103: a SUBSCRIBE that is accepted is answered with a 200 that belongs to it, says the server's Contact and the seconds
granted, and makes a subscription for that time which records what request and answer say; the server keeps it if it has
fewer than 10 000. -/
theorem C103_accepted (srv srv' : Srv) (au : Bool) (rq : Request) (e : Option Nat) (tag : Str) (r : Response) (s : Sub)
    (h : acceptSubscribe srv au rq e tag = .done (some (r, s), srv')) (he : ∀ n, e = some n → n < 2 ^ 32) :
    rq.method.asStr = "SUBSCRIBE".toList ∧ au = true ∧ r.code = 200 ∧ Belongs rq.headers r.headers ∧
    Copied rq.headers r.headers "CSeq" ∧
    Selects "Contact".toList r.headers.inner [Bracketed srv.contactUri] ∧
    (∃ w, Selects "Expires".toList r.headers.inner [w] ∧ Decimal w s.expires ∧ Granted rq.headers e s.expires) ∧
    (∃ remote, (∃ v, First rq.headers "From" v ∧ UriIn v remote) ∧ Records rq.headers r.headers srv.localUri remote s) ∧
    (srv.subs.length < 10000 → srv'.subs.get s.id = some s) ∧
    srv'.localUri = srv.localUri ∧ srv'.contactUri = srv.contactUri := by
  obtain ⟨hm, ha, f, hc, remote, hr, hs, rfl⟩ := accept_some h
  have ho := Uas.others_map [("Contact", angle srv.contactUri), ("Expires", showNat (grantedExpires rq.headers e))] (by
    intro p hp
    simp only [List.mem_cons, List.mem_nil_iff, or_false] at hp
    rcases hp with rfl | rfl
    · exact (by decide : Uas.Other "Contact")
    · exact (by decide : Uas.Other "Expires"))
  obtain ⟨h1, h2, h3, h4, h5, h6, h7⟩ := Uas.framed_base f ho
  obtain ⟨hrec, hex⟩ := newSub_some hs
  have hexp : Selects "Expires".toList r.headers.inner [showNat (grantedExpires rq.headers e)] := by
    rw [selects_iff]
    rw [framed_eq f, Uas.getAll_frame]
    rw [if_neg (by decide), if_neg (by decide), if_neg (by decide), if_neg (by decide), if_neg (by decide), if_neg (by decide),
      if_neg (by decide), getAll_pick]
    picks
  have hcon : Selects "Contact".toList r.headers.inner [Bracketed srv.contactUri] := by
    rw [selects_iff]
    rw [framed_eq f, Uas.getAll_frame]
    rw [if_neg (by decide), if_neg (by decide), if_neg (by decide), if_neg (by decide), if_neg (by decide), if_neg (by decide),
      if_neg (by decide), getAll_pick]
    picks
  have hle : grantedExpires rq.headers e < 2 ^ 32 := by
    cases e with
    | some n => exact he n rfl
    | none =>
      unfold grantedExpires
      simp only
      split
      · omega
      · split
        · rename_i n hn
          have := ((parseDec_iff _ _ _).1 hn).2
          omega
        · omega
  have hval : s.expires = grantedExpires rq.headers e := by
    unfold notifierExpires at hex
    rw [(first_iff _ _ _).1 (first_of_selects hexp)] at hex
    simp only at hex
    rw [parseDec_showNat _ _ (by unfold MAX_U64; omega)] at hex
    exact (Option.some.inj hex).symm
  refine ⟨hm, ha, hc, ⟨Uas.allCopied_of h1, Uas.allCopied_of h6, Uas.copied_of h2, Uas.copied_of h3⟩, Uas.copied_of h4, hcon,
    ⟨_, hexp, ?_, ?_⟩, ⟨remote, (extractFrom_iff _ _).1 hr, hrec⟩, ?_, rfl, rfl⟩
  · rw [hval]; exact Dlg.decimal_showNat _
  · rw [hval]; exact (granted_iff _ _ _).2 rfl
  · intro hl
    exact insert_room _ _ hl

/-- C103: a SUBSCRIBE in a dialog keeps the tag of its To, so that it is about the same subscription; one without a tag
gets the generated one. -/
theorem C103_refresh (srv srv' : Srv) (au : Bool) (rq : Request) (e : Option Nat) (tag v : Str) (r : Response) (s : Sub)
    (h : acceptSubscribe srv au rq e tag = .done (some (r, s), srv')) (hv : First rq.headers "To" v) :
    (∀ t, TagOf v t → s.id.toTag = t) ∧ (NoTag v → TagText tag → s.id.toTag = tag) := by
  obtain ⟨hm, ha, f, hc, remote, hr, hs, rfl⟩ := accept_some h
  have hto : Selects "To".toList r.headers.inner [Uas.toTagged tag v] := by
    rw [selects_iff, framed_eq f, Uas.getAll_frame]
    rw [if_neg (by decide), if_neg (by decide), if_neg (by decide), if_neg (by decide), if_pos (by decide), if_neg (by decide),
      if_neg (by decide), getAll_pick]
    unfold Uas.toOf
    rw [if_neg (by decide), (first_iff _ _ _).1 hv]
    picks
  obtain ⟨w, hw, hwt⟩ := (newSub_some hs).1.named.notifier
  cases Dlg.first_unique hw (first_of_selects hto)
  have ht := Uas.tagged_toTagged v tag
  exact ⟨fun t h1 => tagOf_unique hwt (ht.same t h1), fun h1 h2 => tagOf_unique hwt (ht.new h1 h2)⟩

/-! ## C103: the daemon -/

theorem requested_iff (rq : Headers) (n : Nat) : Granted rq none n ↔ requestedExpiry rq = n := granted_iff rq none n

theorem package_none {hs : Headers} (h : eventPackage hs = none) : Absent hs "Event" := by
  unfold eventPackage at h
  split at h
  · rename_i hv; exact (absent_iff _ _).2 hv
  · rename_i v hv
    split at h
    · rename_i hp
      exact absurd hp (splitChar_ne_nil _ _)
    · cases h

theorem package_iff (hs : Headers) (e : Str) : PackageOf hs e ↔ eventPackage hs = some e := by
  unfold PackageOf eventPackage
  constructor
  · rintro ⟨v, p, ps, h1, h2, h3⟩
    rw [(first_iff _ _ _).1 h1]
    simp only
    rw [← (pieces_iff _ _ _).1 h2, (strips_trim _ _).1 h3]
  · intro h
    split at h
    · cases h
    · rename_i v hv
      split at h
      · cases h
      · rename_i p ps hp
        cases h
        exact ⟨v, p, ps, (first_iff _ _ _).2 hv, (pieces_iff _ _ _).2 hp.symm, (strips_trim _ _).2 rfl⟩

theorem handle_accepted {l : SipUri} {agent : Str} {m m' : SubMgr} {rq : Request} {tag branch : Str} {r : Response} {s : Sub}
    {n : Request} (h : handleSubscribe l agent m rq tag branch = .done (.accepted r s n, m')) :
    ∃ s0 srv', acceptSubscribe ⟨l, l, []⟩ true rq (some (requestedExpiry rq.headers)) tag = .done (some (r, s0), srv') ∧
      s = (if requestedExpiry rq.headers = 0 then { s0 with state := .terminated } else s0) ∧
      initialNotify ⟨l, l, none, agent⟩ branch s = .done n ∧
      m' = (if requestedExpiry rq.headers = 0 then ((m.insert s).2.remove s.id).2 else (m.insert s).2) := by
  unfold handleSubscribe at h
  split at h
  · cases h
  · simp only at h
    split at h
    · cases h
    · cases h
    · rename_i r0 s0 srv' hacc
      simp only [Run.bind_eq_done] at h
      obtain ⟨n0, h1, h2⟩ := h
      cases h2
      exact ⟨s0, srv', hacc, rfl, h1, rfl⟩

/-- C103: a SUBSCRIBE the daemon accepts is answered with 200 and the seconds asked for; the subscription is in its table
afterwards with that time, unless they are 0: then it is not.  All other subscriptions stay as they are.  Missing from
"the subscription is in the table": a table of 10 000, which stays as it is (`C102_full_loses_refresh`). -/
theorem C103_daemon_partial (l : SipUri) (agent : Str) (m m' : SubMgr) (rq : Request) (tag branch : Str) (r : Response) (s : Sub)
    (n : Request) (h : handleSubscribe l agent m rq tag branch = .done (.accepted r s n, m')) :
    r.code = 200 ∧ Belongs rq.headers r.headers ∧ Named rq.headers r.headers s.id ∧
    (∃ w, Selects "Expires".toList r.headers.inner [w] ∧ Decimal w s.expires ∧ Granted rq.headers none s.expires) ∧
    (0 < s.expires → s.state = .active ∧ (m.length < 10000 → m'.get s.id = some s)) ∧
    (s.expires = 0 → s.state = .terminated ∧ m'.get s.id = none) ∧
    (∀ id, id ≠ s.id → m'.get id = m.get id) := by
  obtain ⟨s0, srv', h1, h2, h3, h4⟩ := handle_accepted h
  have hreq : requestedExpiry rq.headers < 2 ^ 32 := by
    unfold requestedExpiry
    split
    · omega
    · split
      · rename_i n hn
        have := ((parseDec_iff _ _ _).1 hn).2
        omega
      · omega
  obtain ⟨_, _, hc, hb, _, _, ⟨w, hw1, hw2, hw3⟩, ⟨remote, _, hrec⟩, _⟩ :=
    C103_accepted _ _ _ _ _ _ _ _ h1 (by intro n hn; cases hn; exact hreq)
  have he : s0.expires = requestedExpiry rq.headers := ((granted_iff _ _ _).1 hw3).symm
  have hid : s.id = s0.id := by rw [h2]; split <;> rfl
  have hse : s.expires = s0.expires := by rw [h2]; split <;> rfl
  refine ⟨hc, hb, by rw [hid]; exact hrec.named, ⟨w, hw1, by rw [hse]; exact hw2, by rw [hse]; exact (requested_iff _ _).2 he.symm⟩,
    ?_, ?_, ?_⟩
  · intro hp
    have hz : ¬ requestedExpiry rq.headers = 0 := by omega
    rw [if_neg hz] at h2 h4
    rw [h2, h4]
    refine ⟨hrec.state, ?_⟩
    intro hl
    rw [h2]
    exact insert_room _ _ hl
  · intro hp
    have hz : requestedExpiry rq.headers = 0 := by omega
    rw [if_pos hz] at h2 h4
    refine ⟨by rw [h2], ?_⟩
    rw [h4]
    simp only [SubMgr.remove, SubMgr.get]
    exact Tbl.get_remove_self _ _
  · intro id hne
    have hins : SubMgr.get (m.insert s).2 id = m.get id := by
      simp only [SubMgr.insert, SubMgr.get]
      split
      · rfl
      · exact Tbl.get_insert_ne _ _ hne
    rw [h4]
    split
    · simp only [SubMgr.remove, SubMgr.get]
      rw [Tbl.get_remove_ne _ hne]
      exact hins
    · exact hins

/-- C103: a SUBSCRIBE the daemon refuses leaves its table as it is; without an Event header the answer is 400, else 603. -/
theorem C103_refused (l : SipUri) (agent : Str) (m m' : SubMgr) (rq : Request) (tag branch : Str) (code : Nat)
    (h : handleSubscribe l agent m rq tag branch = .done (.refused code, m')) :
    m' = m ∧ (Absent rq.headers "Event" → code = 400) ∧ ((∃ v, First rq.headers "Event" v) → code = 603) := by
  unfold handleSubscribe at h
  split at h
  · rename_i hp
    cases h
    have ha := package_none hp
    refine ⟨rfl, fun _ => rfl, ?_⟩
    rintro ⟨v, hv⟩
    rw [absent_iff] at ha
    rw [first_iff, ha] at hv
    cases hv
  · rename_i e hp
    have hne : ¬ Absent rq.headers "Event" := by
      intro ha
      rw [absent_iff] at ha
      unfold eventPackage at hp
      rw [ha] at hp
      cases hp
    simp only at h
    split at h
    · cases h
    · cases h
      exact ⟨rfl, fun ha => absurd ha hne, fun _ => rfl⟩
    · simp only [Run.bind_eq_done] at h
      obtain ⟨n0, h1, h2⟩ := h
      cases h2

/-! ## C103: the subscriber's side -/

theorem insert_other (m : SubMgr) (s : Sub) (id : SubId) (h : id ≠ s.id) : SubMgr.get (m.insert s).2 id = m.get id := by
  unfold SubMgr.insert
  split
  · rfl
  · exact Tbl.get_insert_ne _ _ h

/-- C103: the subscription a client makes from its SUBSCRIBE and the answer records what they say, with the URI in the To of
the answer as the peer; the client keeps it if it has fewer than 10 000, and nothing else changes. -/
theorem C103_client (ua : Ua) (m m' : SubMgr) (rq rs : Headers) (s : Sub)
    (h : processSubscribeResponse ua m rq rs = .done (some s, m')) :
    (∃ remote, (∃ v, First rs "To" v ∧ UriIn v remote) ∧ Records rq rs ua.localUri remote s) ∧ HeldFor rs s.expires ∧
    (m.length < 10000 → m'.get s.id = some s) ∧ (∀ id, id ≠ s.id → m'.get id = m.get id) := by
  unfold processSubscribeResponse at h
  split at h
  · cases h
  · rename_i remote hr
    split at h
    · cases h
    · cases h
    · rename_i s' hs
      cases h
      obtain ⟨h1, h2⟩ := (C103_subscriber _ _ _ _).1 _ hs
      exact ⟨⟨remote, (extractTo_iff _ _).1 hr, h1⟩, h2, insert_room m s, fun id hid => insert_other m s id hid⟩

/-- **C103.** Counterexample to a subscription for a REFER: the client means to make one from its REFER and the 202 to it
(integrated.rs 2560-2565), but the REFER has no Event header, so whatever the answer it never does. -/
theorem C103_refer_none (ua : Ua) (branch : Str) (d : Dlg.Dialog) (to : Str) (by_ : Bool) (r : Request) (rs : Headers) (m : SubMgr)
    (h : Dlg.create ua branch d (.refer to by_) = .done r) :
    Absent r.headers "Event" ∧ ∀ s m', processSubscribeResponse ua m r.headers rs ≠ .done (some s, m') := by
  have ha : Absent r.headers "Event" := by
    obtain ⟨_, _, _, hi⟩ := Dlg.create_inner h
    refine (selects_pick hi "Event" []).2 ?_
    cases by_ <;> (unfold Dlg.Kind.tail; simp only [List.cons_append, List.nil_append, if_true, if_false, Bool.false_eq_true]; picks)
  refine ⟨ha, fun s m' hp => ?_⟩
  obtain ⟨⟨remote, _, h1⟩, _⟩ := C103_client _ _ _ _ _ _ hp
  have h2 := h1.named.event
  rw [absent_iff] at ha
  rw [first_iff, ha] at h2
  cases h2

end Siphon.Sub
