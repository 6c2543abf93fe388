import Verif.Relay.Spec
import Verif.Bridge.PropsCall
import Verif.Base.Strip
import Verif.Base.TextLemmas
/-!
# Lemmas: headers and next hops of the proxy
-/
namespace Siphon.Relay
open HdrSpec TextSpec Spec MfSpec
open Siphon.Proxy (loopBranch addVia prependVia_iff C54_exactly firstPiece firstPiece_pieces pieces_exists viaValue checkMaxForwards
  addViaLoop detectLoopHashed)
open Siphon.Proxy.FwdSpec (ViaText SentBy BranchIs ViaName)
open Siphon.Dlg (first_iff)
open Siphon.Dlg.Spec (First)
open Siphon.Sub.Spec (Dotted PortOf)
open Siphon.Sub (portOf_iff)
open Siphon.Bridge (socketOf socketOf_iff)
open Siphon.Manager (TransportKind)

/-! ## Headers -/

theorem pushed_ok {hs : Headers} {h : Header} (hl : hs.inner.length < 200) (hk : StoredOk h) :
    pushed hs h.name h.value = ⟨hs.inner ++ [h]⟩ := by
  unfold pushed
  rw [C24_push_ok hs h.name h.value hl hk.1.1 hk.2.1 hk.1.2 hk.2.2]

theorem credential_iff (h : Header) :
    (eqIgnoreCase h.name "Proxy-Authorization".toList || eqIgnoreCase h.name "Proxy-Authenticate".toList) = true ↔ Credential h := by
  unfold Credential
  rw [Bool.or_eq_true, ← sameName_iff, ← sameName_iff]

theorem stripAuth_eq : ∀ (l : List Header) (out : Headers), out.inner.length + l.length ≤ 200 → (∀ h ∈ l, StoredOk h) →
    ∃ l', Stripped l l' ∧ stripAuth l out = ⟨out.inner ++ l'⟩
  | [], out, _, _ => ⟨[], .nil, by simp [stripAuth]⟩
  | h :: t, out, hl, hk => by
    simp only [List.length_cons] at hl
    unfold stripAuth
    by_cases hc : (eqIgnoreCase h.name "Proxy-Authorization".toList || eqIgnoreCase h.name "Proxy-Authenticate".toList) = true
    · rw [if_pos hc]
      obtain ⟨l', h1, h2⟩ := stripAuth_eq t out (by omega) (fun x hx => hk x (by simp [hx]))
      exact ⟨l', .drop ((credential_iff h).mp hc) h1, h2⟩
    · rw [if_neg hc, pushed_ok (by omega) (hk h (by simp))]
      obtain ⟨l', h1, h2⟩ := stripAuth_eq t ⟨out.inner ++ [h]⟩ (by simp only [List.length_append, List.length_cons, List.length_nil]; omega)
        (fun x hx => hk x (by simp [hx]))
      exact ⟨h :: l', .keep (fun hh => hc ((credential_iff h).mpr hh)) h1, by rw [h2]; simp⟩

theorem stripped_unique {l a b : List Header} (ha : Stripped l a) (hb : Stripped l b) : a = b := by
  induction ha generalizing b with
  | nil => cases hb; rfl
  | drop hc _ ih =>
    cases hb with
    | drop _ hb => exact ih hb
    | keep hn _ => exact absurd hc hn
  | keep hn _ ih =>
    cases hb with
    | drop hc _ => exact absurd hc hn
    | keep _ hb => rw [ih hb]

theorem stripped_mem {l l' : List Header} (h : Stripped l l') : (∀ x ∈ l', x ∈ l ∧ ¬ Credential x) ∧ l'.length ≤ l.length := by
  induction h with
  | nil => simp
  | drop _ _ ih =>
    refine ⟨fun x hx => ⟨by simp [(ih.1 x hx).1], (ih.1 x hx).2⟩, ?_⟩
    simp only [List.length_cons]
    omega
  | keep hn _ ih =>
    constructor
    · intro x hx
      rcases List.mem_cons.mp hx with rfl | hx
      · exact ⟨by simp, hn⟩
      · exact ⟨by simp [(ih.1 x hx).1], (ih.1 x hx).2⟩
    · simp only [List.length_cons]
      omega

theorem get_cons (h : Header) (l : List Header) (n : Str) :
    (Headers.mk (h :: l)).get n = if h.nameEq n then some h.value else (Headers.mk l).get n := by
  unfold Headers.get Headers.getHeader
  simp only [List.find?_cons]
  cases h.nameEq n <;> simp

theorem nameEq_not {h : Header} {n : Str} (hn : ¬ SameName h.name n) : h.nameEq n = false := by
  cases e : h.nameEq n with
  | false => rfl
  | true => exact absurd ((nameEq_iff _ _).mp e) hn

theorem sameName_both {a b n : Str} (h1 : SameName a b) (h2 : SameName a n) : SameName b n := by
  rw [sameName_iff] at *
  simp only [eqIgnoreCase, beq_iff_eq] at *
  rw [← h1, h2]

theorem stripped_get {l l' : List Header} (h : Stripped l l') {n : Str} (h1 : ¬ SameName "Proxy-Authorization".toList n)
    (h2 : ¬ SameName "Proxy-Authenticate".toList n) : (Headers.mk l').get n = (Headers.mk l).get n := by
  induction h with
  | nil => rfl
  | drop hc _ ih =>
    rw [get_cons, nameEq_not, ih]
    · rfl
    · intro hn
      rcases hc with hc | hc
      · exact h1 (sameName_both hc hn)
      · exact h2 (sameName_both hc hn)
  | keep _ _ ih => rw [get_cons, get_cons, ih]

theorem get_append_none {pre l : List Header} {n : Str} (h : ∀ x ∈ pre, ¬ SameName x.name n) :
    (Headers.mk (pre ++ l)).get n = (Headers.mk l).get n := by
  induction pre with
  | nil => rfl
  | cons x pre ih => rw [List.cons_append, get_cons, nameEq_not (h x (by simp)), ih (fun y hy => h y (by simp [hy]))]; rfl

theorem get_append_congr {a b : List Header} {n : Str} (h : (Headers.mk a).get n = (Headers.mk b).get n) :
    ∀ pre : List Header, (Headers.mk (pre ++ a)).get n = (Headers.mk (pre ++ b)).get n
  | [] => h
  | x :: pre => by rw [List.cons_append, List.cons_append, get_cons, get_cons, get_append_congr h pre]

theorem get_snoc_other {x : Header} {n : Str} (hx : ¬ SameName x.name n) (l : List Header) :
    (Headers.mk (l ++ [x])).get n = (Headers.mk l).get n := by
  have h := get_append_congr (a := [x]) (b := []) (n := n) (by rw [get_cons, nameEq_not hx]; rfl) l
  rw [h, List.append_nil]

theorem lowered_get {l l' : List Header} (h : Lowered l l') {n : Str} (hn : ¬ SameName "Max-Forwards".toList n) :
    (Headers.mk l').get n = (Headers.mk l).get n := by
  rcases h with ⟨pre, x, post, k, rfl, hx, _, _, _, rfl⟩ | ⟨_, _, rfl⟩
  · have hf : ¬ SameName x.name n := fun hh => hn (sameName_both hx hh)
    refine get_append_congr ?_ pre
    rw [get_cons, get_cons, nameEq_not hf, nameEq_not (h := ⟨x.name, showNat k⟩) hf]
    rfl
  · exact get_snoc_other (x := ⟨"Max-Forwards".toList, "69".toList⟩) hn l

theorem lowered_iff (hs : Headers) (l : List Header) : Lowered hs.inner l ↔ ∃ v, decrementMaxForwards hs = .ok (v, ⟨l⟩) := by
  constructor
  · rintro (⟨pre, h, post, k, e, h1, h2, h3, h4, rfl⟩ | ⟨h1, h2, rfl⟩)
    · exact ⟨k, (C25_forward _ _ _).mpr (.inl ⟨pre, h, post, ⟨e, h1, h2⟩, h3, h4, rfl⟩)⟩
    · exact ⟨69, (C25_forward _ _ _).mpr (.inr ⟨h1, h2, rfl, rfl⟩)⟩
  · rintro ⟨v, h⟩
    rcases (C25_forward _ _ _).mp h with ⟨pre, x, post, ⟨e, h1, h2⟩, h3, h4, h5⟩ | ⟨h1, h2, _, h4⟩
    · exact .inl ⟨pre, x, post, v, e, h1, h2, h3, h4, h5⟩
    · exact .inr ⟨h1, h2, h4⟩

theorem lowered_unique {l a b : List Header} (ha : Lowered l a) (hb : Lowered l b) : a = b := by
  obtain ⟨v, h⟩ := (lowered_iff ⟨l⟩ a).mp ha
  obtain ⟨w, h'⟩ := (lowered_iff ⟨l⟩ b).mp hb
  rw [h] at h'
  cases h'
  rfl

theorem checkMaxForwards_iff (rq q : Request) :
    checkMaxForwards rq = some q ↔ ∃ l, Lowered rq.headers.inner l ∧ q = { rq with headers := ⟨l⟩ } := by
  unfold checkMaxForwards
  constructor
  · intro h
    split at h
    · cases h
    · rename_i v hs hd
      cases h
      exact ⟨hs.inner, (lowered_iff _ _).mpr ⟨v, hd⟩, rfl⟩
  · rintro ⟨l, hl, rfl⟩
    obtain ⟨v, hv⟩ := (lowered_iff _ _).mp hl
    rw [hv]

theorem lowered_stored {l l' : List Header} (h : Lowered l l') (hk : ∀ x ∈ l, StoredOk x) : ∀ x ∈ l', StoredOk x := by
  rcases h with ⟨pre, y, post, k, rfl, _, _, _, h4, rfl⟩ | ⟨_, _, rfl⟩
  · intro x hx
    rcases List.mem_append.mp hx with hx | hx
    · exact hk x (by simp [hx])
    · rcases List.mem_cons.mp hx with rfl | hx
      · have := hk y (by simp)
        exact ⟨⟨this.1.1, oneLine_showNat k⟩, this.2.1, len_show_small k (by omega)⟩
      · exact hk x (by simp [hx])
  · intro x hx
    rcases List.mem_append.mp hx with hx | hx
    · exact hk x hx
    · rw [List.mem_singleton] at hx
      subst hx
      exact ⟨⟨token_mf, by unfold OneLine; decide +kernel⟩, by decide +kernel, by decide +kernel⟩

/-! ## The branch -/

theorem loopBranch_congr {sha : Bytes → Bytes} {r s : Request} (host : Str) (hu : s.uri = r.uri)
    (h : ∀ n ∈ ["To", "From", "Call-ID", "CSeq"], s.headers.get n.toList = r.headers.get n.toList) :
    loopBranch sha s host = loopBranch sha r host := by
  unfold loopBranch Proxy.cseqWord
  rw [h "To" (by simp), h "From" (by simp), h "Call-ID" (by simp), h "CSeq" (by simp), hu]

theorem names_free : ∀ n ∈ ["To", "From", "Call-ID", "CSeq", "Route"], ¬ SameName "Proxy-Authorization".toList n.toList ∧
    ¬ SameName "Proxy-Authenticate".toList n.toList ∧ ¬ SameName "Max-Forwards".toList n.toList ∧ ¬ SameName "Via".toList n.toList := by
  intro n hn
  simp only [sameName_iff]
  simp only [List.mem_cons, List.not_mem_nil, or_false] at hn
  rcases hn with rfl | rfl | rfl | rfl | rfl <;> decide +kernel

theorem hostText_iff (c : Cfg) (h : Str) : HostText c h ↔ h = proxyHost c := by
  unfold HostText proxyHost
  constructor
  · rintro (⟨a, ps, hp⟩ | ⟨hn, rfl⟩)
    · rw [← (pieces_iff _ _ _).mp hp]
    · cases hc : splitChar '@' c.localUri with
      | nil => rfl
      | cons a l =>
        cases l with
        | nil => rfl
        | cons b ps => exact absurd ((pieces_iff _ _ _).mpr hc.symm) (hn a b ps)
  · rintro rfl
    cases hc : splitChar '@' c.localUri with
    | nil =>
      refine .inr ⟨fun a b ps hp => ?_, rfl⟩
      rw [← (pieces_iff _ _ _).mp hp] at hc
      cases hc
    | cons a l =>
      cases l with
      | nil =>
        refine .inr ⟨fun x b ps hp => ?_, rfl⟩
        rw [← (pieces_iff _ _ _).mp hp] at hc
        cases hc
      | cons b ps => exact .inl ⟨a, ps, (pieces_iff _ _ _).mpr hc.symm⟩

theorem viaName_eq (k : TransportKind) : transportName k = (viaName k).toList := by
  cases k <;> rfl

/-! ## The next hop -/

theorem topRoute_iff (hs : Headers) (v : Str) : TopRoute hs v ↔ firstRoute hs = some v := by
  unfold TopRoute firstRoute
  constructor
  · rintro ⟨w, t, p, ps, h1, h2, h3, h4⟩
    rw [(first_iff _ _ _).mp h1, Option.map_some, ← (strips_trim _ _).mp h2, firstPiece_pieces _ _ _ _ h3, ← (strips_trim _ _).mp h4]
  · intro h
    obtain ⟨w, h1, rfl⟩ := Option.map_eq_some_iff.mp h
    obtain ⟨p, ps, hp⟩ := pieces_exists ',' (trim w)
    exact ⟨w, trim w, p, ps, (first_iff _ _ _).mpr h1, (strips_trim _ _).mpr rfl, hp,
      (strips_trim _ _).mpr (by rw [firstPiece_pieces _ _ _ _ hp])⟩

theorem trim_trim (s : Str) : trim (trim s) = trim s := by
  obtain ⟨a, b, _, _, _, h4, h5⟩ := (strips_trim s (trim s)).mpr rfl
  exact ((strips_trim (trim s) (trim s)).mp ⟨[], [], by simp, by simp, by simp, h4, h5⟩).symm

theorem routeIs_iff {w v : Str} (h : v = trim w) (u : SipUri) : RouteIs v u ↔ routeUri v = some u := by
  unfold RouteIs routeUri trimAll
  rw [h, trim_trim]
  constructor
  · rintro ⟨a, b, h1, h2, h3⟩
    rw [← (strips_iff _ _ _).mp h1, ← (strips_iff _ _ _).mp h2, h3]
  · intro h
    exact ⟨_, _, (strips_iff _ _ _).mpr rfl, (strips_iff _ _ _).mpr rfl, h⟩

theorem mine_iff (me u : SipUri) : Mine me u ↔ isLocal u me = true := by
  unfold Mine isLocal
  rw [Bool.and_eq_true, ← sameName_iff, beq_iff_eq]
  constructor
  · rintro ⟨h1, p, h2, h3⟩
    rw [portOf_iff] at h2 h3
    exact ⟨h1, h2.trans h3.symm⟩
  · rintro ⟨h1, h2⟩
    exact ⟨h1, _, (portOf_iff me _).mpr rfl, (portOf_iff u _).mpr h2.symm⟩

theorem firstRoute_trim {hs : Headers} {v : Str} (h : firstRoute hs = some v) : ∃ w, v = trim w := by
  unfold firstRoute at h
  obtain ⟨w, _, rfl⟩ := Option.map_eq_some_iff.mp h
  exact ⟨_, rfl⟩

theorem routed_iff (hs : Headers) (r : SipUri) :
    (firstRoute hs).bind routeUri = some r ↔ ∃ v, TopRoute hs v ∧ RouteIs v r := by
  constructor
  · intro h
    obtain ⟨v, h1, h2⟩ := Option.bind_eq_some_iff.mp h
    obtain ⟨w, hw⟩ := firstRoute_trim h1
    exact ⟨v, (topRoute_iff _ _).mpr h1, (routeIs_iff hw _).mpr h2⟩
  · rintro ⟨v, h1, h2⟩
    have h1 := (topRoute_iff _ _).mp h1
    obtain ⟨w, hw⟩ := firstRoute_trim h1
    rw [h1]
    exact (routeIs_iff hw _).mp h2

theorem nextHop_iff (rq : Request) (me u : SipUri) (own : Bool) : NextHop rq me u own ↔ nextHop rq me = (u, own) := by
  unfold nextHop
  simp only
  cases hr : (firstRoute rq.headers).bind routeUri with
  | some r =>
    obtain ⟨v, h1, h2⟩ := (routed_iff _ _).mp hr
    have huniq : ∀ v' r', TopRoute rq.headers v' → RouteIs v' r' → r' = r := by
      intro v' r' a b
      have := (routed_iff _ _).mpr ⟨v', a, b⟩
      rw [hr] at this
      exact (Option.some.inj this).symm
    simp only
    cases hl : isLocal r me with
    | true =>
      have hm := (mine_iff me r).mpr hl
      rw [if_pos rfl]
      cases hu : SipUri.parse rq.uri with
      | some t =>
        simp only
        constructor
        · intro h
          cases h with
          | own _ _ _ e => rw [hu] at e; cases e; rfl
          | ownOpaque _ _ _ e => rw [hu] at e; cases e
          | other a b n => exact absurd hm (huniq _ _ a b ▸ n)
          | direct n _ => exact absurd h2 (n _ _ h1)
          | unread n _ => exact absurd h2 (n _ _ h1)
        · intro h
          cases h
          exact .own h1 h2 hm hu
      | none =>
        simp only
        constructor
        · intro h
          cases h with
          | own _ _ _ e => rw [hu] at e; cases e
          | ownOpaque a b _ _ => rw [huniq _ _ a b]
          | other a b n => exact absurd hm (huniq _ _ a b ▸ n)
          | direct n _ => exact absurd h2 (n _ _ h1)
          | unread n _ => exact absurd h2 (n _ _ h1)
        · intro h
          cases h
          exact .ownOpaque h1 h2 hm hu
    | false =>
      have hm : ¬ Mine me r := fun h => by rw [(mine_iff me r).mp h] at hl; cases hl
      rw [if_neg (by decide)]
      constructor
      · intro h
        cases h with
        | own a b m _ => exact absurd m (huniq _ _ a b ▸ hm)
        | ownOpaque a b m _ => exact absurd m (huniq _ _ a b ▸ hm)
        | other a b n => rw [huniq _ _ a b]
        | direct n _ => exact absurd h2 (n _ _ h1)
        | unread n _ => exact absurd h2 (n _ _ h1)
      · intro h
        cases h
        exact .other h1 h2 hm
  | none =>
    have hn : ∀ v r, TopRoute rq.headers v → ¬ RouteIs v r := by
      intro v r a b
      have := (routed_iff _ _).mpr ⟨v, a, b⟩
      rw [hr] at this
      cases this
    simp only
    cases hu : SipUri.parse rq.uri with
    | some t =>
      simp only
      constructor
      · intro h
        cases h with
        | own a b _ _ => exact absurd b (hn _ _ a)
        | ownOpaque a b _ _ => exact absurd b (hn _ _ a)
        | other a b _ => exact absurd b (hn _ _ a)
        | direct _ e => rw [hu] at e; cases e; rfl
        | unread _ e => rw [hu] at e; cases e
      · intro h
        cases h
        exact .direct hn hu
    | none =>
      simp only
      constructor
      · intro h
        cases h with
        | own a b _ _ => exact absurd b (hn _ _ a)
        | ownOpaque a b _ _ => exact absurd b (hn _ _ a)
        | other a b _ => exact absurd b (hn _ _ a)
        | direct _ e => rw [hu] at e; cases e
        | unread _ _ => rfl
      · intro h
        cases h
        exact .unread hn hu

/-- Every next hop was read from a text. -/
theorem nextHop_parsed {rq : Request} {me u : SipUri} {own : Bool} (hme : ∃ t, SipUri.parse t = some me) (h : NextHop rq me u own) :
    ∃ t, SipUri.parse t = some u := by
  cases h with
  | own _ _ _ e => exact ⟨_, e⟩
  | ownOpaque _ b _ _ => obtain ⟨_, t, _, _, h⟩ := b; exact ⟨t, h⟩
  | other _ b _ => obtain ⟨_, t, _, _, h⟩ := b; exact ⟨t, h⟩
  | direct _ e => exact ⟨_, e⟩
  | unread _ _ => exact hme

theorem transportParam_iff (u : SipUri) (t : Str) : transportParam u = some t ↔ ∃ v, Param u v ∧ t = lower v := by
  unfold transportParam Param
  cases u.params.get "transport".toList with
  | none => simp
  | some x =>
    cases x with
    | none => simp
    | some v => simp [eq_comm]

theorem transportParam_none (u : SipUri) : transportParam u = none ↔ ∀ v, ¬ Param u v := by
  unfold transportParam Param
  cases u.params.get "transport".toList with
  | none => simp
  | some x => cases x <;> simp

theorem lower_iff {v w : Str} (hw : lower w = w) : SameName v w ↔ lower v = w := by
  rw [sameName_iff]
  simp only [eqIgnoreCase, beq_iff_eq, hw]

theorem namedTransport_iff (v : Str) (k : TransportKind) :
    namedTransport (lower v) = some k ↔ ∃ n, (n, k) ∈ names ∧ SameName v n.toList := by
  have h1 : SameName v "udp".toList ↔ lower v = "udp".toList := lower_iff (by decide)
  have h2 : SameName v "tcp".toList ↔ lower v = "tcp".toList := lower_iff (by decide)
  have h3 : SameName v "tls".toList ↔ lower v = "tls".toList := lower_iff (by decide)
  have h4 : SameName v "ws".toList ↔ lower v = "ws".toList := lower_iff (by decide)
  have h5 : SameName v "wss".toList ↔ lower v = "wss".toList := lower_iff (by decide)
  unfold namedTransport names
  constructor
  · intro h
    repeat' split at h
    all_goals first
      | (cases h; done)
      | (rename_i e; cases h; first
          | exact ⟨"udp", by simp, h1.mpr e⟩
          | exact ⟨"tcp", by simp, h2.mpr e⟩
          | exact ⟨"tls", by simp, h3.mpr e⟩
          | exact ⟨"ws", by simp, h4.mpr e⟩
          | exact ⟨"wss", by simp, h5.mpr e⟩)
  · rintro ⟨n, hn, hv⟩
    simp only [List.mem_cons, Prod.mk.injEq, List.not_mem_nil, or_false] at hn
    rcases hn with ⟨rfl, rfl⟩ | ⟨rfl, rfl⟩ | ⟨rfl, rfl⟩ | ⟨rfl, rfl⟩ | ⟨rfl, rfl⟩
    · rw [h1.mp hv]; decide
    · rw [h2.mp hv]; decide
    · rw [h3.mp hv]; decide
    · rw [h4.mp hv]; decide
    · rw [h5.mp hv]; decide

theorem namedTransport_none (v : Str) : namedTransport (lower v) = none ↔ ∀ n k, (n, k) ∈ names → ¬ SameName v n.toList := by
  constructor
  · intro h n k hn hs
    rw [(namedTransport_iff v k).mpr ⟨n, hn, hs⟩] at h
    cases h
  · intro h
    cases e : namedTransport (lower v) with
    | none => rfl
    | some k =>
      obtain ⟨n, hn, hs⟩ := (namedTransport_iff v k).mp e
      exact absurd hs (h n k hn)

theorem param_unique {u : SipUri} {v w : Str} (h : Param u v) (h' : Param u w) : v = w := by
  unfold Param at h h'
  rw [h] at h'
  simpa using h'

theorem carrier_iff (u : SipUri) (k : TransportKind) : Carrier u k ↔ selectTransport u = k := by
  unfold selectTransport
  cases hp : transportParam u with
  | none =>
    have hn := (transportParam_none u).mp hp
    simp only
    constructor
    · intro h
      cases h with
      | named a _ _ => exact absurd a (hn _)
      | unknown a _ => exact absurd a (hn _)
      | secure _ e => rw [if_pos e]
      | plain _ e => rw [e]; rfl
    · intro h
      cases hs : u.sips with
      | true => rw [hs, if_pos rfl] at h; subst h; exact .secure hn hs
      | false => rw [hs, if_neg (by decide)] at h; subst h; exact .plain hn hs
  | some t =>
    obtain ⟨v, hv, rfl⟩ := (transportParam_iff u t).mp hp
    simp only
    cases hk : namedTransport (lower v) with
    | some k' =>
      obtain ⟨n, hn, hs⟩ := (namedTransport_iff v k').mp hk
      simp only
      constructor
      · intro h
        cases h with
        | named a b d =>
          rw [param_unique a hv] at d
          have := (namedTransport_iff v k).mpr ⟨_, b, d⟩
          rw [hk] at this
          exact Option.some.inj this
        | unknown a b => rw [param_unique a hv] at b; exact absurd hs (b n k' hn)
        | secure b _ => exact absurd hv (b _)
        | plain b _ => exact absurd hv (b _)
      · rintro rfl
        exact .named hv hn hs
    | none =>
      have hn := (namedTransport_none v).mp hk
      simp only
      constructor
      · intro h
        cases h with
        | named a b d => rw [param_unique a hv] at d; exact absurd d (hn _ _ b)
        | unknown a b => rfl
        | secure b _ => exact absurd hv (b _)
        | plain b _ => exact absurd hv (b _)
      · rintro rfl
        exact .unknown hv hn

theorem inviteCarrier_iff (u : SipUri) (k : TransportKind) : InviteCarrier u k ↔ inviteTransport u = k := by
  unfold inviteTransport
  cases hp : (transportParam u).bind namedTransport with
  | some k' =>
    obtain ⟨t, h1, h2⟩ := Option.bind_eq_some_iff.mp hp
    obtain ⟨v, hv, rfl⟩ := (transportParam_iff u t).mp h1
    obtain ⟨n, hn, hs⟩ := (namedTransport_iff v k').mp h2
    simp only
    constructor
    · intro h
      cases h with
      | named a b d =>
        rw [param_unique a hv] at d
        have := (namedTransport_iff v k).mpr ⟨_, b, d⟩
        rw [h2] at this
        exact Option.some.inj this
      | secure b _ => exact absurd hs (b _ _ _ hv hn)
      | plain b _ => exact absurd hs (b _ _ _ hv hn)
    · rintro rfl
      exact .named hv hn hs
  | none =>
    have hn : ∀ v n k, Param u v → (n, k) ∈ names → ¬ SameName v n.toList := by
      intro v n k hv hn hs
      have h1 := (transportParam_iff u _).mpr ⟨v, hv, rfl⟩
      rw [h1] at hp
      exact (namedTransport_none v).mp hp n k hn hs
    simp only
    constructor
    · intro h
      cases h with
      | named a b d => exact absurd d (hn _ _ _ a b)
      | secure _ e => rw [if_pos e]
      | plain _ e => rw [e]; rfl
    · intro h
      cases hs : u.sips with
      | true => rw [hs, if_pos rfl] at h; subst h; exact .secure hn hs
      | false => rw [hs, if_neg (by decide)] at h; subst h; exact .plain hn hs

theorem carrier_total (u : SipUri) : ∃ k, Carrier u k := ⟨_, (carrier_iff u _).mpr rfl⟩

theorem place_iff (c : Cfg) {u : SipUri} (hu : ∃ t, SipUri.parse t = some u) (k : TransportKind) (d : Dest) :
    Place c u k d ↔ ∃ a, socketOf u = some a ∧ wayTo c u a k = some d := by
  obtain ⟨t, ht⟩ := hu
  have hs : ∀ a b e f p, Dotted u.host a b e f → PortOf u p → socketOf u = some (.v4 a b e f, p) :=
    fun a b e f p h1 h2 => (socketOf_iff ht _ _).mpr ⟨a, b, e, f, h1, rfl, h2⟩
  constructor
  · intro h
    cases h with
    | udp h0 h1 h2 => exact ⟨_, hs _ _ _ _ _ h1 h2, by simp [wayTo, h0]⟩
    | tcp h1 h2 => exact ⟨_, hs _ _ _ _ _ h1 h2, rfl⟩
    | tls h0 h1 h2 => exact ⟨_, hs _ _ _ _ _ h1 h2, by simp [wayTo, h0]⟩
    | ws h0 h1 h2 => exact ⟨_, hs _ _ _ _ _ h1 h2, by simp [wayTo, h0]⟩
    | wss h0 h1 h2 => exact ⟨_, hs _ _ _ _ _ h1 h2, by simp [wayTo, h0]⟩
  · rintro ⟨⟨a, p⟩, h1, h2⟩
    obtain ⟨x, y, z, w, d1, rfl, d3⟩ := (socketOf_iff ht _ _).mp h1
    cases k with
    | udp =>
      unfold wayTo at h2
      simp only at h2
      split at h2
      · rename_i hc; cases h2; exact .udp hc d1 d3
      · cases h2
    | tcp => cases h2; exact .tcp d1 d3
    | tls =>
      unfold wayTo at h2
      simp only at h2
      split at h2
      · rename_i hc; cases h2; exact .tls hc d1 d3
      · cases h2
    | ws =>
      unfold wayTo at h2
      simp only at h2
      split at h2
      · rename_i hc
        cases h2
        have := Place.ws (c := c) hc d1 d3
        simpa using this
      · cases h2
    | wss =>
      unfold wayTo at h2
      simp only at h2
      split at h2
      · rename_i hc
        cases h2
        have := Place.wss (c := c) hc d1 d3
        simpa using this
      · cases h2
    | sctp => cases h2
    | tlsSctp => cases h2

end Siphon.Relay
