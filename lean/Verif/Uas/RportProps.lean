import Verif.Uas.Rport
import Verif.Core.ViaProps
import Verif.Core.HeadersGet
/-!
# The source address in the top Via of a response (C88)

RFC 3261 18.2.1 and RFC 3581 4.  The response of the server carries, in its topmost Via, the port and the
address the request came from, so that it finds its way back through a NAT.
-/
set_option linter.unusedSimpArgs false
namespace Siphon.Uas
open Via TextSpec HdrSpec ViaSpec UriP

/-! ## Lemmas -/

theorem showNatGo_length : ∀ (k f n : Nat), n ≤ f → n < 10 ^ (k + 1) → (showNatGo f n).length ≤ k + 1
  | _, 0, n, _, _ => by simp [showNatGo]
  | 0, f + 1, n, _, h => by
    rw [showNatGo, if_pos (by simpa using h)]; simp
  | k + 1, f + 1, n, hf, h => by
    rw [showNatGo]
    split
    · simp
    · rename_i hn
      have := showNatGo_length k f (n / 10) (by omega) (by rw [Nat.div_lt_iff_lt_mul (by omega)]; rw [← Nat.pow_succ]; exact h)
      simp; omega

theorem showNat_length (n : Nat) (h : n ≤ 65535) : (showNat n).length ≤ 5 := showNatGo_length 4 n n (Nat.le_refl _) (by omega)

theorem utf8_app (a b : Str) : utf8Len (a ++ b) = utf8Len a + utf8Len b := by simp [utf8Len]
theorem utf8_cons (a : Char) (b : Str) : utf8Len (a :: b) = a.utf8Size + utf8Len b := by
  simp [utf8Len]

theorem utf8_ascii {s : Str} (h : ∀ c ∈ s, c.toNat < 128) : utf8Len s = s.length := by
  induction s with
  | nil => rfl
  | cons c s ih =>
    rw [utf8_cons, ih (fun x hx => h x (by simp [hx]))]
    have hc := h c (by simp)
    have : c.utf8Size = 1 := by
      rw [utf8Size_toNat, if_pos (by omega)]
    simp [this]; omega

theorem render_length (ps : BMap (Option Str)) (h : ∀ e ∈ ps, GoodP e) : utf8Len (renderParams ps) ≤ 322 * ps.length := by
  induction ps with
  | nil => simp [renderParams, utf8Len]
  | cons e t ih =>
    have ih := ih (fun x hx => h x (by simp [hx]))
    obtain ⟨k, o⟩ := e
    have he := h (k, o) (by simp)
    have hk : utf8Len k ≤ 64 := he.1.2.2
    have s1 : (';' : Char).utf8Size = 1 := by decide
    have s2 : ('=' : Char).utf8Size = 1 := by decide
    cases o with
    | none =>
      simp only [renderParams, utf8_app, utf8_cons, List.length_cons, s1]; omega
    | some v =>
      have hv : utf8Len v ≤ 256 := (he.2.2 v rfl).1.1
      simp only [renderParams, utf8_app, utf8_cons, List.length_cons, s1, s2, List.cons_append]; omega

theorem show_eq (v : Via) : v.show = ("SIP/2.0/".toList ++ v.transport ++ ' ' :: v.sentBy) ++ renderParams v.params := rfl

theorem show_length {v : Via} (h : Good v) : utf8Len v.show ≤ 8192 := by
  have h1 := render_length v.params h.good
  have h2 := h.tr.2.2
  have h3 := h.sbLen
  have h4 := h.few
  have s1 : (' ' : Char).utf8Size = 1 := by decide
  have s2 : utf8Len "SIP/2.0/".toList = 8 := by decide
  rw [show_eq, utf8_app, utf8_app, utf8_app, utf8_cons, s1, s2]
  omega

theorem show_oneLine {v : Via} (h : Good v) : OneLine v.show := by
  have hp := reparse h
  obtain ⟨es, ⟨hc, _⟩, _⟩ := (parse_iff _ _).mp hp
  refine ⟨?_, ?_, ?_⟩ <;>
  · intro hm
    have := hc _ hm (by unfold Control; decide)
    exact absurd this (by decide)

theorem setOrPush_via {hs : Headers} {top : Str} {rest : List Str} (hsel : Selects "Via".toList hs.inner (top :: rest))
    {v : Via} (hg : Good v) :
    ∃ hs', hs.setOrPush "Via".toList v.show = .ok hs' ∧ Selects "Via".toList hs'.inner (v.show :: rest) ∧
      ∀ n vs, ¬ SameName n "Via".toList → (Selects n hs'.inner vs ↔ Selects n hs.inner vs) := by
  have tok : Token "Via".toList := ⟨by decide, by unfold TokenChar; decide⟩
  rcases C24_setOrPush hs "Via".toList v.show tok (by decide) (show_oneLine hg) (show_length hg) with
    ⟨h, _⟩ | ⟨h, _⟩ | ⟨pre, x, post, h1, h2, h3, h4⟩
  · exfalso
    have : Selects "Via".toList hs.inner [] := by
      generalize hs.inner = l at h
      clear hsel
      induction l with
      | nil => exact .nil
      | cons a t ih => exact .skip (h a (by simp)) (ih (fun x hx => h x (by simp [hx])))
    cases selects_unique this hsel
  · exfalso
    have : Selects "Via".toList hs.inner [] := by
      generalize hs.inner = l at h
      clear hsel
      induction l with
      | nil => exact .nil
      | cons a t ih => exact .skip (h a (by simp)) (ih (fun x hx => h x (by simp [hx])))
    cases selects_unique this hsel
  · refine ⟨_, h4, ?_, ?_⟩
    · rw [h1] at hsel
      have key : ∀ pre : List Header, (∀ y ∈ pre, ¬ SameName y.name "Via".toList) →
          Selects "Via".toList (pre ++ x :: post) (top :: rest) →
          Selects "Via".toList (pre ++ ⟨x.name, v.show⟩ :: post) (v.show :: rest) := by
        intro pre
        induction pre with
        | nil =>
          intro _ hh
          simp only [List.nil_append] at hh ⊢
          cases hh with
          | take _ hr => exact .take (h := ⟨x.name, v.show⟩) h2 hr
          | skip hn _ => exact absurd h2 hn
        | cons y ys ih =>
          intro hy hh
          simp only [List.cons_append] at hh ⊢
          cases hh with
          | take hn _ => exact absurd hn (hy y (by simp))
          | skip hn hr => exact .skip hn (ih (fun z hz => hy z (by simp [hz])) hr)
      exact key pre h3 hsel
    · intro n vs hn
      rw [h1]
      have hx : ¬ SameName x.name n := fun hh => hn (sameName_trans (sameName_symm hh) h2)
      have key : ∀ pre : List Header, ∀ vs,
          (Selects n (pre ++ ⟨x.name, v.show⟩ :: post) vs ↔ Selects n (pre ++ x :: post) vs) := by
        intro pre
        induction pre with
        | nil =>
          intro vs
          simp only [List.nil_append]
          constructor
          · intro hh
            cases hh with
            | take h _ => exact absurd h hx
            | skip _ hr => exact .skip hx hr
          · intro hh
            cases hh with
            | take h _ => exact absurd h hx
            | skip _ hr => exact .skip hx hr
        | cons y ys ih =>
          intro vs
          simp only [List.cons_append]
          constructor
          · intro hh
            cases hh with
            | take h hr => exact .take h ((ih _).mp hr)
            | skip h hr => exact .skip h ((ih _).mp hr)
          · intro hh
            cases hh with
            | take h hr => exact .take h ((ih _).mpr hr)
            | skip h hr => exact .skip h ((ih _).mpr hr)
      exact key pre vs

/-! ## The host of the sent-by -/

/-- C88: the address compared with the source is the host of the sent-by, without port and brackets. -/
theorem C88_host {s h : Str} (hs : SentBy s h) : sentByHost s = h := by
  obtain ⟨hne, hch⟩ := sentBy_chars hs
  have ht : trim s = s := trim_of_trimmed _ (trimmed_of_all _ (fun c hc => bracket_ws (hch c hc)))
  have nb : ∀ h : Str, h ≠ [] → (∀ c ∈ h, HostChar c) → ∀ r t, h ++ r ≠ '[' :: t := by
    intro h h1 h2 r t
    cases h with
    | nil => exact absurd rfl h1
    | cons x xs =>
      intro he
      simp only [List.cons_append, List.cons.injEq] at he
      have := (hostChar_iff _).mpr (h2 x (by simp))
      rw [he.1] at this
      exact absurd this (by decide)
  cases hs with
  | name h1 h2 =>
    have hc : ':' ∉ s := fun hm => hostCh_colon_not _ (h2 _ hm) rfl
    simp only [sentByHost, ht, splitLast_none _ _ hc]
    split
    · rename_i t
      exact absurd (by simp) (nb _ h1 h2 [] t)
    · rfl
  | @namePort _ p h1 h2 h3 =>
    have hc : ':' ∉ p := fun hm => absurd (port_digit h3 _ hm) (by decide)
    simp only [sentByHost, ht, splitLast_append _ _ _ hc]
    split
    · rename_i t he
      exact absurd he (nb _ h1 h2 _ t)
    · rfl
  | v6 h1 h2 =>
    simp only [sentByHost, ht]
    simp only [List.cons_append]
    rw [splitOnce_append _ _ _ (v6_no_bracket h2)]
  | v6Port h1 h2 h3 =>
    simp only [sentByHost, ht]
    simp only [List.cons_append]
    rw [splitOnce_append _ _ _ (v6_no_bracket h2)]

example : SentBy "[2001:db8::1]:5060".toList "2001:db8::1".toList := by
  have := SentBy.v6Port (a := "2001:db8::1".toList) (p := "5060".toList) (by decide) (by unfold V6Char; decide)
    ⟨5060, .snoc (s := ['5', '0', '6']) (n := 506) (.snoc (s := ['5', '0']) (n := 50) (.snoc (s := ['5']) (n := 5) (.one (c := '5')
      (by decide) (by decide)) (c := '0') (by decide) (by decide)) (c := '6') (by decide) (by decide)) (c := '0') (by decide) (by decide),
      by decide, by decide⟩
  exact this

/-! ## What the client gets back -/

/-- The text of an IP address. -/
def AddressText (ip : Str) : Prop := ip ≠ [] ∧ ip.length ≤ 45 ∧ ∀ c ∈ ip, V6Char c

theorem v6_ascii {c : Char} (h : V6Char c) : c.toNat < 128 := by
  have : c ∈ (":.".toList) → c.toNat < 128 := (by decide : ∀ c ∈ (":.".toList), c.toNat < 128) c
  rcases h with h | h | h | h
  · omega
  · omega
  · omega
  · exact this h

theorem address_plain {ip : Str} (h : AddressText ip) : Plain (some ip) ∧ Value ip := by
  have hw : ∀ c ∈ ip, HostCh c := fun c hc => v6_hostCh (h.2.2 c hc)
  refine ⟨fun v hv => ?_, ?_, ?_⟩
  · cases hv
    exact ⟨fun hm => not_host ';' (by decide) (by decide) (hw _ hm), trimmed_of_all _ (fun c hc => hostCh_ws (hw c hc))⟩
  · rw [utf8_ascii (fun c hc => v6_ascii (h.2.2 c hc))]; have := h.2.1; omega
  · intro c hc hcc
    have := hostCh_control (hw c hc)
    rw [(ctl_iff c).mpr hcc] at this; cases this

theorem port_plain {p : Nat} (h : p ≤ 65535) : Plain (some (showNat p)) ∧ Value (showNat p) := by
  have hd := showNat_digits p
  refine ⟨fun v hv => ?_, ?_, ?_⟩
  · cases hv
    exact ⟨showNat_not_mem p ';' (by decide), trimmed_of_all _ (fun c hc => hostCh_ws (digit_hostCh (hd c hc)))⟩
  · rw [utf8_ascii]
    · have := showNat_length p h; omega
    · intro c hc
      have := (isDigit_iff c).mp (hd c hc); omega
  · intro c hc hcc
    have := hostCh_control (digit_hostCh (hd c hc))
    rw [(ctl_iff c).mpr hcc] at this; cases this

theorem set_good {v v' : Via} {n : Str} {x : Option Str} (hg : Good v) (hp : Plain x) (h : v.setParam n x = some v') : Good v' := by
  obtain ⟨h1, h2, h4, rfl⟩ := setParam_some h
  exact good_insert hg h1 h4 hp h2

theorem tok_rport : Tok 64 "rport".toList := ⟨by decide, by unfold TokChar; decide, by decide⟩
theorem tok_received : Tok 64 "received".toList := ⟨by decide, by unfold TokChar; decide, by decide⟩

theorem param_same (v : Via) {a b : Str} (h : SameName a b) : v.param a = v.param b := by
  rw [Via.param, Via.param, (sameName_lower _ _).mp h]

/-- filling `rport`: a bare one gets the port -/
theorem fillRport_spec (via : Via) (port : Nat) (hp : port ≤ 65535) :
    (via.param "rport".toList = some none ∧ ∃ v, via.setParam "rport".toList (some (showNat port)) = some v ∧
      fillRport via port = (v, true)) ∨
    (via.param "rport".toList ≠ some none ∧ fillRport via port = (via, false)) := by
  by_cases h : via.param "rport".toList = some none
  · left
    refine ⟨h, ?_⟩
    obtain ⟨v, hv⟩ := (C28_set_iff via "rport".toList (some (showNat port))).mpr
      ⟨tok_rport, fun w hw => by cases hw; exact (port_plain hp).2, Or.inl (by rw [h]; simp)⟩
    exact ⟨v, hv, by rw [fillRport, if_pos h, hv]⟩
  · right
    exact ⟨h, by rw [fillRport, if_neg h]⟩

/-- The parameters of the Via in the response, given those of the Via in the request: `ip` and `port` are the
source of the request, `host` the host of the sent-by, `room` says that a parameter can be added. -/
structure Reflected (before after : Str → Option (Option Str)) (host ip : Str) (port : Nat) (room : Prop) : Prop where
  /-- a bare `rport` gets the source port -/
  rport_bare : before "rport".toList = some none → after "rport".toList = some (some (showNat port))
  /-- anything else stays -/
  rport_other : before "rport".toList ≠ some none → after "rport".toList = before "rport".toList
  /-- `received` is added when the host is not the source or `rport` was asked for -/
  received_new : before "received".toList = none → (host ≠ ip ∨ before "rport".toList = some none) → room →
    after "received".toList = some (some ip)
  /-- and only then -/
  received_none : before "received".toList = none → host = ip → before "rport".toList ≠ some none →
    after "received".toList = none
  /-- one that is there stays -/
  received_kept : ∀ x, before "received".toList = some x → after "received".toList = some x
  /-- all others stay -/
  others : ∀ n, ¬ SameName n "rport".toList → ¬ SameName n "received".toList → after n = before n

/-- C88: the topmost Via of the response tells the client the address and the port its request came from, as RFC 3581
asks; the rest of it, the other Vias and the other headers stay as they are. -/
theorem C88_top_partial (hs : Headers) (ip : Str) (port : Nat) (top : Str) (rest : List Str) (via : Via) (host : Str)
    (hsel : Selects "Via".toList hs.inner (top :: rest)) (hp : Via.parse top = some via) (hsb : SentBy via.sentBy host)
    (hip : AddressText ip) (hport : port ≤ 65535) :
    ∃ top' via', Selects "Via".toList (applyRport hs ip port).inner (top' :: rest) ∧ Via.parse top' = some via' ∧
      via'.transport = via.transport ∧ via'.sentBy = via.sentBy ∧
      Reflected via.param via'.param host ip port (via.params.length < 20) ∧
      ∀ n vs, ¬ SameName n "Via".toList → (Selects n (applyRport hs ip port).inner vs ↔ Selects n hs.inner vs) := by
  have hget : hs.get "Via".toList = some top := (get_iff hs "Via".toList top).mpr ⟨rest, hsel⟩
  have hg := parse_good hp
  have n1 : ¬ SameName "received".toList "rport".toList := by rw [sameName_iff]; decide
  have n2 : ¬ SameName "rport".toList "received".toList := by rw [sameName_iff]; decide
  -- after the first step
  obtain ⟨via1, filled, e1, g1, t1, s1, l1, f1, r1, o1⟩ : ∃ via1 filled, fillRport via port = (via1, filled) ∧ Good via1 ∧
      via1.transport = via.transport ∧ via1.sentBy = via.sentBy ∧ via1.params.length = via.params.length ∧
      (filled = true ↔ via.param "rport".toList = some none) ∧
      via1.param "rport".toList = (if via.param "rport".toList = some none then some (some (showNat port)) else via.param "rport".toList) ∧
      ∀ n, ¬ SameName n "rport".toList → via1.param n = via.param n := by
    rcases fillRport_spec via port hport with ⟨h, v, hv, he⟩ | ⟨h, he⟩
    · obtain ⟨a1, a2, a3, a4⟩ := C28_set _ _ _ _ hv
      refine ⟨v, true, he, set_good hg (port_plain hport).1 hv, a1, a2, ?_, ⟨fun _ => h, fun _ => rfl⟩, by rw [if_pos h]; exact a3, a4⟩
      obtain ⟨_, _, _, rfl⟩ := setParam_some hv
      exact blength_insert_has _ _ _ hg.sorted ((bhas_iff _ _).mpr ⟨none, h⟩)
    · exact ⟨via, false, he, hg, rfl, rfl, rfl, ⟨fun h' => by (cases h'), fun h' => absurd h' h⟩, by rw [if_neg h], fun n _ => rfl⟩
  have hb : (sentByHost via1.sentBy != ip || filled) = true ↔ (host ≠ ip ∨ via.param "rport".toList = some none) := by
    rw [s1, C88_host hsb, Bool.or_eq_true, f1]; simp
  have rc : via1.param "received".toList = via.param "received".toList := o1 _ n1
  -- after the second step
  obtain ⟨via2, added, e2, g2, t2, s2, a2, r2, p2, k2, o2⟩ : ∃ via2 added, fillReceived via1 ip filled = (via2, added) ∧ Good via2 ∧
      via2.transport = via.transport ∧ via2.sentBy = via.sentBy ∧ (added = false → via2 = via1) ∧
      (via.param "received".toList = none → (host ≠ ip ∨ via.param "rport".toList = some none) → via.params.length < 20 →
        via2.param "received".toList = some (some ip)) ∧
      (via.param "received".toList = none → host = ip → via.param "rport".toList ≠ some none →
        via2.param "received".toList = none) ∧
      (∀ x, via.param "received".toList = some x → via2.param "received".toList = some x) ∧
      ∀ n, ¬ SameName n "received".toList → via2.param n = via1.param n := by
    by_cases hc : (sentByHost via1.sentBy != ip || filled) = true ∧ via.param "received".toList = none
    · have hc' : ((sentByHost via1.sentBy != ip || filled) && (via1.param "received".toList).isNone) = true := by
        rw [hc.1, rc, hc.2]; rfl
      cases hst : via1.setParam "received".toList (some ip) with
      | none =>
        refine ⟨via1, false, by rw [fillReceived, if_pos hc', hst], g1, t1, s1, fun _ => rfl, ?_, ?_, fun x hx => by (rw [hc.2] at hx; cases hx), fun _ _ => rfl⟩
        · intro _ _ hroom
          exfalso
          obtain ⟨v, hv⟩ := (C28_set_iff via1 "received".toList (some ip)).mpr
            ⟨tok_received, fun w hw => by cases hw; exact (address_plain hip).2, Or.inr (by rw [l1]; exact hroom)⟩
          rw [hst] at hv; cases hv
        · intro _ h1 h2
          rcases hb.mp hc.1 with h | h
          · exact absurd h1 h
          · exact absurd h h2
      | some v =>
        obtain ⟨b1, b2, b3, b4⟩ := C28_set _ _ _ _ hst
        refine ⟨v, true, by rw [fillReceived, if_pos hc', hst], set_good g1 (address_plain hip).1 hst, by rw [b1, t1],
          by rw [b2, s1], fun h => by (cases h), fun _ _ _ => b3, ?_, fun x hx => by (rw [hc.2] at hx; cases hx), b4⟩
        intro _ h1 h2
        rcases hb.mp hc.1 with h | h
        · exact absurd h1 h
        · exact absurd h h2
    · have hc' : ¬ ((sentByHost via1.sentBy != ip || filled) && (via1.param "received".toList).isNone) = true := by
        intro h
        rw [Bool.and_eq_true, rc, Option.isNone_iff_eq_none] at h
        exact hc h
      refine ⟨via1, false, by rw [fillReceived, if_neg hc'], g1, t1, s1, fun _ => rfl, ?_, ?_, fun x hx => by rw [rc]; exact hx, fun _ _ => rfl⟩
      · intro h1 h2 _
        exact absurd ⟨hb.mpr h2, h1⟩ hc
      · intro h1 _ _
        rw [rc, h1]
  have refl : Reflected via.param via2.param host ip port (via.params.length < 20) := by
    refine ⟨?_, ?_, r2, p2, k2, ?_⟩
    · intro h; rw [o2 _ n2, r1, if_pos h]
    · intro h; rw [o2 _ n2, r1, if_neg h]
    · intro n h1 h2; rw [o2 n h2, o1 n h1]
  by_cases hch : filled = false ∧ added = false
  · -- nothing changed
    have e : applyRport hs ip port = hs := by
      simp only [applyRport, hget, hp, e1, e2]
      rw [if_neg (by rw [hch.1, hch.2]; decide)]
    have hvia : via2 = via := by
      rw [a2 hch.2]
      rcases fillRport_spec via port hport with ⟨h, v, hv, he⟩ | ⟨h, he⟩
      · rw [he] at e1; cases e1; cases hch.1
      · rw [he] at e1; cases e1; rfl
    rw [e]
    refine ⟨top, via2, hsel, by rw [hvia]; exact hp, t2, s2, refl, fun n vs _ => Iff.rfl⟩
  · have hor : (filled || added) = true := by
      cases hf : filled <;> cases ha : added <;> simp [hf, ha] at hch ⊢
    obtain ⟨hs', q1, q2, q3⟩ := setOrPush_via hsel g2
    have e : applyRport hs ip port = hs' := by
      simp only [applyRport, hget, hp, e1, e2, hor, if_true, q1]
    rw [e]
    exact ⟨via2.show, via2, q2, reparse g2, t2, s2, refl, q3⟩

/-- C88: without a topmost Via that can be read, the response is left alone. -/
theorem C88_unreadable (hs : Headers) (ip : Str) (port : Nat)
    (h : ∀ top rest, Selects "Via".toList hs.inner (top :: rest) → Via.parse top = none) : applyRport hs ip port = hs := by
  unfold applyRport
  cases hg : hs.get "Via".toList with
  | none => rfl
  | some top =>
    obtain ⟨rest, hr⟩ := (get_iff hs "Via".toList top).mp hg
    simp only [h top rest hr]

/-- the headers `Via: v` for each `v` -/
def vias (vs : List String) : Headers := ⟨vs.map (fun v => ⟨"Via".toList, v.toList⟩)⟩

example : applyRport (vias ["SIP/2.0/UDP 10.0.0.1:5060;branch=z9hG4bK1;rport", "SIP/2.0/UDP b"]) "9.9.9.9".toList 4000
    = vias ["SIP/2.0/UDP 10.0.0.1:5060;branch=z9hG4bK1;received=9.9.9.9;rport=4000", "SIP/2.0/UDP b"] := by decide +kernel
example : AddressText "9.9.9.9".toList := ⟨by decide, by decide, by unfold V6Char; decide⟩
example : applyRport (vias ["SIP/2.0/UDP 9.9.9.9:5060;branch=z9hG4bK1;rport=7"]) "9.9.9.9".toList 4000
    = vias ["SIP/2.0/UDP 9.9.9.9:5060;branch=z9hG4bK1;rport=7"] := by decide +kernel

/-! ## Where RFC 3261 18.2.1 is not followed -/

/-- C88 fails in full: a `received` the client wrote itself stays, so that the response says, and goes, where the
client chose. -/
theorem C88_spoofed : applyRport (vias ["SIP/2.0/UDP 10.0.0.1;received=6.6.6.6;rport"]) "9.9.9.9".toList 4000
    = vias ["SIP/2.0/UDP 10.0.0.1;received=6.6.6.6;rport=4000"] := by decide +kernel

/-- C88 fails in full: when two Vias share a header line the response is not marked at all. -/
theorem C88_joined : applyRport (vias ["SIP/2.0/UDP 10.0.0.1;branch=x;rport, SIP/2.0/UDP b;branch=y"]) "9.9.9.9".toList 4000
    = vias ["SIP/2.0/UDP 10.0.0.1;branch=x;rport, SIP/2.0/UDP b;branch=y"] := by decide +kernel

/-- C88 fails in full: a Via with twenty parameters gets no `received`. -/
theorem C88_full : applyRport (vias ["SIP/2.0/UDP 10.0.0.1;a;b;c;d;e;f;g;h;i;j;k;l;m;n;o;p;q;r;s;t"]) "9.9.9.9".toList 4000
    = vias ["SIP/2.0/UDP 10.0.0.1;a;b;c;d;e;f;g;h;i;j;k;l;m;n;o;p;q;r;s;t"] := by decide +kernel

end Siphon.Uas
