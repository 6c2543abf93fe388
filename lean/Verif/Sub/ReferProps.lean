import Verif.Sub.ReferSpec
import Verif.Sub.PropsNotify
import Verif.Core.UriProps
set_option linter.unusedSimpArgs false
namespace Siphon.Sub
open Spec TextSpec HdrSpec Dlg.Spec
open Dlg (bareAddr angle sdpHeaders)

/-! ## C106: the filter -/

/-- C106: an IPv4 address passes the filter exactly if it is none of the special ones. -/
theorem C106_filter (a b c d : Nat) : isGlobal (.v4 a b c d) = true ↔ ¬ Special a b c d := by
  constructor
  · intro h hs
    unfold isGlobal globalV4 at h
    cases hs <;> simp_all <;> omega
  · intro h
    unfold isGlobal globalV4
    simp only [Bool.or_eq_true, Bool.and_eq_true, beq_iff_eq, decide_eq_true_eq]
    rw [if_neg, if_neg, if_neg, if_neg]
    · rintro ⟨⟨rfl, rfl⟩, rfl⟩; exact h .protocols
    · rintro ⟨rfl, rfl | rfl⟩
      · exact h .benchmark18
      · exact h .benchmark19
    · rintro ⟨rfl, h1, h2⟩; exact h (.shared h1 (by omega))
    · rintro ((((((rfl | (rfl | ⟨rfl, h1, h2⟩) | ⟨rfl, rfl⟩) | ⟨rfl, rfl⟩) | ⟨⟨⟨rfl, rfl⟩, rfl⟩, rfl⟩) | ⟨h1, h2⟩) | ⟨⟨⟨rfl, rfl⟩, rfl⟩, rfl⟩) |
        (⟨⟨rfl, rfl⟩, rfl⟩ | ⟨⟨rfl, rfl⟩, rfl⟩) | ⟨⟨rfl, rfl⟩, rfl⟩)
      · exact h .loopback
      · exact h .privateTen
      · exact h (.privateTwelve h1 (by omega))
      · exact h .privateSixteen
      · exact h .linkLocal
      · exact h .unspecified
      · exact h (.multicast h1 (by omega))
      · exact h .broadcast
      · exact h .test1
      · exact h .test2
      · exact h .test3

theorem and_high (s k : Nat) (h : s < 2 ^ 16) (hk : k ≤ 16) : s &&& (2 ^ 16 - 2 ^ k) = s / 2 ^ k * 2 ^ k := by
  have e : s &&& (2 ^ 16 - 2 ^ k) = s - s % 2 ^ k := by
    apply Nat.eq_of_testBit_eq
    intro i
    have e2 : s - s % 2 ^ k = s / 2 ^ k * 2 ^ k := by
      have := Nat.div_add_mod s (2 ^ k); rw [Nat.mul_comm] at this; omega
    have e1 : 2 ^ 16 - 2 ^ k = (2 ^ (16 - k) - 1) * 2 ^ k := by
      rw [Nat.sub_mul, Nat.one_mul, ← Nat.pow_add, Nat.sub_add_cancel hk]
    rw [e2, e1, Nat.testBit_and, Nat.mul_comm _ (2 ^ k), Nat.mul_comm _ (2 ^ k), Nat.testBit_two_pow_mul, Nat.testBit_two_pow_mul,
      Nat.testBit_two_pow_sub_one]
    by_cases hi : k ≤ i
    · simp only [ge_iff_le, hi, decide_true, Bool.true_and]
      rw [Nat.testBit_div_two_pow, Nat.sub_add_cancel hi]
      by_cases h3 : i - k < 16 - k
      · simp [h3]
      · have : s.testBit i = false := Nat.testBit_lt_two_pow (Nat.lt_of_lt_of_le h (Nat.pow_le_pow_right (by decide) (by omega)))
        simp [this]
    · simp [hi]
  rw [e]
  have := Nat.div_add_mod s (2 ^ k)
  rw [Nat.mul_comm] at this
  omega

theorem and_ff00 (s : Nat) (h : s < 65536) : s &&& 0xff00 = s / 256 * 256 := and_high s 8 h (by decide)
theorem and_ffc0 (s : Nat) (h : s < 65536) : s &&& 0xffc0 = s / 64 * 64 := and_high s 6 h (by decide)
theorem and_fe00 (s : Nat) (h : s < 65536) : s &&& 0xfe00 = s / 512 * 512 := and_high s 9 h (by decide)
theorem and_ff (s : Nat) : s &&& 0xff = s % 256 := Nat.and_two_pow_sub_one_eq_mod s 8
theorem shr_8 (s : Nat) : s >>> 8 = s / 256 := Nat.shiftRight_eq_div_pow s 8

theorem bytes_of (a b : Nat) (h : b < 256) : (a * 256 + b) / 256 = a ∧ (a * 256 + b) % 256 = b := by omega

/-- C106: the same for an IPv6 address. -/
theorem C106_filter6 (s0 s1 s2 s3 s4 s5 s6 s7 : Nat) (hs : ∀ s ∈ [s0, s1, s2, s3, s4, s5, s6, s7], s < 65536) :
    isGlobal (.v6 [s0, s1, s2, s3, s4, s5, s6, s7]) = true ↔ ¬ Special6 [s0, s1, s2, s3, s4, s5, s6, s7] := by
  have h0 : s0 < 65536 := hs _ (by simp)
  unfold isGlobal globalV6
  simp only [and_ff00 s0 h0, and_ffc0 s0 h0, and_fe00 s0 h0, and_ff, shr_8]
  constructor
  · intro h hsp
    cases hsp with
    | unspecified => simp at h
    | loopback => simp at h
    | multicast h1 => simp at h; omega
    | linkLocal h1 h2 => simp at h; omega
    | uniqueLocal h1 h2 => simp at h; omega
    | documentation => simp at h
    | @mapped a b c d hm hb hd =>
      obtain ⟨e1, e2⟩ := bytes_of a b hb
      obtain ⟨e3, e4⟩ := bytes_of c d hd
      have : globalV4 a b c d = false := by
        cases hg : globalV4 a b c d with
        | false => rfl
        | true => exact absurd hm ((C106_filter a b c d).1 hg)
      simp [e1, e2, e3, e4, this] at h
  · intro h
    simp only [Bool.or_eq_true, Bool.and_eq_true, beq_iff_eq]
    rw [if_neg, if_neg, if_neg, if_neg]
    · split
      · rename_i he
        obtain ⟨⟨⟨⟨⟨rfl, rfl⟩, rfl⟩, rfl⟩, rfl⟩, rfl⟩ := he
        refine (C106_filter _ _ _ _).2 (fun hm => h ?_)
        have := Special6.mapped hm (Nat.mod_lt s6 (by decide)) (Nat.mod_lt s7 (by decide))
        rwa [Nat.div_add_mod', Nat.div_add_mod'] at this
      · rfl
    · rintro ⟨rfl, rfl⟩; exact h .documentation
    · intro he; exact h (.uniqueLocal (by omega) (by omega))
    · intro he; exact h (.linkLocal (by omega) (by omega))
    · rintro ((he | he) | he)
      · rw [he] at h; exact h .loopback
      · rw [he] at h; exact h .unspecified
      · exact h (.multicast (by omega))

/-! ## Socket addresses -/

theorem octetV_some {s r : Str} {n : Nat} (h : readOctetV s = some (n, r)) : n ≤ 255 ∧ s = showNat n ++ r := by
  unfold readOctetV at h
  cases hr : readOctet s with
  | none => rw [hr] at h; cases h
  | some r' =>
    rw [hr] at h
    simp only [Option.map_some, Option.some.injEq, Prod.mk.injEq] at h
    obtain ⟨h1, rfl⟩ := h
    obtain ⟨k, hk, e⟩ := Dns.readOctet_some hr
    have e2 : s.take (s.length - r'.length) = showNat k := by
      rw [e, List.length_append, Nat.add_sub_cancel, List.take_left]
    rw [e2] at h1
    have : decimalOf (showNat k) = k := (Dns.show_octet ⟨k, by omega⟩).1
    rw [this] at h1
    subst h1
    exact ⟨hk, e⟩

theorem octetV_show (n : Nat) (r : Str) (hn : n ≤ 255) (hr : ∀ c, r.head? = some c → isDigit c = false) :
    readOctetV (showNat n ++ r) = some (n, r) := by
  unfold readOctetV
  rw [Dns.readOctet_show n r hn hr]
  have : decimalOf (showNat n) = n := (Dns.show_octet ⟨n, by omega⟩).1
  simp only [Option.map_some, List.length_append, Nat.add_sub_cancel, List.take_left, this]

/-- the text of an IPv4 address -/
def dotted (a b c d : Nat) : Str := showNat a ++ '.' :: (showNat b ++ '.' :: (showNat c ++ '.' :: showNat d))

theorem ipv4V_some {s r : Str} {a b c d : Nat} (h : readIpv4V s = some ((a, b, c, d), r)) :
    a ≤ 255 ∧ b ≤ 255 ∧ c ≤ 255 ∧ d ≤ 255 ∧ s = dotted a b c d ++ r := by
  unfold readIpv4V at h
  simp only [bind, Option.bind_eq_some_iff, Option.some.injEq, Prod.mk.injEq] at h
  obtain ⟨⟨a', s1⟩, e1, s2, e2, ⟨b', s3⟩, e3, s4, e4, ⟨c', s5⟩, e5, s6, e6, ⟨d', s7⟩, e7, ⟨rfl, rfl, rfl, rfl⟩, rfl⟩ := h
  rw [Dns.stripDot] at e2 e4 e6
  subst e2 e4 e6
  obtain ⟨ha, h1⟩ := octetV_some e1
  obtain ⟨hb, h2⟩ := octetV_some e3
  obtain ⟨hc, h3⟩ := octetV_some e5
  obtain ⟨hd, h4⟩ := octetV_some e7
  refine ⟨ha, hb, hc, hd, ?_⟩
  rw [h1, h2, h3, h4]
  simp [dotted]

theorem ipv4V_dotted (a b c d : Nat) (r : Str) (ha : a ≤ 255) (hb : b ≤ 255) (hc : c ≤ 255) (hd : d ≤ 255)
    (hr : ∀ c, r.head? = some c → isDigit c = false) : readIpv4V (dotted a b c d ++ r) = some ((a, b, c, d), r) := by
  have hdot : ∀ (r : Str) (c : Char), ('.' :: r).head? = some c → isDigit c = false := by
    intro r c hc
    simp only [List.head?_cons, Option.some.injEq] at hc
    subst hc; decide
  have hs : ∀ r, stripPrefix ['.'] ('.' :: r) = some r := fun r => Dns.stripDot.mpr rfl
  have e : dotted a b c d ++ r = showNat a ++ '.' :: (showNat b ++ '.' :: (showNat c ++ '.' :: (showNat d ++ r))) := by simp [dotted]
  rw [e]
  unfold readIpv4V
  simp only [bind, octetV_show a _ ha (hdot _), octetV_show b _ hb (hdot _), octetV_show c _ hc (hdot _), octetV_show d _ hd hr,
    Option.bind_some, hs]

theorem ipv4_of_dotted (a b c d : Nat) (r : Str) (ha : a ≤ 255) (hb : b ≤ 255) (hc : c ≤ 255) (hd : d ≤ 255)
    (hr : ∀ c, r.head? = some c → isDigit c = false) : readIpv4 (dotted a b c d ++ r) = some r := by
  have hdot : ∀ (r : Str) (c : Char), ('.' :: r).head? = some c → isDigit c = false := by
    intro r c hc
    simp only [List.head?_cons, Option.some.injEq] at hc
    subst hc; decide
  have hs : ∀ r, stripPrefix ['.'] ('.' :: r) = some r := fun r => Dns.stripDot.mpr rfl
  have e : dotted a b c d ++ r = showNat a ++ '.' :: (showNat b ++ '.' :: (showNat c ++ '.' :: (showNat d ++ r))) := by simp [dotted]
  rw [e]
  unfold readIpv4
  simp only [bind, Dns.readOctet_show a _ ha (hdot _), Dns.readOctet_show b _ hb (hdot _), Dns.readOctet_show c _ hc (hdot _),
    Dns.readOctet_show d _ hd hr, Option.bind_some, hs]

theorem colon_head (r : Str) : ∀ c, (':' :: r).head? = some c → isDigit c = false := by
  intro c hc
  simp only [List.head?_cons, Option.some.injEq] at hc
  subst hc; decide

theorem dotted_colon (a b c d : Nat) : ':' ∉ dotted a b c d := by
  unfold dotted
  have hn : ∀ n, ':' ∉ showNat n := fun n hm => absurd (showNat_digits n _ hm) (by decide)
  simp only [List.mem_append, List.mem_cons, hn, false_or, or_false, not_or]
  decide

/-- an address followed by a colon is no IPv6 address -/
theorem not_ipv6 (a b c d : Nat) (r : Str) (ha : a ≤ 255) (hb : b ≤ 255) (hc : c ≤ 255) (hd : d ≤ 255) :
    isIpv6 (dotted a b c d ++ ':' :: r) = false := by
  have h := ipv4_of_dotted a b c d (':' :: r) ha hb hc hd (colon_head r)
  unfold isIpv6
  rw [show readGroups 8 8 0 (dotted a b c d ++ ':' :: r) = (2, true, ':' :: r) from by
    rw [readGroups, if_pos (by decide), readSep, if_pos rfl, Option.bind_some, h]]
  rfl

theorem bracket_ipv6 (t : Str) : isIpv6 ('[' :: t) = false := by
  unfold isIpv6
  have h1 : readIpv4 ('[' :: t) = none := by
    unfold readIpv4 readOctet
    simp [List.take, List.takeWhile, show isDigit '[' = false from by decide]
  have h2 : readGroup ('[' :: t) = none := by
    unfold readGroup
    simp [List.take, List.takeWhile, show isHexDigit '[' = false from by decide]
  rw [show readGroups 8 8 0 ('[' :: t) = (0, false, '[' :: t) from by
    rw [readGroups, if_pos (by decide), readSep, if_pos rfl, Option.bind_some, h1, Option.bind_some, h2]]
  simp [stripPrefix, List.isPrefixOf]

theorem append_colon {a b x y : Str} (h : a ++ ':' :: x = b ++ ':' :: y) (ha : ':' ∉ a) (hb : ':' ∉ b) : a = b ∧ x = y := by
  have h1 := splitOnce_append ':' a x ha
  have h2 := splitOnce_append ':' b y hb
  rw [h, h2] at h1
  simp only [Option.some.injEq, Prod.mk.injEq] at h1
  exact ⟨h1.1.symm, h1.2.symm⟩

/-- host and port of a URI are read as a socket address exactly if the host is an IPv4 address -/
theorem socket_iff {host : Str} (hv : validHost host = true) {port : Nat} (hp : port ≤ 65535) (a : Addr) (p : Nat) :
    parseSocket (host ++ ':' :: showNat port) = some (a, p) ↔
      ∃ x y z w, Dotted host x y z w ∧ a = .v4 x y z w ∧ p = port := by
  have hport : readPort (showNat port) = some port := by
    unfold readPort
    rw [if_pos (List.all_eq_true.2 (showNat_digits port)), parseDec_showNat _ _ hp]
  have hport' : ∀ n, readPort (showNat port) = some n → n = port := fun n hn => by rw [hport] at hn; simpa using hn.symm
  have hcol : ∀ (x y z w : Nat) (t : Str), x ≤ 255 → y ≤ 255 → z ≤ 255 → w ≤ 255 →
      host ++ ':' :: showNat port = dotted x y z w ++ ':' :: t → host = dotted x y z w ∧ t = showNat port := by
    intro x y z w t h1 h2 h3 h4 e
    have hc : ':' ∉ host := by
      intro hm
      obtain ⟨l, r, hl, el⟩ : ∃ l r, ':' ∉ l ∧ host = l ++ ':' :: r := by
        obtain ⟨l, r, el⟩ := List.append_of_mem hm
        cases hs : splitOnce ':' host with
        | none =>
          have := Dlg.splitOnce_none_mem hs
          exact absurd hm this
        | some q =>
          obtain ⟨e1, e2⟩ := (Auth.splitOnce_some_iff _ _ _ _).1 hs
          exact ⟨q.1, q.2, e2, e1⟩
      rw [el, List.append_assoc, List.cons_append] at e
      obtain ⟨e1, e2⟩ := append_colon e hl (dotted_colon _ _ _ _)
      have hi : isIpv6 host = true := by
        unfold validHost at hv
        rw [if_pos (by simpa using hm)] at hv
        simp only [Bool.and_eq_true] at hv
        exact hv.2
      rw [el, e1, not_ipv6 _ _ _ _ _ h1 h2 h3 h4] at hi
      cases hi
    obtain ⟨e1, e2⟩ := append_colon e hc (dotted_colon _ _ _ _)
    exact ⟨e1, e2.symm⟩
  constructor
  · intro h
    unfold parseSocket at h
    split at h
    · rename_i x y z w t he
      obtain ⟨h1, h2, h3, h4, e⟩ := ipv4V_some he
      obtain ⟨e1, rfl⟩ := hcol x y z w t h1 h2 h3 h4 e
      rw [hport] at h
      simp only [Option.map_some, Option.some.injEq, Prod.mk.injEq] at h
      exact ⟨x, y, z, w, ⟨h1, h2, h3, h4, e1⟩, h.1.symm, h.2.symm⟩
    · split at h
      · rename_i t ht
        exfalso
        cases host with
        | nil => simp [validHost] at hv
        | cons c host =>
          simp only [List.cons_append, List.cons.injEq] at ht
          obtain ⟨rfl, _⟩ := ht
          unfold validHost at hv
          simp only [Bool.and_eq_true] at hv
          have h3 := hv.2
          split at h3
          · rw [bracket_ipv6] at h3; cases h3
          · simp [show isHostChar '[' = false from by decide] at h3
      · cases h
  · rintro ⟨x, y, z, w, ⟨h1, h2, h3, h4, e⟩, rfl, rfl⟩
    have e' : host = dotted x y z w := e
    subst e'
    unfold parseSocket
    rw [ipv4V_dotted x y z w _ h1 h2 h3 h4 (colon_head _)]
    simp only [hport, Option.map_some]

/-! ## The target -/

theorem target_iff (v : Str) (u : SipUri) : Target v u ↔ parseNameAddr v = some u := by
  unfold parseNameAddr
  constructor
  · intro h
    cases h with
    | @bracketed a x b h1 h2 h3 h4 =>
      rw [h1, show a ++ '<' :: x ++ '>' :: b = a ++ '<' :: (x ++ '>' :: b) by simp, splitOnce_append _ _ _ h2]
      simp only
      rw [splitOnce_append _ _ _ h3]
      exact h4
    | @«open» a x h1 h2 h3 h4 =>
      rw [h1, splitOnce_append _ _ _ h2]
      simp only
      rw [splitOnce_none _ _ h3]
      exact h4
    | @bare p ps t h2 h3 h4 h5 =>
      rw [strips_trim] at h4
      rw [splitOnce_none _ _ h2, (((pieces_iff _ _ _).1 h3).symm : splitChar ';' v = p :: ps)]
      simp only
      rw [← h4, h5]
  · intro h
    split at h
    · rename_i a rest hs
      obtain ⟨h1, h2⟩ := (Auth.splitOnce_some_iff _ _ _ _).1 hs
      split at h
      · rename_i x b hx
        obtain ⟨h3, h4⟩ := (Auth.splitOnce_some_iff _ _ _ _).1 hx
        refine .bracketed (a := a) (x := x) (b := b) ?_ h2 h4 h
        rw [h1, h3]
        simp
      · rename_i hx
        exact .open h1 h2 (Dlg.splitOnce_none_mem hx) h
    · rename_i hs
      cases hp : splitChar ';' v with
      | nil => exact absurd hp (splitChar_ne_nil _ _)
      | cons p ps =>
        rw [hp] at h
        exact .bare (Dlg.splitOnce_none_mem hs) ((pieces_iff _ _ _).2 hp.symm) ((strips_trim _ _).2 rfl) h

theorem target_unique {v : Str} {u w : SipUri} (h : Target v u) (h' : Target v w) : u = w := by
  rw [target_iff] at h h'
  rw [h] at h'
  exact Option.some.inj h'

theorem target_parse {v : Str} {u : SipUri} (h : Target v u) : ∃ t, SipUri.parse t = some u := by
  cases h with
  | bracketed _ _ _ h => exact ⟨_, h⟩
  | «open» _ _ _ h => exact ⟨_, h⟩
  | bare _ _ _ h => exact ⟨_, h⟩

theorem without_host (u : SipUri) : u.withoutUriHeaders.host = u.host ∧ u.withoutUriHeaders.port = u.port := by
  unfold SipUri.withoutUriHeaders
  split
  · exact ⟨rfl, rfl⟩
  · exact ⟨rfl, rfl⟩

theorem portOf_iff (u : SipUri) (p : Nat) : PortOf u p ↔ (match u.port with | some p => p | none => 5060) = p := by
  unfold PortOf
  cases u.port <;> simp [eq_comm]

theorem portOf_le {v : Str} {u : SipUri} (h : Target v u) {p : Nat} (hp : PortOf u p) : p ≤ 65535 := by
  obtain ⟨t, ht⟩ := target_parse h
  obtain ⟨hs, _⟩ := UriP.parse_sound ht
  rcases hp with hp | ⟨_, rfl⟩
  · exact (hs.port p hp).2
  · omega

/-- the socket address of a target -/
theorem socket_target {v : Str} {u : SipUri} (h : Target v u) (a : Addr) (p : Nat) :
    parseSocket (u.withoutUriHeaders.host ++ ':' :: showNat (match u.withoutUriHeaders.port with | some p => p | none => 5060)) = some (a, p) ↔
      ∃ x y z w, Dotted u.host x y z w ∧ a = .v4 x y z w ∧ PortOf u p := by
  obtain ⟨t, ht⟩ := target_parse h
  obtain ⟨hs, _⟩ := UriP.parse_sound ht
  rw [(without_host u).1, (without_host u).2]
  have := portOf_le h ((portOf_iff u _).2 rfl)
  rw [socket_iff hs.host this]
  constructor
  · rintro ⟨x, y, z, w, h1, h2, h3⟩
    exact ⟨x, y, z, w, h1, h2, (portOf_iff u _).2 h3.symm⟩
  · rintro ⟨x, y, z, w, h1, h2, h3⟩
    exact ⟨x, y, z, w, h1, h2, ((portOf_iff u _).1 h3).symm⟩

theorem dotted_inj {h : Str} {a b c d a' b' c' d' : Nat} (h1 : Dotted h a b c d) (h2 : Dotted h a' b' c' d') :
    a = a' ∧ b = b' ∧ c = c' ∧ d = d' := by
  obtain ⟨k1, k2, k3, k4, e⟩ := h1
  obtain ⟨l1, l2, l3, l4, e'⟩ := h2
  have g := ipv4V_dotted a b c d [] k1 k2 k3 k4 (by simp)
  have g' := ipv4V_dotted a' b' c' d' [] l1 l2 l3 l4 (by simp)
  rw [show dotted a b c d = h from e.symm] at g
  rw [show dotted a' b' c' d' = h from e'.symm, g] at g'
  simp only [Option.some.injEq, Prod.mk.injEq, and_true] at g'
  exact g'

/-! ## Telling -/

theorem reports_of {l c : SipUri} {br : Str} {s s' : Sub} {code : Nat} {reason : Str} {r : Request}
    (h : createNotifySipfrag l c br s code reason = .done (some (r, s'))) :
    Reports r (s.localCSeq + 1) code reason ∧ s' = { s with localCSeq := s.localCSeq + 1 } := by
  obtain ⟨h1, h2, h3, h4, h5, h6, h7, h8, h9⟩ := C104_sipfrag _ _ _ _ _ _ _ _ h
  refine ⟨⟨h1, h3, ?_, h8, h9⟩, h4⟩
  by_cases hc : code < 200
  · exact ⟨_, .under hc, h5 _ (.under hc)⟩
  · by_cases hd : code < 300
    · exact ⟨_, .done (by omega) hd, h5 _ (.done (by omega) hd)⟩
    · exact ⟨_, .failed (by omega), h5 _ (.failed (by omega))⟩

/-- a report that can be told adds one NOTIFY with the next number -/
theorem tell_some {l : SipUri} {br : Nat → Str} {p p' : Told} {code : Nat} {reason : Str} (ht : Tellable reason)
    (h : tell l br p code reason = .done p') :
    ∃ r, p'.2 = p.2 ++ [r] ∧ Reports r (p.1.localCSeq + 1) code reason ∧ p'.1 = { p.1 with localCSeq := p.1.localCSeq + 1 } ∧
      createNotifySipfrag l l (br p.2.length) p.1 code reason = .done (some (r, p'.1)) := by
  unfold tell at h
  split at h
  · cases h
  · rename_i hn
    have := (C104_sipfrag_refused _ _ _ _ _ _).1 hn
    rcases this with hb | ⟨c, hc, hb⟩
    · exact absurd ht.1 (by omega)
    · exact absurd hb (ht.2 c hc)
  · rename_i r s' hr
    cases h
    obtain ⟨h1, h2⟩ := reports_of hr
    exact ⟨r, rfl, h1, h2, hr⟩

/-- any other report is dropped -/
theorem tell_none {l : SipUri} {br : Nat → Str} {p : Told} {code : Nat} {reason : Str} (ht : ¬ Tellable reason) :
    tell l br p code reason = .done p := by
  have : createNotifySipfrag l l (br p.2.length) p.1 code reason = .done none := by
    rw [C104_sipfrag_refused]
    unfold Tellable at ht
    by_cases h1 : (utf8 reason).length ≤ 128
    · have h2 : ¬ ∀ c ∈ reason, ¬ (c.toNat < 32 ∨ c.toNat = 127 ∨ (128 ≤ c.toNat ∧ c.toNat < 160)) := fun h => ht ⟨h1, h⟩
      exact .inr (Classical.byContradiction fun hn => h2 fun c hc hb => hn ⟨c, hc, hb⟩)
    · exact .inl (by omega)
  unfold tell
  rw [this]

instance (reason : Str) : Decidable (Tellable reason) := by unfold Tellable; infer_instance

/-! ## The transfer -/

/-- the INVITE before the Replaces -/
def inviteHead (cfg : RCfg) (rnd : Rand) (target : SipUri) (sdp : Option Str) : List (String × Str) :=
  [("Via", "SIP/2.0/UDP placeholder;branch=".toList ++ rnd.invite), ("From", bareAddr cfg.localUri rnd.fromTag),
    ("To", angle target), ("Call-ID", rnd.callId), ("CSeq", "1 INVITE".toList), ("Contact", angle cfg.localUri),
    ("Max-Forwards", "70".toList), ("User-Agent", cfg.agent)] ++ sdpHeaders sdp

theorem invite_inner {cfg : RCfg} {rnd : Rand} {target : SipUri} {sdp : Option Str} {r : Request}
    (h : createInvite ⟨cfg.localUri, cfg.localUri, none, cfg.agent⟩ rnd.invite rnd.callId rnd.fromTag target sdp = .done r) :
    r.method = .invite ∧ r.uri = target.raw ∧
    r.headers.inner = (inviteHead cfg rnd target sdp).map (fun p : String × Str => ⟨p.1.toList, p.2⟩) := by
  unfold createInvite at h
  simp only [Run.bind_eq_done] at h
  obtain ⟨hs, h1, h2⟩ := h
  have hi := Dlg.addAll_inner _ _ _ h1
  split at h2
  · cases h2
  · rename_i r' hr
    cases h2
    rw [request_new hr]
    refine ⟨rfl, rfl, ?_⟩
    rw [hi]
    rfl

/-- the headers with the Replaces of a Refer-To value -/
def replacing (v : Str) (hs : Headers) : Headers :=
  match extractReplaces v with
  | some r => pushQuiet hs "Replaces" r
  | none => hs

theorem transfer_calling {cfg : RCfg} {rnd : Rand} {told told' : Told} {v : Str} {inv : Request} {a : Addr} {p : Nat} {tr : String}
    (h : transfer cfg rnd told v = .done (.calling told' inv a p tr)) :
    ∃ u x y z w, Target v u ∧ Dotted u.host x y z w ∧ PortOf u p ∧ a = .v4 x y z w ∧ told' = told ∧
      (cfg.allowPrivate = false → ¬ Special x y z w) ∧ cfg.sdp ≠ some none ∧ tr = transportOf u.withoutUriHeaders ∧
      ∃ offer i, createInvite ⟨cfg.localUri, cfg.localUri, none, cfg.agent⟩ rnd.invite rnd.callId rnd.fromTag u.withoutUriHeaders offer = .done i ∧
        offer = (match cfg.sdp with | some o => o | none => none) ∧
        inv = { i with headers := withVia tr rnd.invite (replacing v i.headers) } := by
  unfold transfer at h
  split at h
  · simp only [Run.bind_eq_done] at h
    obtain ⟨_, _, h⟩ := h
    cases h
  · rename_i u hu
    have ht := (target_iff _ _).2 hu
    simp only at h
    split at h
    · simp only [Run.bind_eq_done] at h
      obtain ⟨_, _, h⟩ := h
      cases h
    · rename_i a' p' hs
      obtain ⟨x, y, z, w, hd, rfl, hp⟩ := (socket_target ht _ _).1 hs
      split at h
      · simp only [Run.bind_eq_done] at h
        obtain ⟨_, _, h⟩ := h
        cases h
      · rename_i hal
        split at h
        · simp only [Run.bind_eq_done] at h
          obtain ⟨_, _, h⟩ := h
          cases h
        · rename_i sdp hsdp
          simp only [Run.bind_eq_done] at h
          obtain ⟨i, h1, h2⟩ := h
          simp only [Run.done.injEq, After.calling.injEq] at h2
          obtain ⟨rfl, rfl, rfl, rfl, rfl⟩ := h2
          refine ⟨u, x, y, z, w, ht, hd, hp, rfl, rfl, ?_, hsdp, rfl, _, i, h1, rfl, rfl⟩
          intro hf
          unfold targetAllowed at hal
          rw [hf] at hal
          exact (C106_filter _ _ _ _).1 (by simpa using hal)

theorem transfer_failed {cfg : RCfg} {rnd : Rand} {told told' : Told} {v : Str}
    (h : transfer cfg rnd told v = .done (.failed told')) :
    ((∀ u, Target v u → ∀ x y z w, ¬ Dotted u.host x y z w) ∧ tell cfg.localUri rnd.notify told 400 "Bad Request".toList = .done told') ∨
    (∃ u x y z w, Target v u ∧ Dotted u.host x y z w ∧ cfg.allowPrivate = false ∧ Special x y z w ∧
      tell cfg.localUri rnd.notify told 403 "Forbidden".toList = .done told') ∨
    (∃ u x y z w, Target v u ∧ Dotted u.host x y z w ∧ (cfg.allowPrivate = false → ¬ Special x y z w) ∧ cfg.sdp = some none ∧
      tell cfg.localUri rnd.notify told 488 "Not Acceptable Here".toList = .done told') := by
  unfold transfer at h
  split at h
  · rename_i hn
    simp only [Run.bind_eq_done] at h
    obtain ⟨t, h1, h⟩ := h
    cases h
    refine .inl ⟨?_, h1⟩
    intro u hu
    rw [target_iff, hn] at hu
    cases hu
  · rename_i u hu
    have ht := (target_iff _ _).2 hu
    simp only at h
    split at h
    · rename_i hn
      simp only [Run.bind_eq_done] at h
      obtain ⟨t, h1, h⟩ := h
      cases h
      refine .inl ⟨?_, h1⟩
      intro u' hu' x y z w hd
      obtain rfl := target_unique ht hu'
      have := (socket_target ht (.v4 x y z w) _).2 ⟨x, y, z, w, hd, rfl, (portOf_iff u _).2 rfl⟩
      exact absurd (hn.symm.trans this) (by simp)
    · rename_i a' p' hs
      obtain ⟨x, y, z, w, hd, rfl, hp⟩ := (socket_target ht _ _).1 hs
      split at h
      · rename_i hal
        simp only [Run.bind_eq_done] at h
        obtain ⟨t, h1, h⟩ := h
        cases h
        unfold targetAllowed at hal
        cases hf : cfg.allowPrivate with
        | true => rw [hf] at hal; simp at hal
        | false =>
          rw [hf] at hal
          refine .inr (.inl ⟨u, x, y, z, w, ht, hd, rfl, ?_, h1⟩)
          apply Classical.byContradiction
          intro hn
          rw [(C106_filter _ _ _ _).2 hn] at hal
          simp at hal
      · rename_i hal
        split at h
        · rename_i hsdp
          simp only [Run.bind_eq_done] at h
          obtain ⟨t, h1, h⟩ := h
          cases h
          refine .inr (.inr ⟨u, x, y, z, w, ht, hd, ?_, hsdp, h1⟩)
          intro hf
          unfold targetAllowed at hal
          rw [hf] at hal
          exact (C106_filter _ _ _ _).1 (by simpa using hal)
        · simp only [Run.bind_eq_done] at h
          obtain ⟨i, h1, h2⟩ := h
          cases h2

theorem transfer_nothing {cfg : RCfg} {rnd : Rand} {told : Told} {v : Str} : transfer cfg rnd told v ≠ .done .nothing := by
  intro h
  unfold transfer at h
  split at h
  · simp only [Run.bind_eq_done] at h
    obtain ⟨_, _, h⟩ := h
    cases h
  · simp only at h
    split at h
    · simp only [Run.bind_eq_done] at h
      obtain ⟨_, _, h⟩ := h
      cases h
    · split at h
      · simp only [Run.bind_eq_done] at h
        obtain ⟨_, _, h⟩ := h
        cases h
      · split at h
        · simp only [Run.bind_eq_done] at h
          obtain ⟨_, _, h⟩ := h
          cases h
        · simp only [Run.bind_eq_done] at h
          obtain ⟨_, _, h⟩ := h
          cases h

/-! ## The handler -/

theorem refer_accepted {cfg : RCfg} {ds : Dlg.Mgr} {m m' : SubMgr} {rq : Request} {rnd : Rand} {r : Response} {after : After}
    (h : handleRefer cfg ds m rq rnd = .done (.accepted r after, m')) :
    ∃ v d, First rq.headers "Refer-To" v ∧ ds.findByRequest rq.headers = .done (some d) ∧ rq.method.asStr = "REFER".toList ∧
      Dlg.validateDialogRequest rq.headers d.id = .done true ∧
      Uas.build cfg.localUri rq.headers rnd.toTag .refer = .done (some r) ∧
      ((buildReferSubscription rq.headers r.headers cfg.localUri = none ∧ after = .nothing ∧ m' = m) ∨
        ∃ s t, buildReferSubscription rq.headers r.headers cfg.localUri = some s ∧ m' = (m.insert s).2 ∧
          tell cfg.localUri rnd.notify (s, []) 100 "Trying".toList = .done t ∧ transfer cfg rnd t v = .done after) := by
  unfold handleRefer at h
  split at h
  · cases h
  · rename_i v hv
    split at h
    · cases h
    · cases h
    · rename_i d hd
      split at h
      · cases h
      · rename_i hm
        split at h
        · cases h
        · cases h
        · rename_i hval
          simp only [Run.bind_eq_done] at h
          obtain ⟨o, h1, h2⟩ := h
          refine ⟨v, d, (Dlg.first_iff _ _ _).2 hv, hd, Classical.byContradiction hm, hval, ?_⟩
          split at h2
          · cases h2
          · rename_i r'
            split at h2
            · rename_i hb
              cases h2
              exact ⟨h1, .inl ⟨hb, rfl, rfl⟩⟩
            · rename_i s hb
              simp only [Run.bind_eq_done] at h2
              obtain ⟨t, ht, a, ha, h3⟩ := h2
              cases h3
              exact ⟨h1, .inr ⟨s, t, hb, rfl, ht, ha⟩⟩

/-- C106: an INVITE is sent only to the IPv4 address and port written in the Refer-To URI, and never to a special address unless
the configuration allows it; it is an INVITE to that URI without its headers. -/
theorem C106_target (cfg : RCfg) (ds : Dlg.Mgr) (m m' : SubMgr) (rq : Request) (rnd : Rand) (r : Response) (t : Told) (inv : Request)
    (a : Addr) (p : Nat) (tr : String) (h : handleRefer cfg ds m rq rnd = .done (.accepted r (.calling t inv a p tr), m')) :
    ∃ v u x y z w, First rq.headers "Refer-To" v ∧ Target v u ∧ Dotted u.host x y z w ∧ PortOf u p ∧ a = .v4 x y z w ∧
      (cfg.allowPrivate = false → ¬ Special x y z w) ∧ inv.method = .invite ∧ inv.uri = u.withoutUriHeaders.raw := by
  obtain ⟨v, d, hv, _, _, _, _, h⟩ := refer_accepted h
  rcases h with ⟨_, h, _⟩ | ⟨s, t', _, _, _, h⟩
  · cases h
  · obtain ⟨u, x, y, z, w, h1, h2, h3, h4, _, h6, _, _, o, i, h7, _, h8⟩ := transfer_calling h
    obtain ⟨i1, i2, _⟩ := invite_inner h7
    exact ⟨v, u, x, y, z, w, hv, h1, h2, h3, h4, h6, by rw [h8]; exact i1, by rw [h8]; exact i2⟩

/-- **C106 (partial).** The Request-URI of the INVITE reads as the Refer-To URI without its headers.  Missing: users with a
percent sign and texts over 2048 bytes (`C69_reparse_partial`). -/
theorem C106_request_uri_partial (cfg : RCfg) (ds : Dlg.Mgr) (m m' : SubMgr) (rq : Request) (rnd : Rand) (r : Response) (t : Told)
    (inv : Request) (a : Addr) (p : Nat) (tr : String)
    (h : handleRefer cfg ds m rq rnd = .done (.accepted r (.calling t inv a p tr), m'))
    (v : Str) (u : SipUri) (hv : First rq.headers "Refer-To" v) (hu : Target v u)
    (hp : ∀ x, u.user = some x → UriSpec.PlainUser x) (hl : utf8Len inv.uri ≤ 2048) :
    ∃ w, SipUri.parse inv.uri = some w ∧ w.headers = [] ∧ w.user = u.user ∧ w.host = u.host ∧ w.port = u.port ∧
      w.params = u.params ∧ w.sips = u.sips := by
  obtain ⟨v', u', _, _, _, _, hv', hu', _, _, _, _, _, he⟩ := C106_target _ _ _ _ _ _ _ _ _ _ _ _ h
  obtain rfl := Dlg.first_unique hv hv'
  obtain rfl := target_unique hu hu'
  obtain ⟨x, hx⟩ := target_parse hu
  refine ⟨u.withoutUriHeaders, ?_, ?_⟩
  · rw [he]
    exact UriP.C69_reparse_partial (es := [.noHeaders]) hx hp (by intro e he; simp at he; subst he; trivial) rfl (by rw [← he]; exact hl)
  · unfold SipUri.withoutUriHeaders
    split
    · rename_i hh
      exact ⟨List.isEmpty_iff.1 hh, rfl, rfl, rfl, rfl, rfl⟩
    · exact ⟨rfl, rfl, rfl, rfl, rfl, rfl⟩

theorem tellable_of (s : String) (h : decide (Tellable s.toList) = true) : Tellable s.toList := of_decide_eq_true h

/-- C106: no INVITE is sent exactly for three reasons, and the second NOTIFY tells which: 400 if the Refer-To has no URI with an
IPv4 address, 403 if the address is special and the configuration does not allow it, 488 if there is no session description to
offer. -/
theorem C106_refused (cfg : RCfg) (ds : Dlg.Mgr) (m m' : SubMgr) (rq : Request) (rnd : Rand) (r : Response) (t : Told)
    (h : handleRefer cfg ds m rq rnd = .done (.accepted r (.failed t), m')) :
    ∃ v code reason a b n, First rq.headers "Refer-To" v ∧ t.2 = [a, b] ∧ Reports a n 100 "Trying".toList ∧
      Reports b (n + 1) code reason ∧
      (code = 400 ∧ (∀ u, Target v u → ∀ x y z w, ¬ Dotted u.host x y z w) ∨
       code = 403 ∧ (∃ u x y z w, Target v u ∧ Dotted u.host x y z w ∧ cfg.allowPrivate = false ∧ Special x y z w) ∨
       code = 488 ∧ cfg.sdp = some none ∧
         ∃ u x y z w, Target v u ∧ Dotted u.host x y z w ∧ (cfg.allowPrivate = false → ¬ Special x y z w)) := by
  obtain ⟨v, d, hv, _, _, _, _, h⟩ := refer_accepted h
  rcases h with ⟨_, h, _⟩ | ⟨s, t', _, _, ht, h⟩
  · cases h
  · obtain ⟨a, e1, r1, s1, _⟩ := tell_some (tellable_of "Trying" (by decide +kernel)) ht
    have tail : ∀ code (reason : String), decide (Tellable reason.toList) = true →
        tell cfg.localUri rnd.notify t' code reason.toList = .done t →
        ∃ b, t.2 = [a, b] ∧ Reports b (s.localCSeq + 1 + 1) code reason.toList := by
      intro code reason hd hr
      obtain ⟨b, e2, r2, _, _⟩ := tell_some (tellable_of reason hd) hr
      refine ⟨b, by rw [e2, e1]; rfl, ?_⟩
      rw [s1] at r2
      exact r2
    rcases transfer_failed h with ⟨h1, h2⟩ | ⟨u, x, y, z, w, h1, h2, h3, h4, h5⟩ | ⟨u, x, y, z, w, h1, h2, h3, h4, h5⟩
    · obtain ⟨b, e2, r2⟩ := tail 400 "Bad Request" (by decide +kernel) h2
      exact ⟨v, 400, _, a, b, _, hv, e2, r1, r2, .inl ⟨rfl, h1⟩⟩
    · obtain ⟨b, e2, r2⟩ := tail 403 "Forbidden" (by decide +kernel) h5
      exact ⟨v, 403, _, a, b, _, hv, e2, r1, r2, .inr (.inl ⟨rfl, u, x, y, z, w, h1, h2, h3, h4⟩)⟩
    · obtain ⟨b, e2, r2⟩ := tail 488 "Not Acceptable Here" (by decide +kernel) h5
      exact ⟨v, 488, _, a, b, _, hv, e2, r1, r2, .inr (.inr ⟨rfl, h4, u, x, y, z, w, h1, h2, h3⟩)⟩

/-- C106: a REFER that is accepted, with a subscription, to a URI with an IPv4 address the configuration lets through, makes the
daemon call that address. -/
theorem C106_called (cfg : RCfg) (ds : Dlg.Mgr) (m m' : SubMgr) (rq : Request) (rnd : Rand) (r : Response) (after : After)
    (h : handleRefer cfg ds m rq rnd = .done (.accepted r after, m')) (hn : after ≠ .nothing) (v : Str) (u : SipUri)
    (x y z w p : Nat) (hv : First rq.headers "Refer-To" v) (hu : Target v u) (hd : Dotted u.host x y z w) (hp : PortOf u p)
    (ha : cfg.allowPrivate = true ∨ ¬ Special x y z w) (hs : cfg.sdp ≠ some none) :
    ∃ t inv tr, after = .calling t inv (.v4 x y z w) p tr := by
  cases after with
  | nothing => exact absurd rfl hn
  | failed t =>
    obtain ⟨v', c, _, _, _, _, hv', _, _, _, h⟩ := C106_refused _ _ _ _ _ _ _ _ h
    obtain rfl := Dlg.first_unique hv hv'
    rcases h with ⟨_, h⟩ | ⟨_, u', x', y', z', w', h1, h2, h3, h4⟩ | ⟨_, h, _⟩
    · exact absurd hd (h u hu x y z w)
    · obtain rfl := target_unique hu h1
      obtain ⟨rfl, rfl, rfl, rfl⟩ := dotted_inj hd h2
      rcases ha with ha | ha
      · rw [ha] at h3; cases h3
      · exact absurd h4 ha
    · exact absurd h hs
  | calling t inv a q tr =>
    obtain ⟨v', u', x', y', z', w', hv', h1, h2, h3, rfl, _⟩ := C106_target _ _ _ _ _ _ _ _ _ _ _ _ h
    obtain rfl := Dlg.first_unique hv hv'
    obtain rfl := target_unique hu h1
    obtain ⟨rfl, rfl, rfl, rfl⟩ := dotted_inj hd h2
    rw [portOf_iff] at hp h3
    obtain rfl := hp.symm.trans h3
    exact ⟨t, inv, tr, rfl⟩

/-- C106, the code against RFC 3515: a REFER to a host name or an IPv6 address never leads to a call, whatever the name. -/
theorem C106_names_fail (cfg : RCfg) (ds : Dlg.Mgr) (m m' : SubMgr) (rq : Request) (rnd : Rand) (r : Response) (after : After)
    (h : handleRefer cfg ds m rq rnd = .done (.accepted r after, m')) (v : Str) (u : SipUri)
    (hv : First rq.headers "Refer-To" v) (hu : Target v u) (hd : ∀ x y z w, ¬ Dotted u.host x y z w) :
    ∀ t inv a p tr, after ≠ .calling t inv a p tr := by
  rintro t inv a p tr rfl
  obtain ⟨v', u', x', y', z', w', hv', h1, h2, _⟩ := C106_target _ _ _ _ _ _ _ _ _ _ _ _ h
  obtain rfl := Dlg.first_unique hv hv'
  obtain rfl := target_unique hu h1
  exact hd _ _ _ _ h2

/-! ## Examples -/

/-- a daemon -/
def cfgEx (allow : Bool) : RCfg := ⟨bobUri, "siphon".toList, allow, some (some "v=0".toList)⟩

def rndEx : Rand := ⟨"tx".toList, "fi".toList, "c9".toList, "z9hG4bKi".toList, fun n => "z9hG4bKn".toList ++ showNat n⟩

/-- its dialog with Alice -/
def dialogsEx : List Dlg.MOp :=
  [.insert ⟨⟨"c1".toList, "tb".toList, "fa".toList⟩, .confirmed, aliceUri, [], 5, 6, none, bobUri, aliceUri, false, none, none, false⟩]

/-- a REFER from Alice -/
def referEx (to : String) : Request := ⟨.refer, "sip:bob@b.example".toList,
  headersOf [("Via", "SIP/2.0/UDP a.example;branch=z9hG4bK1"), ("From", "<sip:alice@a.example>;tag=fa"), ("To", "<sip:bob@b.example>;tag=tb"),
    ("Call-ID", "c1"), ("CSeq", "7 REFER"), ("Contact", "<sip:alice@a.example>"), ("Refer-To", to)], []⟩

/-- what the daemon does: the address called, or the status codes told -/
inductive Seen
  | calls (a : Addr) (port : Nat) (uri : Str) (told : Nat)
  | fails (bodies : List Bytes)
  | refuses (code : Nat)
  deriving DecidableEq

def seen (allow : Bool) (to : String) : Option Seen :=
  match handleRefer (cfgEx allow) (.run dialogsEx) [] (referEx to) rndEx with
  | .done (.accepted _ (.calling t inv a p _), _) => some (.calls a p inv.uri t.2.length)
  | .done (.accepted _ (.failed t), _) => some (.fails (t.2.map Request.body))
  | .done (.refused c, _) => some (.refuses c)
  | _ => none

/-- an address is called … -/
example : seen false "<sip:carol@8.8.4.4:5080?Subject=x>" = some (.calls (.v4 8 8 4 4) 5080 "sip:carol@8.8.4.4:5080".toList 1) := by decide +kernel
/-- … a special one is not … -/
example : seen false "<sip:carol@10.0.0.1>" =
    some (.fails [utf8 (sipfrag 100 "Trying".toList), utf8 (sipfrag 403 "Forbidden".toList)]) := by decide +kernel
/-- … unless that is allowed. -/
example : seen true "<sip:carol@10.0.0.1>" = some (.calls (.v4 10 0 0 1) 5060 "sip:carol@10.0.0.1".toList 1) := by decide +kernel
/-- A name is never called, nor is an IPv6 address. -/
example : seen true "<sip:carol@example.com>" =
    some (.fails [utf8 (sipfrag 100 "Trying".toList), utf8 (sipfrag 400 "Bad Request".toList)]) := by decide +kernel
example : seen true "<sip:carol@[2001:4860::8888]>" =
    some (.fails [utf8 (sipfrag 100 "Trying".toList), utf8 (sipfrag 400 "Bad Request".toList)]) := by decide +kernel

/-- C106, the code against RFC 6890: addresses of "this network" and reserved addresses pass the filter. -/
theorem C106_gaps : (∀ b c d, 0 < d → ¬ Special 0 b c d) ∧ (∀ a b c d, 240 ≤ a → a < 255 → ¬ Special a b c d) ∧
    seen false "<sip:carol@0.0.0.1>" = some (.calls (.v4 0 0 0 1) 5060 "sip:carol@0.0.0.1".toList 1) ∧
    seen false "<sip:carol@240.0.0.1>" = some (.calls (.v4 240 0 0 1) 5060 "sip:carol@240.0.0.1".toList 1) := by
  refine ⟨?_, ?_, by decide +kernel, by decide +kernel⟩
  · intro b c d hd h
    cases h <;> omega
  · intro a b c d h1 h2 h
    cases h <;> omega

/-- C106, the code against RFC 6890: in the filter for IPv6, addresses that stand for an IPv4 address in another way than the mapped
ones pass. -/
theorem C106_gaps6 : isGlobal (.v6 [0x64, 0xff9b, 0, 0, 0, 0, 0x7f00, 1]) = true ∧ isGlobal (.v6 [0x2002, 0x7f00, 1, 0, 0, 0, 0, 0]) = true ∧
    isGlobal (.v6 [0, 0, 0, 0, 0, 0, 0x7f00, 1]) = true ∧ isGlobal (.v6 [0xfec0, 0, 0, 0, 0, 0, 0, 1]) = true := by decide +kernel

end Siphon.Sub
