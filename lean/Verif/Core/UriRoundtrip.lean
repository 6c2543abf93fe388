import Verif.Core.UriLemmas
set_option linter.unusedSimpArgs false
/-! # C69: a rebuilt URI reads back -/
namespace Siphon.UriP
open Siphon.UriSpec
open Siphon.Auth (splitOnce_some_iff)

/-! ## Host characters -/

/-- characters of hosts, colons included -/
def HostCh (c : Char) : Prop := isHostChar c = true ∨ c = ':'

theorem hex_host {c : Char} (h : isHexDigit c = true) : isHostChar c = true := by
  unfold isHexDigit at h
  unfold isHostChar isAlnum isAlpha
  simp only [Bool.or_eq_true, Bool.and_eq_true, decide_eq_true_eq, char_le_iff, beq_iff_eq] at *
  simp only [show 'a'.toNat = 97 from rfl, show 'z'.toNat = 122 from rfl, show 'A'.toNat = 65 from rfl,
    show 'Z'.toNat = 90 from rfl, show 'f'.toNat = 102 from rfl, show 'F'.toNat = 70 from rfl] at *
  rcases h with (h | h) | h
  · simp [h]
  · left; left; left; left; left; omega
  · left; left; left; left; right; omega

theorem digit_host {c : Char} (h : isDigit c = true) : isHostChar c = true := by
  apply hex_host
  unfold isHexDigit
  simp [h]

/-- `rest` is `s` without a prefix of host characters -/
def Reads (s rest : Str) : Prop := ∃ pre, s = pre ++ rest ∧ ∀ c ∈ pre, HostCh c

theorem Reads.refl (s : Str) : Reads s s := ⟨[], rfl, by simp⟩

theorem Reads.trans {a b c : Str} (h : Reads a b) (h' : Reads b c) : Reads a c := by
  obtain ⟨p, rfl, hp⟩ := h
  obtain ⟨q, rfl, hq⟩ := h'
  exact ⟨p ++ q, by simp, fun c hc => (List.mem_append.mp hc).elim (hp c) (hq c)⟩

theorem reads_take {s : Str} {p : Char → Bool} (hp : ∀ c, p c = true → HostCh c) (n : Nat) :
    Reads s (s.drop (((s.take n).takeWhile p).length)) := by
  refine ⟨(s.take n).takeWhile p, ?_, ?_⟩
  · have h1 : ((s.take n).takeWhile p) = s.take ((s.take n).takeWhile p).length := by
      have e := List.takeWhile_append_dropWhile (p := p) (l := s.take n)
      have h2 : ((s.take n).takeWhile p).length ≤ n := by
        have h3 : ((s.take n).takeWhile p).length + ((s.take n).dropWhile p).length = (s.take n).length := by
          rw [← List.length_append, e]
        have h4 : (s.take n).length ≤ n := by rw [List.length_take]; omega
        omega
      have h3 : (s.take n).take ((s.take n).takeWhile p).length = (s.take n).takeWhile p := by
        conv => lhs; arg 2; rw [← e]
        exact List.take_left
      rw [List.take_take, Nat.min_eq_left h2] at h3
      exact h3.symm
    conv => rhs; arg 1; rw [h1]
    exact (List.take_append_drop _ _).symm
  · intro c hc
    have := List.all_takeWhile (p := p) (l := s.take n)
    exact hp c (List.all_eq_true.mp this c hc)

theorem reads_octet {s r : Str} (h : readOctet s = some r) : Reads s r := by
  unfold readOctet at h
  simp only at h
  split at h
  · cases h
  · simp only [Option.some.injEq] at h
    subst h
    exact reads_take (fun c hc => Or.inl (digit_host hc)) 4

theorem reads_group {s r : Str} (h : readGroup s = some r) : Reads s r := by
  unfold readGroup at h
  simp only at h
  split at h
  · cases h
  · simp only [Option.some.injEq] at h
    subst h
    exact reads_take (fun c hc => Or.inl (hex_host hc)) 5

theorem reads_strip {p s r : Str} (hp : ∀ c ∈ p, HostCh c) (h : stripPrefix p s = some r) : Reads s r := by
  unfold stripPrefix at h
  split at h
  · rename_i hpre
    simp only [Option.some.injEq] at h
    subst h
    obtain ⟨t, rfl⟩ := List.isPrefixOf_iff_prefix.mp hpre
    exact ⟨p, by simp, hp⟩
  · cases h

theorem hostCh_dot : HostCh '.' := Or.inl (by decide)
theorem hostCh_colon : HostCh ':' := Or.inr rfl

theorem reads_ipv4 {s r : Str} (h : readIpv4 s = some r) : Reads s r := by
  unfold readIpv4 at h
  have hd : ∀ c ∈ ['.'], HostCh c := by intro c hc; rw [List.mem_singleton.mp hc]; exact hostCh_dot
  simp only [bind, Option.bind_eq_some_iff] at h
  obtain ⟨a, h1, b, h2, c, h3, d, h4, e, h5, f, h6, h7⟩ := h
  exact ((((((reads_octet h1).trans (reads_strip hd h2)).trans (reads_octet h3)).trans (reads_strip hd h4)).trans
    (reads_octet h5)).trans (reads_strip hd h6)).trans (reads_octet h7)

theorem reads_sep {i : Nat} {s r : Str} (h : readSep i s = some r) : Reads s r := by
  unfold readSep at h
  split at h
  · simp only [Option.some.injEq] at h; subst h; exact Reads.refl s
  · exact reads_strip (by intro c hc; rw [List.mem_singleton.mp hc]; exact hostCh_colon) h

theorem reads_groups (limit : Nat) : ∀ (f i : Nat) (s : Str), Reads s (readGroups limit f i s).2.2
  | 0, _, s => Reads.refl s
  | f + 1, i, s => by
    simp only [readGroups]
    split
    · rename_i rest h
      split at h
      · obtain ⟨a, h1, h2⟩ := Option.bind_eq_some_iff.mp h
        exact (reads_sep h1).trans (reads_ipv4 h2)
      · cases h
    · split
      · rename_i rest h
        obtain ⟨a, h1, h2⟩ := Option.bind_eq_some_iff.mp h
        exact ((reads_sep h1).trans (reads_group h2)).trans (reads_groups limit f (i + 1) rest)
      · exact Reads.refl s

theorem all_of_reads {s : Str} (h : Reads s []) : ∀ c ∈ s, HostCh c := by
  obtain ⟨p, rfl, hp⟩ := h
  simpa using hp

theorem ipv6_chars {s : Str} (h : isIpv6 s = true) : ∀ c ∈ s, HostCh c := by
  apply all_of_reads
  unfold isIpv6 at h
  have g := reads_groups 8 8 0 s
  revert g h
  generalize readGroups 8 8 0 s = x
  obtain ⟨n, v4, rest⟩ := x
  intro h g
  simp only at h g
  split at h
  · rw [List.isEmpty_iff.mp h] at g; exact g
  · split at h
    · cases h
    · split at h
      · cases h
      · rename_i r hs
        have g2 := g.trans (reads_strip (p := [':', ':']) (by
          intro c hc
          simp only [List.mem_cons, List.not_mem_nil, or_false, or_self] at hc
          rw [hc]; exact hostCh_colon) hs)
        have g3 := g2.trans (reads_groups (8 - (n + 1)) (8 - (n + 1)) 0 r)
        revert g3 h
        generalize readGroups (8 - (n + 1)) (8 - (n + 1)) 0 r = y
        obtain ⟨_, _, rest'⟩ := y
        intro h g3
        simp only at h g3
        rw [List.isEmpty_iff.mp h] at g3; exact g3

theorem host_chars {h : Str} (hv : validHost h = true) : ∀ c ∈ h, HostCh c := by
  unfold validHost at hv
  simp only [Bool.and_eq_true] at hv
  obtain ⟨_, hv⟩ := hv
  split at hv
  · exact ipv6_chars hv
  · intro c hc; exact Or.inl (List.all_eq_true.mp hv c hc)

theorem hostCh_iff (c : Char) : HostCh c ↔
    (97 ≤ c.toNat ∧ c.toNat ≤ 122 ∨ 65 ≤ c.toNat ∧ c.toNat ≤ 90 ∨ 48 ≤ c.toNat ∧ c.toNat ≤ 57) ∨
    c.toNat = 45 ∨ c.toNat = 46 ∨ c.toNat = 95 ∨ c.toNat = 58 := by
  unfold HostCh isHostChar isAlnum isAlpha isDigit
  simp only [Bool.or_eq_true, Bool.and_eq_true, decide_eq_true_eq, char_le_iff, beq_iff_eq, char_eq_iff]
  simp only [show 'a'.toNat = 97 from rfl, show 'z'.toNat = 122 from rfl, show 'A'.toNat = 65 from rfl,
    show 'Z'.toNat = 90 from rfl, show '0'.toNat = 48 from rfl, show '9'.toNat = 57 from rfl, show '-'.toNat = 45 from rfl,
    show '.'.toNat = 46 from rfl, show '_'.toNat = 95 from rfl, show ':'.toNat = 58 from rfl]
  omega

theorem hostCh_ne {c k : Char} (h : HostCh c) (hk : ¬ HostCh k) : c ≠ k := by
  rintro rfl; exact hk h

theorem hostCh_ws {c : Char} (h : HostCh c) : isWs c = false := by
  rw [hostCh_iff] at h
  apply Bool.eq_false_iff.mpr
  unfold isWs
  simp only [Bool.or_eq_true, Bool.and_eq_true, decide_eq_true_eq, beq_iff_eq, ne_eq]
  omega

theorem hostCh_control {c : Char} (h : HostCh c) : isControl c = false := by
  rw [hostCh_iff] at h
  apply Bool.eq_false_iff.mpr
  rw [Ne, control_iff]
  omega

theorem host_not_mem {h : Str} (hv : validHost h = true) (k : Char) (hk : ¬ HostCh k) : k ∉ h :=
  fun hm => hk (host_chars hv k hm)

theorem not_host (k : Char) (h1 : isHostChar k = false) (h2 : k ≠ ':') : ¬ HostCh k := by
  rintro (h | h)
  · rw [h] at h1; cases h1
  · exact h2 h

/-! ## The parts of the rebuilt text -/

/-- one parameter as written -/
def paramText : Str × Option Str → Str
  | (k, none) => k
  | (k, some v) => k ++ '=' :: v

theorem renderParams_eq : ∀ ps : BMap (Option Str), renderParams ps = ps.flatMap (fun e => ';' :: paramText e)
  | [] => rfl
  | (k, none) :: t => by simp [renderParams, paramText, renderParams_eq t]
  | (k, some v) :: t => by simp [renderParams, paramText, renderParams_eq t]

theorem not_mem_paramText {e : Str × Option Str} (he : GoodParam e) (k : Char) (hk : isUriTokenChar k = false) (hk' : k ≠ '=')
    (hv : ∀ v, e.2 = some v → k ∉ v) : k ∉ paramText e := by
  obtain ⟨n, o⟩ := e
  have hn := ((validName_iff n).mp he.1).2.2
  have h1 : k ∉ n := fun hm => by have := hn k hm; rw [hk] at this; cases this
  cases o with
  | none => exact h1
  | some v => simp [paramText, h1, hk', hv v rfl]

theorem splitChar_params (base : Str) (hb : ';' ∉ base) : ∀ ps : BMap (Option Str), (∀ e ∈ ps, GoodParam e) →
    splitChar ';' (base ++ renderParams ps) = base :: ps.map paramText
  | [], _ => by simp only [renderParams, List.append_nil, List.map_nil]; exact splitChar_of_not_mem _ _ hb
  | e :: t, h => by
    have : base ++ renderParams (e :: t) = base ++ ';' :: (paramText e ++ renderParams t) := by
      obtain ⟨k, o⟩ := e
      cases o <;> simp [renderParams, paramText]
    rw [this, splitChar_append_sep _ _ _ hb, splitChar_params (paramText e) ?_ t (fun x hx => h x (by simp [hx]))]
    · rfl
    · have he := h e (by simp)
      exact not_mem_paramText he ';' (by decide) (by decide) (fun v hv => (he.2.2 v hv).2.2.1)

theorem trim_name {n : Str} (h : validUriParamName n = true) : trim n = n :=
  trim_of_trimmed _ (trimmed_of_all _ (fun c hc => token_ws c (((validName_iff n).mp h).2.2 c hc)))

theorem eq_not_mem_name {n : Str} (h : validUriParamName n = true) : '=' ∉ n := fun hm => by
  have := ((validName_iff n).mp h).2.2 '=' hm
  exact absurd this (by decide)

theorem trim_paramText {e : Str × Option Str} (he : GoodParam e) : trim (paramText e) = paramText e := by
  obtain ⟨n, o⟩ := e
  have hn := he.1
  cases o with
  | none => exact trim_name hn
  | some v =>
    have hv := (he.2.2 v rfl).2.1
    have hnn : ∀ c ∈ n, isWs c = false := fun c hc => token_ws c (((validName_iff n).mp hn).2.2 c hc)
    apply trim_of_trimmed
    constructor
    · intro c hc
      cases n with
      | nil => exact absurd rfl ((validName_iff _).mp hn).1
      | cons x xs =>
        simp only [paramText, List.cons_append, List.head?_cons, Option.some.injEq] at hc
        subst hc; exact hnn x (by simp)
    · intro c hc
      cases v with
      | nil =>
        simp only [paramText, List.getLast?_append, List.getLast?_singleton, Option.some_or, Option.some.injEq] at hc
        subst hc; decide
      | cons x xs =>
        apply hv.2 c
        simpa [paramText, List.getLast?_append, List.getLast?_cons_cons] using hc

theorem parse_params : ∀ (ps acc : BMap (Option Str)), (∀ e ∈ ps, GoodParam e) → Sorted (acc ++ ps) →
    (acc ++ ps).length ≤ MAX_URI_PARAMS → parseUriParams (ps.map paramText) acc = some (acc ++ ps)
  | [], acc, _, _, _ => by simp [parseUriParams]
  | e :: t, acc, h, hs, hl => by
    have he := h e (by simp)
    have hlt : ∀ x ∈ acc, strLt x.1 e.1 = true := by
      intro x hx
      exact (List.pairwise_append.mp hs).2.2 x hx e (by simp)
    have step : ∀ v, acc.insert e.1 v = acc ++ [(e.1, v)] := fun v => insert_last acc e.1 v hlt
    have hne : (paramText e).isEmpty = false := by
      have hn := ((validName_iff _).mp he.1).1
      obtain ⟨n, o⟩ := e
      cases o with
      | none => simpa [paramText] using hn
      | some v => simp [paramText]
    simp only [List.map_cons, parseUriParams]
    rw [if_neg (by simp at hl; omega), trim_paramText he, if_neg (by rw [hne]; simp)]
    have ih := parse_params t (acc ++ [e]) (fun x hx => h x (by simp [hx])) (by simpa using hs) (by simpa using hl)
    obtain ⟨n, o⟩ := e
    cases o with
    | none =>
      have e1 : paramText (n, none) = n := rfl
      rw [e1, splitOnce_none _ _ (eq_not_mem_name he.1)]
      simp only
      have h1 : validUriParamName n = true := he.1
      have h2 : lower n = n := he.2.1
      rw [h1, h2, step none]
      simp only [Bool.not_true, Bool.false_eq_true, if_false]
      simpa using ih
    | some v =>
      have e1 : paramText (n, some v) = n ++ '=' :: v := rfl
      rw [e1, splitOnce_append _ _ _ (eq_not_mem_name he.1)]
      simp only
      have hv := he.2.2 v rfl
      rw [trim_name he.1, trim_of_trimmed v hv.2.1, if_neg (by rw [he.1, hv.1]; simp), he.2.1, step (some v)]
      simpa using ih

/-- the text after `?` -/
def headersText : BMap Str → Str
  | [] => []
  | (k, v) :: t => k ++ '=' :: v ++ renderUriHeaders '&' t

theorem renderHeaders_cons (k v : Str) (t : BMap Str) :
    renderUriHeaders '?' ((k, v) :: t) = '?' :: headersText ((k, v) :: t) := by
  simp [renderUriHeaders, headersText]

theorem ws_header {v : Str} (h : validUriHeaderValue v = true) : (∀ c ∈ v, isWs c = false) ∧ ∀ c ∈ v, isControl c = false := by
  unfold validUriHeaderValue at h
  simp only [Bool.and_eq_true, Bool.not_eq_true', List.any_eq_false, Bool.or_eq_true, not_or, Bool.not_eq_true] at h
  exact ⟨fun c hc => by simpa using (h.2 c hc).2, fun c hc => by simpa using (h.2 c hc).1⟩

theorem splitChar_headers : ∀ (hs : BMap Str), (∀ e ∈ hs, GoodHeader e) → hs ≠ [] →
    splitChar '&' (headersText hs) = hs.map (fun e => e.1 ++ '=' :: e.2)
  | [], _, h => absurd rfl h
  | [(k, v)], h, _ => by
    have he := h (k, v) (by simp)
    have hk : '&' ∉ k := fun hm => by have := ((validName_iff k).mp he.1).2.2 _ hm; exact absurd this (by decide)
    simp only [headersText, renderUriHeaders, List.append_nil, List.map_cons, List.map_nil]
    exact splitChar_of_not_mem _ _ (by simp [hk, he.2.2.2])
  | (k, v) :: (k', v') :: t, h, _ => by
    have he := h (k, v) (by simp)
    have hk : '&' ∉ k := fun hm => by have := ((validName_iff k).mp he.1).2.2 _ hm; exact absurd this (by decide)
    have e : headersText ((k, v) :: (k', v') :: t) = (k ++ '=' :: v) ++ '&' :: headersText ((k', v') :: t) := by
      simp [headersText, renderUriHeaders]
    rw [e, splitChar_append_sep _ _ _ (by simp [hk, he.2.2.2]),
      splitChar_headers ((k', v') :: t) (fun x hx => h x (by simp [List.mem_cons.mp hx])) (by simp)]
    rfl

theorem parse_headers : ∀ (hs acc : BMap Str), (∀ e ∈ hs, GoodHeader e) → Sorted (acc ++ hs) →
    (acc ++ hs).length ≤ MAX_URI_HEADERS → parseUriHeaders (hs.map (fun e => e.1 ++ '=' :: e.2)) acc = some (acc ++ hs)
  | [], acc, _, _, _ => by simp [parseUriHeaders]
  | e :: t, acc, h, hs, hl => by
    have he := h e (by simp)
    have hlt : ∀ x ∈ acc, strLt x.1 e.1 = true := by
      intro x hx
      exact (List.pairwise_append.mp hs).2.2 x hx e (by simp)
    have ih := parse_headers t (acc ++ [e]) (fun x hx => h x (by simp [hx])) (by simpa using hs) (by simpa using hl)
    simp only [List.map_cons, parseUriHeaders]
    rw [if_neg (by simp at hl; omega), if_neg (by simp), splitOnce_append _ _ _ (eq_not_mem_name he.1)]
    simp only
    rw [trim_name he.1, trim_of_trimmed e.2 (trimmed_of_all _ (ws_header he.2.2.1).1), if_neg (by rw [he.1, he.2.2.1]; simp),
      he.2.1, insert_last acc e.1 e.2 hlt]
    simpa using ih

/-! ## Host and port -/

theorem splitLast_none (c : Char) (s : Str) (h : c ∉ s) : splitLast c s = none := by
  unfold splitLast
  rw [splitOnce_none _ _ (by simpa using h)]; rfl

theorem splitLast_append (c : Char) (a b : Str) (h : c ∉ b) : splitLast c (a ++ c :: b) = some (a, b) := by
  unfold splitLast
  have : (a ++ c :: b).reverse = b.reverse ++ c :: a.reverse := by simp
  rw [this, splitOnce_append _ _ _ (by simpa using h)]
  simp

/-- `:port` or nothing -/
def portText : Option Nat → Str
  | some p => ':' :: showNat p
  | none => []

theorem splitHostPort_render {h : Str} {port : Option Nat} (hv : validHost h = true)
    (hp : ∀ p, port = some p → p ≤ 65535) : splitHostPort (renderHost h ++ portText port) = some (h, port) := by
  have hb1 : '[' ∉ h := host_not_mem hv '[' (not_host _ (by decide) (by decide))
  have hb2 : ']' ∉ h := host_not_mem hv ']' (not_host _ (by decide) (by decide))
  unfold renderHost
  by_cases hc : ':' ∈ h
  · have : (h.contains ':' && h.head? != some '[' && h.getLast? != some ']') = true := by
      simp only [Bool.and_eq_true, List.contains_iff_mem, bne_iff_ne, ne_eq]
      exact ⟨⟨hc, fun e => hb1 (List.mem_of_mem_head? e)⟩, fun e => hb2 (List.mem_of_getLast? e)⟩
    rw [if_pos this]
    have e : '[' :: h ++ [']'] ++ portText port = '[' :: (h ++ ']' :: portText port) := by simp
    rw [e]
    simp only [splitHostPort]
    rw [splitOnce_append _ _ _ hb2]
    cases port with
    | none => rfl
    | some p =>
      have : stripPrefix [':'] (portText (some p)) = some (showNat p) := by
        simp [stripPrefix, portText, List.isPrefixOf]
      simp only [this, parseDec_showNat _ _ (hp p rfl)]
  · have hcf : h.contains ':' = false := by simpa using hc
    rw [if_neg (by rw [hcf]; simp)]
    have hne : ∀ t, h ++ portText port ≠ '[' :: t := by
      intro t e
      have hne : h ≠ [] := by
        unfold validHost at hv
        simp only [Bool.and_eq_true, Bool.not_eq_true', List.isEmpty_eq_false_iff] at hv
        exact hv.1.1.1
      cases h with
      | nil => exact hne rfl
      | cons x xs =>
        simp only [List.cons_append, List.cons.injEq] at e
        exact hb1 (by simp [e.1])
    unfold splitHostPort
    split
    · rename_i t e; exact absurd e (hne t)
    · cases port with
      | none =>
        simp only [portText, List.append_nil]
        rw [splitLast_none _ _ hc]
      | some p =>
        have hd : ':' ∉ showNat p := showNat_not_mem p ':' (by decide)
        have hcount : (h ++ ':' :: showNat p).count ':' = 1 := by
          rw [List.count_append, List.count_eq_zero.mpr hc, List.count_cons, List.count_eq_zero.mpr hd]
          simp
        have hdig : (!(showNat p).isEmpty && (showNat p).all isDigit) = true := by
          simp only [Bool.and_eq_true, Bool.not_eq_true', List.isEmpty_eq_false_iff]
          exact ⟨showNat_ne_nil p, List.all_eq_true.mpr (showNat_digits p)⟩
        show (match splitLast ':' (h ++ ':' :: showNat p) with
          | some (host, digits) =>
            if (h ++ ':' :: showNat p).count ':' > 1 then none
            else if !digits.isEmpty && digits.all isDigit then
              match parseDec 65535 digits with
              | some port => some (host, some port)
              | none => none
            else some (h ++ ':' :: showNat p, none)
          | none => some (h ++ ':' :: showNat p, none)) = _
        rw [splitLast_append _ _ _ hd]
        simp only
        rw [hcount, if_neg (by omega), if_pos hdig, parseDec_showNat _ _ (hp p rfl)]

/-! ## The whole text -/

/-- `user@` or nothing -/
def userText : Option Str → Str
  | some x => x ++ ['@']
  | none => []

theorem buildRaw_eq (u : SipUri) : u.buildRaw = (if u.sips then "sips".toList else "sip".toList) ++ ':' ::
    (userText u.user ++ renderHost u.host ++ portText u.port ++ renderParams u.params ++ renderUriHeaders '?' u.headers) := by
  unfold SipUri.buildRaw userText portText
  have e1 : "sips:".toList = "sips".toList ++ [':'] := rfl
  have e2 : "sip:".toList = "sip".toList ++ [':'] := rfl
  cases u.sips <;> cases u.user <;> cases u.port <;> simp [e1, e2]

theorem user_chars {x : Str} (h : validUser x = true) : x ≠ [] ∧ (∀ c ∈ x, isControl c = false) ∧ ∀ c ∈ x, c ∉ userDelims := by
  unfold validUser at h
  simp only [Bool.and_eq_true, Bool.not_eq_true', List.any_eq_false, List.isEmpty_eq_false_iff] at h
  exact ⟨h.1.1.1, fun c hc => by simpa using h.1.2 c hc, fun c hc => by simpa using h.2 c hc⟩

theorem user_not_mem {x : Str} (h : validUser x = true) (k : Char) (hk : k ∈ userDelims) : k ∉ x :=
  fun hm => (user_chars h).2.2 k hm hk

theorem mem_hostPort {h : Str} {port : Option Nat} (hv : validHost h = true) :
    ∀ c ∈ renderHost h ++ portText port, HostCh c ∨ c = '[' ∨ c = ']' := by
  intro c hc
  rcases List.mem_append.mp hc with hc | hc
  · unfold renderHost at hc
    split at hc
    · simp only [List.cons_append, List.mem_cons, List.mem_append, List.not_mem_nil, or_false] at hc
      rcases hc with rfl | hc | rfl
      · exact Or.inr (Or.inl rfl)
      · exact Or.inl (host_chars hv c hc)
      · exact Or.inr (Or.inr rfl)
    · exact Or.inl (host_chars hv c hc)
  · unfold portText at hc
    split at hc
    · rename_i p _
      rcases List.mem_cons.mp hc with rfl | hc
      · exact Or.inl hostCh_colon
      · exact Or.inl (Or.inl (digit_host (showNat_digits p c hc)))
    · simp at hc

theorem hostPort_ne_nil {h : Str} {port : Option Nat} (hv : validHost h = true) : renderHost h ++ portText port ≠ [] := by
  have hne : h ≠ [] := by
    unfold validHost at hv
    simp only [Bool.and_eq_true, Bool.not_eq_true', List.isEmpty_eq_false_iff] at hv
    exact hv.1.1.1
  unfold renderHost
  split <;> simp [hne]

theorem bracket_ws {c : Char} (h : HostCh c ∨ c = '[' ∨ c = ']') : isWs c = false := by
  rcases h with h | rfl | rfl
  · exact hostCh_ws h
  · decide
  · decide

theorem bracket_control {c : Char} (h : HostCh c ∨ c = '[' ∨ c = ']') : isControl c = false := by
  rcases h with h | rfl | rfl
  · exact hostCh_control h
  · decide
  · decide

theorem bracket_not_mem {h : Str} {port : Option Nat} (hv : validHost h = true) (k : Char) (h1 : isHostChar k = false)
    (h2 : k ≠ ':') (h3 : k ≠ '[') (h4 : k ≠ ']') : k ∉ renderHost h ++ portText port := by
  intro hm
  rcases mem_hostPort hv k hm with hh | hh | hh
  · exact not_host k h1 h2 hh
  · exact h3 hh
  · exact h4 hh

/-- the base of the address: `[user@]host[:port]` -/
theorem splitUserHost_render {user : Option Str} {h : Str} {port : Option Nat} (hv : validHost h = true)
    (hu : ∀ x, user = some x → validUser x = true ∧ PlainUser x) :
    splitUserHost (userText user ++ renderHost h ++ portText port) = some (user, renderHost h ++ portText port) := by
  have ht : trim (renderHost h ++ portText port) = renderHost h ++ portText port :=
    trim_of_trimmed _ (trimmed_of_all _ (fun c hc => bracket_ws (mem_hostPort hv c hc)))
  unfold splitUserHost
  cases user with
  | none =>
    simp only [userText, List.nil_append]
    rw [splitOnce_none _ _ (bracket_not_mem hv '@' (by decide) (by decide) (by decide) (by decide)), ht]
  | some x =>
    obtain ⟨h1, h2, h3⟩ := hu x rfl
    have e : userText (some x) ++ renderHost h ++ portText port = x ++ '@' :: (renderHost h ++ portText port) := by
      simp [userText]
    rw [e, splitOnce_append _ _ _ (user_not_mem h1 '@' (by decide))]
    simp only
    rw [trim_of_trimmed x h2, percentDecode_plain x h3, ht]
    simp [h1]

theorem trimmed_base {user : Option Str} {h : Str} {port : Option Nat} (hv : validHost h = true)
    (hu : ∀ x, user = some x → validUser x = true ∧ PlainUser x) : Trimmed (userText user ++ renderHost h ++ portText port) := by
  have hne := hostPort_ne_nil (port := port) hv
  constructor
  · intro c hc
    cases user with
    | none =>
      simp only [userText, List.nil_append] at hc
      exact bracket_ws (mem_hostPort hv c (List.mem_of_mem_head? hc))
    | some x =>
      obtain ⟨h1, h2, h3⟩ := hu x rfl
      cases x with
      | nil => exact absurd rfl (user_chars h1).1
      | cons y ys =>
        simp only [userText, List.cons_append, List.head?_cons, Option.some.injEq] at hc
        exact h2.1 c (by simp [hc])
  · intro c hc
    rw [List.append_assoc, List.getLast?_append] at hc
    cases hg : (renderHost h ++ portText port).getLast? with
    | none => exact absurd (List.getLast?_eq_none_iff.mp hg) hne
    | some y =>
      rw [hg] at hc
      simp only [Option.some_or, Option.some.injEq] at hc
      subst hc
      exact bracket_ws (mem_hostPort hv y (List.mem_of_getLast? hg))

/-- A sound URI whose user is written as meant reads back from its rebuilt text. -/
theorem reparse {u : SipUri} (hs : Sound u) (hu : ∀ x, u.user = some x → PlainUser x)
    (hlen : utf8Len u.buildRaw ≤ MAX_URI_LENGTH) : SipUri.parse u.buildRaw = some { u with raw := u.buildRaw } := by
  have hu' : ∀ x, u.user = some x → validUser x = true ∧ PlainUser x := fun x hx => ⟨hs.user x hx, hu x hx⟩
  have hq : '?' ∉ userText u.user ++ renderHost u.host ++ portText u.port ++ renderParams u.params := by
    intro hm
    rw [List.mem_append, List.append_assoc, List.mem_append] at hm
    rcases hm with (hm | hm) | hm
    · cases hx : u.user with
      | none => rw [hx] at hm; simp [userText] at hm
      | some x =>
        rw [hx] at hm
        simp only [userText, List.mem_append, List.mem_singleton] at hm
        rcases hm with hm | hm
        · exact user_not_mem (hs.user x hx) '?' (by decide) hm
        · cases hm
    · exact bracket_not_mem hs.host '?' (by decide) (by decide) (by decide) (by decide) hm
    · rw [renderParams_eq] at hm
      simp only [List.mem_flatMap, List.mem_cons] at hm
      obtain ⟨e, he, hm⟩ := hm
      rcases hm with hm | hm
      · cases hm
      · exact not_mem_paramText (hs.params e he) '?' (by decide) (by decide) (fun v hv => ((hs.params e he).2.2 v hv).2.2.2) hm
  have hb : ';' ∉ userText u.user ++ renderHost u.host ++ portText u.port := by
    intro hm
    rw [List.append_assoc, List.mem_append] at hm
    rcases hm with hm | hm
    · cases hx : u.user with
      | none => rw [hx] at hm; simp [userText] at hm
      | some x =>
        rw [hx] at hm
        simp only [userText, List.mem_append, List.mem_singleton] at hm
        rcases hm with hm | hm
        · exact user_not_mem (hs.user x hx) ';' (by decide) hm
        · cases hm
    · exact bracket_not_mem hs.host ';' (by decide) (by decide) (by decide) (by decide) hm
  have hsq : splitQuery (userText u.user ++ renderHost u.host ++ portText u.port ++ renderParams u.params
        ++ renderUriHeaders '?' u.headers)
      = (userText u.user ++ renderHost u.host ++ portText u.port ++ renderParams u.params,
          if u.headers = [] then none else some (headersText u.headers)) := by
    unfold splitQuery
    cases hh : u.headers with
    | nil => simp only [renderUriHeaders, List.append_nil]; rw [splitOnce_none _ _ hq]; rfl
    | cons e t =>
      obtain ⟨k, v⟩ := e
      rw [renderHeaders_cons, splitOnce_append _ _ _ hq]
      simp
  have hhp : parseUriHeaders (headerPieces (if u.headers = [] then none else some (headersText u.headers))) [] = some u.headers := by
    by_cases hh : u.headers = []
    · rw [if_pos hh, hh]; rfl
    · rw [if_neg hh]
      simp only [headerPieces]
      rw [splitChar_headers _ hs.headers hh]
      simpa using parse_headers u.headers [] hs.headers (by simpa using hs.headersSorted) (by simpa using hs.headersFew)
  have hctl : u.buildRaw.any isControl = false := by
    rw [List.any_eq_false]
    intro c hc
    rw [Bool.not_eq_true]
    rw [buildRaw_eq] at hc
    simp only [List.mem_append, List.mem_cons, List.append_assoc] at hc
    rcases hc with hc | rfl | hc | hc | hc | hc | hc
    · cases hsip : u.sips
      · rw [hsip] at hc; revert c; decide
      · rw [hsip] at hc; revert c; decide
    · decide
    · cases hx : u.user with
      | none => rw [hx] at hc; simp [userText] at hc
      | some x =>
        rw [hx] at hc
        simp only [userText, List.mem_append, List.mem_singleton] at hc
        rcases hc with hc | rfl
        · exact (user_chars (hs.user x hx)).2.1 c hc
        · decide
    · exact bracket_control (mem_hostPort (port := u.port) hs.host c (by simp [hc]))
    · exact bracket_control (mem_hostPort (port := u.port) hs.host c (by simp [hc]))
    · rw [renderParams_eq] at hc
      simp only [List.mem_flatMap, List.mem_cons] at hc
      obtain ⟨e, he, hc⟩ := hc
      rcases hc with rfl | hc
      · decide
      · have g := hs.params e he
        obtain ⟨n, o⟩ := e
        have hn : c ∈ n → isControl c = false := fun hm => token_control c (((validName_iff n).mp g.1).2.2 c hm)
        cases o with
        | none => exact hn hc
        | some v =>
          simp only [paramText, List.mem_append, List.mem_cons] at hc
          rcases hc with hc | rfl | hc
          · exact hn hc
          · decide
          · have := (g.2.2 v rfl).1
            unfold validUriParamValue at this
            simp only [Bool.and_eq_true, Bool.not_eq_true', List.any_eq_false] at this
            simpa using this.2 c hc
    · have key : ∀ (l : BMap Str) (sep : Char), isControl sep = false → (∀ e ∈ l, GoodHeader e) → c ∈ renderUriHeaders sep l → isControl c = false := by
        intro l
        induction l with
        | nil => intro sep _ _ h; simp [renderUriHeaders] at h
        | cons e t ih =>
          obtain ⟨k, v⟩ := e
          intro sep hsep hg h
          have g := hg (k, v) (by simp)
          simp only [renderUriHeaders, List.cons_append, List.mem_cons, List.mem_append, List.append_assoc] at h
          rcases h with rfl | h | rfl | h | h
          · exact hsep
          · exact token_control c (((validName_iff k).mp g.1).2.2 c h)
          · decide
          · exact (ws_header g.2.2.1).2 c h
          · exact ih '&' (by decide) (fun e he => hg e (by simp [he])) h
      exact key u.headers '?' (by decide) hs.headers hc
  have hport0 : u.port ≠ some 0 := fun e => by have := (hs.port 0 e).1; omega
  have hpct : '%' ∉ u.host := host_not_mem hs.host '%' (not_host _ (by decide) (by decide))
  have hne := hostPort_ne_nil (port := u.port) hs.host
  unfold SipUri.parse
  rw [if_neg (by rw [hctl]; simp), if_neg (by omega)]
  have hsplit : splitOnce ':' u.buildRaw = some (if u.sips then "sips".toList else "sip".toList,
      userText u.user ++ renderHost u.host ++ portText u.port ++ renderParams u.params ++ renderUriHeaders '?' u.headers) := by
    rw [buildRaw_eq]
    exact splitOnce_append _ _ _ (by cases u.sips <;> decide)
  rw [hsplit]
  simp only
  have hsch : eqIgnoreCase (if u.sips = true then "sips".toList else "sip".toList) "sips".toList = u.sips := by
    cases u.sips <;> decide
  have hsch2 : (!u.sips && !eqIgnoreCase (if u.sips = true then "sips".toList else "sip".toList) "sip".toList) = false := by
    cases u.sips <;> decide
  rw [hsch, hsch2]
  simp only [Bool.false_eq_true, if_false]
  rw [hsq]
  simp only
  rw [splitChar_params _ hb _ hs.params]
  simp only
  have hpp := parse_params u.params [] hs.params (by simpa using hs.paramsSorted) (by simpa using hs.paramsFew)
  simp only [List.nil_append] at hpp
  rw [hpp]
  simp only
  rw [trim_of_trimmed _ (trimmed_base hs.host hu'), splitUserHost_render hs.host hu']
  simp only
  rw [if_neg (by simpa using hne), splitHostPort_render hs.host (fun p hp => (hs.port p hp).2)]
  simp only
  rw [percentDecode_plain _ hpct]
  simp only
  rw [hs.hostLower, if_neg (by rw [hs.host]; simp), if_neg hport0, hhp]

end Siphon.UriP
