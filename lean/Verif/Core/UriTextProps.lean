import Verif.Core.UriTextLemmas
import Verif.Auth.LemmasText
/-!
# C130: what the text of a URI says

`UriText.SipUriText` describes which texts are SIP URIs and what their parts stand for; the reader agrees with it on every text.
-/
namespace Siphon.UriText
open Siphon.TextSpec Siphon.HdrSpec Siphon.UriP
open Siphon.Auth (splitOnce_some_iff)

/-! ## Characters -/

theorem control_spec (c : Char) : Control c ↔ isControl c = true := (control_iff c).symm

theorem alnum_spec (c : Char) : Alnum c ↔ isAlnum c = true := by
  rw [isAlnum_iff]
  unfold Alnum
  omega

theorem name_iff (n : Str) : Name n ↔ validUriParamName n = true := by
  rw [validName_iff]
  have e : "-.!%*_+`'~".toList = ['-', '.', '!', '%', '*', '_', '+', '`', '\'', '~'] := by decide +kernel
  unfold Name
  rw [e]
  have : ∀ c : Char, (Alnum c ∨ c ∈ ['-', '.', '!', '%', '*', '_', '+', '`', '\'', '~']) ↔ isUriTokenChar c = true := by
    intro c
    unfold isUriTokenChar
    rw [alnum_spec, Bool.or_eq_true, List.contains_iff_mem]
  simp only [this]

theorem value_iff (v : Str) : (utf8Len v ≤ 256 ∧ ∀ c ∈ v, ¬ Control c) ↔ validUriParamValue v = true := by
  unfold validUriParamValue MAX_URI_PARAM_VALUE_LENGTH
  simp only [Bool.and_eq_true, decide_eq_true_eq, Bool.not_eq_true', List.any_eq_false, control_spec]

theorem hvalue_iff (v : Str) : (utf8Len v ≤ 512 ∧ ∀ c ∈ v, ¬ Control c ∧ isWs c = false) ↔ validUriHeaderValue v = true := by
  unfold validUriHeaderValue MAX_URI_HEADER_VALUE_LENGTH
  simp only [Bool.and_eq_true, decide_eq_true_eq, Bool.not_eq_true', List.any_eq_false, control_spec, Bool.or_eq_true, not_or,
    Bool.not_eq_true]

theorem user_iff (x : Str) : User x ↔ validUser x = true := by
  have e : "@;?/#[]".toList = userDelims := by decide +kernel
  unfold User validUser MAX_USER_LENGTH
  rw [e]
  simp only [Bool.and_eq_true, decide_eq_true_eq, Bool.not_eq_true', List.any_eq_false, control_spec, List.isEmpty_eq_false_iff,
    List.contains_iff_mem]
  constructor
  · rintro ⟨h1, h2, h3⟩; exact ⟨⟨⟨h1, h2⟩, fun c hc => (h3 c hc).1⟩, fun c hc => (h3 c hc).2⟩
  · rintro ⟨⟨⟨h1, h2⟩, h3⟩, h4⟩; exact ⟨h1, h2, fun c hc => ⟨h3 c hc, h4 c hc⟩⟩

theorem pieces_colon {b : Bool} {s : Str} {n : Nat} (h : Ipv6Spec.Pieces b s n) (hn : 3 ≤ n) : ':' ∈ s := by
  cases h with
  | one _ => omega
  | quad _ => omega
  | cons _ _ => simp

theorem ipv6_colon {h : Str} (hi : Ipv6Spec.Ipv6Text h) : ':' ∈ h := by
  rcases hi with ⟨b, hb⟩ | ⟨u, v, b, n, m, rfl, _⟩
  · exact pieces_colon hb (by omega)
  · simp

theorem host_iff (h : Str) : Host h ↔ validHost h = true := by
  have e : "._-".toList = ['.', '_', '-'] := by decide +kernel
  have hch : ∀ c : Char, (Alnum c ∨ c ∈ "._-".toList) ↔ isHostChar c = true := by
    intro c
    rw [e, alnum_spec]
    unfold isHostChar
    simp only [List.mem_cons, List.not_mem_nil, or_false, Bool.or_eq_true, beq_iff_eq]
    constructor
    · rintro (h | h | h | h) <;> simp [h]
    · rintro (((h | h) | h) | h) <;> simp [h]
  have hbody : (Ipv6Spec.Ipv6Text h ∨ ∀ c ∈ h, Alnum c ∨ c ∈ "._-".toList) ↔
      (if h.contains ':' then isIpv6 h else h.all isHostChar) = true := by
    simp only [hch, Dns.ipv6_iff]
    by_cases hc : ':' ∈ h
    · rw [if_pos (List.contains_iff_mem.mpr hc)]
      constructor
      · rintro (h1 | h1)
        · exact h1
        · exact absurd (h1 ':' hc) (by decide)
      · exact Or.inl
    · rw [if_neg (fun h' => hc (List.contains_iff_mem.mp h')), List.all_eq_true]
      constructor
      · rintro (h1 | h1)
        · exact absurd (ipv6_colon ((Dns.ipv6_iff h).mpr h1)) hc
        · exact h1
      · exact Or.inr
  unfold Host
  rw [hbody]
  constructor
  · rintro ⟨h1, h2, h3⟩
    have hchars : ∀ c ∈ h, HostCh c := by
      intro c hcm
      split at h3
      · exact ipv6_chars h3 c hcm
      · exact Or.inl (List.all_eq_true.mp h3 c hcm)
    unfold validHost MAX_HOST_LENGTH
    rw [Bool.and_eq_true, Bool.and_eq_true, Bool.and_eq_true]
    refine ⟨⟨⟨?_, by simpa using h2⟩, ?_⟩, h3⟩
    · cases h with
      | nil => exact absurd rfl h1
      | cons _ _ => rfl
    · simp only [Bool.not_eq_true', List.any_eq_false]
      intro c hcm
      rw [hostCh_control (hchars c hcm)]
      decide
  · intro hv
    unfold validHost MAX_HOST_LENGTH at hv
    simp only [Bool.and_eq_true, decide_eq_true_eq, Bool.not_eq_true', List.isEmpty_eq_false_iff] at hv
    exact ⟨hv.1.1.1, hv.1.1.2, hv.2⟩

/-! ## Parameters and headers -/

/-- One turn of the loop over the parameters. -/
def paramStep (p : Str) : Option (Option (Str × Option Str)) :=
  if (trim p).isEmpty then some none
  else
    match splitOnce '=' (trim p) with
    | some (k, v) =>
      if !validUriParamName (trim k) || !validUriParamValue (trim v) then none else some (some (lower (trim k), some (trim v)))
    | none => if !validUriParamName (trim p) then none else some (some (lower (trim p), none))

theorem params_collect : ∀ (ps : List Str) (acc : BMap (Option Str)), parseUriParams ps acc = collect paramStep 50 ps acc
  | [], _ => rfl
  | p :: ps, acc => by
    have ih := params_collect ps
    rw [parseUriParams, collect]
    unfold MAX_URI_PARAMS
    by_cases h0 : acc.length ≥ 50
    · rw [if_pos h0, if_pos h0]
    · rw [if_neg h0, if_neg h0, paramStep]
      simp only
      by_cases h1 : (trim p).isEmpty = true
      · rw [if_pos h1, if_pos h1]; exact ih acc
      · rw [if_neg h1, if_neg h1]
        cases splitOnce '=' (trim p) with
        | none =>
          simp only
          by_cases h2 : (!validUriParamName (trim p)) = true
          · rw [if_pos h2, if_pos h2]
          · rw [if_neg h2, if_neg h2]; exact ih _
        | some kv =>
          simp only
          by_cases h2 : (!validUriParamName (trim kv.1) || !validUriParamValue (trim kv.2)) = true
          · rw [if_pos h2, if_pos h2]
          · rw [if_neg h2, if_neg h2]; exact ih _

theorem paramPiece_iff (p : Str) (o : Option (Str × Option Str)) : ParamPiece p o ↔ paramStep p = some o := by
  unfold paramStep
  constructor
  · intro h
    cases h with
    | blank h1 =>
      rw [← (strips_trim _ _).mp h1]
      rfl
    | @flag n h1 h2 h3 =>
      rw [← (strips_trim _ _).mp h1]
      have hne : n.isEmpty = false := by
        cases n with
        | nil => exact absurd rfl h3.1
        | cons _ _ => rfl
      rw [hne, (splitOnce_none_iff '=' n).mpr h2]
      simp only [Bool.false_eq_true, if_false]
      rw [(name_iff n).mp h3]
      rfl
    | @pair k' v' k v h1 h2 h3 h4 h5 h6 h7 =>
      rw [← (strips_trim _ _).mp h1]
      have hne : (k' ++ '=' :: v').isEmpty = false := by cases k' <;> rfl
      rw [hne, (splitOnce_some_iff '=' _ k' v').mpr ⟨rfl, h2⟩]
      simp only [Bool.false_eq_true, if_false]
      rw [← (strips_trim _ _).mp h3, ← (strips_trim _ _).mp h4, (name_iff k).mp h5, (value_iff v).mp ⟨h6, h7⟩]
      rfl
  · intro h
    split at h
    · rename_i hb
      cases h
      exact .blank ((strips_trim _ _).mpr (List.isEmpty_iff.mp hb).symm)
    · split at h
      · rename_i k v hs
        obtain ⟨e1, e2⟩ := (splitOnce_some_iff _ _ _ _).mp hs
        split at h
        · cases h
        · rename_i hv
          cases h
          simp only [Bool.or_eq_true, Bool.not_eq_true', not_or, Bool.not_eq_false] at hv
          obtain ⟨h6, h7⟩ := (value_iff _).mpr hv.2
          exact .pair ((strips_trim _ _).mpr e1.symm) e2 ((strips_trim _ _).mpr rfl) ((strips_trim _ _).mpr rfl)
            ((name_iff _).mpr hv.1) h6 h7
      · rename_i hs
        split at h
        · cases h
        · rename_i hv
          cases h
          simp only [Bool.not_eq_true', Bool.not_eq_false] at hv
          exact .flag ((strips_trim _ _).mpr rfl) ((splitOnce_none_iff _ _).mp hs) ((name_iff _).mpr hv)

theorem params_iff (ps : List Str) (m : BMap (Option Str)) : parseUriParams ps [] = some m ↔ Table ParamPiece 50 ps m := by
  rw [params_collect]
  exact table_iff paramPiece_iff 50 ps [] [] m table_start

/-- One turn of the loop over the headers. -/
def headerStep (p : Str) : Option (Option (Str × Str)) :=
  if p.isEmpty then some none
  else
    match splitOnce '=' p with
    | some (k, v) =>
      if !validUriParamName (trim k) || !validUriHeaderValue (trim v) then none else some (some (lower (trim k), trim v))
    | none => some none

theorem headers_collect : ∀ (ps : List Str) (acc : BMap Str), parseUriHeaders ps acc = collect headerStep 50 ps acc
  | [], _ => rfl
  | p :: ps, acc => by
    have ih := headers_collect ps
    rw [parseUriHeaders, collect]
    unfold MAX_URI_HEADERS
    by_cases h0 : acc.length ≥ 50
    · rw [if_pos h0, if_pos h0]
    · rw [if_neg h0, if_neg h0, headerStep]
      by_cases h1 : p.isEmpty = true
      · rw [if_pos h1, if_pos h1]; exact ih acc
      · rw [if_neg h1, if_neg h1]
        cases splitOnce '=' p with
        | none => exact ih acc
        | some kv =>
          simp only
          by_cases h2 : (!validUriParamName (trim kv.1) || !validUriHeaderValue (trim kv.2)) = true
          · rw [if_pos h2, if_pos h2]
          · rw [if_neg h2, if_neg h2]; exact ih _

theorem headerPiece_iff (p : Str) (o : Option (Str × Str)) : HeaderPiece p o ↔ headerStep p = some o := by
  unfold headerStep
  constructor
  · intro h
    cases h with
    | skip h1 =>
      rw [(splitOnce_none_iff '=' p).mpr h1]
      split <;> rfl
    | @pair k' v' k v h2 h3 h4 h5 h6 h7 =>
      have hne : (k' ++ '=' :: v').isEmpty = false := by cases k' <;> rfl
      rw [hne, (splitOnce_some_iff '=' _ k' v').mpr ⟨rfl, h2⟩]
      simp only [Bool.false_eq_true, if_false]
      rw [← (strips_trim _ _).mp h3, ← (strips_trim _ _).mp h4, (name_iff k).mp h5, (hvalue_iff v).mp ⟨h6, h7⟩]
      rfl
  · intro h
    split at h
    · rename_i hb
      cases h
      rw [List.isEmpty_iff.mp hb]
      exact .skip (by simp)
    · split at h
      · rename_i k v hs
        obtain ⟨e1, e2⟩ := (splitOnce_some_iff _ _ _ _).mp hs
        split at h
        · cases h
        · rename_i hv
          cases h
          simp only [Bool.or_eq_true, Bool.not_eq_true', not_or, Bool.not_eq_false] at hv
          obtain ⟨h6, h7⟩ := (hvalue_iff _).mpr hv.2
          rw [e1]
          exact .pair e2 ((strips_trim _ _).mpr rfl) ((strips_trim _ _).mpr rfl) ((name_iff _).mpr hv.1) h6 h7
      · rename_i hs
        cases h
        exact .skip ((splitOnce_none_iff _ _).mp hs)

theorem headers_iff (ps : List Str) (m : BMap Str) : parseUriHeaders ps [] = some m ↔ Table HeaderPiece 50 ps m := by
  rw [headers_collect]
  exact table_iff headerPiece_iff 50 ps [] [] m table_start

/-! ## User, host, port -/

theorem trim_trim (s : Str) : trim (trim s) = trim s := trim_of_trimmed _ (trimmed_trim s)

theorem authority_iff (base : Str) (user : Option Str) (hp : Str) :
    Authority base user hp ↔ splitUserHost (trim base) = some (user, hp) := by
  unfold splitUserHost Authority
  constructor
  · rintro (⟨a, a', b, x, h1, h2, h3, h4, h5, rfl, h7⟩ | ⟨rfl, h1, h2⟩)
    · rw [← (strips_trim _ _).mp h1, (splitOnce_some_iff '@' _ a b).mpr ⟨rfl, h2⟩]
      simp only
      rw [← (strips_trim _ _).mp h3, (unescapes_iff _ _).mp h4]
      simp only
      rw [(user_iff x).mp h5, ← (strips_trim _ _).mp h7]
      rfl
    · have e := (strips_trim _ _).mp h1
      rw [e] at h2
      rw [(splitOnce_none_iff '@' _).mpr h2, trim_trim, ← e]
  · intro h
    split at h
    · rename_i u b hs
      obtain ⟨e1, e2⟩ := (splitOnce_some_iff _ _ _ _).mp hs
      split at h
      · cases h
      · rename_i x hx
        split at h
        · rename_i hv
          cases h
          exact Or.inl ⟨u, trim u, b, x, (strips_trim _ _).mpr e1.symm, e2, (strips_trim _ _).mpr rfl, (unescapes_iff _ _).mpr hx,
            (user_iff x).mpr hv, rfl, (strips_trim _ _).mpr rfl⟩
        · cases h
    · rename_i hs
      cases h
      rw [trim_trim]
      exact Or.inr ⟨rfl, (strips_trim _ _).mpr rfl, (splitOnce_none_iff _ _).mp hs⟩

theorem splitLast_some {c : Char} {s a b : Str} (h : splitLast c s = some (a, b)) : s = a ++ c :: b ∧ c ∉ b := by
  unfold splitLast at h
  simp only [Option.map_eq_some_iff, Prod.mk.injEq] at h
  obtain ⟨⟨x, y⟩, h1, rfl, rfl⟩ := h
  obtain ⟨e1, e2⟩ := (splitOnce_some_iff _ _ _ _).mp h1
  refine ⟨?_, by simpa using e2⟩
  have := congrArg List.reverse e1
  rw [List.reverse_reverse] at this
  rw [this]
  simp

theorem splitLast_none_iff {c : Char} {s : Str} : splitLast c s = none ↔ c ∉ s := by
  constructor
  · intro h
    unfold splitLast at h
    simp only [Option.map_eq_none_iff] at h
    simpa using (splitOnce_none_iff _ _).mp h
  · exact splitLast_none c s

theorem count_one {c : Char} {a b : Str} (hb : c ∉ b) : (a ++ c :: b).count c > 1 ↔ c ∈ a := by
  rw [List.count_append, List.count_cons_self, List.count_eq_zero_of_not_mem hb]
  rw [← List.count_pos_iff]
  omega

theorem decDigits_all {p : Str} {n : Nat} (h : DecDigits p n) : p ≠ [] ∧ p.all isDigit = true := by
  refine ⟨decDigits_ne h, ?_⟩
  rw [List.all_eq_true]
  exact fun c hc => (decDigits_val h).2 c hc

theorem all_decDigits (p : Str) (h1 : p ≠ []) (h2 : ∀ c ∈ p, isDigit c = true) : ∃ n, DecDigits p n := by
  generalize hk : p.length = k
  induction k generalizing p with
  | zero => exact absurd (List.length_eq_zero_iff.mp hk) h1
  | succ k ih =>
    rcases List.eq_nil_or_concat p with rfl | ⟨q, c, rfl⟩
    · exact absurd rfl h1
    · have hc := (isDigit_iff c).mp (h2 c (by simp))
      by_cases hq : q = []
      · subst hq
        exact ⟨_, .one hc.1 hc.2⟩
      · obtain ⟨n, hn⟩ := ih q hq (fun c hc => h2 c (by simp [hc])) (by simpa using hk)
        exact ⟨_, by rw [List.concat_eq_append]; exact .snoc hn hc.1 hc.2⟩

theorem decimal_digits {p : Str} {n : Nat} (h : Decimal p n) (hd : ∀ c ∈ p, isDigit c = true) : DecDigits p n := by
  rcases h with h | ⟨r, rfl, _⟩
  · exact h
  · exact absurd (hd '+' (by simp)) (by decide)

theorem hostPort_iff (s host : Str) (port : Option Nat) : HostPort s host port ↔ splitHostPort s = some (host, port) := by
  constructor
  · intro h
    cases h with
    | @bracketed _ r h1 h2 =>
      simp only [splitHostPort]
      rw [(splitOnce_some_iff ']' _ host r).mpr ⟨rfl, h1⟩]
      simp only
      cases e : stripPrefix [':'] r with
      | none => rfl
      | some p =>
        rw [Dns.stripColon] at e
        rw [e] at h2
        exact absurd rfl h2
    | @bracketedPort _ p n h1 h2 h3 =>
      simp only [splitHostPort]
      rw [(splitOnce_some_iff ']' _ host (':' :: p)).mpr ⟨rfl, h1⟩]
      simp only
      rw [Dns.stripColon.mpr rfl]
      simp only
      rw [(parseDec_iff 65535 p n).mpr ⟨h2, h3⟩]
    | plain h1 h2 =>
      unfold splitHostPort
      split
      · exact absurd rfl h1
      · rw [splitLast_none_iff.mpr h2]
    | @plainPort _ p n h1 h2 h3 h4 =>
      obtain ⟨h5, h6⟩ := decDigits_all h3
      have hcp : ':' ∉ p := fun hm => by
        have := List.all_eq_true.mp h6 ':' hm
        exact absurd this (by decide)
      unfold splitHostPort
      split
      · rename_i e; rw [e] at h1; exact absurd rfl h1
      · rw [splitLast_append ':' host p hcp]
        simp only
        rw [if_neg (by rw [count_one hcp]; exact h2), if_pos, (parseDec_iff 65535 p n).mpr ⟨Or.inl h3, h4⟩]
        rw [h6, Bool.and_true]
        cases p with
        | nil => exact absurd rfl h5
        | cons _ _ => rfl
    | @oddPort h p h1 h2 h3 h4 =>
      unfold splitHostPort
      split
      · rename_i e; rw [e] at h1; exact absurd rfl h1
      · rw [splitLast_append ':' h p h3]
        simp only
        rw [if_neg (by rw [count_one h3]; exact h2), if_neg]
        intro hd
        simp only [Bool.and_eq_true, Bool.not_eq_true', List.isEmpty_eq_false_iff, List.all_eq_true] at hd
        obtain ⟨n, hn⟩ := all_decDigits p hd.1 hd.2
        exact h4 n hn
  · intro h
    unfold splitHostPort at h
    split at h
    · rename_i t
      split at h
      · cases h
      · rename_i ht r hs
        obtain ⟨rfl, e2⟩ := (splitOnce_some_iff _ _ _ _).mp hs
        split at h
        · rename_i p hp
          rw [Dns.stripColon] at hp
          subst hp
          split at h
          · rename_i n hn
            cases h
            obtain ⟨h1, h2⟩ := (parseDec_iff _ _ _).mp hn
            exact .bracketedPort e2 h1 h2
          · cases h
        · rename_i hp
          cases h
          refine .bracketed e2 ?_
          intro hr
          cases r with
          | nil => cases hr
          | cons c r =>
            simp only [List.head?_cons, Option.some.injEq] at hr
            subst hr
            rw [Dns.stripColon.mpr rfl] at hp
            cases hp
    · rename_i hnb
      have hnb' : s.head? ≠ some '[' := by
        intro hh
        cases s with
        | nil => cases hh
        | cons c t =>
          simp only [List.head?_cons, Option.some.injEq] at hh
          subst hh
          exact hnb t rfl
      split at h
      · rename_i h' p hs
        obtain ⟨rfl, e2⟩ := splitLast_some hs
        split at h
        · cases h
        · rename_i hc
          have hc' : ':' ∉ h' := fun hm => hc ((count_one e2).mpr hm)
          split at h
          · rename_i hd
            simp only [Bool.and_eq_true, Bool.not_eq_true', List.isEmpty_eq_false_iff, List.all_eq_true] at hd
            split at h
            · rename_i n hn
              cases h
              obtain ⟨h1, h2⟩ := (parseDec_iff _ _ _).mp hn
              exact .plainPort hnb' hc' (decimal_digits h1 hd.2) h2
            · cases h
          · rename_i hd
            cases h
            refine .oddPort hnb' hc' e2 ?_
            intro n hn
            obtain ⟨h5, h6⟩ := decDigits_all hn
            apply hd
            rw [h6, Bool.and_true]
            cases p with
            | nil => exact absurd rfl h5
            | cons _ _ => rfl
      · rename_i hs
        cases h
        exact .plain hnb' (splitLast_none_iff.mp hs)

/-! ## The whole text -/

/-- A text is read as the SIP URI `u` exactly if it says `u`. -/
theorem C130_sip (t : Str) (u : SipUri) : SipUri.parse t = some u ↔ SipUriText t u := by
  constructor
  · intro h
    unfold SipUri.parse at h
    split at h
    · cases h
    · rename_i hctl
      split at h
      · cases h
      · rename_i hlen
        split at h
        · cases h
        · rename_i scheme rest hs
          obtain ⟨rfl, _⟩ := (splitOnce_some_iff _ _ _ _).mp hs
          simp only at h
          split at h
          · cases h
          · rename_i hscheme
            split at h
            · cases h
            · rename_i base ps hps
              split at h
              · cases h
              · rename_i params hparams
                split at h
                · cases h
                · rename_i user hp hua
                  split at h
                  · cases h
                  · rename_i hhp
                    split at h
                    · cases h
                    · rename_i host port hhost
                      split at h
                      · cases h
                      · rename_i d hd
                        split at h
                        · cases h
                        · rename_i hvh
                          split at h
                          · cases h
                          · rename_i hport
                            split at h
                            · cases h
                            · rename_i headers hheaders
                              simp only [Option.some.injEq] at h
                              subst h
                              have hq : ∃ addr query, rest = addr ++ query ∧ '?' ∉ addr ∧ (splitQuery rest).1 = addr ∧
                                  (query = [] ∧ (splitQuery rest).2 = none ∨ ∃ h, query = '?' :: h ∧ (splitQuery rest).2 = some h) := by
                                unfold splitQuery
                                split
                                · rename_i a b hab
                                  obtain ⟨e1, e2⟩ := (splitOnce_some_iff _ _ _ _).mp hab
                                  exact ⟨a, '?' :: b, e1, e2, rfl, Or.inr ⟨b, rfl, rfl⟩⟩
                                · rename_i hab
                                  exact ⟨rest, [], by simp, (splitOnce_none_iff _ _).mp hab, rfl, Or.inl ⟨rfl, rfl⟩⟩
                              obtain ⟨addr, query, rfl, hq1, hq2, hq3⟩ := hq
                              rw [hq2] at hps
                              refine ⟨rfl, ?_, by unfold MAX_URI_LENGTH at hlen; omega, scheme, addr, query, base, ps, hp, host, d,
                                rfl, ?_, hq1, (pieces_iff _ _ _).mpr hps.symm, (params_iff _ _).mp hparams, ?_,
                                (authority_iff _ _ _).mpr hua, ?_, (hostPort_iff _ _ _).mpr hhost, hport, (unescapes_iff _ _).mpr hd, rfl,
                                (host_iff _).mpr (by simpa using hvh)⟩
                              · intro c hc hcc
                                apply hctl
                                rw [List.any_eq_true]
                                exact ⟨c, hc, (control_spec c).mp hcc⟩
                              · simp only [sameName_iff]
                                cases e1 : eqIgnoreCase scheme "sips".toList with
                                | true => exact Or.inl ⟨rfl, rfl⟩
                                | false =>
                                  rw [e1] at hscheme
                                  exact Or.inr ⟨by simpa using hscheme, rfl⟩
                              · rcases hq3 with ⟨hq3, hq4⟩ | ⟨h, hq3, hq4⟩
                                · rw [hq4] at hheaders
                                  simp only [headerPieces, parseUriHeaders, Option.some.injEq] at hheaders
                                  exact Or.inl ⟨hq3, hheaders.symm⟩
                                · rw [hq4] at hheaders
                                  exact Or.inr ⟨h, splitChar '&' h, hq3, (pieces_iff _ _ _).mpr rfl, (headers_iff _ _).mp hheaders⟩
                              · intro e
                                rw [e] at hhp
                                exact hhp rfl
  · rintro ⟨hraw, hctl, hlen, scheme, addr, query, base, ps, hp, host, d, ht, hscheme, hq1, hps, hparams, hheaders, hua, hne, hhost,
      hport, hd, hlow, hvh⟩
    have hsc : ':' ∉ scheme := by
      intro hm
      have key : ∀ l : Str, SameName scheme l → (∀ c ∈ l, c ≠ ':') → False := by
        intro l hl hcl
        have e : lower scheme = lower l := by
          have := (sameName_iff _ _).mp hl
          unfold eqIgnoreCase at this
          exact beq_iff_eq.mp this
        have h1 : (':' : Char) ∈ lower scheme := List.mem_map.mpr ⟨':', hm, by decide⟩
        rw [e] at h1
        obtain ⟨c, hc, hc'⟩ := List.mem_map.mp h1
        apply hcl c hc
        rw [char_eq_iff, toLower_toNat] at hc'
        rw [char_eq_iff]
        have h58 : (':' : Char).toNat = 58 := rfl
        rw [h58] at hc' ⊢
        split at hc' <;> omega
      rcases hscheme with ⟨h, _⟩ | ⟨h, _⟩
      · exact key _ h (by decide)
      · exact key _ h (by decide)
    have hq2 : (splitQuery (addr ++ query)).1 = addr ∧
        (query = [] ∧ (splitQuery (addr ++ query)).2 = none ∨ ∃ h, query = '?' :: h ∧ (splitQuery (addr ++ query)).2 = some h) := by
      unfold splitQuery
      rcases hheaders with ⟨rfl, _⟩ | ⟨h, hs, rfl, _⟩
      · rw [List.append_nil, (splitOnce_none_iff _ _).mpr hq1]
        exact ⟨rfl, Or.inl ⟨rfl, rfl⟩⟩
      · rw [(splitOnce_some_iff '?' _ addr h).mpr ⟨rfl, hq1⟩]
        exact ⟨rfl, Or.inr ⟨h, rfl, rfl⟩⟩
    have hhd : parseUriHeaders (headerPieces (splitQuery (addr ++ query)).2) [] = some u.headers := by
      rcases hq2.2 with ⟨e, h2⟩ | ⟨h, e, h2⟩
      · rw [h2]
        rcases hheaders with ⟨_, h3⟩ | ⟨h, hs, e', _⟩
        · rw [h3]; rfl
        · rw [e] at e'; cases e'
      · rw [h2]
        rcases hheaders with ⟨e', _⟩ | ⟨h', hs, e', h3, h4⟩
        · rw [e] at e'; cases e'
        · rw [e] at e'
          cases e'
          simp only [headerPieces]
          rw [← (pieces_iff _ _ _).mp h3]
          exact (headers_iff _ _).mpr h4
    have hsips : eqIgnoreCase scheme "sips".toList = u.sips := by
      rcases hscheme with ⟨h, e⟩ | ⟨h, e⟩
      · rw [e]; exact (sameName_iff _ _).mp h
      · rw [e]
        have := (sameName_iff _ _).mp h
        unfold eqIgnoreCase at this ⊢
        rw [beq_iff_eq] at this
        rw [this]
        decide
    have hok : (!u.sips && !eqIgnoreCase scheme "sip".toList) = false := by
      rcases hscheme with ⟨h, e⟩ | ⟨h, e⟩
      · rw [e]; rfl
      · rw [(sameName_iff _ _).mp h]; simp
    unfold SipUri.parse
    rw [if_neg, if_neg (by unfold MAX_URI_LENGTH; omega), (splitOnce_some_iff ':' _ scheme (addr ++ query)).mpr ⟨ht, hsc⟩]
    · simp only
      rw [hsips, hok, hq2.1, ← (pieces_iff _ _ _).mp hps]
      simp only [Bool.false_eq_true, if_false]
      rw [(params_iff _ _).mpr hparams]
      simp only
      rw [(authority_iff _ _ _).mp hua]
      simp only
      rw [if_neg (by rw [List.isEmpty_iff]; exact hne), (hostPort_iff _ _ _).mp hhost]
      simp only
      rw [(unescapes_iff _ _).mp hd]
      simp only
      have hl : lower d = u.host := hlow.symm
      rw [hl, (host_iff _).mp hvh, if_neg (by decide), if_neg hport, hhd]
      simp only [Option.some.injEq]
      obtain ⟨r, s, us, ho, po, pa, he⟩ := u
      simp only at hraw
      rw [hraw]
    · rw [List.any_eq_true]
      rintro ⟨c, hc, hcc⟩
      exact hctl c hc ((control_spec c).mpr hcc)

end Siphon.UriText
