import Verif.Core.Uri
import Verif.Core.HeadersProps
import Verif.Base.Strip
import Verif.Base.TextLemmas
/-!
# C60: telephone numbers and the DNS (`crates/sip-dns/src/enum_lookup.rs`)
-/
namespace Siphon.Dns.Enum
open Siphon.HdrSpec Siphon.TextSpec

/-! ## Model -/

/-- `[String]::join(".")` for the characters of a list. -/
def dotted : Str → Str
  | [] => []
  | [c] => [c]
  | c :: t => c :: '.' :: dotted t

/-- enum_lookup.rs 56-82 `enum_to_domain` -/
def enumToDomain (n : Str) : Option Str :=
  match stripPrefix ['+'] n with
  | none => none
  | some digits =>
    if digits.isEmpty then none
    else if !digits.all isDigit then none
    else some (dotted digits.reverse ++ ".e164.arpa".toList)

/-- enum_lookup.rs 105-111 `tel_uri_to_enum_domain` -/
def telToDomain (t : TelUri) : Option Str := if !t.isGlobal then none else enumToDomain t.number

/-- sip-core/src/tel_uri.rs 304-330 `TelUri::new` -/
def telNew (number : Str) (isGlobal : Bool) : Option TelUri :=
  if !validTelNumber number then none
  else if isGlobal && !(['+'].isPrefixOf number) then none
  else if !isGlobal && ['+'].isPrefixOf number then none
  else some { raw := "tel:".toList ++ number, number := number, isGlobal := isGlobal, phoneContext := none, parameters := [] }

/-- enum_lookup.rs 118-131 `EnumNaptrRecord` -/
structure Rec where
  order : Nat
  preference : Nat
  flags : Str
  service : Str
  regexp : Str
  replacement : Str
  deriving DecidableEq, Repr

/-- enum_lookup.rs 155-157 `is_sip_service` -/
def Rec.isSip (r : Rec) : Bool := eqIgnoreCase r.service "E2U+sip".toList

/-- enum_lookup.rs 160-162 `is_terminal` -/
def Rec.isTerminal (r : Rec) : Bool := r.flags.contains 'u' || r.flags.contains 'U'

/-- enum_lookup.rs 200-221: the parts between the delimiters; a backslash keeps the next character from being one. -/
def parts (d : Char) : Str → Bool → Str → List Str
  | [], _, cur => [cur]
  | c :: s, true, cur => parts d s false (cur ++ [c])
  | c :: s, false, cur =>
    if c = '\\' then parts d s true (cur ++ [c])
    else if c = d then cur :: parts d s false []
    else parts d s false (cur ++ [c])

/-- enum_lookup.rs 186-237 `extract_uri` -/
def Rec.extractUri (r : Rec) : Option Str :=
  match trim r.regexp with
  | [] => none
  | d :: s =>
    match parts d s false [] with
    | _ :: u :: _ => if u.isEmpty then none else some u
    | _ => none

/-- The comparison of `sort_enum_records` (enum_lookup.rs 253-263): not after. -/
def notAfter (a b : Rec) : Bool :=
  if a.order = b.order then decide (a.preference ≤ b.preference) else decide (a.order < b.order)

/-- Insertion before the records that come after it and those that are equal. -/
def insertRec (x : Rec) : List Rec → List Rec
  | [] => [x]
  | y :: ys => if notAfter x y then x :: y :: ys else y :: insertRec x ys

/-- `sort_by` is stable (enum_lookup.rs 252-264 `sort_enum_records`). -/
def sortRecs : List Rec → List Rec
  | [] => []
  | x :: xs => insertRec x (sortRecs xs)

/-- enum_lookup.rs 276-282 `filter_sip_records` -/
def sipRecs (rs : List Rec) : List Rec := rs.filter (fun r => r.isSip)

/-- enum_lookup.rs 296-307 `select_best_sip_record` -/
def selectBest (rs : List Rec) : Option Rec :=
  let s := sipRecs rs
  if s.isEmpty then none else (sortRecs s).head?

/-! ## Specification -/

/-- The characters of a text, each followed by a dot. -/
inductive EachDot : Str → Str → Prop
  | nil : EachDot [] []
  | cons {c s d} : EachDot s d → EachDot (c :: s) (c :: '.' :: d)

/-- `d` is the ENUM domain of the number `+ds`. -/
def Domain (ds d : Str) : Prop :=
  ds ≠ [] ∧ (∀ c ∈ ds, 48 ≤ c.toNat ∧ c.toNat ≤ 57) ∧ ∃ e, EachDot ds.reverse e ∧ d = e ++ "e164.arpa".toList

/-- Text without an unescaped delimiter: other characters, and pairs that begin with a backslash. -/
inductive Plain (d : Char) : Str → Prop
  | nil : Plain d []
  | char {c s} : c ≠ d → c ≠ '\\' → Plain d s → Plain d (c :: s)
  | esc {c s} : Plain d s → Plain d ('\\' :: c :: s)

/-- The record says: use the URI `u`. -/
def Says (r : Rec) (u : Str) : Prop :=
  u ≠ [] ∧ ∃ d p rest, d ≠ '\\' ∧ Strips isWs r.regexp (d :: (p ++ d :: (u ++ rest))) ∧ Plain d p ∧
    ((Plain d u ∧ (rest = [] ∨ ∃ x, rest = d :: x)) ∨ (rest = [] ∧ ∃ u', u = u' ++ ['\\'] ∧ Plain d u'))

/-- Strictly earlier by order, then preference. -/
def Earlier (a b : Rec) : Prop := a.order < b.order ∨ (a.order = b.order ∧ a.preference < b.preference)

/-- A SIP record. -/
def Sip (r : Rec) : Prop := SameName r.service "E2U+sip".toList

/-! ## Domains -/

theorem eachDot_iff : ∀ s d, EachDot s d ↔ d = s.flatMap (fun c => [c, '.'])
  | [], d => ⟨fun h => (by cases h; rfl), by rintro rfl; exact .nil⟩
  | c :: s, d => by
    constructor
    · intro h
      cases h with
      | cons h => rw [(eachDot_iff s _).mp h]; rfl
    · rintro rfl
      exact .cons ((eachDot_iff s _).mpr rfl)

theorem dotted_dot : ∀ s : Str, s ≠ [] → dotted s ++ ['.'] = s.flatMap (fun c => [c, '.'])
  | [], h => absurd rfl h
  | [c], _ => rfl
  | c :: d :: t, _ => by
    have := dotted_dot (d :: t) (by simp)
    simp only [dotted, List.cons_append, this, List.flatMap_cons, List.nil_append]

theorem strip_plus {n ds : Str} : stripPrefix ['+'] n = some ds ↔ n = '+' :: ds := by
  unfold stripPrefix
  cases n with
  | nil => simp
  | cons c s =>
    simp only [List.isPrefixOf, Bool.and_true, beq_iff_eq, List.length_singleton, List.drop_succ_cons, List.drop_zero]
    constructor
    · intro h
      split at h
      · rename_i hc; simp only [Option.some.injEq] at h; rw [← hc, h]
      · cases h
    · intro h
      simp only [List.cons.injEq] at h
      rw [if_pos h.1.symm, h.2]

/-- C60: A number has a domain exactly if it is a `+` and digits; the domain is the digits in reverse, each followed by a
dot, under `e164.arpa`. -/
theorem C60_domain (n d : Str) : enumToDomain n = some d ↔ ∃ ds, n = '+' :: ds ∧ Domain ds d := by
  have hd : ∀ ds : Str, ds.all isDigit = true ↔ ∀ c ∈ ds, 48 ≤ c.toNat ∧ c.toNat ≤ 57 := by
    intro ds
    rw [List.all_eq_true]
    exact ⟨fun h c hc => (isDigit_iff c).mp (h c hc), fun h c hc => (isDigit_iff c).mpr (h c hc)⟩
  have hj : ∀ ds : Str, ds ≠ [] → dotted ds.reverse ++ ".e164.arpa".toList =
      ds.reverse.flatMap (fun c => [c, '.']) ++ "e164.arpa".toList := by
    intro ds hne
    rw [← dotted_dot ds.reverse (by simpa using hne), List.append_assoc]
    rfl
  unfold enumToDomain
  constructor
  · intro h
    split at h
    · cases h
    · rename_i ds hs
      split at h
      · cases h
      · rename_i h1
        split at h
        · cases h
        · rename_i h2
          simp only [Option.some.injEq] at h
          subst h
          have hne : ds ≠ [] := by simpa using h1
          exact ⟨ds, strip_plus.mp hs, hne, (hd ds).mp (by simpa using h2), _, (eachDot_iff _ _).mpr rfl, hj ds hne⟩
  · rintro ⟨ds, rfl, hne, hdig, e, he, rfl⟩
    rw [strip_plus.mpr rfl]
    simp only
    rw [if_neg (by simpa using hne), (hd ds).mpr hdig, hj ds hne, (eachDot_iff _ _).mp he]
    rfl

theorem eachDot_inj : ∀ {a b d : Str}, EachDot a d → EachDot b d → a = b
  | [], _, _, .nil, h => by cases h; rfl
  | _ :: _, _, _, .cons h, h' => by
    cases h' with
    | cons h' => rw [eachDot_inj h h']

/-- C60: Different numbers have different domains. -/
theorem C60_injective (m n d : Str) (hm : enumToDomain m = some d) (hn : enumToDomain n = some d) : m = n := by
  obtain ⟨a, rfl, _, _, e, he, rfl⟩ := (C60_domain _ _).mp hm
  obtain ⟨b, rfl, _, _, e', he', h⟩ := (C60_domain _ _).mp hn
  have : e = e' := List.append_cancel_right h
  subst this
  have := eachDot_inj he he'
  rw [List.reverse_inj.mp this]

/-- The hypotheses of both theorems. -/
example : enumToDomain "+1202".toList = some "2.0.2.1.e164.arpa".toList := by decide

theorem stripPrefix_eq {p s r : Str} (h : stripPrefix p s = some r) : s = p ++ r := by
  unfold stripPrefix at h
  split at h
  · rename_i hp
    obtain ⟨t, rfl⟩ := List.isPrefixOf_iff_prefix.mp hp
    simp only [List.drop_left, Option.some.injEq] at h
    rw [h]
  · cases h

theorem digit_facts (c : Char) (h : isDigit c = true) : isVisualSep c = false ∧ isWs c = false ∧ c ≠ '+' := by
  refine ⟨?_, isDigit_not_ws c h, ?_⟩
  · have h1 : c ≠ '-' := by rintro rfl; exact absurd h (by decide)
    have h2 : c ≠ '.' := by rintro rfl; exact absurd h (by decide)
    have h3 : c ≠ ' ' := by rintro rfl; exact absurd h (by decide)
    have h4 : c ≠ '(' := by rintro rfl; exact absurd h (by decide)
    have h5 : c ≠ ')' := by rintro rfl; exact absurd h (by decide)
    simp [isVisualSep, h1, h2, h3, h4, h5]
  · rintro rfl; exact absurd h (by decide)

theorem filter_trim (b : Str) : (trim b).filter isDigit = b.filter isDigit := by
  obtain ⟨x, y, e, hx, hy, _⟩ := (strips_trim b (trim b)).mpr rfl
  have hz : ∀ l : Str, (∀ c ∈ l, isWs c = true) → l.filter isDigit = [] := by
    intro l hl
    refine List.filter_eq_nil_iff.mpr (fun c hc hd => ?_)
    have := (digit_facts c hd).2.1
    rw [hl c hc] at this
    cases this
  conv => rhs; rw [e]
  rw [List.filter_append, List.filter_append, hz x hx, hz y hy, List.nil_append, List.append_nil]

/-- C60: Every global `tel` URI that was read from a text has a domain, that of the digits before its parameters: visual
separators do not matter. -/
theorem C60_tel (s : Str) (t : TelUri) (h : TelUri.parse s = some t) (hg : t.isGlobal = true) :
    ∃ rest base ps d, s = "tel:".toList ++ rest ∧ Pieces ';' rest (base :: ps) ∧
      Domain (base.filter (fun c => decide (48 ≤ c.toNat ∧ c.toNat ≤ 57))) d ∧ telToDomain t = some d := by
  have hf : (fun c : Char => decide (48 ≤ c.toNat ∧ c.toNat ≤ 57)) = isDigit := by
    funext c
    rw [Bool.eq_iff_iff, decide_eq_true_eq, isDigit_iff]
  rw [hf]
  unfold TelUri.parse at h
  split at h
  · cases h
  · rename_i rest hrest
    split at h
    · cases h
    · rename_i b ps hps
      simp only at h
      split at h
      · cases h
      · rename_i hv
        split at h
        · cases h
        · split at h
          · cases h
          · split at h
            · cases h
            · simp only [Option.some.injEq] at h
              subst h
              simp only at hg
              have hv' : validTelNumber (trim b) = true := by
                simp only [Bool.or_eq_true, Bool.not_eq_true', not_or] at hv
                simpa using hv.2
              cases hb : trim b with
              | nil => rw [hb] at hg; simp at hg
              | cons c r =>
                rw [hb] at hg hv'
                simp only [List.head?_cons, beq_iff_eq, Option.some.injEq] at hg
                subst hg
                unfold validTelNumber at hv'
                simp only [Bool.and_eq_true] at hv'
                obtain ⟨_, hall, hany⟩ := hv'
                have hr : dropVisual r = r.filter isDigit := by
                  unfold dropVisual
                  refine List.filter_congr (fun c hc => ?_)
                  have := List.all_eq_true.mp hall c hc
                  cases hd : isDigit c with
                  | true => rw [(digit_facts c hd).1]; rfl
                  | false =>
                    rw [hd, Bool.false_or] at this
                    rw [this]; rfl
                have hbf : b.filter isDigit = r.filter isDigit := by
                  rw [← filter_trim, hb]
                  simp only [List.filter_cons, show isDigit '+' = false by decide, Bool.false_eq_true, if_false]
                have hnum : dropVisual ('+' :: r) = '+' :: r.filter isDigit := by
                  have : dropVisual ('+' :: r) = '+' :: dropVisual r := by
                    unfold dropVisual
                    simp only [List.filter_cons, show isVisualSep '+' = false by decide, Bool.not_false, if_true]
                  rw [this, hr]
                have hdom : Domain (b.filter isDigit) ((r.filter isDigit).reverse.flatMap (fun c => [c, '.']) ++ "e164.arpa".toList) := by
                  rw [hbf]
                  refine ⟨?_, ?_, _, (eachDot_iff _ _).mpr rfl, rfl⟩
                  · obtain ⟨c, hc, hd⟩ := List.any_eq_true.mp hany
                    exact List.ne_nil_of_mem (List.mem_filter.mpr ⟨hc, hd⟩)
                  · intro c hc
                    exact (isDigit_iff c).mp (List.mem_filter.mp hc).2
                refine ⟨rest, b, ps, _, stripPrefix_eq hrest, (pieces_iff _ _ _).mpr hps.symm, hdom, ?_⟩
                have hgl : (List.head? ('+' :: r) == some '+') = true := rfl
                unfold telToDomain
                simp only [hgl, Bool.not_true, Bool.false_eq_true, if_false, if_true]
                rw [hnum]
                rw [hbf] at hdom
                exact (C60_domain _ _).mpr ⟨_, rfl, hdom⟩

/-- The hypotheses of `C60_tel`. -/
example : (TelUri.parse "tel:+1-202-555;x=y".toList).map (fun t => (t.isGlobal, telToDomain t)) =
    some (true, some "5.5.5.2.0.2.1.e164.arpa".toList) := by decide +kernel

/-- C60: A `tel` URI that was not read from a text but made from its number keeps the separators and has no domain. -/
theorem C60_new_no_domain : ∃ t, telNew "+1-202-555".toList true = some t ∧ t.isGlobal = true ∧ telToDomain t = none ∧
    ∃ t', TelUri.parse "tel:+1-202-555".toList = some t' ∧ telToDomain t' = some "5.5.5.2.0.2.1.e164.arpa".toList :=
  ⟨⟨"tel:+1-202-555".toList, "+1-202-555".toList, true, none, []⟩, by decide +kernel, rfl, by decide +kernel,
    ⟨"tel:+1-202-555".toList, "+1202555".toList, true, none, []⟩, by decide +kernel, by decide +kernel⟩

/-! ## The URI of a record -/

theorem parts_plain {d : Char} (hd : d ≠ '\\') {p : Str} (hp : Plain d p) :
    ∀ (s cur : Str), parts d (p ++ d :: s) false cur = (cur ++ p) :: parts d s false [] := by
  induction hp with
  | nil => intro s cur; simp [parts, hd]
  | char h1 h2 _ ih => intro s cur; simp [parts, h1, h2, ih]
  | esc _ ih => intro s cur; simp [parts, ih]

theorem parts_end {d : Char} {p : Str} (hp : Plain d p) : ∀ cur : Str, parts d p false cur = [cur ++ p] := by
  induction hp with
  | nil => intro cur; simp [parts]
  | char h1 h2 _ ih => intro cur; simp [parts, h1, h2, ih]
  | esc _ ih => intro cur; simp [parts, ih]

theorem parts_lone {d : Char} {p : Str} (hp : Plain d p) : ∀ cur : Str,
    parts d (p ++ ['\\']) false cur = [cur ++ p ++ ['\\']] := by
  induction hp with
  | nil => intro cur; simp [parts]
  | char h1 h2 _ ih => intro cur; simp [parts, h1, h2, ih]
  | esc _ ih => intro cur; simp [parts, ih]

theorem parts_backslash : ∀ (s : Str) (e : Bool) (cur : Str), (parts '\\' s e cur).length = 1
  | [], e, cur => by cases e <;> rfl
  | c :: s, true, cur => by simp only [parts]; exact parts_backslash s _ _
  | c :: s, false, cur => by
    simp only [parts]
    split
    · exact parts_backslash s _ _
    · exact parts_backslash s _ _

theorem cut (d : Char) : ∀ (n : Nat) (s : Str), s.length ≤ n →
    Plain d s ∨ (∃ p, s = p ++ ['\\'] ∧ Plain d p) ∨ (∃ p r, s = p ++ d :: r ∧ Plain d p)
  | _, [], _ => Or.inl .nil
  | 0, _ :: _, h => by simp at h
  | n + 1, c :: s, h => by
    by_cases h1 : c = '\\'
    · subst h1
      cases s with
      | nil => exact Or.inr (Or.inl ⟨[], rfl, .nil⟩)
      | cons c s =>
        rcases cut d n s (by simp at h; omega) with hh | ⟨p, rfl, hh⟩ | ⟨p, r, rfl, hh⟩
        · exact Or.inl (.esc hh)
        · exact Or.inr (Or.inl ⟨'\\' :: c :: p, rfl, .esc hh⟩)
        · exact Or.inr (Or.inr ⟨'\\' :: c :: p, r, rfl, .esc hh⟩)
    · by_cases h2 : c = d
      · subst h2
        exact Or.inr (Or.inr ⟨[], s, rfl, .nil⟩)
      · rcases cut d n s (by simp at h; omega) with hh | ⟨p, rfl, hh⟩ | ⟨p, r, rfl, hh⟩
        · exact Or.inl (.char h2 h1 hh)
        · exact Or.inr (Or.inl ⟨c :: p, rfl, .char h2 h1 hh⟩)
        · exact Or.inr (Or.inr ⟨c :: p, r, rfl, .char h2 h1 hh⟩)

/-- C60: The URI that is taken from a record is the non-empty text between the second and the third delimiter, or from the
second to the end; an escaped delimiter does not count. -/
theorem C60_uri (r : Rec) (u : Str) : r.extractUri = some u ↔ Says r u := by
  unfold Rec.extractUri Says
  have htrim : ∀ t, Strips isWs r.regexp t ↔ t = trim r.regexp := strips_trim r.regexp
  simp only [htrim]
  cases ht : trim r.regexp with
  | nil =>
    constructor
    · intro h; cases h
    · rintro ⟨_, d, p, rest, _, h, _⟩; cases h
  | cons d s =>
    simp only
    by_cases hd : d = '\\'
    · subst hd
      have hl := parts_backslash s false []
      constructor
      · intro h
        split at h
        · rename_i hp; rw [hp] at hl; simp at hl
        · cases h
      · rintro ⟨_, d, p, rest, hn, h, _⟩
        simp only [List.cons.injEq] at h
        exact absurd h.1 hn
    · constructor
      · intro h
        rcases cut d s.length s (Nat.le_refl _) with hp | ⟨p, rfl, hp⟩ | ⟨p, r', rfl, hp⟩
        · rw [parts_end hp] at h; cases h
        · rw [parts_lone hp] at h; cases h
        · rw [parts_plain hd hp] at h
          rcases cut d r'.length r' (Nat.le_refl _) with hq | ⟨q, rfl, hq⟩ | ⟨q, r2, rfl, hq⟩
          · rw [parts_end hq] at h
            simp only [List.nil_append] at h
            split at h
            · cases h
            · rename_i hne
              simp only [Option.some.injEq] at h
              subst h
              exact ⟨by simpa using hne, d, p, [], hd, by simp, hp, Or.inl ⟨hq, Or.inl rfl⟩⟩
          · rw [parts_lone hq] at h
            simp only [List.nil_append] at h
            split at h
            · cases h
            · simp only [Option.some.injEq] at h
              subst h
              exact ⟨by simp, d, p, [], hd, by simp, hp, Or.inr ⟨rfl, q, rfl, hq⟩⟩
          · rw [parts_plain hd hq] at h
            simp only [List.nil_append] at h
            split at h
            · cases h
            · rename_i hne
              simp only [Option.some.injEq] at h
              subst h
              exact ⟨by simpa using hne, d, p, d :: r2, hd, rfl, hp, Or.inl ⟨hq, Or.inr ⟨r2, rfl⟩⟩⟩
      · rintro ⟨hne, d', p, rest, hn, h, hp, hu⟩
        simp only [List.cons.injEq] at h
        obtain ⟨rfl, rfl⟩ := h
        rw [parts_plain hn hp]
        have hne' : u.isEmpty = false := by cases u with | nil => exact absurd rfl hne | cons _ _ => rfl
        rcases hu with ⟨hq, rfl | ⟨x, rfl⟩⟩ | ⟨rfl, u', rfl, hq⟩
        · rw [List.append_nil, parts_end hq]
          simp only [List.nil_append, hne', Bool.false_eq_true, if_false]
        · rw [parts_plain hn hq]
          simp only [List.nil_append, hne', Bool.false_eq_true, if_false]
        · rw [List.append_nil, parts_lone hq]
          simp only [List.nil_append, hne', Bool.false_eq_true, if_false]

/-- The usual form. -/
example : (⟨100, 10, "u".toList, "E2U+sip".toList, "!^.*$!sip:user@example.com!".toList, []⟩ : Rec).extractUri =
    some "sip:user@example.com".toList := by decide +kernel

/-- C60: The expression is not applied to the number: what should be replaced by a part of the number stays as it is. -/
theorem C60_not_applied : (⟨100, 10, "u".toList, "E2U+sip".toList, "!^\\+1(.*)$!sip:\\1@example.com!".toList, []⟩ : Rec).extractUri =
    some "sip:\\1@example.com".toList := by decide +kernel

/-! ## The best record -/

theorem isSip_iff (r : Rec) : r.isSip = true ↔ Sip r := (sameName_iff _ _).symm

theorem notAfter_iff (a b : Rec) : notAfter a b = true ↔ ¬ Earlier b a := by
  unfold notAfter Earlier
  split <;> simp only [decide_eq_true_eq] <;> omega

theorem insertRec_perm (x : Rec) : ∀ l, (insertRec x l).Perm (x :: l)
  | [] => List.Perm.refl _
  | y :: l => by
    simp only [insertRec]
    split
    · exact List.Perm.refl _
    · exact ((insertRec_perm x l).cons y).trans (List.Perm.swap x y l)

theorem sortRecs_perm : ∀ l, (sortRecs l).Perm l
  | [] => List.Perm.refl _
  | x :: l => (insertRec_perm x _).trans ((sortRecs_perm l).cons x)

theorem insertRec_sorted (x : Rec) : ∀ l, l.Pairwise (fun a b => ¬ Earlier b a) →
    (insertRec x l).Pairwise (fun a b => ¬ Earlier b a)
  | [], _ => List.pairwise_singleton _ _
  | y :: l, h => by
    obtain ⟨h1, h2⟩ := List.pairwise_cons.mp h
    simp only [insertRec]
    split
    · rename_i hxy
      rw [notAfter_iff] at hxy
      refine List.pairwise_cons.mpr ⟨?_, h⟩
      intro z hz
      rcases List.mem_cons.mp hz with rfl | hz
      · exact hxy
      · have := h1 z hz
        unfold Earlier at *
        omega
    · rename_i hxy
      rw [notAfter_iff] at hxy
      refine List.pairwise_cons.mpr ⟨?_, insertRec_sorted x l h2⟩
      intro z hz
      rcases List.mem_cons.mp ((insertRec_perm x l).mem_iff.mp hz) with rfl | hz
      · unfold Earlier at *
        omega
      · exact h1 z hz

theorem sortRecs_sorted : ∀ l, (sortRecs l).Pairwise (fun a b => ¬ Earlier b a)
  | [] => List.Pairwise.nil
  | x :: l => insertRec_sorted x _ (sortRecs_sorted l)

theorem insertRec_filter (k : Nat × Nat) (x : Rec) : ∀ l, (insertRec x l).filter (fun r => decide ((r.order, r.preference) = k)) =
    (x :: l).filter (fun r => decide ((r.order, r.preference) = k))
  | [] => rfl
  | y :: l => by
    simp only [insertRec]
    split
    · rfl
    · rename_i h
      rw [notAfter_iff] at h
      have ih := insertRec_filter k x l
      simp only [List.filter_cons] at ih ⊢
      by_cases hx : (x.order, x.preference) = k
      · have hy : (y.order, y.preference) ≠ k := by
          rintro rfl
          simp only [Prod.mk.injEq] at hx
          unfold Earlier at h
          omega
        simp only [hx, hy, decide_true, decide_false, if_true, Bool.false_eq_true, if_false] at ih ⊢
        exact ih
      · simp only [hx, decide_false, Bool.false_eq_true, if_false] at ih ⊢
        rw [ih]

/-- C60: Sorting gives the same records, lower order first, then lower preference; records that are equal in both stay in
the order they came in. -/
theorem C60_sort (l : List Rec) : (sortRecs l).Perm l ∧ (sortRecs l).Pairwise (fun a b => ¬ Earlier b a) ∧
    ∀ k, (sortRecs l).filter (fun r => decide ((r.order, r.preference) = k)) =
      l.filter (fun r => decide ((r.order, r.preference) = k)) := by
  refine ⟨sortRecs_perm l, sortRecs_sorted l, ?_⟩
  intro k
  induction l with
  | nil => rfl
  | cons x l ih =>
    simp only [sortRecs]
    rw [insertRec_filter]
    simp only [List.filter_cons, ih]

theorem sortRecs_head : ∀ (l : List Rec) (b : Rec), (sortRecs l).head? = some b ↔
    ∃ pre post, l = pre ++ b :: post ∧ (∀ r ∈ pre, Earlier b r) ∧ ∀ r ∈ post, ¬ Earlier r b
  | [], b => by simp [sortRecs]
  | x :: l, b => by
    simp only [sortRecs]
    have ih := sortRecs_head l
    cases hs : sortRecs l with
    | nil =>
      have : l = [] := by have := (sortRecs_perm l).length_eq; rw [hs] at this; exact List.length_eq_zero_iff.mp this.symm
      subst this
      simp only [insertRec, List.head?_cons, Option.some.injEq]
      constructor
      · rintro rfl; exact ⟨[], [], rfl, by simp, by simp⟩
      · rintro ⟨pre, post, e, _, _⟩
        cases pre with
        | nil => simp at e; exact e.1
        | cons _ pre => simp at e
    | cons y ys =>
      have hy := (ih y).mp (by rw [hs]; rfl)
      obtain ⟨pre, post, rfl, h1, h2⟩ := hy
      simp only [insertRec]
      by_cases hxy : notAfter x y = true
      · rw [if_pos hxy]
        rw [notAfter_iff] at hxy
        simp only [List.head?_cons, Option.some.injEq]
        constructor
        · rintro rfl
          refine ⟨[], pre ++ y :: post, rfl, by simp, ?_⟩
          intro r hr
          rcases List.mem_append.mp hr with hr | hr
          · have := h1 r hr; unfold Earlier at *; omega
          · rcases List.mem_cons.mp hr with rfl | hr
            · exact hxy
            · have := h2 r hr; unfold Earlier at *; omega
        · rintro ⟨pre', post', e, g1, g2⟩
          cases pre' with
          | nil => simp at e; exact e.1
          | cons z pre' =>
            simp only [List.cons_append, List.cons.injEq] at e
            obtain ⟨rfl, e⟩ := e
            exfalso
            have a1 := g1 x List.mem_cons_self
            have hb : b ∈ pre ++ y :: post := by rw [e]; simp
            rcases List.mem_append.mp hb with hb | hb
            · have := h1 b hb; unfold Earlier at *; omega
            · rcases List.mem_cons.mp hb with rfl | hb
              · exact hxy a1
              · have := h2 b hb; unfold Earlier at *; omega
      · rw [if_neg hxy]
        rw [notAfter_iff] at hxy
        have hxy' : Earlier y x := by unfold Earlier at *; omega
        simp only [List.head?_cons, Option.some.injEq]
        constructor
        · rintro rfl
          refine ⟨x :: pre, post, rfl, ?_, h2⟩
          intro r hr
          rcases List.mem_cons.mp hr with rfl | hr
          · exact hxy'
          · exact h1 r hr
        · rintro ⟨pre', post', e, g1, g2⟩
          cases pre' with
          | nil =>
            simp only [List.nil_append, List.cons.injEq] at e
            obtain ⟨rfl, rfl⟩ := e
            exact absurd hxy' (g2 y (by simp))
          | cons z pre' =>
            simp only [List.cons_append, List.cons.injEq] at e
            obtain ⟨rfl, e⟩ := e
            have : (sortRecs (pre ++ y :: post)).head? = some b :=
              (ih b).mpr ⟨pre', post', e, fun r hr => g1 r (List.mem_cons_of_mem _ hr), g2⟩
            rw [hs] at this
            simpa using this

theorem filter_split {P : Rec → Bool} : ∀ (l a c : List Rec) (b : Rec), l.filter P = a ++ b :: c →
    ∃ pre post, l = pre ++ b :: post ∧ pre.filter P = a ∧ post.filter P = c ∧ P b = true
  | [], a, c, b, h => by simp at h
  | x :: l, a, c, b, h => by
    by_cases hx : P x = true
    · rw [List.filter_cons_of_pos hx] at h
      cases a with
      | nil =>
        simp only [List.nil_append, List.cons.injEq] at h
        obtain ⟨rfl, h⟩ := h
        exact ⟨[], l, rfl, rfl, h, hx⟩
      | cons y a =>
        simp only [List.cons_append, List.cons.injEq] at h
        obtain ⟨rfl, h⟩ := h
        obtain ⟨pre, post, rfl, h1, h2, h3⟩ := filter_split l a c b h
        exact ⟨x :: pre, post, rfl, by rw [List.filter_cons_of_pos hx, h1], h2, h3⟩
    · rw [List.filter_cons_of_neg hx] at h
      obtain ⟨pre, post, rfl, h1, h2, h3⟩ := filter_split l a c b h
      exact ⟨x :: pre, post, rfl, by rw [List.filter_cons_of_neg hx, h1], h2, h3⟩

/-- C60: The best record is the SIP record of the lowest order and preference, and the first of these in the answer. -/
theorem C60_best (rs : List Rec) (b : Rec) : selectBest rs = some b ↔
    ∃ pre post, rs = pre ++ b :: post ∧ Sip b ∧ (∀ r ∈ pre, Sip r → Earlier b r) ∧ (∀ r ∈ post, Sip r → ¬ Earlier r b) := by
  have hs : selectBest rs = (sortRecs (sipRecs rs)).head? := by
    unfold selectBest
    simp only
    split
    · rename_i h
      rw [List.isEmpty_iff.mp h]
      rfl
    · rfl
  rw [hs, sortRecs_head]
  constructor
  · rintro ⟨a, c, e, h1, h2⟩
    obtain ⟨pre, post, rfl, e1, e2, e3⟩ := filter_split rs a c b e
    subst e1 e2
    exact ⟨pre, post, rfl, (isSip_iff b).mp e3, fun r hr hsip => h1 r (List.mem_filter.mpr ⟨hr, (isSip_iff r).mpr hsip⟩),
      fun r hr hsip => h2 r (List.mem_filter.mpr ⟨hr, (isSip_iff r).mpr hsip⟩)⟩
  · rintro ⟨pre, post, rfl, hb, h1, h2⟩
    refine ⟨sipRecs pre, sipRecs post, ?_, ?_, ?_⟩
    · unfold sipRecs
      rw [List.filter_append, List.filter_cons_of_pos ((isSip_iff b).mpr hb)]
    · intro r hr
      obtain ⟨hr, hp⟩ := List.mem_filter.mp hr
      exact h1 r hr ((isSip_iff r).mp hp)
    · intro r hr
      obtain ⟨hr, hp⟩ := List.mem_filter.mp hr
      exact h2 r hr ((isSip_iff r).mp hp)

/-- C60: Whether a record is terminal does not matter for the choice: one that is not, and has no URI, can be the best. -/
theorem C60_not_terminal : ∃ rs b, selectBest rs = some b ∧ b.isTerminal = false ∧ b.extractUri = none ∧
    ∃ r ∈ rs, Sip r ∧ r.isTerminal = true ∧ r.extractUri = some "sip:a@b".toList :=
  ⟨[⟨1, 1, [], "e2u+SIP".toList, [], "x.arpa".toList⟩, ⟨2, 1, "u".toList, "E2U+sip".toList, "!^.*$!sip:a@b!".toList, []⟩],
    ⟨1, 1, [], "e2u+SIP".toList, [], "x.arpa".toList⟩, by decide +kernel, by decide +kernel, by decide +kernel,
    ⟨2, 1, "u".toList, "E2U+sip".toList, "!^.*$!sip:a@b!".toList, []⟩, by simp, (sameName_iff _ _).mpr (by decide),
    by decide, by decide +kernel⟩

end Siphon.Dns.Enum
