import Verif.Reason.Spec
import Verif.Base.Strip
import Verif.Base.TextLemmas
import Verif.Base.CharLemmas
import Verif.Core.UriTextLemmas
import Verif.Core.HeadersProps
import Verif.Core.UriProps
import Verif.Core.ViaLemmas
import Verif.Offer.Lemmas
import Verif.Registrar.LemmasText
import Verif.Dialog.Lemmas
set_option linter.unusedSimpArgs false
set_option linter.unusedVariables false
/-!
# C138: the Reason header
-/
namespace Siphon.Reason
open TextSpec HdrSpec Spec

theorem validProtocol_iff (s : Str) : validProtocol s = true ↔ Plain 32 s := by
  unfold validProtocol Plain MAX_PROTOCOL_LENGTH
  simp only [Bool.and_eq_true, Bool.not_eq_true', List.isEmpty_eq_false_iff, decide_eq_false_iff_not, Nat.not_lt, gt_iff_lt,
    List.any_eq_false, Bool.not_eq_true, and_assoc]

theorem validName_iff (s : Str) : validName s = true ↔ Plain 64 s := by
  unfold validName Plain MAX_PARAM_NAME_LENGTH
  simp only [Bool.and_eq_true, Bool.not_eq_true', List.isEmpty_eq_false_iff, decide_eq_false_iff_not, Nat.not_lt, gt_iff_lt,
    List.any_eq_false, Bool.not_eq_true, and_assoc]

theorem validValue_iff (s : Str) : validValue s = true ↔ GoodValue s := by
  unfold validValue GoodValue MAX_PARAM_VALUE_LENGTH
  simp only [Bool.and_eq_true, Bool.not_eq_true', decide_eq_false_iff_not, Nat.not_lt, gt_iff_lt,
    List.any_eq_false, Bool.not_eq_true]

theorem canonical_iff (p q : Str) : Canonical p q ↔ canonical p = q := by
  have e : ∀ (w : String) (l : String), lower w.toList = l.toList → (SameName p w.toList ↔ lower p = l.toList) := by
    intro w l h
    rw [sameName_iff]
    unfold eqIgnoreCase
    rw [h, beq_iff_eq]
  have e1 := e "SIP" "sip" (by decide)
  have e2 := e "Q.850" "q.850" (by decide)
  have e3 := e "SDP" "sdp" (by decide)
  unfold canonical
  constructor
  · intro h
    cases h with
    | sip h => rw [if_pos (e1.1 h)]
    | q850 h =>
      have := e2.1 h
      rw [if_neg (by rw [this]; decide), if_pos this]
    | sdp h =>
      have := e3.1 h
      rw [if_neg (by rw [this]; decide), if_neg (by rw [this]; decide), if_pos this]
    | other h1 h2 h3 => rw [if_neg (fun h => h1 (e1.2 h)), if_neg (fun h => h2 (e2.2 h)), if_neg (fun h => h3 (e3.2 h))]
  · intro h
    split at h
    · subst h; exact .sip (e1.2 (by assumption))
    · split at h
      · subst h; exact .q850 (e2.2 (by assumption))
      · split at h
        · subst h; exact .sdp (e3.2 (by assumption))
        · subst h
          exact .other (fun h => by rename_i a b c; exact a (e1.1 h)) (fun h => by rename_i a b c; exact b (e2.1 h))
            (fun h => by rename_i a b c; exact c (e3.1 h))

theorem unescape_iff (s t : Str) : (unescape false s = some t ↔ Unescapes s t) ∧
    (unescape true s = some t ↔ ∃ c s' t', s = c :: s' ∧ t = c :: t' ∧ Unescapes s' t') := by
  induction s generalizing t with
  | nil =>
    refine ⟨⟨fun h => by cases h; exact .nil, fun h => by cases h; rfl⟩, ⟨nofun, ?_⟩⟩
    rintro ⟨c, s', t', h, _⟩
    cases h
  | cons c s ih =>
    constructor
    · rw [unescape]
      by_cases hb : c = '\\'
      · rw [if_pos hb, (ih t).2]
        subst hb
        constructor
        · rintro ⟨d, s', t', rfl, rfl, h⟩; exact .escaped h
        · intro h
          cases h with
          | plain h _ _ => exact absurd rfl h
          | escaped h => exact ⟨_, _, _, rfl, rfl, h⟩
      · rw [if_neg hb]
        cases hc : isAsciiControl c with
        | true =>
          rw [if_pos rfl]
          refine ⟨nofun, fun h => ?_⟩
          cases h with
          | plain _ h _ => rw [hc] at h; cases h
          | escaped _ => exact absurd rfl hb
        | false =>
          rw [if_neg (by simp), Option.map_eq_some_iff]
          constructor
          · rintro ⟨u, hu, rfl⟩; exact .plain hb hc ((ih u).1.1 hu)
          · intro h
            cases h with
            | plain _ _ h => exact ⟨_, (ih _).1.2 h, rfl⟩
            | escaped _ => exact absurd rfl hb
    · rw [unescape, Option.map_eq_some_iff]
      constructor
      · rintro ⟨u, hu, rfl⟩; exact ⟨c, s, u, rfl, rfl, (ih u).1.1 hu⟩
      · rintro ⟨d, s', t', h, rfl, h'⟩
        cases h
        exact ⟨t', (ih _).1.2 h', rfl⟩

theorem quotes_iff (r : Str) : (r.head? = some '"' ∧ r.getLast? = some '"' ∧ utf8Len r ≥ 2) ↔ ∃ q, r = '"' :: q ++ ['"'] := by
  constructor
  · rintro ⟨h1, h2, h3⟩
    cases r with
    | nil => cases h1
    | cons c t =>
      cases h1
      rcases List.eq_nil_or_concat t with rfl | ⟨q, z, rfl⟩
      · exact absurd h3 (by decide)
      · refine ⟨q, ?_⟩
        rw [List.concat_eq_append] at h2 ⊢
        have e : '"' :: (q ++ [z]) = ('"' :: q) ++ [z] := rfl
        rw [e, List.getLast?_append] at h2
        cases h2
        rfl
  · rintro ⟨q, rfl⟩
    refine ⟨rfl, by rw [List.getLast?_append]; rfl, ?_⟩
    rw [Dlg.utf8Len_append]
    have : utf8Len ('"' :: q) = 1 + utf8Len q := by simp [utf8Len]; rfl
    have h1 : utf8Len ['"'] = 1 := by decide
    omega

theorem value_iff (r t : Str) : Value r t ↔ unquote r = some t := by
  unfold unquote
  constructor
  · intro h
    cases h with
    | @quoted q _ h =>
      rw [if_pos ((quotes_iff _).2 ⟨q, rfl⟩)]
      simp only [List.cons_append, List.drop_succ_cons, List.drop_zero, List.dropLast_concat]
      exact (unescape_iff q t).1.2 h
    | plain h =>
      rw [if_neg (fun hq => by obtain ⟨q, hq⟩ := (quotes_iff _).1 hq; exact h q hq)]
  · intro h
    split at h
    · rename_i hq
      obtain ⟨q, rfl⟩ := (quotes_iff _).1 hq
      simp only [List.cons_append, List.drop_succ_cons, List.drop_zero, List.dropLast_concat] at h
      exact .quoted ((unescape_iff q t).1.1 h)
    · rename_i hq
      cases h
      exact .plain (fun q e => hq ((quotes_iff _).2 ⟨q, e⟩))

theorem item_iff (p : Str) (x : Str × Option Str) : Item p x ↔ readParam p = some x := by
  unfold readParam
  constructor
  · intro h
    cases h with
    | flag h1 h2 =>
      rw [(Registrar.splitOnce_none_iff '=' p).2 h1]
      simp only
      rw [(validName_iff _).2 h2]
      rfl
    | @value k w n r t h1 h2 h3 h4 h5 h6 =>
      rw [splitOnce_append '=' k w h1]
      simp only
      rw [strips_trim] at h2 h3
      subst h2; subst h3
      rw [(value_iff _ _).1 h4]
      simp only
      rw [(validName_iff _).2 h5, (validValue_iff _).2 h6]
      rfl
  · intro h
    split at h
    · rename_i n v hs
      obtain ⟨rfl, hn⟩ := (Offer.splitOnce_some_iff _ _ _ _).1 hs
      split at h
      · cases h
      · rename_i w hw
        split at h
        · cases h
        · split at h
          · cases h
          · cases h
            rename_i a b
            simp only [Bool.not_eq_true', Bool.not_eq_false] at a b
            exact .value hn ((strips_trim _ _).2 rfl) ((strips_trim _ _).2 rfl) ((value_iff _ _).2 hw) ((validName_iff _).1 a)
              ((validValue_iff _).1 b)
    · rename_i hs
      split at h
      · cases h
      · cases h
        rename_i a
        simp only [Bool.not_eq_true', Bool.not_eq_false] at a
        exact .flag ((Registrar.splitOnce_none_iff '=' p).1 hs) ((validName_iff _).1 a)

theorem has_iff (m : BMap (Option Str)) (k : Str) : m.has k = true ↔ ∃ v, (k, v) ∈ m := by
  unfold BMap.has
  rw [List.any_eq_true]
  constructor
  · rintro ⟨⟨a, b⟩, h, e⟩
    rw [beq_iff_eq] at e
    simp only at e
    subst e
    exact ⟨b, h⟩
  · rintro ⟨v, h⟩
    exact ⟨_, h, by simp⟩

/-- Adding entries with new names, one by one. -/
def addAll : List (Str × Option Str) → BMap (Option Str) → Option (BMap (Option Str))
  | [], m => some m
  | (k, v) :: t, m => if m.has k then none else addAll t (m.insert k v)

theorem addAll_iff (l : List (Str × Option Str)) (m m' : BMap (Option Str)) (hs : UriP.Sorted m) :
    addAll l m = some m' ↔ (l.map (·.1)).Nodup ∧ (∀ x ∈ l, ∀ v, (x.1, v) ∉ m) ∧ UriP.Sorted m' ∧ ∀ x, x ∈ m' ↔ x ∈ m ∨ x ∈ l := by
  induction l generalizing m with
  | nil =>
    simp only [addAll, List.map_nil, List.nodup_nil, List.not_mem_nil, or_false, true_and, false_implies, implies_true]
    constructor
    · intro h; cases h; exact ⟨hs, fun _ => Iff.rfl⟩
    · rintro ⟨h1, h2⟩
      rw [UriText.sorted_ext hs h1 (fun x => (h2 x).symm)]
  | cons e t ih =>
    obtain ⟨k, v⟩ := e
    rw [addAll]
    cases hk : m.has k with
    | true =>
      obtain ⟨w, hw⟩ := (has_iff m k).1 hk
      rw [if_pos rfl]
      exact ⟨nofun, fun h => absurd hw (h.2.1 (k, v) (by simp) w)⟩
    | false =>
      have hk' : ∀ w, (k, w) ∉ m := fun w hw => by rw [(has_iff m k).2 ⟨w, hw⟩] at hk; cases hk
      rw [if_neg (by simp), ih _ (UriP.sorted_insert k v hs)]
      have mem : ∀ x : Str × Option Str, x ∈ m.insert k v ↔ x = (k, v) ∨ x ∈ m := by
        rintro ⟨a, b⟩
        rw [UriP.mem_insert_iff hs]
        constructor
        · rintro (⟨rfl, rfl⟩ | ⟨_, h⟩)
          · exact .inl rfl
          · exact .inr h
        · rintro (h | h)
          · cases h; exact .inl ⟨rfl, rfl⟩
          · exact .inr ⟨fun e => hk' b (e ▸ h), h⟩
      simp only [List.map_cons, List.nodup_cons, List.mem_map, List.mem_cons, mem]
      constructor
      · rintro ⟨h1, h2, h3, h4⟩
        refine ⟨⟨?_, h1⟩, ?_, h3, ?_⟩
        · rintro ⟨⟨a, b⟩, h5, h6⟩
          simp only at h6
          subst h6
          exact h2 _ h5 v (.inl rfl)
        · rintro x (rfl | hx) w hw
          · exact hk' w hw
          · exact h2 x hx w (.inr hw)
        · intro x
          rw [h4 x]
          constructor
          · rintro ((h | h) | h)
            · exact .inr (.inl h)
            · exact .inl h
            · exact .inr (.inr h)
          · rintro (h | h | h)
            · exact .inl (.inr h)
            · exact .inl (.inl h)
            · exact .inr h
      · rintro ⟨⟨h0, h1⟩, h2, h3, h4⟩
        refine ⟨h1, ?_, h3, ?_⟩
        · rintro x hx w (h | h)
          · have : x.1 = k := by rw [Prod.ext_iff] at h; exact h.1
            exact h0 ⟨x, hx, this⟩
          · exact h2 x (.inr hx) w h
        · intro x
          rw [h4 x]
          constructor
          · rintro (h | h | h)
            · exact .inl (.inr h)
            · exact .inl (.inl h)
            · exact .inr h
          · rintro ((h | h) | h)
            · exact .inr (.inl h)
            · exact .inl h
            · exact .inr (.inr h)

theorem readParams_iff (ps : List Str) (m m' : BMap (Option Str)) (hl : m.length ≤ 20) :
    readParams ps m = some m' ↔ ∃ l, Items ps l ∧ m.length + l.length ≤ 20 ∧ addAll l m = some m' := by
  induction ps generalizing m with
  | nil =>
    simp only [readParams]
    constructor
    · intro h; cases h; exact ⟨[], .nil, by simpa using hl, rfl⟩
    · rintro ⟨l, h1, _, h3⟩
      cases h1
      exact h3
  | cons p ps ih =>
    rw [readParams]
    cases he : trim p with
    | nil =>
      have hp : Strips isWs p [] := (strips_trim _ _).2 he.symm
      simp only [List.isEmpty_nil, if_true]
      rw [ih m hl]
      constructor
      · rintro ⟨l, h1, h2⟩; exact ⟨l, .blank hp h1, h2⟩
      · rintro ⟨l, h1, h2⟩
        cases h1 with
        | blank _ h => exact ⟨l, h, h2⟩
        | item h hne _ _ =>
          rw [strips_trim, he] at h
          exact absurd h hne
    | cons c t =>
      have hp : Strips isWs p (c :: t) := (strips_trim _ _).2 he.symm
      have uniq : ∀ q, Strips isWs p q → q = c :: t := fun q hq => by rw [strips_trim, he] at hq; exact hq
      simp only [List.isEmpty_cons, Bool.false_eq_true, if_false]
      have h20 : MAX_PARAMS = 20 := rfl
      by_cases hm : m.length ≥ MAX_PARAMS
      · rw [if_pos hm]
        refine ⟨nofun, ?_⟩
        rintro ⟨l, h1, h2, _⟩
        cases h1 with
        | blank h _ => exact absurd (uniq _ h) (by simp)
        | item _ _ _ _ => simp only [List.length_cons] at h2; omega
      · rw [if_neg hm]
        cases hr : readParam (c :: t) with
        | none =>
          refine ⟨nofun, ?_⟩
          rintro ⟨l, h1, h2, _⟩
          cases h1 with
          | blank h _ => exact absurd (uniq _ h) (by simp)
          | item h _ hi _ =>
            have := uniq _ h
            subst this
            rw [(item_iff _ _).1 hi] at hr
            cases hr
        | some x =>
          obtain ⟨k, v⟩ := x
          simp only
          cases hk : m.has k with
          | true =>
            rw [if_pos rfl]
            refine ⟨nofun, ?_⟩
            rintro ⟨l, h1, h2, h3⟩
            cases h1 with
            | blank h _ => exact absurd (uniq _ h) (by simp)
            | item h _ hi _ =>
              have := uniq _ h
              subst this
              rw [(item_iff _ _).1 hi] at hr
              cases hr
              rw [addAll, hk, if_pos rfl] at h3
              cases h3
          | false =>
            rw [if_neg (by simp)]
            have hlen := Siphon.Via.blength_insert m k v hk
            rw [ih _ (by omega)]
            constructor
            · rintro ⟨l, h1, h2, h3⟩
              refine ⟨(k, v) :: l, .item hp (by simp) ((item_iff _ _).2 hr) h1, by simp only [List.length_cons]; omega, ?_⟩
              rw [addAll, hk, if_neg (by simp)]
              exact h3
            · rintro ⟨l, h1, h2, h3⟩
              cases h1 with
              | blank h _ => exact absurd (uniq _ h) (by simp)
              | @item _ q x' _ l' h _ hi hrest =>
                have := uniq _ h
                subst this
                rw [(item_iff _ _).1 hi] at hr
                cases hr
                rw [addAll, hk, if_neg (by simp)] at h3
                refine ⟨l', hrest, ?_, h3⟩
                simp only [List.length_cons] at h2
                omega

theorem sorted_nil : UriP.Sorted ([] : BMap (Option Str)) := (UriText.sorted_iff _).2 List.Pairwise.nil

theorem addAll_table (l m : List (Str × Option Str)) : addAll l [] = some m ↔ TableOf l m := by
  rw [addAll_iff l [] m sorted_nil]
  unfold TableOf
  simp only [List.not_mem_nil, not_false_eq_true, implies_true, true_and, false_or, UriText.sorted_iff]
  exact ⟨fun ⟨a, b, c⟩ => ⟨b, a, c⟩, fun ⟨a, b, c⟩ => ⟨b, a, c⟩⟩

/-- **C138.** A Reason value is read exactly as described: a protocol and parameters between semicolons, the names in any case and none
twice, values as they are or in quotes. -/
theorem C138_parse (v : Str) (h : Header) : parse v = some h ↔ Reads v h := by
  unfold parse MAX_PARSE_INPUT
  by_cases hl : utf8Len v > 1024
  · rw [if_pos hl]
    exact ⟨nofun, fun r => by have := r.short; omega⟩
  · rw [if_neg hl]
    cases hs : splitChar ';' v with
    | nil => exact absurd hs (splitChar_ne_nil _ _)
    | cons p ps =>
      have hp : ∀ qs, Pieces ';' v qs → qs = p :: ps := fun qs h => by rw [pieces_iff, hs] at h; exact h
      simp only
      constructor
      · intro hh
        split at hh
        · cases hh
        · rename_i hv
          simp only [Bool.not_eq_true', Bool.not_eq_false] at hv
          rw [Option.map_eq_some_iff] at hh
          obtain ⟨m, hm, rfl⟩ := hh
          obtain ⟨l, h1, h2, h3⟩ := (readParams_iff ps [] m (by simp)).1 hm
          exact ⟨by omega, p, trim p, ps, l, (pieces_iff _ _ _).2 hs.symm, (strips_trim _ _).2 rfl, (validProtocol_iff _).1 hv,
            (canonical_iff _ _).2 rfl, h1, by simpa using h2, (addAll_table _ _).1 h3⟩
      · rintro ⟨_, p', proto, ps', l, h1, h2, h3, h4, h5, h6, h7⟩
        have := hp _ h1
        cases this
        rw [strips_trim] at h2
        subst h2
        rw [(validProtocol_iff _).2 h3]
        rw [(readParams_iff ps [] h.params (by simp)).2 ⟨l, h5, by simpa using h6, (addAll_table _ _).2 h7⟩]
        simp only [Bool.not_true, Bool.false_eq_true, if_false, Option.map_some]
        rw [(canonical_iff _ _).1 h4]

/-- **C138.** Of a message the first Reason header is read. -/
theorem C138_header (hs : Headers) (h : Header) : parseHeader hs = some h ↔ ∃ v, Dlg.Spec.First hs "Reason" v ∧ Reads v h := by
  unfold parseHeader
  constructor
  · intro hh
    split at hh
    · cases hh
    · rename_i v hv
      exact ⟨v, (Dlg.first_iff _ _ _).2 hv, (C138_parse _ _).1 hh⟩
  · rintro ⟨v, hv, hr⟩
    rw [(Dlg.first_iff _ _ _).1 hv]
    exact (C138_parse _ _).2 hr

theorem get_iff (m : BMap (Option Str)) (hs : UriP.Sorted m) (k : Str) (v : Option Str) : m.get k = some v ↔ (k, v) ∈ m := by
  unfold BMap.get
  rw [Option.map_eq_some_iff]
  constructor
  · rintro ⟨⟨a, b⟩, h, rfl⟩
    have := List.find?_some h
    rw [beq_iff_eq] at this
    simp only at this
    subst this
    exact List.mem_of_find?_eq_some h
  · intro h
    cases hf : m.find? (fun e => e.1 == k) with
    | none =>
      rw [List.find?_eq_none] at hf
      exact absurd (by simp) (hf _ h)
    | some x =>
      obtain ⟨a, b⟩ := x
      have h1 := List.find?_some hf
      rw [beq_iff_eq] at h1
      simp only at h1
      subst h1
      have h2 := List.mem_of_find?_eq_some hf
      refine ⟨_, rfl, ?_⟩
      have hp := (UriText.sorted_iff m).1 hs
      by_cases e : b = v
      · exact e
      · exfalso
        rcases List.getElem_of_mem h2 with ⟨i, hi, ei⟩
        rcases List.getElem_of_mem h with ⟨j, hj, ej⟩
        rcases Nat.lt_trichotomy i j with hij | hij | hij
        · have := List.pairwise_iff_getElem.1 hp i j hi hj hij
          rw [ei, ej] at this
          exact List.lt_irrefl _ this
        · subst hij
          rw [ei] at ej
          cases ej
          exact e rfl
        · have := List.pairwise_iff_getElem.1 hp j i hj hi hij
          rw [ei, ej] at this
          exact List.lt_irrefl _ this

/-- **C138.** What is asked of a header that was read: a parameter by its name in any case, the cause as a number of 16 bits, the text. -/
theorem C138_get (v : Str) (h : Header) (hr : parse v = some h) :
    (∀ n x, h.getParam n = some x ↔ ∃ k, (k, x) ∈ h.params ∧ SameName n k) ∧
    (∀ c, h.causeCode = some c ↔ ∃ t, ("cause".toList, some t) ∈ h.params ∧ Decimal t c ∧ c < 65536) ∧
    (∀ t, h.text = some t ↔ ("text".toList, some t) ∈ h.params) := by
  obtain ⟨_, p, proto, ps, l, hp, _, _, _, hi, hlen, ht⟩ := (C138_parse v h).1 hr
  clear hp hlen
  have hs := (UriText.sorted_iff _).2 ht.1
  have low : ∀ x ∈ h.params, lower x.1 = x.1 := by
    intro x hx
    have hx := (ht.2.2 x).1 hx
    clear ht hs
    induction hi with
    | nil => cases hx
    | blank _ _ ih => exact ih hx
    | item _ _ hit _ ih =>
      rcases List.mem_cons.1 hx with rfl | hx
      · cases hit <;> exact lower_lower _
      · exact ih hx
  refine ⟨fun n x => ?_, fun c => ?_, fun t => ?_⟩
  · unfold Header.getParam
    rw [get_iff _ hs]
    constructor
    · intro h; exact ⟨_, h, by rw [sameName_iff]; unfold eqIgnoreCase; rw [lower_lower]; simp⟩
    · rintro ⟨k, hk, hn⟩
      rw [sameName_iff] at hn
      unfold eqIgnoreCase at hn
      rw [beq_iff_eq, low _ hk] at hn
      rw [hn]
      exact hk
  · unfold Header.causeCode
    constructor
    · intro hc
      split at hc
      · rename_i s hg
        have := (parseDec_iff _ _ _).1 hc
        exact ⟨s, (get_iff _ hs _ _).1 hg, this.1, by omega⟩
      · cases hc
    · rintro ⟨t, h1, h2, h3⟩
      rw [(get_iff _ hs _ _).2 h1]
      exact (parseDec_iff _ _ _).2 ⟨h2, by omega⟩
  · unfold Header.text
    constructor
    · intro hc
      split at hc
      · rename_i s hg
        cases hc
        exact (get_iff _ hs _ _).1 hg
      · cases hc
    · intro h1
      rw [(get_iff _ hs _ _).2 h1]

end Siphon.Reason
