import Verif.Core.ReplacesSpec
import Verif.Base.Strip
import Verif.Base.TextLemmas
import Verif.Base.CharLemmas
import Verif.Core.HeadersProps
import Verif.Core.UriProps
import Verif.Registrar.LemmasText
set_option linter.unusedSimpArgs false
/-!
# C134: a Replaces header names the dialog its text names
-/
namespace Siphon.Replaces
open TextSpec HdrSpec Spec

theorem control_iff (c : Char) : isAsciiControl c = false ↔ 32 ≤ c.toNat ∧ c.toNat ≠ 127 := by
  unfold isAsciiControl
  simp only [Bool.or_eq_false_iff, decide_eq_false_iff_not, beq_eq_false_iff_ne]
  omega

theorem validCallId_iff (s : Str) : validCallId s = true ↔ Ident 256 s := by
  unfold validCallId Ident MAX_CALL_ID_LENGTH
  by_cases h1 : s.isEmpty = true
  · rw [List.isEmpty_iff] at h1; subst h1; simp
  · rw [if_neg h1]
    rw [List.isEmpty_iff] at h1
    by_cases h2 : utf8Len s > 256
    · rw [if_pos h2]; simp; omega
    · rw [if_neg h2]
      by_cases h3 : s.any isAsciiControl = true
      · rw [if_pos h3]
        simp only [List.any_eq_true] at h3
        obtain ⟨c, hc, h3⟩ := h3
        refine ⟨nofun, fun h => ?_⟩
        have := (control_iff c).2 (h.2.2 c hc)
        rw [this] at h3; cases h3
      · rw [if_neg h3]
        simp only [List.any_eq_true, not_exists, not_and, Bool.not_eq_true] at h3
        exact ⟨fun _ => ⟨h1, by omega, fun c hc => (control_iff c).1 (h3 c hc)⟩, fun _ => rfl⟩

theorem validTag_iff (s : Str) : validTag s = true ↔ Ident 128 s := by
  unfold validTag Ident MAX_TAG_LENGTH
  by_cases h1 : s.isEmpty = true
  · rw [List.isEmpty_iff] at h1; subst h1; simp
  · rw [if_neg h1]
    rw [List.isEmpty_iff] at h1
    by_cases h2 : utf8Len s > 128
    · rw [if_pos h2]; simp; omega
    · rw [if_neg h2]
      by_cases h3 : s.any isAsciiControl = true
      · rw [if_pos h3]
        simp only [List.any_eq_true] at h3
        obtain ⟨c, hc, h3⟩ := h3
        refine ⟨nofun, fun h => ?_⟩
        have := (control_iff c).2 (h.2.2 c hc)
        rw [this] at h3; cases h3
      · rw [if_neg h3]
        simp only [List.any_eq_true, not_exists, not_and, Bool.not_eq_true] at h3
        exact ⟨fun _ => ⟨h1, by omega, fun c hc => (control_iff c).1 (h3 c hc)⟩, fun _ => rfl⟩

theorem splitOnce_iff (c : Char) (s a b : Str) : splitOnce c s = some (a, b) ↔ s = a ++ c :: b ∧ c ∉ a := by
  constructor
  · intro h
    induction s generalizing a b with
    | nil => cases h
    | cons x xs ih =>
      rw [splitOnce] at h
      split at h
      · cases h; subst_vars; simp
      · rename_i hx
        cases hs : splitOnce c xs with
        | none => rw [hs] at h; cases h
        | some p =>
          rw [hs] at h
          cases h
          obtain ⟨h1, h2⟩ := ih p.1 p.2 hs
          refine ⟨by rw [h1]; rfl, ?_⟩
          simp only [List.mem_cons, not_or]
          exact ⟨fun h => hx h.symm, h2⟩
  · rintro ⟨rfl, h⟩; exact splitOnce_append c a b h

theorem param_iff (p : Str) (name : String) (v : Str) :
    Param p name v ↔ ∃ k w, splitOnce '=' p = some (k, w) ∧ eqIgnoreCase (trim k) name.toList = true ∧
      v = trim w ∧ validTag (trim w) = true := by
  constructor
  · rintro ⟨k, w, n, h1, h2, h3, h4, h5, h6⟩
    rw [strips_trim] at h3 h5
    subst h3; subst h5
    exact ⟨k, w, (splitOnce_iff _ _ _ _).2 ⟨h1, h2⟩, (sameName_iff _ _).1 h4, rfl, (validTag_iff _).2 h6⟩
  · rintro ⟨k, w, h1, h2, rfl, h4⟩
    obtain ⟨h1, h1'⟩ := (splitOnce_iff _ _ _ _).1 h1
    exact ⟨k, w, trim k, h1, h1', (strips_trim _ _).2 rfl, (sameName_iff _ _).2 h2, (strips_trim _ _).2 rfl,
      (validTag_iff _).1 h4⟩

theorem lower_mem {s t : Str} (h : eqIgnoreCase s t = true) {c : Char} (hc : c ∈ s) : c.toLower ∈ lower t := by
  unfold eqIgnoreCase at h
  rw [beq_iff_eq] at h
  rw [← h]
  exact List.mem_map.2 ⟨c, hc, rfl⟩

/-- `early-only` is never read as a named parameter. -/
theorem early_noeq {p : Str} (h : eqIgnoreCase p "early-only".toList = true) : splitOnce '=' p = none := by
  apply splitOnce_none
  intro hc
  have := lower_mem h hc
  revert this; decide +kernel

theorem names_differ {k : Str} (h : eqIgnoreCase k "to-tag".toList = true) :
    ¬ eqIgnoreCase k "from-tag".toList = true := by
  unfold eqIgnoreCase at *
  rw [beq_iff_eq] at *
  rw [h]; decide +kernel

/-- The loop of the parser reads exactly what the parameters say. -/
theorem readParams_iff (ps : List Str) (a b : Option Str) (e : Bool) (a' b' : Option Str) (e' : Bool) :
    readParams (ps.map trim) a b e = some (a', b', e') ↔
      ∃ xs, Pieces' ps xs ∧ a.toList ++ toTags xs = a'.toList ∧ b.toList ++ fromTags xs = b'.toList ∧
        (e' = true ↔ e = true ∨ Says.early ∈ xs) := by
  induction ps generalizing a b e with
  | nil =>
    rw [List.map_nil, readParams]
    constructor
    · intro h; cases h
      exact ⟨[], .nil, by simp [toTags], by simp [fromTags], by simp⟩
    · rintro ⟨xs, h, h1, h2, h3⟩
      cases h
      simp only [toTags, fromTags, List.append_nil, List.not_mem_nil, or_false] at h1 h2 h3
      have : a = a' := by cases a <;> cases a' <;> simp_all
      have : b = b' := by cases b <;> cases b' <;> simp_all
      have : e = e' := by cases e <;> cases e' <;> simp_all
      subst_vars; rfl
  | cons s ss ih =>
    rw [List.map_cons, readParams]
    by_cases he : eqIgnoreCase (trim s) "early-only".toList = true
    · rw [if_pos he, ih]
      constructor
      · rintro ⟨xs, h, h1, h2, h3⟩
        exact ⟨.early :: xs, .cons (.early ((strips_trim _ _).2 rfl) ((sameName_iff _ _).2 he)) h, h1, h2,
          by simp only [List.mem_cons]; simpa using h3⟩
      · rintro ⟨xs, h, h1, h2, h3⟩
        cases h with
        | cons hp hr =>
          cases hp with
          | early _ _ => exact ⟨_, hr, h1, h2, by simp only [List.mem_cons, true_or, or_true, iff_true] at h3 ⊢; exact h3⟩
          | toTag hs hp =>
            rw [strips_trim] at hs; subst hs
            obtain ⟨k, w, hk, _⟩ := (param_iff _ _ _).1 hp
            rw [early_noeq he] at hk; cases hk
          | fromTag hs hp =>
            rw [strips_trim] at hs; subst hs
            obtain ⟨k, w, hk, _⟩ := (param_iff _ _ _).1 hp
            rw [early_noeq he] at hk; cases hk
    · rw [if_neg he]
      cases hk : splitOnce '=' (trim s) with
      | none =>
        refine ⟨nofun, ?_⟩
        rintro ⟨xs, h, h1, h2, h3⟩
        cases h with
        | cons hp hr =>
          cases hp with
          | early hs hn => rw [strips_trim] at hs; subst hs; exact absurd ((sameName_iff _ _).1 hn) he
          | toTag hs hp =>
            rw [strips_trim] at hs; subst hs
            obtain ⟨k, w, hk', _⟩ := (param_iff _ _ _).1 hp
            rw [hk] at hk'; cases hk'
          | fromTag hs hp =>
            rw [strips_trim] at hs; subst hs
            obtain ⟨k, w, hk', _⟩ := (param_iff _ _ _).1 hp
            rw [hk] at hk'; cases hk'
      | some kw =>
        obtain ⟨k, w⟩ := kw
        simp only []
        -- what the first piece can be
        have key : ∀ x, Piece s x ↔ validTag (trim w) = true ∧
            ((eqIgnoreCase (trim k) "to-tag".toList = true ∧ x = .toTag (trim w)) ∨
             (eqIgnoreCase (trim k) "from-tag".toList = true ∧ x = .fromTag (trim w))) := by
          intro x
          constructor
          · intro hp
            cases hp with
            | early hs hn => rw [strips_trim] at hs; subst hs; exact absurd ((sameName_iff _ _).1 hn) he
            | toTag hs hp =>
              rw [strips_trim] at hs; subst hs
              obtain ⟨k', w', hk', h1, rfl, h3⟩ := (param_iff _ _ _).1 hp
              rw [hk] at hk'; cases hk'
              exact ⟨h3, .inl ⟨h1, rfl⟩⟩
            | fromTag hs hp =>
              rw [strips_trim] at hs; subst hs
              obtain ⟨k', w', hk', h1, rfl, h3⟩ := (param_iff _ _ _).1 hp
              rw [hk] at hk'; cases hk'
              exact ⟨h3, .inr ⟨h1, rfl⟩⟩
          · rintro ⟨hv, ⟨hn, rfl⟩ | ⟨hn, rfl⟩⟩
            · exact .toTag ((strips_trim _ _).2 rfl) ((param_iff _ _ _).2 ⟨k, w, hk, hn, rfl, hv⟩)
            · exact .fromTag ((strips_trim _ _).2 rfl) ((param_iff _ _ _).2 ⟨k, w, hk, hn, rfl, hv⟩)
        by_cases hto : eqIgnoreCase (trim k) "to-tag".toList = true
        · rw [if_pos hto]
          by_cases hv : validTag (trim w) = true
          · rw [hv, if_neg (by simp)]
            cases a with
            | some x =>
              rw [if_pos (by simp)]
              refine ⟨nofun, ?_⟩
              rintro ⟨xs, h, h1, h2, h3⟩
              cases h with
              | cons hp hr =>
                obtain ⟨_, ⟨_, rfl⟩ | ⟨hf, _⟩⟩ := (key _).1 hp
                · exfalso
                  cases a' <;> simp [toTags] at h1
                · exact absurd hf (names_differ hto)
            | none =>
              rw [if_neg (by simp), ih]
              constructor
              · rintro ⟨xs, h, h1, h2, h3⟩
                exact ⟨.toTag (trim w) :: xs, .cons ((key _).2 ⟨hv, .inl ⟨hto, rfl⟩⟩) h, by simpa [toTags] using h1,
                  by simpa [fromTags] using h2, by simpa using h3⟩
              · rintro ⟨xs, h, h1, h2, h3⟩
                cases h with
                | cons hp hr =>
                  obtain ⟨_, ⟨_, rfl⟩ | ⟨hf, _⟩⟩ := (key _).1 hp
                  · exact ⟨_, hr, by simpa [toTags] using h1, by simpa [fromTags] using h2, by simpa using h3⟩
                  · exact absurd hf (names_differ hto)
          · rw [if_pos (by simp [hv])]
            refine ⟨nofun, ?_⟩
            rintro ⟨xs, h, h1, h2, h3⟩
            cases h with
            | cons hp hr => exact absurd ((key _).1 hp).1 hv
        · rw [if_neg hto]
          by_cases hfr : eqIgnoreCase (trim k) "from-tag".toList = true
          · rw [if_pos hfr]
            by_cases hv : validTag (trim w) = true
            · rw [hv, if_neg (by simp)]
              cases b with
              | some x =>
                rw [if_pos (by simp)]
                refine ⟨nofun, ?_⟩
                rintro ⟨xs, h, h1, h2, h3⟩
                cases h with
                | cons hp hr =>
                  obtain ⟨_, ⟨hf, _⟩ | ⟨_, rfl⟩⟩ := (key _).1 hp
                  · exact absurd hf hto
                  · exfalso
                    cases b' <;> simp [fromTags] at h2
              | none =>
                rw [if_neg (by simp), ih]
                constructor
                · rintro ⟨xs, h, h1, h2, h3⟩
                  exact ⟨.fromTag (trim w) :: xs, .cons ((key _).2 ⟨hv, .inr ⟨hfr, rfl⟩⟩) h, by simpa [toTags] using h1,
                    by simpa [fromTags] using h2, by simpa using h3⟩
                · rintro ⟨xs, h, h1, h2, h3⟩
                  cases h with
                  | cons hp hr =>
                    obtain ⟨_, ⟨hf, _⟩ | ⟨_, rfl⟩⟩ := (key _).1 hp
                    · exact absurd hf hto
                    · exact ⟨_, hr, by simpa [toTags] using h1, by simpa [fromTags] using h2, by simpa using h3⟩
            · rw [if_pos (by simp [hv])]
              refine ⟨nofun, ?_⟩
              rintro ⟨xs, h, h1, h2, h3⟩
              cases h with
              | cons hp hr => exact absurd ((key _).1 hp).1 hv
          · rw [if_neg hfr]
            refine ⟨nofun, ?_⟩
            rintro ⟨xs, h, h1, h2, h3⟩
            cases h with
            | cons hp hr =>
              obtain ⟨_, ⟨hf, _⟩ | ⟨hf, _⟩⟩ := (key _).1 hp
              · exact absurd hf hto
              · exact absurd hf hfr

/-- **C134.** A text is read as a Replaces header exactly when it is one, and then as the dialog it names. -/
theorem C134_parse (s : Str) (h : Header) : Header.parse s = some h ↔ Reads s h := by
  unfold Header.parse Reads MAX_PARSE_INPUT
  by_cases hl : utf8Len s > 1024
  · rw [if_pos hl]
    exact ⟨nofun, fun h => by omega⟩
  · rw [if_neg hl]
    have hl' : utf8Len s ≤ 1024 := by omega
    have hne : ∃ c ps, splitChar ';' (trim s) = c :: ps := by
      have := ((pieces_iff ';' (trim s) _).2 rfl).1
      cases hh : splitChar ';' (trim s) with
      | nil => exact absurd hh this
      | cons c ps => exact ⟨c, ps, rfl⟩
    obtain ⟨c, ps, hcp⟩ := hne
    rw [hcp, List.map_cons]
    simp only []
    have uniq : ∀ t c' ps', Strips isWs s t → Pieces ';' t (c' :: ps') → c' = c ∧ ps' = ps := by
      intro t c' ps' h1 h2
      rw [strips_trim] at h1; subst h1
      rw [pieces_iff, hcp] at h2
      cases h2; exact ⟨rfl, rfl⟩
    by_cases hv : validCallId (trim c) = true
    · rw [hv, if_neg (by simp)]
      constructor
      · intro hp
        cases hr : readParams (ps.map trim) none none false with
        | none => rw [hr] at hp; cases hp
        | some x =>
          obtain ⟨a, b, e⟩ := x
          rw [hr] at hp
          cases a with
          | none => cases hp
          | some a =>
            cases b with
            | none => cases hp
            | some b =>
              cases hp
              obtain ⟨xs, h1, h2, h3, h4⟩ := (readParams_iff _ _ _ _ _ _ _).1 hr
              exact ⟨hl', trim s, c, ps, xs, (strips_trim _ _).2 rfl, (pieces_iff _ _ _).2 hcp.symm, (strips_trim _ _).2 rfl,
                (validCallId_iff _).1 hv, h1, by simpa using h2, by simpa using h3, by simpa using h4⟩
      · rintro ⟨_, t, c', ps', xs, h1, h2, h3, h4, h5, h6, h7, h8⟩
        obtain ⟨rfl, rfl⟩ := uniq _ _ _ h1 h2
        rw [strips_trim] at h3
        have : readParams (ps'.map trim) none none false = some (some h.toTag, some h.fromTag, h.earlyOnly) :=
          (readParams_iff _ _ _ _ _ _ _).2 ⟨xs, h5, by simpa using h6, by simpa using h7, by simpa using h8⟩
        rw [this, ← h3]
    · rw [if_pos (by simp [hv])]
      refine ⟨nofun, ?_⟩
      rintro ⟨_, t, c', ps', xs, h1, h2, h3, h4, _⟩
      obtain ⟨rfl, rfl⟩ := uniq _ _ _ h1 h2
      rw [strips_trim] at h3
      rw [h3] at h4
      exact absurd ((validCallId_iff _).2 h4) hv

/-- A real header is read: blanks, case and the order of the parameters do not matter. -/
example : Header.parse " 98asjd8@test.com ; From-Tag = 67890;EARLY-only ;to-tag=12345 ".toList =
    some ⟨"98asjd8@test.com".toList, "12345".toList, "67890".toList, true⟩ := by decide +kernel
/-- Two to-tags are refused, and so is an unknown parameter. -/
example : Header.parse "a;to-tag=1;from-tag=2;to-tag=1".toList = none ∧
    Header.parse "a;to-tag=1;from-tag=2;x=1".toList = none := by decide +kernel

/-- **C134.** No text is a Replaces header for two dialogs. -/
theorem C134_one {s : Str} {h h' : Header} (a : Reads s h) (b : Reads s h') : h = h' := by
  have a := (C134_parse s h).2 a
  rw [(C134_parse s h').2 b] at a
  exact (Option.some.inj a).symm

/-- **C134.** A header is made exactly when the Call-ID and both tags are acceptable, and it holds what was given, with the
flag off. -/
theorem C134_new (c t f : Str) (h : Header) :
    Header.new c t f = some h ↔ Ident 256 c ∧ Ident 128 t ∧ Ident 128 f ∧ h = ⟨c, t, f, false⟩ := by
  unfold Header.new
  rw [← validCallId_iff, ← validTag_iff, ← validTag_iff]
  cases validCallId c <;> cases validTag t <;> cases validTag f <;> simp [eq_comm]

/-- **C134.** The flag is set to what is asked, and nothing else changes. -/
theorem C134_early (h : Header) (b : Bool) :
    h.withEarlyOnly b = ⟨h.callId, h.toTag, h.fromTag, b⟩ := rfl

theorem plain_piece {v : Str} (h : Trimmed v) : trim v = v := trim_of_trimmed v h

theorem reads_plain {s : Str} {h : Header} (a : Reads s h) :
    Plain h.callId ∧ Plain h.toTag ∧ Plain h.fromTag := by
  obtain ⟨_, t, c, ps, xs, h1, h2, h3, h4, h5, h6, h7, h8⟩ := a
  have hno : ∀ p ∈ c :: ps, ';' ∉ p := h2.2.2
  rw [strips_trim] at h3
  have hpl : ∀ p v : Str, ';' ∉ p → (∀ x ∈ v, x ∈ p) → ';' ∉ v := fun p v h1 h2 h3 => h1 (h2 _ h3)
  have key : ∀ (ps : List Str) (xs : List Says), (∀ p ∈ ps, ';' ∉ p) → Pieces' ps xs →
      (∀ v ∈ toTags xs, Plain v) ∧ (∀ v ∈ fromTags xs, Plain v) := by
    intro ps xs hn hp
    induction hp with
    | nil => simp [toTags, fromTags]
    | @cons s x ss xs hp _ ih =>
      have ih := ih (fun p hp => hn p (List.mem_cons_of_mem _ hp))
      have hs := hn s List.mem_cons_self
      have val : ∀ {p : Str} {n : String} {v : Str}, Strips isWs s p → Param p n v → Plain v := by
        intro p n v h1 h2
        rw [strips_trim] at h1; subst h1
        obtain ⟨k, w, hk, _, rfl, _⟩ := (param_iff _ _ _).1 h2
        refine ⟨fun hm => hs ?_, UriP.trimmed_trim w⟩
        have := (splitOnce_iff _ _ _ _).1 hk
        apply UriP.mem_of_mem_trim
        rw [this.1]
        exact List.mem_append_right _ (List.mem_cons_of_mem _ (UriP.mem_of_mem_trim hm))
      cases hp with
      | early _ _ => exact ih
      | toTag h1 h2 =>
        refine ⟨?_, ih.2⟩
        intro v hv
        simp only [toTags, List.mem_cons] at hv
        rcases hv with rfl | hv
        · exact val h1 h2
        · exact ih.1 v hv
      | fromTag h1 h2 =>
        refine ⟨ih.1, ?_⟩
        intro v hv
        simp only [fromTags, List.mem_cons] at hv
        rcases hv with rfl | hv
        · exact val h1 h2
        · exact ih.2 v hv
  have hk := key ps xs (fun p hp => hno p (List.mem_cons_of_mem _ hp)) h5
  refine ⟨?_, hk.1 _ (by rw [h6]; exact List.mem_cons_self), hk.2 _ (by rw [h7]; exact List.mem_cons_self)⟩
  rw [h3]
  exact ⟨fun hm => hno c List.mem_cons_self (UriP.mem_of_mem_trim hm), UriP.trimmed_trim c⟩

theorem last_app (a : Str) {b : Str} (h : b ≠ []) : (a ++ b).getLast? = b.getLast? := by
  rw [List.getLast?_append]
  cases hb : b.getLast? with
  | none => exact absurd (List.getLast?_eq_none_iff.1 hb) h
  | some x => rfl

theorem utf8Len_app (a b : Str) : utf8Len (a ++ b) = utf8Len a + utf8Len b := by simp [utf8Len]

theorem reads_show {h : Header} (hc : Ident 256 h.callId) (ht : Ident 128 h.toTag) (hf : Ident 128 h.fromTag)
    (pc : Plain h.callId) (pt : Plain h.toTag) (pf : Plain h.fromTag) : Reads h.show h := by
  obtain ⟨c, t, f, e⟩ := h
  simp only at *
  have par : ∀ (n : String) (v : Str), Trimmed n.toList → '=' ∉ n.toList → Trimmed v → Ident 128 v →
      Param (n.toList ++ '=' :: v) n v := fun n v h1 h2 h3 h4 =>
    ⟨n.toList, v, n.toList, rfl, h2, (strips_trim _ _).2 (trim_of_trimmed _ h1).symm,
      (sameName_iff _ _).2 (by simp [eqIgnoreCase]), (strips_trim _ _).2 (trim_of_trimmed _ h3).symm, h4⟩
  have strip : ∀ (x : Char) (n v : Str), v ≠ [] → Trimmed v → isWs x = false → Strips isWs (x :: n ++ v) (x :: n ++ v) := by
    intro x n v h1 h2 h3
    rw [strips_trim, trim_of_trimmed]
    refine ⟨fun c hc => ?_, fun c hc => h2.2 c ?_⟩
    · simp at hc; subst hc; exact h3
    · rw [last_app _ h1] at hc; exact hc
  have pto : Piece ("to-tag=".toList ++ t) (.toTag t) := by
    refine .toTag (strip 't' "o-tag=".toList t ht.1 pt.2 (by decide)) ?_
    have := par "to-tag" t ⟨by decide +kernel, by decide +kernel⟩ (by decide +kernel) pt.2 ht
    exact this
  have pfr : Piece ("from-tag=".toList ++ f) (.fromTag f) := by
    refine .fromTag (strip 'f' "rom-tag=".toList f hf.1 pf.2 (by decide)) ?_
    have := par "from-tag" f ⟨by decide +kernel, by decide +kernel⟩ (by decide +kernel) pf.2 hf
    exact this
  have pea : Piece "early-only".toList .early :=
    .early (p := "early-only".toList) ((strips_trim _ _).2 (by decide +kernel)) ((sameName_iff _ _).2 (by decide +kernel))
  have n1 : utf8Len ";to-tag=".toList = 8 := by decide +kernel
  have n2 : utf8Len ";from-tag=".toList = 10 := by decide +kernel
  have n3 : utf8Len ";early-only".toList = 11 := by decide +kernel
  have hh : ∀ rest : Str, (∀ x, (c ++ rest).head? = some x → isWs x = false) := by
    intro rest x hx
    cases c with
    | nil => exact absurd rfl hc.1
    | cons y ys => exact pc.2.1 x (by simpa using hx)
  have nt : ';' ∉ "to-tag=".toList ++ t := by
    rw [List.mem_append, not_or]; exact ⟨by decide +kernel, pt.1⟩
  have nf : ';' ∉ "from-tag=".toList ++ f := by
    rw [List.mem_append, not_or]; exact ⟨by decide +kernel, pf.1⟩
  cases e with
  | false =>
    refine ⟨?_, Header.show ⟨c, t, f, false⟩, c, ["to-tag=".toList ++ t, "from-tag=".toList ++ f], [.toTag t, .fromTag f], ?_, ?_,
      (strips_trim _ _).2 (trim_of_trimmed _ pc.2).symm, hc, .cons pto (.cons pfr .nil), rfl, rfl, by simp⟩
    · simp only [Header.show, utf8Len_app, n1, n2, n3]
      have := hc.2.1; have := ht.2.1; have := hf.2.1
      simp only [Bool.false_eq_true, if_false]
      have : utf8Len [] = 0 := rfl
      omega
    · rw [strips_trim, trim_of_trimmed]
      refine ⟨fun x hx => ?_, fun x hx => pf.2.2 x ?_⟩
      · simp only [Header.show, List.append_assoc] at hx; exact hh _ x hx
      · simp only [Header.show, Bool.false_eq_true, if_false, List.append_nil] at hx
        rw [last_app _ hf.1] at hx; exact hx
    · refine ⟨by simp, by simp [Header.show, join], ?_⟩
      intro p hp
      simp only [List.mem_cons, List.not_mem_nil, or_false] at hp
      rcases hp with rfl | rfl | rfl
      · exact pc.1
      · exact nt
      · exact nf
  | true =>
    refine ⟨?_, Header.show ⟨c, t, f, true⟩, c, ["to-tag=".toList ++ t, "from-tag=".toList ++ f, "early-only".toList],
      [.toTag t, .fromTag f, .early], ?_, ?_,
      (strips_trim _ _).2 (trim_of_trimmed _ pc.2).symm, hc, .cons pto (.cons pfr (.cons pea .nil)), rfl, rfl, by simp⟩
    · simp only [Header.show, utf8Len_app, n1, n2, n3, if_true]
      have := hc.2.1; have := ht.2.1; have := hf.2.1
      omega
    · rw [strips_trim, trim_of_trimmed]
      refine ⟨fun x hx => ?_, fun x hx => ?_⟩
      · simp only [Header.show, List.append_assoc] at hx; exact hh _ x hx
      · simp only [Header.show, if_true] at hx
        rw [last_app _ (by decide +kernel)] at hx
        revert hx x; decide +kernel
    · refine ⟨by simp, by simp [Header.show, join], ?_⟩
      intro p hp
      simp only [List.mem_cons, List.not_mem_nil, or_false] at hp
      rcases hp with rfl | rfl | rfl | rfl
      · exact pc.1
      · exact nt
      · exact nf
      · decide +kernel

/-- **C134.** Of the headers that can be made, exactly those whose Call-ID and tags have no semicolon, and no blank at an
end, are read back as the same dialog when written. -/
theorem C134_roundtrip_partial {c t f : Str} {h : Header} (hn : Header.new c t f = some h) (e : Bool) :
    Header.parse (h.withEarlyOnly e).show = some (h.withEarlyOnly e) ↔ Plain c ∧ Plain t ∧ Plain f := by
  obtain ⟨h1, h2, h3, rfl⟩ := (C134_new c t f h).1 hn
  rw [C134_parse]
  constructor
  · intro h; exact reads_plain h
  · rintro ⟨p1, p2, p3⟩
    exact reads_show (h := ⟨c, t, f, e⟩) h1 h2 h3 p1 p2 p3

/-- **C134.** What was read is written as a text that is read as the same dialog. -/
theorem C134_reread {s : Str} {h : Header} (hp : Header.parse s = some h) : Header.parse h.show = some h := by
  have hr := (C134_parse s h).1 hp
  obtain ⟨p1, p2, p3⟩ := reads_plain hr
  rw [C134_parse]
  obtain ⟨_, t, c, ps, xs, _, _, _, h4, h5, h6, h7, _⟩ := hr
  have key : ∀ (ps : List Str) (xs : List Says), Pieces' ps xs →
      (∀ v ∈ toTags xs, Ident 128 v) ∧ (∀ v ∈ fromTags xs, Ident 128 v) := by
    intro ps xs hp
    induction hp with
    | nil => simp [toTags, fromTags]
    | cons hp _ ih =>
      cases hp with
      | early _ _ => exact ih
      | toTag _ h2 =>
        refine ⟨?_, ih.2⟩
        intro v hv
        simp only [toTags, List.mem_cons] at hv
        rcases hv with rfl | hv
        · obtain ⟨_, _, _, _, _, _, _, _, h⟩ := h2; exact h
        · exact ih.1 v hv
      | fromTag _ h2 =>
        refine ⟨ih.1, ?_⟩
        intro v hv
        simp only [fromTags, List.mem_cons] at hv
        rcases hv with rfl | hv
        · obtain ⟨_, _, _, _, _, _, _, _, h⟩ := h2; exact h
        · exact ih.2 v hv
  have hk := key ps xs h5
  exact reads_show h4 (hk.1 _ (by rw [h6]; exact List.mem_cons_self)) (hk.2 _ (by rw [h7]; exact List.mem_cons_self)) p1 p2 p3

/-- The round trip is not empty: an ordinary header is made and is plain. -/
example : (Header.new "425928@bobster.example.org".toList "7743".toList "6472".toList).isSome = true ∧
    Header.parse "425928@bobster.example.org;to-tag=7743;from-tag=6472".toList =
      some ⟨"425928@bobster.example.org".toList, "7743".toList, "6472".toList, false⟩ := by decide +kernel

/-- **C134, refuted in general.** A tag from the network is not checked for semicolons: a header made without `early-only`,
with a tag that contains it, is written as a text with the flag set. -/
theorem C134_injected :
    ∃ h h', Header.new "c".toList "t".toList "f;early-only".toList = some h ∧ h.earlyOnly = false ∧
      Header.parse h.show = some h' ∧ h'.earlyOnly = true ∧ h'.fromTag = "f".toList :=
  ⟨⟨"c".toList, "t".toList, "f;early-only".toList, false⟩, ⟨"c".toList, "t".toList, "f".toList, true⟩,
    by decide +kernel, rfl, by decide +kernel, rfl, rfl⟩

end Siphon.Replaces
