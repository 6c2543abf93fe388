import Verif.Identity.JsonLemmas
/-!
# Values, and the fields of records (C109)
-/
namespace Siphon.Ident
open Spec
open TextSpec (DecDigits)

/-- The first character of a value. -/
theorem value_head {t : Str} {v : Json} (h : Value t v) :
    ∃ c t', t = c :: t' ∧ isJsonWs c = false ∧ c ≠ ']' ∧ c ≠ '}' := by
  cases h with
  | null => exact ⟨'n', _, rfl, by decide⟩
  | true_ => exact ⟨'t', _, rfl, by decide⟩
  | false_ => exact ⟨'f', _, rfl, by decide⟩
  | number h =>
    obtain ⟨c, t', e, hc⟩ := number_head h
    refine ⟨c, t', e, ?_⟩
    rcases hc with rfl | hc
    · decide
    · have h1 := hc.1
      have h2 := hc.2
      refine ⟨?_, ?_, ?_⟩
      · cases hw : isJsonWs c with
        | false => rfl
        | true =>
          rw [ws_iff] at hw
          rcases hw with rfl | rfl | rfl | rfl <;> exact absurd ((isDigit_iff _).2 hc) (by decide)
      · rintro rfl; exact absurd ((isDigit_iff _).2 hc) (by decide)
      · rintro rfl; exact absurd ((isDigit_iff _).2 hc) (by decide)
  | string => exact ⟨'"', _, rfl, by decide⟩
  | noElems => exact ⟨'[', _, rfl, by decide⟩
  | array => exact ⟨'[', _, rfl, by decide⟩
  | noMembers => exact ⟨'{', _, rfl, by decide⟩
  | object => exact ⟨'{', _, rfl, by decide⟩

theorem elems_head {t : Str} {vs : List Json} (h : Elems t vs) : ∃ c t', t = c :: t' ∧ isJsonWs c = false ∧ c ≠ ']' := by
  cases h with
  | one h _ => obtain ⟨c, t', rfl, h1, h2, _⟩ := value_head h; exact ⟨c, _, rfl, h1, h2⟩
  | more h _ _ _ => obtain ⟨c, t', rfl, h1, h2, _⟩ := value_head h; exact ⟨c, _, rfl, h1, h2⟩

theorem members_head {t : Str} {ms : List (Option Str × Json)} (h : Members t ms) : ∃ t', t = '"' :: t' := by
  cases h with
  | one => exact ⟨_, rfl⟩
  | more => exact ⟨_, rfl⟩

theorem noWs_cons {c : Char} {t : Str} (h : isJsonWs c = false) : NoWs (c :: t) := by
  intro d hd; cases hd; exact h

theorem stop_cons {c : Char} {t : Str} (h : isJsonWs c = true ∨ c = ',' ∨ c = ']' ∨ c = '}') : Stop (c :: t) := by
  intro d hd; cases hd; exact h

theorem stop_ws {w s : Str} (hw : Ws w) (hs : Stop s) : Stop (w ++ s) := by
  cases w with
  | nil => exact hs
  | cons c w => exact stop_cons (Or.inl ((ws_iff c).2 (hw c List.mem_cons_self)))

theorem readValue_number (f : Nat) {c : Char} (r : Str) (h : c = '-' ∨ Digit c) : readValue (f + 1) (c :: r) = readNumber (c :: r) := by
  have key : ∀ d : Char, isDigit d = false → d ≠ '-' → c ≠ d := by
    rintro d h1 h2 rfl
    rcases h with h | h
    · exact h2 h
    · rw [(isDigit_iff _).2 h] at h1; cases h1
  rw [readValue, if_neg (key _ (by decide) (by decide)), if_neg (key _ (by decide) (by decide)), if_neg (key _ (by decide) (by decide)),
    if_neg (key _ (by decide) (by decide)), if_neg (key _ (by decide) (by decide)), if_neg (key _ (by decide) (by decide))]

theorem readValue_array (f : Nat) (r : Str) : readValue (f + 1) ('[' :: r) =
    (match skipWs r with
      | ']' :: r => some (.arr [], r)
      | r => (readElems f r).map (fun p => (.arr p.1, p.2))) := by
  rw [readValue, if_neg (by decide), if_neg (by decide), if_neg (by decide), if_neg (by decide), if_pos rfl]
  rfl

theorem readValue_object (f : Nat) (r : Str) : readValue (f + 1) ('{' :: r) =
    (match skipWs r with
      | '}' :: r => some (.obj [], r)
      | r => (readMembers f r).map (fun p => (.obj p.1, p.2))) := by
  rw [readValue, if_neg (by decide), if_neg (by decide), if_neg (by decide), if_neg (by decide), if_neg (by decide), if_pos rfl]
  rfl

theorem readValue_string (f : Nat) (r : Str) : readValue (f + 1) ('"' :: r) =
    (lexStr r).map (fun p => (.str (itemText p.1), p.2)) := by
  rw [readValue, if_neg (by decide), if_neg (by decide), if_neg (by decide), if_pos rfl]

theorem readMembers_quote (f : Nat) (r : Str) : readMembers (f + 1) ('"' :: r) =
    (match lexStr r with
      | none => none
      | some (k, r) =>
        match skipWs r with
        | ':' :: r =>
          match readValue f (skipWs r) with
          | none => none
          | some (v, r) =>
            match skipWs r with
            | '}' :: r => some ([(itemText k, v)], r)
            | ',' :: r => (readMembers f (skipWs r)).map (fun p => ((itemText k, v) :: p.1, p.2))
            | _ => none
        | _ => none) := by
  rw [readMembers]; rfl

theorem readMembers_other (f : Nat) (s : Str) (h : s.head? ≠ some '"') : readMembers (f + 1) s = none := by
  rw [readMembers]
  rintro r rfl
  exact h rfl

theorem stripPrefix_append (p r : Str) : stripPrefix p (p ++ r) = some r := by
  unfold stripPrefix
  simp

theorem stripPrefix_some {p s r : Str} (h : stripPrefix p s = some r) : s = p ++ r := by
  unfold stripPrefix at h
  split at h
  · rename_i hp
    cases h
    obtain ⟨t, rfl⟩ := List.isPrefixOf_iff_prefix.1 hp
    simp
  · cases h

/-- The reader accepts what the grammar allows. -/
theorem read_complete : ∀ f : Nat,
    (∀ t v r, Value t v → t.length ≤ f → Stop r → readValue f (t ++ r) = some (v, r)) ∧
    (∀ t vs r, Elems t vs → t.length + 1 ≤ f → readElems f (t ++ ']' :: r) = some (vs, r)) ∧
    (∀ t ms r, Members t ms → t.length + 1 ≤ f → readMembers f (t ++ '}' :: r) = some (ms, r)) := by
  intro f
  induction f with
  | zero =>
    refine ⟨?_, ?_, ?_⟩
    · intro t v r h hl
      obtain ⟨c, t', rfl, _⟩ := value_head h
      simp at hl
    · intro t v r h hl; omega
    · intro t v r h hl; omega
  | succ f ih =>
    obtain ⟨ihV, ihE, ihM⟩ := ih
    refine ⟨?_, ?_, ?_⟩
    · intro t v r h hl hr
      cases h with
      | null => show readValue (f + 1) ('n' :: ("ull".toList ++ r)) = _; rw [readValue, if_pos rfl, stripPrefix_append]; rfl
      | true_ =>
        show readValue (f + 1) ('t' :: ("rue".toList ++ r)) = _
        rw [readValue, if_neg (by decide), if_pos rfl, stripPrefix_append]; rfl
      | false_ =>
        show readValue (f + 1) ('f' :: ("alse".toList ++ r)) = _
        rw [readValue, if_neg (by decide), if_neg (by decide), if_pos rfl, stripPrefix_append]; rfl
      | number h =>
        obtain ⟨c, t', rfl, hc⟩ := number_head h
        rw [List.cons_append, readValue_number f _ hc]
        exact readNumber_complete h hr
      | @string t us s h1 h2 =>
        have e : ('"' :: t ++ ['"']) ++ r = '"' :: (t ++ '"' :: r) := by simp
        rw [e, readValue_string, lex_complete h1 r]
        simp only [Option.map_some]
        rw [means_eq (inside_small h1) h2]
      | @noElems w hw =>
        have e : ('[' :: w ++ [']']) ++ r = '[' :: (w ++ ']' :: r) := by simp
        rw [e, readValue_array, skip_append hw (noWs_cons (by decide))]; rfl
      | @array w t vs hw h =>
        have e : ('[' :: w ++ t ++ [']']) ++ r = '[' :: (w ++ (t ++ ']' :: r)) := by simp
        obtain ⟨c, t', et, hc, hc'⟩ := elems_head h
        have hE := ihE t vs r h (by simp at hl; omega)
        rw [e, readValue_array, skip_append hw (by rw [et]; exact noWs_cons hc)]
        split
        · rename_i heq; rw [et] at heq; cases heq; exact absurd rfl hc'
        · rw [hE]; rfl
      | @noMembers w hw =>
        have e : ('{' :: w ++ ['}']) ++ r = '{' :: (w ++ '}' :: r) := by simp
        rw [e, readValue_object, skip_append hw (noWs_cons (by decide))]; rfl
      | @object w t ms hw h =>
        have e : ('{' :: w ++ t ++ ['}']) ++ r = '{' :: (w ++ (t ++ '}' :: r)) := by simp
        obtain ⟨t', et⟩ := members_head h
        have hM := ihM t ms r h (by simp at hl; omega)
        rw [e, readValue_object, skip_append hw (by rw [et]; exact noWs_cons (by decide))]
        split
        · rename_i heq; rw [et] at heq; cases heq
        · rw [hM]; rfl
    · intro t vs r h hl
      cases h with
      | @one t v w h hw =>
        have e : t ++ w ++ ']' :: r = t ++ (w ++ ']' :: r) := by simp
        have hV := ihV t v (w ++ ']' :: r) h (by simp at hl; omega) (stop_ws hw (stop_cons (by decide)))
        rw [e, readElems, hV]
        simp only
        rw [skip_append hw (noWs_cons (by decide))]; rfl
      | @more t v w w' t' vs h hw hw' h' =>
        have e : t ++ w ++ ',' :: w' ++ t' ++ ']' :: r = t ++ (w ++ ',' :: (w' ++ (t' ++ ']' :: r))) := by simp
        have hV := ihV t v (w ++ ',' :: (w' ++ (t' ++ ']' :: r))) h (by simp at hl; omega) (stop_ws hw (stop_cons (by decide)))
        have hE := ihE t' vs r h' (by simp at hl; omega)
        obtain ⟨c, t'', et, hc, _⟩ := elems_head h'
        rw [e, readElems, hV]
        simp only
        rw [skip_append hw (noWs_cons (by decide))]
        simp only
        rw [skip_append hw' (by rw [et]; exact noWs_cons hc), hE]; rfl
    · intro t ms r h hl
      cases h with
      | @one k us s w w' t v w'' h1 h2 hw hw' h hw'' =>
        have e : '"' :: k ++ '"' :: w ++ ':' :: w' ++ t ++ w'' ++ '}' :: r =
            '"' :: (k ++ '"' :: (w ++ ':' :: (w' ++ (t ++ (w'' ++ '}' :: r))))) := by simp
        have hV := ihV t v (w'' ++ '}' :: r) h (by simp at hl; omega) (stop_ws hw'' (stop_cons (by decide)))
        obtain ⟨c, t'', et, hc, _⟩ := value_head h
        rw [e, readMembers_quote, lex_complete h1]
        simp only
        rw [skip_append hw (noWs_cons (by decide))]
        simp only
        rw [skip_append hw' (by rw [et]; exact noWs_cons hc), hV]
        simp only
        rw [skip_append hw'' (noWs_cons (by decide))]
        simp only
        rw [means_eq (inside_small h1) h2]
      | @more k us s w w' t v w'' w''' t' ms h1 h2 hw hw' h hw'' hw''' h' =>
        have e : '"' :: k ++ '"' :: w ++ ':' :: w' ++ t ++ w'' ++ ',' :: w''' ++ t' ++ '}' :: r =
            '"' :: (k ++ '"' :: (w ++ ':' :: (w' ++ (t ++ (w'' ++ ',' :: (w''' ++ (t' ++ '}' :: r))))))) := by simp
        have hV := ihV t v (w'' ++ ',' :: (w''' ++ (t' ++ '}' :: r))) h (by simp at hl; omega) (stop_ws hw'' (stop_cons (by decide)))
        have hM := ihM t' ms r h' (by simp at hl; omega)
        obtain ⟨c, t'', et, hc, _⟩ := value_head h
        obtain ⟨t''', et'⟩ := members_head h'
        rw [e, readMembers_quote, lex_complete h1]
        simp only
        rw [skip_append hw (noWs_cons (by decide))]
        simp only
        rw [skip_append hw' (by rw [et]; exact noWs_cons hc), hV]
        simp only
        rw [skip_append hw'' (noWs_cons (by decide))]
        simp only
        rw [skip_append hw''' (by rw [et']; exact noWs_cons (by decide)), hM]
        simp only [Option.map_some]
        rw [means_eq (inside_small h1) h2]

/-- The reader accepts only what the grammar allows. -/
theorem read_sound : ∀ f : Nat,
    (∀ s v r, readValue f s = some (v, r) → ∃ t, s = t ++ r ∧ Value t v) ∧
    (∀ s vs r, readElems f s = some (vs, r) → ∃ t, s = t ++ ']' :: r ∧ Elems t vs) ∧
    (∀ s ms r, readMembers f s = some (ms, r) → ∃ t, s = t ++ '}' :: r ∧ Members t ms) := by
  intro f
  induction f with
  | zero =>
    refine ⟨?_, ?_, ?_⟩
    · intro s v r h; rw [readValue] at h; cases h
    · intro s v r h; rw [readElems] at h; cases h
    · intro s v r h; rw [readMembers] at h; cases h
  | succ f ih =>
    obtain ⟨ihV, ihE, ihM⟩ := ih
    refine ⟨?_, ?_, ?_⟩
    · intro s v r h
      rcases s with _ | ⟨c, s⟩
      · rw [readValue] at h; cases h
      · by_cases hc : c = '['
        · subst hc
          rw [readValue_array] at h
          obtain ⟨w, hw, es⟩ := skip_split s
          split at h
          · rename_i r' heq
            cases h
            rw [heq] at es
            exact ⟨'[' :: w ++ [']'], by rw [es]; simp, .noElems hw⟩
          · simp only [Option.map_eq_some_iff] at h
            obtain ⟨⟨vs, r'⟩, h1, h2⟩ := h
            cases h2
            obtain ⟨t, e, hE⟩ := ihE _ _ _ h1
            rw [e] at es
            exact ⟨'[' :: w ++ t ++ [']'], by rw [es]; simp, .array hw hE⟩
        · by_cases hc2 : c = '{'
          · subst hc2
            rw [readValue_object] at h
            obtain ⟨w, hw, es⟩ := skip_split s
            split at h
            · rename_i r' heq
              cases h
              rw [heq] at es
              exact ⟨'{' :: w ++ ['}'], by rw [es]; simp, .noMembers hw⟩
            · simp only [Option.map_eq_some_iff] at h
              obtain ⟨⟨vs, r'⟩, h1, h2⟩ := h
              cases h2
              obtain ⟨t, e, hM⟩ := ihM _ _ _ h1
              rw [e] at es
              exact ⟨'{' :: w ++ t ++ ['}'], by rw [es]; simp, .object hw hM⟩
          · rw [readValue] at h
            split at h
            · rename_i h1; subst h1
              simp only [Option.map_eq_some_iff] at h
              obtain ⟨r', h1, h2⟩ := h
              cases h2
              rw [stripPrefix_some h1]
              exact ⟨_, rfl, .null⟩
            · split at h
              · rename_i h1; subst h1
                simp only [Option.map_eq_some_iff] at h
                obtain ⟨r', h1, h2⟩ := h
                cases h2
                rw [stripPrefix_some h1]
                exact ⟨_, rfl, .true_⟩
              · split at h
                · rename_i h1; subst h1
                  simp only [Option.map_eq_some_iff] at h
                  obtain ⟨r', h1, h2⟩ := h
                  cases h2
                  rw [stripPrefix_some h1]
                  exact ⟨_, rfl, .false_⟩
                · split at h
                  · rename_i h1; subst h1
                    simp only [Option.map_eq_some_iff] at h
                    obtain ⟨⟨us, r'⟩, h1, h2⟩ := h
                    cases h2
                    obtain ⟨t, e, hi⟩ := (lex_iff _ _ _).1 h1
                    rw [e]
                    exact ⟨'"' :: t ++ ['"'], by simp, .string hi (means_itemText (inside_small hi))⟩
                  · obtain ⟨t, e, hn⟩ := readNumber_sound h
                    exact ⟨t, e, .number hn⟩
    · intro s vs r h
      rw [readElems] at h
      split at h
      · cases h
      · rename_i v r1 hv
        obtain ⟨t, e, hV⟩ := ihV _ _ _ hv
        obtain ⟨w, hw, es⟩ := skip_split r1
        split at h
        · rename_i r' heq
          cases h
          rw [heq] at es
          exact ⟨t ++ w, by rw [e, es]; simp, .one hV hw⟩
        · rename_i r' heq
          simp only [Option.map_eq_some_iff] at h
          obtain ⟨⟨vs', r2⟩, h1, h2⟩ := h
          cases h2
          rw [heq] at es
          obtain ⟨t', e', hE⟩ := ihE _ _ _ h1
          obtain ⟨w', hw', es'⟩ := skip_split r'
          rw [e'] at es'
          exact ⟨t ++ w ++ ',' :: w' ++ t', by rw [e, es, es']; simp, .more hV hw hw' hE⟩
        · cases h
    · intro s ms r h
      by_cases hq : s.head? = some '"'
      · obtain ⟨s', rfl⟩ : ∃ s', s = '"' :: s' := by
          rcases s with _ | ⟨c, s⟩
          · cases hq
          · cases hq; exact ⟨s, rfl⟩
        rw [readMembers_quote] at h
        split at h
        · cases h
        · rename_i us r1 hl
          obtain ⟨k, ek, hi⟩ := (lex_iff _ _ _).1 hl
          obtain ⟨w, hw, es⟩ := skip_split r1
          have hm := means_itemText (inside_small hi)
          split at h
          · rename_i r2 heq
            rw [heq] at es
            obtain ⟨w', hw', es'⟩ := skip_split r2
            split at h
            · cases h
            · rename_i v r3 hv
              obtain ⟨t, e, hV⟩ := ihV _ _ _ hv
              rw [e] at es'
              obtain ⟨w'', hw'', es''⟩ := skip_split r3
              split at h
              · rename_i r4 heq'
                cases h
                rw [heq'] at es''
                exact ⟨'"' :: k ++ '"' :: w ++ ':' :: w' ++ t ++ w'', by rw [ek, es, es', es'']; simp, .one hi hm hw hw' hV hw''⟩
              · rename_i r4 heq'
                simp only [Option.map_eq_some_iff] at h
                obtain ⟨⟨ms', r5⟩, h1, h2⟩ := h
                cases h2
                rw [heq'] at es''
                obtain ⟨t', e', hM⟩ := ihM _ _ _ h1
                obtain ⟨w''', hw''', es'''⟩ := skip_split r4
                rw [e'] at es'''
                exact ⟨'"' :: k ++ '"' :: w ++ ':' :: w' ++ t ++ w'' ++ ',' :: w''' ++ t', by rw [ek, es, es', es'', es''']; simp,
                  .more hi hm hw hw' hV hw'' hw''' hM⟩
              · cases h
          · cases h
      · rw [readMembers_other f s hq] at h; cases h

/-- Reading accepts exactly the JSON texts, and gives their value. -/
theorem readJson_iff (bs : Bytes) (v : Json) : readJson bs = some v ↔ JsonText bs v := by
  constructor
  · intro h
    unfold readJson at h
    simp only at h
    split at h
    · rename_i v' r hv
      split at h
      · rename_i hr
        cases h
        obtain ⟨w, hw, es⟩ := skip_split (asChars bs)
        obtain ⟨t, e, hV⟩ := (read_sound _).1 _ _ _ hv
        obtain ⟨w', hw', es'⟩ := skip_split r
        rw [List.isEmpty_iff] at hr
        rw [hr, List.append_nil] at es'
        subst es'
        rw [e] at es
        exact ⟨w, t, r, hw, hV, hw', by show asChars bs = _; rw [es]; simp⟩
      · cases h
    · cases h
  · rintro ⟨w, t, w', hw, hV, hw', e⟩
    have e' : asChars bs = w ++ (t ++ w') := by show bs.map _ = _; rw [e]; simp
    obtain ⟨c, t', et, hc, _⟩ := value_head hV
    unfold readJson
    simp only
    have hs : Stop w' := by
      have := stop_ws hw' (s := []) (by intro c hc; cases hc)
      rwa [List.append_nil] at this
    have hsk : skipWs (asChars bs) = t ++ w' := by
      rw [e']; exact skip_append hw (by rw [et]; exact noWs_cons hc)
    rw [hsk, (read_complete _).1 t v w' hV (by rw [e']; simp; omega) hs]
    simp only
    have : skipWs w' = [] := by
      have := skip_append hw' (s := []) (by intro c hc; cases hc)
      rwa [List.append_nil] at this
    rw [this]; rfl

/-- A JSON text has one value. -/
theorem jsonText_unique {bs : Bytes} {v v' : Json} (h : JsonText bs v) (h' : JsonText bs v') : v = v' := by
  rw [← readJson_iff] at h h'
  rw [h] at h'; cases h'; rfl

end Siphon.Ident
