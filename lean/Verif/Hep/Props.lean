import Verif.Hep.Lemmas
import Verif.Parse.WriteLemmas
set_option linter.unusedSimpArgs false
set_option linter.unusedVariables false
/-!
# C137: messages are captured under their Call-ID
-/
namespace Siphon.Hep
open TextSpec HdrSpec Spec
open Siphon.Parse.Spec (BuiltRequest BuiltResponse)
open Siphon.Parse (serializeRequest serializeResponse requestText responseText kept reqLine respLine)

/-- C137: the Call-ID of a message is found exactly if there is a Call-ID line before the first empty line; it is the value of the first one,
without the blanks around it, and it is text. -/
theorem C137_found (p : Bytes) (s : Str) : extractCallId p = some s ↔
    ∃ (ls : List (Bytes × Bytes)) (l e rest v : Bytes), p = ls.flatMap (fun x => x.1 ++ x.2) ++ (l ++ e ++ rest) ∧
      (∀ x ∈ ls, Line x.1 x.2 ∧ x.1 ≠ [] ∧ ¬ ∃ v, CallIdLine x.1 v) ∧ Line l e ∧ CallIdLine l v ∧ Stripped v (utf8 s) := by
  unfold extractCallId
  constructor
  · intro h
    suffices H : ∀ (n : Nat) (p : Bytes), p.length ≤ n → scan [] p = some s → ∃ (ls : List (Bytes × Bytes)) (l e rest v : Bytes),
        p = ls.flatMap (fun x => x.1 ++ x.2) ++ (l ++ e ++ rest) ∧
        (∀ x ∈ ls, Line x.1 x.2 ∧ x.1 ≠ [] ∧ ¬ ∃ v, CallIdLine x.1 v) ∧ Line l e ∧ CallIdLine l v ∧ Stripped v (utf8 s) from H _ p (Nat.le_refl _) h
    intro n
    induction n with
    | zero =>
      intro p hp h
      have : p = [] := List.length_eq_zero_iff.1 (by omega)
      subst this
      cases h
    | succ n ih =>
      intro p hp h
      rcases split_line p with hn | ⟨l, e, t, rfl, hl, he⟩
      · rw [scan_none p [] hn] at h; cases h
      · rw [line_scan hl] at h
        split at h
        · cases h
        · rename_i hne
          cases hm : matchCallId l with
          | some v =>
            rw [hm] at h
            simp only at h
            rw [utf8Decode_iff, stripped_iff] at h
            exact ⟨[], l, e, t, v, rfl, nofun, hl, (match_iff _ _).1 hm, h⟩
          | none =>
            rw [hm] at h
            simp only at h
            have hlen : 0 < e.length := List.length_pos_iff.2 he
            obtain ⟨ls, l', e', rest, v, rfl, h1, h2⟩ := ih t (by simp only [List.length_append] at hp; omega) h
            refine ⟨(l, e) :: ls, l', e', rest, v, by simp, ?_, h2⟩
            intro x hx
            rcases List.mem_cons.1 hx with rfl | hx
            · exact ⟨hl, hne, (match_none _).1 hm⟩
            · exact h1 x hx
  · rintro ⟨ls, l, e, rest, v, rfl, h1, hl, hv, hs⟩
    induction ls with
    | nil =>
      simp only [List.flatMap_nil, List.nil_append]
      rw [line_scan hl, if_neg, (match_iff _ _).2 hv]
      · simp only
        rw [utf8Decode_iff, stripped_iff]
        exact hs
      · rintro rfl
        obtain ⟨n, _, h⟩ := hv
        exact absurd h (by simp)
    | cons x ls ih =>
      obtain ⟨a, b, c⟩ := h1 x (by simp)
      simp only [List.flatMap_cons, List.append_assoc]
      have := line_scan a (ls.flatMap (fun x => x.1 ++ x.2) ++ (l ++ (e ++ rest)))
      simp only [List.append_assoc] at this
      rw [this, if_neg b, (match_none _).2 c]
      simp only
      have := ih (fun y hy => h1 y (by simp [hy]))
      simpa using this

/-- C137: nothing after the first empty line is looked at. -/
theorem C137_body (ls : List (Bytes × Bytes)) (e body : Bytes) (h : ∀ x ∈ ls, Line x.1 x.2 ∧ x.1 ≠ [] ∧ ¬ ∃ v, CallIdLine x.1 v)
    (he : e = [13, 10] ∨ e = [10]) : extractCallId (ls.flatMap (fun x => x.1 ++ x.2) ++ (e ++ body)) = none := by
  unfold extractCallId
  induction ls with
  | nil =>
    have := line_scan (l := []) (e := e) ⟨by simp, by rcases he with rfl | rfl; exact .inl rfl; exact .inr ⟨rfl, by simp⟩⟩ body
    simpa using this
  | cons x ls ih =>
    obtain ⟨a, b, c⟩ := h x (by simp)
    simp only [List.flatMap_cons, List.append_assoc]
    have := line_scan a (ls.flatMap (fun x => x.1 ++ x.2) ++ (e ++ body))
    simp only [List.append_assoc] at this
    rw [this, if_neg b, (match_none _).2 c]
    exact ih (fun y hy => h y (by simp [hy]))

example : extractCallId (utf8 "INVITE sip:b SIP/2.0\r\nIdentity: x\r\ncALL-id:  cid@x \r\n\r\n".toList) = some "cid@x".toList := by decide +kernel

/-! ## Messages that are sent -/

theorem text_line {l : Str} (h : l ≠ [] ∧ '\r' ∉ l ∧ '\n' ∉ l) : Line (utf8 l) [13, 10] ∧ utf8 l ≠ [] :=
  ⟨⟨fun hm => h.2.2 (mem_utf8 (k := 10) (by omega) hm), .inl rfl⟩, Parse.utf8_ne h.1⟩

theorem written_eq (ls : List Str) (hne : ls ≠ []) (body : Bytes) :
    utf8 (Parse.Spec.joinLines ls) ++ Parse.Spec.blank ++ body =
      (ls.map (fun l => (utf8 l, ([13, 10] : Bytes)))).flatMap (fun x => x.1 ++ x.2) ++ ([13, 10] ++ body) := by
  have e : utf8 Parse.crlf = [13, 10] := by decide
  have h1 : utf8 (ls.flatMap (· ++ Parse.crlf)) = (ls.map (fun l => (utf8 l, ([13, 10] : Bytes)))).flatMap (fun x => x.1 ++ x.2) := by
    clear hne
    induction ls with
    | nil => rfl
    | cons l ls ih => rw [List.flatMap_cons, utf8_append, utf8_append, ih, e, List.map_cons, List.flatMap_cons]
  rw [← h1, Parse.flat_lines ls hne, utf8_append, e]
  have h2 : Parse.Spec.blank = [13, 10] ++ [13, 10] := by decide
  rw [h2]
  simp only [List.append_assoc]

theorem cut {a b x y : Bytes} {c : UInt8} (ha : c ∉ a) (hb : c ∉ b) (h : a ++ c :: x = b ++ c :: y) : a = b ∧ x = y := by
  induction a generalizing b with
  | nil =>
    cases b with
    | nil => simpa using h
    | cons z b => simp only [List.nil_append, List.cons_append, List.cons.injEq] at h; exact absurd h.1 (by simp at hb; exact hb.1)
  | cons w a ih =>
    cases b with
    | nil => simp only [List.nil_append, List.cons_append, List.cons.injEq] at h; exact absurd h.1.symm (by simp at ha; exact ha.1)
    | cons z b =>
      simp only [List.cons_append, List.cons.injEq] at h
      obtain ⟨e1, e2⟩ := ih (by simp at ha; exact ha.2) (by simp at hb; exact hb.2) h.2
      exact ⟨by rw [h.1, e1], e2⟩

theorem blank_ws {c : Char} (h : isWs c = false) : blank c = false := by
  rcases Bool.eq_false_or_eq_true (blank c) with hb | hb
  · unfold blank at hb
    simp only [Bool.or_eq_true, beq_iff_eq] at hb
    rcases hb with rfl | rfl <;> exact absurd h (by decide)
  · exact hb

/-- A line that begins with a token and a colon is a Call-ID line exactly if the token is one of the two names. -/
theorem named_line {n : Str} (hn : Token n) (v : Str) (w : Bytes) : CallIdLine (utf8 (n ++ ": ".toList ++ v)) w ↔
    (SameName n "Call-ID".toList ∨ SameName n "i".toList) ∧ w = utf8 (" ".toList ++ v) := by
  obtain ⟨_, hch⟩ := Parse.token_chars hn
  have h58 : (58 : UInt8) ∉ utf8 n := fun hm => (hch _ (mem_utf8 (k := 58) (by omega) hm)).2.1 rfl
  have hpre : utf8 (n ++ ": ".toList ++ v) = utf8 n ++ 58 :: utf8 (" ".toList ++ v) := by
    rw [List.append_assoc, utf8_append]
    congr 1
  rw [hpre]
  have hno : ∀ {m : Bytes}, Says m "Call-ID" ∨ Says m "i" → (58 : UInt8) ∉ m := by
    intro m hm h
    have key : ∀ w : String, (∀ d ∈ w.toList, d ∈ letters) → (58 : UInt8) ∉ (utf8 w.toList).map lowerByte → Says m w → False := by
      intro w hw h58 ⟨s, e, hs⟩
      have := (says_iff _ hw m).2 ⟨s, e, hs⟩
      rw [← this] at h58
      exact h58 (List.mem_map.2 ⟨58, h, by decide⟩)
    rcases hm with hm | hm
    · exact key _ (by decide) (by decide +kernel) hm
    · exact key _ (by decide) (by decide +kernel) hm
  constructor
  · rintro ⟨m, hm, h⟩
    obtain ⟨e1, e2⟩ := cut h58 (hno hm) h
    subst e1
    refine ⟨?_, e2.symm⟩
    rcases hm with ⟨s, e, hs⟩ | ⟨s, e, hs⟩ <;> rw [utf8_inj e]
    · exact .inl hs
    · exact .inr hs
  · rintro ⟨h, rfl⟩
    refine ⟨utf8 n, ?_, rfl⟩
    rcases h with h | h
    · exact .inl ⟨n, rfl, h⟩
    · exact .inr ⟨n, rfl, h⟩

/-- The first line of a request is not a Call-ID line. -/
theorem method_line {m : Str} (hm : Token m) (rest : Str) (v : Bytes) : ¬ CallIdLine (utf8 (m ++ ' ' :: rest)) v := by
  rintro ⟨n, hn, h⟩
  rw [utf8_append] at h
  obtain ⟨_, hch⟩ := Parse.token_chars hm
  have h58 : (58 : UInt8) ∉ utf8 m := fun hx => (hch _ (mem_utf8 (k := 58) (by omega) hx)).2.1 rfl
  have h32 : (32 : UInt8) ∉ n := by
    intro hx
    have key : ∀ w : String, (∀ d ∈ w.toList, d ∈ letters) → (32 : UInt8) ∉ (utf8 w.toList).map lowerByte → Says n w → False := by
      intro w hw h32 ⟨s, e, hs⟩
      have := (says_iff _ hw n).2 ⟨s, e, hs⟩
      rw [← this] at h32
      exact h32 (List.mem_map.2 ⟨32, hx, by decide⟩)
    rcases hn with hn | hn
    · exact key _ (by decide) (by decide +kernel) hn
    · exact key _ (by decide) (by decide +kernel) hn
  have e : utf8 (' ' :: rest) = 32 :: utf8 rest := rfl
  rw [e] at h
  rcases List.append_eq_append_iff.1 h with ⟨a, h1, h2⟩ | ⟨a, h1, h2⟩
  · cases a with
    | nil => simp only [List.nil_append, List.cons.injEq] at h2; exact absurd h2.1 (by decide)
    | cons x a =>
      simp only [List.cons_append, List.cons.injEq] at h2
      exact h32 (by rw [h1, ← h2.1]; simp)
  · cases a with
    | nil => simp only [List.nil_append, List.cons.injEq] at h2; exact absurd h2.1 (by decide)
    | cons x a =>
      simp only [List.cons_append, List.cons.injEq] at h2
      exact h58 (by rw [h1, ← h2.1]; simp)

theorem first_header {hs a b : List Header} {h : Header} (he : hs = a ++ h :: b) (ha : ∀ x ∈ a, ¬ IsCallId x) (hh : IsCallId h) :
    ∃ a' b', kept hs = a' ++ h :: b' ∧ ∀ x ∈ a', x ∈ hs ∧ ¬ IsCallId x := by
  subst he
  refine ⟨kept a, kept b, ?_, fun x hx => ⟨List.mem_append_left _ (Parse.kept_mem hx).1, ha x (Parse.kept_mem hx).1⟩⟩
  unfold kept
  rw [List.filter_append, List.filter_cons_of_pos]
  have : ¬ Parse.isLengthName h.name = true := by
    unfold Parse.isLengthName eqIgnoreCase
    intro hl
    simp only [Bool.or_eq_true, beq_iff_eq] at hl
    unfold IsCallId at hh
    rw [sameName_iff, sameName_iff] at hh
    unfold eqIgnoreCase at hh
    simp only [beq_iff_eq] at hh
    rcases hl with hl | hl <;> rcases hh with hh | hh <;> rw [hl] at hh <;> revert hh <;> decide
  simp [this]

theorem blanks_bytes {P : Char → Bool} {a : Str} (h : ∀ c ∈ a, blank c = true) : ∀ x ∈ utf8 a, x = 32 ∨ x = 9 := by
  intro x hx
  obtain ⟨c, hc, hx⟩ := List.mem_flatMap.1 hx
  have hb := h c hc
  unfold blank at hb
  simp only [Bool.or_eq_true, beq_iff_eq] at hb
  rcases hb with rfl | rfl
  · exact .inl (by simpa [String.utf8EncodeChar] using hx)
  · exact .inr (by simpa [String.utf8EncodeChar] using hx)

theorem stripped_text {v t : Str} (hv : '\r' ∉ v) (h : Strips blank v t) : Stripped (utf8 (" ".toList ++ v)) (utf8 t) := by
  obtain ⟨a, b, rfl, ha, hb, h1, h2⟩ := h
  refine ⟨utf8 (" ".toList ++ a), utf8 b, by simp only [utf8_append, List.append_assoc], ?_, ?_, ?_, ?_⟩
  · refine blanks_bytes (P := blank) ?_
    intro c hc
    simp only [List.mem_append] at hc
    rcases hc with hc | hc
    · have : c = ' ' := by simpa using hc
      subst this; rfl
    · exact ha c hc
  · intro x hx
    rcases blanks_bytes (P := blank) hb x hx with h | h
    · exact .inl h
    · exact .inr (.inl h)
  · intro x hx
    refine ⟨?_, ?_⟩ <;> rintro rfl
    · exact absurd (h1 _ (head_utf8 (k := 32) (by omega) hx)) (by decide)
    · exact absurd (h1 _ (head_utf8 (k := 9) (by omega) hx)) (by decide)
  · intro x hx
    refine ⟨?_, ?_, ?_⟩ <;> rintro rfl
    · exact absurd (h2 _ (last_utf8 (k := 32) (by omega) hx)) (by decide)
    · exact absurd (h2 _ (last_utf8 (k := 9) (by omega) hx)) (by decide)
    · have := last_utf8 (k := 13) (by omega) hx
      have := List.mem_of_getLast? this
      exact hv (by simp only [List.mem_append]; exact .inl (.inr this))

/-- C137: a request that is sent is captured under its own Call-ID: the value of its first Call-ID header, stripped. -/
theorem C137_request (r : Siphon.Request) (hr : BuiltRequest r) (a b : List Header) (h : Header) (v : Str)
    (he : r.headers.inner = a ++ h :: b) (ha : ∀ x ∈ a, ¬ IsCallId x) (hh : IsCallId h) (hv : Strips isWs h.value v) :
    extractCallId (serializeRequest r) = some v := by
  obtain ⟨a', b', hk, ha'⟩ := first_header he ha hh
  have hmem : h ∈ r.headers.inner := by rw [he]; simp
  have hst := hr.headers h hmem
  rw [Parse.serializeRequest_eq, written_eq _ (Parse.requestText_clean hr).1, C137_found]
  have hclean := (Parse.requestText_clean hr).2
  have htext : ∃ more, requestText r = ((r.method.asStr ++ " ".toList ++ r.uri ++ " SIP/2.0".toList) :: a'.map reqLine) ++ reqLine h :: more := by
    unfold requestText
    rw [hk, List.map_append, List.map_cons]
    simp only [List.append_assoc, List.cons_append]
    exact ⟨_, rfl⟩
  obtain ⟨more, htext⟩ := htext
  rw [htext] at hclean ⊢
  have tok : ∀ x ∈ r.headers.inner, Token (Parse.canonicalName x.name) := fun x hx =>
    (Parse.canonicalName_token ⟨(hr.headers x hx).1, (hr.headers x hx).2.1⟩).1
  have same : ∀ x : Header, (SameName (Parse.canonicalName x.name) "Call-ID".toList ∨ SameName (Parse.canonicalName x.name) "i".toList) ↔ IsCallId x := by
    intro x
    unfold IsCallId
    simp only [sameName_iff, eqIgnoreCase, Parse.canonicalName_lower]
  refine ⟨(((r.method.asStr ++ " ".toList ++ r.uri ++ " SIP/2.0".toList) :: a'.map reqLine)).map (fun l => (utf8 l, ([13, 10] : Bytes))),
    utf8 (reqLine h), [13, 10], (more.map (fun l => (utf8 l, ([13, 10] : Bytes)))).flatMap (fun x => x.1 ++ x.2) ++ ([13, 10] ++ r.body), utf8 (" ".toList ++ trim h.value), ?_, ?_, (text_line (hclean _ (by simp))).1, ?_, ?_⟩
  · simp only [List.map_append, List.map_cons, List.flatMap_append, List.flatMap_cons, List.append_assoc]
  · intro x hx
    obtain ⟨l, hl, rfl⟩ := List.mem_map.1 hx
    have hc := text_line (hclean l (List.mem_append_left _ hl))
    refine ⟨hc.1, hc.2, ?_⟩
    rintro ⟨w, hw⟩
    rcases List.mem_cons.1 hl with rfl | hl
    · refine method_line (Parse.asStr_token hr.method) (r.uri ++ " SIP/2.0".toList) w ?_
      have e : r.method.asStr ++ " ".toList ++ r.uri ++ " SIP/2.0".toList = r.method.asStr ++ ' ' :: (r.uri ++ " SIP/2.0".toList) := by
        simp
      rw [e] at hw
      exact hw
    · obtain ⟨y, hy, rfl⟩ := List.mem_map.1 hl
      obtain ⟨hy1, hy2⟩ := ha' y hy
      exact hy2 ((same y).1 ((named_line (tok y hy1) (trim y.value) w).1 hw).1)
  · exact (named_line (tok h hmem) _ _).2 ⟨(same h).2 hh, rfl⟩
  · refine stripped_text (Parse.trim_oneLine hst.2.2.1).1 ?_
    have : v = trim h.value := (strips_trim _ _).1 hv
    rw [this]
    refine ⟨[], [], by simp, nofun, nofun, ?_, ?_⟩
    · intro c hc
      obtain ⟨_, _, _, _, _, h1, _⟩ := this ▸ hv
      have := h1 c hc
      exact blank_ws this
    · intro c hc
      obtain ⟨_, _, _, _, _, _, h1⟩ := this ▸ hv
      exact blank_ws (h1 c hc)

/-- C137: a response that is sent is captured under its own Call-ID. -/
theorem C137_response (r : Siphon.Response) (hr : BuiltResponse r) (a b : List Header) (h : Header) (v : Str)
    (he : r.headers.inner = a ++ h :: b) (ha : ∀ x ∈ a, ¬ IsCallId x) (hh : IsCallId h) (hv : Strips blank h.value v) :
    extractCallId (serializeResponse r) = some v := by
  obtain ⟨a', b', hk, ha'⟩ := first_header he ha hh
  have hmem : h ∈ r.headers.inner := by rw [he]; simp
  have hst := hr.headers h hmem
  rw [Parse.serializeResponse_eq, written_eq _ (Parse.responseText_clean hr).1, C137_found]
  have hclean := (Parse.responseText_clean hr).2
  have htext : ∃ more, responseText r = (("SIP/2.0 ".toList ++ showNat r.code ++ " ".toList ++ r.reason) :: a'.map respLine) ++ respLine h :: more := by
    unfold responseText
    rw [hk, List.map_append, List.map_cons]
    simp only [List.append_assoc, List.cons_append]
    exact ⟨_, rfl⟩
  obtain ⟨more, htext⟩ := htext
  rw [htext] at hclean ⊢
  refine ⟨((("SIP/2.0 ".toList ++ showNat r.code ++ " ".toList ++ r.reason) :: a'.map respLine)).map (fun l => (utf8 l, ([13, 10] : Bytes))),
    utf8 (respLine h), [13, 10], (more.map (fun l => (utf8 l, ([13, 10] : Bytes)))).flatMap (fun x => x.1 ++ x.2) ++ ([13, 10] ++ r.body), utf8 (" ".toList ++ h.value), ?_, ?_, (text_line (hclean _ (by simp))).1, ?_, ?_⟩
  · simp only [List.map_append, List.map_cons, List.flatMap_append, List.flatMap_cons, List.append_assoc]
  · intro x hx
    obtain ⟨l, hl, rfl⟩ := List.mem_map.1 hx
    have hc := text_line (hclean l (List.mem_append_left _ hl))
    refine ⟨hc.1, hc.2, ?_⟩
    rintro ⟨w, hw⟩
    rcases List.mem_cons.1 hl with rfl | hl
    · obtain ⟨n, hn, e⟩ := hw
      have key : ∀ u : String, (∀ d ∈ u.toList, d ∈ letters) → ((utf8 u.toList).map lowerByte ++ [58]).head? ≠ some 115 → Says n u → False := by
        intro u hu hne ⟨s, e', hs⟩
        have h1 := (says_iff _ hu n).2 ⟨s, e', hs⟩
        rw [← h1] at hne
        apply hne
        have h2 := congrArg (fun l => (l.map lowerByte).head?) e
        have e0 : utf8 ("SIP/2.0 ".toList ++ showNat r.code ++ " ".toList ++ r.reason) =
            83 :: utf8 ("IP/2.0 ".toList ++ showNat r.code ++ " ".toList ++ r.reason) := rfl
        simp only [e0, List.map_cons, List.head?_cons] at h2
        cases n with
        | nil => simp only [List.nil_append, List.map_cons, List.head?_cons] at h2; exact absurd h2 (by decide)
        | cons x n =>
          simp only [List.cons_append, List.map_cons, List.head?_cons] at h2 ⊢
          rw [← h2]; decide
      rcases hn with hn | hn
      · exact key _ (by decide) (by decide +kernel) hn
      · exact key _ (by decide) (by decide +kernel) hn
    · obtain ⟨y, hy, rfl⟩ := List.mem_map.1 hl
      obtain ⟨hy1, hy2⟩ := ha' y hy
      exact hy2 ((named_line (hr.headers y hy1).1 y.value w).1 hw).1
  · exact (named_line hst.1 _ _).2 ⟨hh, rfl⟩
  · exact stripped_text hst.2.2.1.1 hv

theorem tok_max : Token "Max-Forwards".toList :=
  ((header_new_ok_iff "Max-Forwards".toList [] ⟨"Max-Forwards".toList, []⟩).1 (by decide +kernel)).2.1
theorem tok_len : Token "Content-Length".toList :=
  ((header_new_ok_iff "Content-Length".toList [] ⟨"Content-Length".toList, []⟩).1 (by decide +kernel)).2.1

/-- C137: a message without a Call-ID header is captured without one, whatever its body says. -/
theorem C137_without (r : Siphon.Request) (hr : BuiltRequest r) (h : ∀ x ∈ r.headers.inner, ¬ IsCallId x) :
    extractCallId (serializeRequest r) = none := by
  rw [Parse.serializeRequest_eq, written_eq _ (Parse.requestText_clean hr).1]
  refine C137_body _ _ _ ?_ (.inl rfl)
  intro x hx
  obtain ⟨l, hl, rfl⟩ := List.mem_map.1 hx
  have hc := text_line ((Parse.requestText_clean hr).2 l hl)
  refine ⟨hc.1, hc.2, ?_⟩
  rintro ⟨w, hw⟩
  unfold requestText at hl
  simp only [List.mem_cons, List.mem_append, List.not_mem_nil, or_false] at hl
  rcases hl with rfl | (hl | hl) | rfl
  · refine method_line (Parse.asStr_token hr.method) (r.uri ++ " SIP/2.0".toList) w ?_
    have e : r.method.asStr ++ " ".toList ++ r.uri ++ " SIP/2.0".toList = r.method.asStr ++ ' ' :: (r.uri ++ " SIP/2.0".toList) := by
      simp
    rw [e] at hw
    exact hw
  · obtain ⟨y, hy, rfl⟩ := List.mem_map.1 hl
    have hs := hr.headers y (Parse.kept_mem hy).1
    refine h y (Parse.kept_mem hy).1 ?_
    have := ((named_line (Parse.canonicalName_token ⟨hs.1, hs.2.1⟩).1 (trim y.value) w).1 hw).1
    unfold IsCallId
    simp only [sameName_iff, eqIgnoreCase, Parse.canonicalName_lower] at this ⊢
    exact this
  · split at hl
    · cases hl
    · simp only [List.mem_cons, List.not_mem_nil, or_false] at hl
      subst hl
      have := ((named_line (n := "Max-Forwards".toList) tok_max "70".toList w).1 hw).1
      simp only [sameName_iff] at this
      revert this; decide
  · have := ((named_line (n := "Content-Length".toList) tok_len (showNat r.body.length) w).1 hw).1
    simp only [sameName_iff] at this
    revert this; decide

/-! ## Packets -/

/-- C137: one packet is made for a message on a connection if a capture server is configured and the local address is known, and none
otherwise.  It says who sent the message to whom, it has the Call-ID, and it holds the message, or its first 60 KiB. -/
theorem C137_packet {A : Type} (cell : Option Emitter) (dir : Direction) (loc : Option A) (peer : A) (data : Bytes) (p : Packet A) :
    emitPool cell dir loc peer data = some p ↔ ∃ e l, cell = some e ∧ loc = some l ∧
      p.captureId = e.captureId ∧ p.password = e.password ∧ p.transport = .tcp ∧ p.correlation = extractCallId data ∧
      (dir = .outbound → p.src = l ∧ p.dst = peer) ∧ (dir = .inbound → p.src = peer ∧ p.dst = l) ∧
      (data.length ≤ 61440 → p.payload = data) ∧ (61440 < data.length → p.payload.length = 61440 ∧ p.payload <+: data) := by
  obtain ⟨x1, x2, x3, x4, x5, x6, x7⟩ := p
  have hpay : ∀ q : Bytes, (if data.length > MAX_SIP_PAYLOAD then data.take MAX_SIP_PAYLOAD else data) = q ↔
      (data.length ≤ 61440 → q = data) ∧ (61440 < data.length → q.length = 61440 ∧ q <+: data) := by
    intro q
    unfold MAX_SIP_PAYLOAD
    split
    · rename_i hl
      constructor
      · rintro rfl
        exact ⟨fun h => by omega, fun _ => ⟨by rw [List.length_take]; omega, List.take_prefix _ _⟩⟩
      · rintro ⟨_, h⟩
        obtain ⟨h1, h2⟩ := h hl
        rw [List.prefix_iff_eq_take.1 h2, h1]
    · rename_i hl
      constructor
      · rintro rfl
        exact ⟨fun _ => rfl, fun h => absurd h hl⟩
      · rintro ⟨h, _⟩
        exact (h (by omega)).symm
  unfold emitPool
  cases cell with
  | none => simp
  | some e =>
    cases loc with
    | none => simp
    | some l =>
      cases dir <;>
      · simp only [Option.some.injEq, Emitter.emit, Packet.mk.injEq, hpay, exists_and_left, exists_eq_left', reduceCtorEq, false_imp_iff, true_and,
          and_true, forall_const]
        constructor
        · rintro ⟨rfl, rfl, rfl, rfl, rfl, rfl, h⟩
          exact ⟨rfl, rfl, rfl, rfl, ⟨rfl, rfl⟩, h⟩
        · rintro ⟨rfl, rfl, rfl, rfl, ⟨rfl, rfl⟩, h⟩
          exact ⟨rfl, rfl, rfl, rfl, rfl, rfl, h⟩

/-- The same for a datagram. -/
theorem C137_datagram {A : Type} (cell : Option Emitter) (dir : Direction) (loc : Option A) (peer : A) (data : Bytes) :
    emitUdp cell dir loc peer data = (emitPool cell dir loc peer data).map (fun p => { p with transport := .udp }) := by
  unfold emitUdp emitPool
  cases cell <;> cases loc <;> cases dir <;> rfl

/-- C137: however often a capture server is configured, the first one is used, and only the first attempt is told that it succeeded. -/
theorem C137_once (e : Emitter) (es : List Emitter) :
    (e :: es).foldl (fun c x => (setEmitter c x).1) none = some e ∧ (setEmitter none e).2 = true ∧
      ∀ x c, (setEmitter (some c) x).2 = false := by
  refine ⟨?_, rfl, fun _ _ => rfl⟩
  show es.foldl (fun c x => (setEmitter c x).1) (some e) = some e
  induction es with
  | nil => rfl
  | cons x es ih => exact ih

/-! ## Where the capture and the parser differ -/

/-- C137, violated: a space before the colon, which the parser allows (RFC 3261 7.3.1), hides the
Call-ID. -/
theorem C137_spaced :
    ((Parse.parseRequest (utf8 "BYE sip:a@b SIP/2.0\r\nCall-ID : x\r\n\r\n".toList)).bind (·.headers.get "Call-ID".toList)) = some "x".toList ∧
    extractCallId (utf8 "BYE sip:a@b SIP/2.0\r\nCall-ID : x\r\n\r\n".toList) = none := by decide +kernel

/-- A message that fits `C137_request`. -/
def bye : Siphon.Request := ⟨.bye, "sip:b@x".toList, ⟨[⟨"Via".toList, "SIP/2.0/UDP h".toList⟩, ⟨"i".toList, "  a-1@h".toList⟩]⟩,
  utf8 "Call-ID: no".toList⟩

theorem bye_built : BuiltRequest bye := by
  refine ⟨⟨"BYE".toList, (Parse.names_iff _ _).1 (by decide +kernel)⟩, ?_, ?_, by decide, by decide +kernel⟩
  · have : (Uri.parse bye.uri).isSome = true := by decide +kernel
    exact Option.isSome_iff_exists.1 this
  · have hd : ∀ h ∈ bye.headers.inner, Header.new h.name h.value = .ok h := by decide +kernel
    intro h hh
    exact ((header_new_ok_iff _ _ _).1 (hd h hh)).2

example : extractCallId (serializeRequest bye) = some "a-1@h".toList :=
  C137_request bye bye_built [⟨"Via".toList, "SIP/2.0/UDP h".toList⟩] [] ⟨"i".toList, "  a-1@h".toList⟩ _ rfl
    (by intro x hx; simp only [List.mem_cons, List.not_mem_nil, or_false] at hx; subst hx; unfold IsCallId; simp only [sameName_iff]; decide)
    (.inr ((sameName_iff _ _).2 (by decide))) ((strips_trim _ _).2 (by decide))

end Siphon.Hep
