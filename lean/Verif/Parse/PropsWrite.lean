import Verif.Parse.WriteLemmas
/-!
# C23, C29, C30: writing a message, reading it back, and the length of the body

`NormalRequest` and `NormalResponse` (`Verif.Parse.WriteSpec`) say what comes back.
-/
namespace Siphon.Parse

open Siphon.HdrSpec Siphon.TextSpec Spec

set_option linter.unusedSimpArgs false

/-! ## C23: one line per header -/

/-- C23: a request is written as its lines, a blank line and the body. A reader that looks for the first blank line and
splits at line ends finds exactly these lines and this body, whatever texts the application supplied. -/
theorem C23_request (r : Siphon.Request) (h : BuiltRequest r) :
    ∃ ls, RequestLines r ls ∧ (∀ l ∈ ls, l ≠ [] ∧ '\r' ∉ l ∧ '\n' ∉ l) ∧
      serializeRequest r = utf8 (joinLines ls) ++ Spec.blank ++ r.body ∧
      ∀ head rest lines, HeadBody (serializeRequest r) head rest → Lines head lines → lines = ls ∧ rest = r.body := by
  have hc := requestText_clean h
  refine ⟨requestText r, (requestLines_iff _ _).2 rfl, hc.2, serializeRequest_eq r, ?_⟩
  intro head rest lines h1 h2
  rw [serializeRequest_eq] at h1
  obtain ⟨rfl, rfl⟩ := headBody_unique (headBody_of_lines _ hc.1 (fun l hl => ⟨(hc.2 l hl).1, (hc.2 l hl).2.1⟩) r.body) h1
  exact ⟨lines_unique h2 (lines_of_clean _ hc.1 (fun l hl => ⟨(hc.2 l hl).1, (hc.2 l hl).2.1⟩)), rfl⟩

/-- C23: the same for responses. -/
theorem C23_response (r : Siphon.Response) (h : BuiltResponse r) :
    ∃ ls, ResponseLines r ls ∧ (∀ l ∈ ls, l ≠ [] ∧ '\r' ∉ l ∧ '\n' ∉ l) ∧
      serializeResponse r = utf8 (joinLines ls) ++ Spec.blank ++ r.body ∧
      ∀ head rest lines, HeadBody (serializeResponse r) head rest → Lines head lines → lines = ls ∧ rest = r.body := by
  have hc := responseText_clean h
  refine ⟨responseText r, (responseLines_iff _ _).2 rfl, hc.2, serializeResponse_eq r, ?_⟩
  intro head rest lines h1 h2
  rw [serializeResponse_eq] at h1
  obtain ⟨rfl, rfl⟩ := headBody_unique (headBody_of_lines _ hc.1 (fun l hl => ⟨(hc.2 l hl).1, (hc.2 l hl).2.1⟩) r.body) h1
  exact ⟨lines_unique h2 (lines_of_clean _ hc.1 (fun l hl => ⟨(hc.2 l hl).1, (hc.2 l hl).2.1⟩)), rfl⟩

/-- A request for the examples. -/
def sample : Siphon.Request :=
  { method := .invite, uri := "sip:bob@example.com".toList,
    headers := ⟨[⟨"v".toList, "SIP/2.0/UDP h;branch=z9hG4bKabc".toList⟩, ⟨"CSeq".toList, " 1 INVITE".toList⟩,
      ⟨"l".toList, "77".toList⟩]⟩,
    body := [104, 105] }

theorem sample_built : BuiltRequest sample := by
  refine ⟨⟨"INVITE".toList, (names_iff _ _).1 (by decide +kernel)⟩, ?_, ?_, by decide, by decide⟩
  · have : (Uri.parse sample.uri).isSome = true := by decide +kernel
    exact Option.isSome_iff_exists.1 this
  · have hd : ∀ h ∈ sample.headers.inner, Header.new h.name h.value = .ok h := by decide +kernel
    intro h hh
    exact ((header_new_ok_iff _ _ _).1 (hd h hh)).2

/-- the text of the example -/
example : serializeRequest sample = utf8 ("INVITE sip:bob@example.com SIP/2.0\r\nv: SIP/2.0/UDP h;branch=z9hG4bKabc\r\nCSeq: 1 INVITE\r\nMax-Forwards: 70\r\nContent-Length: 2\r\n\r\nhi").toList := by
  decide +kernel

/-- C23: the method and the URI are written as they are. The variants `Method::Unknown` and `Uri::Absolute` are public,
so an application can make a request with a method that no token gives; its text then has lines of its own. -/
theorem C23_method_injection : ∃ (r : Siphon.Request) (r' : Siphon.Request),
    r.headers.inner = [] ∧ (∀ t, ¬ Names t r.method) ∧ parseRequest (serializeRequest r) = some r' ∧
    r'.method = .invite ∧ r'.headers.get "Zz".toList = some "1".toList := by
  refine ⟨⟨.unknown "INVITE sip:a@b SIP/2.0\r\nZz: 1\r\nY:".toList, "sip:c@d".toList, ⟨[]⟩, []⟩,
    ⟨.invite, "sip:a@b".toList, ⟨[⟨"Zz".toList, "1".toList⟩, ⟨"Y".toList, "sip:c@d SIP/2.0".toList⟩,
      ⟨"Max-Forwards".toList, "70".toList⟩, ⟨"Content-Length".toList, "0".toList⟩]⟩, []⟩, rfl, ?_, by decide +kernel, rfl, by decide +kernel⟩
  intro t ht
  have := (asStr_token ⟨t, ht⟩).2 ' ' (by decide)
  rw [← isHeaderNameChar_iff] at this
  exact absurd this (by decide)

/-! ## C29: reading back -/

theorem request_back (B : List Header → Bytes → Bytes → Prop) (r r' : Siphon.Request) (h : BuiltRequest r)
    (hB : ∀ b, B (readBack r.headers.inner r.body.length) r.body b ↔ b = r.body) (hu : ∀ c ∈ r.uri, isWs c = false) (max : Nat) :
    Spec.Request B (serializeRequest r) max r' ↔
      NormalRequest r r' ∧ (serializeRequest r).length ≤ max ∧ r'.headers.inner.length ≤ 200 ∧ Single r'.headers.inner ∧
        Branches r'.headers.inner ∧ CSeqs r'.headers.inner (fun w => SameName r'.method.asStr w) := by
  rw [normalRequest_iff, serializeRequest_eq]
  unfold Spec.Request
  have hc := requestText_clean h
  have hf := request_fields h
  have hline := requestLine_written h hu
  constructor
  · rintro ⟨first, rest, h1, h2, h3, h4, h5, h6, h7⟩
    obtain ⟨g1, rfl, g3, rfl, g5⟩ := (splits_written hc.2 hf max first _ rest).1 h1
    obtain ⟨e1, e2⟩ := requestLine_unique h2 hline
    rw [g3] at h5
    have e3 := (hB _).1 h5
    refine ⟨?_, g1, ?_, h3, h4, h7⟩
    · obtain ⟨m, u, ⟨hs⟩, b⟩ := r'
      simp only at e1 e2 e3 g3
      subst e1 e2 e3 g3
      rfl
    · rw [g3]; exact g5
  · rintro ⟨rfl, h1, h2, h3, h4, h5⟩
    exact ⟨_, _, (splits_written hc.2 hf max _ _ _).2 ⟨h1, rfl, rfl, rfl, h2⟩, hline, h3, h4, (hB _).2 rfl, h.body, h5⟩

theorem readBack_body {r : Siphon.Request} (h : BuiltRequest r) :
    (∀ b, Body (readBack r.headers.inner r.body.length) r.body b ↔ b = r.body) ∧
    (∀ b, StrictBody (readBack r.headers.inner r.body.length) r.body b ↔ b = r.body) := by
  obtain ⟨init, e, hi⟩ := readBack_init r.headers.inner r.body.length
  rw [e]
  exact body_last init r.body hi h.body

/-- C29: what is read from a written request is its normal form, if that has at most 200 headers, fits the limit and
passes the checks on singletons, branch and CSeq; otherwise nothing is read. -/
theorem C29_request (r r' : Siphon.Request) (h : BuiltRequest r) (hu : ∀ c ∈ r.uri, isWs c = false) (max : Nat) :
    parseRequestWithLimit (serializeRequest r) max = some r' ↔
      NormalRequest r r' ∧ (serializeRequest r).length ≤ max ∧ r'.headers.inner.length ≤ 200 ∧ Single r'.headers.inner ∧
        Branches r'.headers.inner ∧ CSeqs r'.headers.inner (fun w => SameName r'.method.asStr w) := by
  rw [C92_request]
  exact request_back Body r r' h (readBack_body h).1 hu max

/-- C29: the strict parser reads the same from a written request. -/
theorem C29_request_strict (r : Siphon.Request) (h : BuiltRequest r) (hu : ∀ c ∈ r.uri, isWs c = false) (max : Nat) :
    parseRequestStrictWithLimit (serializeRequest r) max = parseRequestWithLimit (serializeRequest r) max := by
  apply Option.ext
  intro r'
  rw [C92_request, C92_request_strict, request_back Body r r' h (readBack_body h).1 hu max,
    request_back StrictBody r r' h (readBack_body h).2 hu max]

theorem response_init {r : Siphon.Response} : ∀ x ∈ (kept r.headers.inner).map (fun h => (⟨canonicalHeaderName h.name, trim h.value⟩ : Header)),
    isLengthName x.name = false := by
  intro x hx
  obtain ⟨h, hm, rfl⟩ := List.mem_map.1 hx
  exact canonical_notLength (kept_mem hm).2

theorem response_back (B : List Header → Bytes → Bytes → Prop) (r r' : Siphon.Response) (h : BuiltResponse r)
    (hB : ∀ b, B ((kept r.headers.inner).map (fun h => ⟨canonicalHeaderName h.name, trim h.value⟩) ++
      [⟨"Content-Length".toList, showNat r.body.length⟩]) r.body b ↔ b = r.body) :
    Spec.Response B (serializeResponse r) r' ↔
      NormalResponse r r' ∧ r'.reason ≠ [] ∧ (serializeResponse r).length ≤ 65536 ∧ r'.headers.inner.length ≤ 200 ∧
        Single r'.headers.inner ∧ CSeqs r'.headers.inner (fun _ => True) := by
  rw [normalResponse_iff, serializeResponse_eq]
  unfold Spec.Response
  have hc := responseText_clean h
  have hf := response_fields h
  constructor
  · rintro ⟨first, rest, h1, h2, h3, h4, h5⟩
    obtain ⟨g1, rfl, g3, rfl, g5⟩ := (splits_written hc.2 hf 65536 first _ rest).1 h1
    obtain ⟨e1, e2, e3⟩ := (statusLine_written h _ _).1 h2
    rw [g3] at h4
    have e4 := (hB _).1 h4
    refine ⟨?_, e3, g1, ?_, h3, h5⟩
    · obtain ⟨m, u, ⟨hs⟩, b⟩ := r'
      simp only at e1 e2 e4 g3
      subst e1 e2 e4 g3
      rfl
    · rw [g3]; exact g5
  · rintro ⟨rfl, h0, h1, h2, h3, h4⟩
    exact ⟨_, _, (splits_written hc.2 hf 65536 _ _ _).2 ⟨h1, rfl, rfl, rfl, h2⟩, (statusLine_written h _ _).2 ⟨rfl, rfl, h0⟩, h3,
      (hB _).2 rfl, h4⟩

/-- C29: what is read from a written response is its normal form, if the reason is not blank, there are at most 200
headers and 65 536 bytes, and the checks on singletons and CSeq pass; otherwise nothing is read. -/
theorem C29_response (r r' : Siphon.Response) (h : BuiltResponse r) :
    parseResponse (serializeResponse r) = some r' ↔
      NormalResponse r r' ∧ r'.reason ≠ [] ∧ (serializeResponse r).length ≤ 65536 ∧ r'.headers.inner.length ≤ 200 ∧
        Single r'.headers.inner ∧ CSeqs r'.headers.inner (fun _ => True) := by
  rw [C92_response]
  exact response_back Body r r' h (body_last _ _ response_init h.body).1

/-- C29: the strict parser reads the same from a written response. -/
theorem C29_response_strict (r : Siphon.Response) (h : BuiltResponse r) :
    parseResponseStrict (serializeResponse r) = parseResponse (serializeResponse r) := by
  apply Option.ext
  intro r'
  rw [C92_response, C92_response_strict, response_back Body r r' h (body_last _ _ response_init h.body).1,
    response_back StrictBody r r' h (body_last _ _ response_init h.body).2]

/-! ### Messages from the network -/

theorem fields_storable {ls : List Str} {hs : List Header} (h : Fields ls hs) : ∀ x ∈ hs, Storable x ∧
    canonicalHeaderName x.name = x.name ∧ trim x.value = x.value := by
  induction h with
  | nil => simp
  | skip _ ih => exact ih
  | cons hf _ ih =>
    intro x hx
    rcases List.mem_cons.1 hx with rfl | hx
    · obtain ⟨n, v, n', _, _, _, _, _, h6, h7, h8⟩ := hf
      refine ⟨h8, ?_, ?_⟩
      · rw [← fullName_iff] at h6
        rw [← h6]
        rcases canonicalHeader_or n' with e | ⟨p, hp, _, e⟩
        · rw [e, e]
        · rw [e]; exact (compact_again p hp).2
      · rw [strips_trim] at h7
        rw [h7, trim_trim]
    · exact ih x hx

/-- C29: a request read from the network can be written again: it meets the conditions of `C29_request`. -/
theorem C29_request_built (d : Bytes) (max : Nat) (r : Siphon.Request) (h : parseRequestWithLimit d max = some r) :
    BuiltRequest r ∧ ∀ c ∈ r.uri, isWs c = false := by
  rw [C92_request] at h
  obtain ⟨first, rest, ⟨_, _, _, _, _, h1, h2⟩, ⟨t, g, g', v, _, h3, _, _, h4, h5, _⟩, _, _, _, h6, _⟩ := h
  exact ⟨⟨⟨t, h3⟩, h5, fun x hx => (fields_storable h1 x hx).1, h2, h6⟩, h4⟩

theorem canonical_lower {n : Str} (h : canonicalHeaderName n = n) : lower (canonicalHeaderName (canonicalName n)) = lower n := by
  rcases canonicalHeader_or (canonicalName n) with e | ⟨p, hp, h1, _⟩
  · rw [e, canonicalName_lower]
  · rw [canonicalName_lower] at h1
    have hf : canonicalHeaderName n = p.2.toList := by
      rw [fullName_iff]
      exact .inl ⟨p, hp, by rw [sameName_iff, eqIgnoreCase, beq_iff_eq, h1, compact_lower p hp], rfl⟩
    rw [h] at hf
    have hlen := congrArg List.length h1
    rw [hf] at hlen
    simp only [lower, List.length_map, List.length_cons, List.length_nil] at hlen
    have : ∀ p ∈ compact, p.2.toList.length ≠ 1 := by decide
    exact absurd hlen (this p hp)

theorem selects_kept {n : Str} (hn : ¬ isLengthName n = true) : ∀ (hs : List Header) (vs : List Str),
    (∀ x ∈ hs, canonicalHeaderName x.name = x.name ∧ trim x.value = x.value) → Selects n hs vs →
    Selects n ((kept hs).map (fun h => ⟨canonicalHeaderName (canonicalName h.name), trim h.value⟩)) vs := by
  intro hs vs hx hsel
  have hsame : ∀ x : Header, canonicalHeaderName x.name = x.name →
      (SameName (canonicalHeaderName (canonicalName x.name)) n ↔ SameName x.name n) := by
    intro x h
    rw [sameName_iff, sameName_iff, eqIgnoreCase, eqIgnoreCase, canonical_lower h]
  have hlen : ∀ x : Header, SameName x.name n → isLengthName x.name = false := by
    intro x h
    rw [sameName_iff, eqIgnoreCase, beq_iff_eq] at h
    rw [← Bool.not_eq_true]
    intro e
    apply hn
    unfold isLengthName eqIgnoreCase at e ⊢
    rwa [← h]
  induction hsel with
  | nil => exact .nil
  | @take h l vs h1 _ ih =>
    unfold kept at ih ⊢
    rw [List.filter_cons_of_pos (by simp [hlen h h1]), List.map_cons]
    have hh := hx h (by simp)
    have := Selects.take (h := ⟨canonicalHeaderName (canonicalName h.name), trim h.value⟩) ((hsame h hh.1).2 h1) (ih (fun x hm => hx x (List.mem_cons_of_mem _ hm)))
    rwa [hh.2] at this ⊢
  | @skip h l vs h1 _ ih =>
    unfold kept at ih ⊢
    have hh := hx h (by simp)
    by_cases hl : isLengthName h.name = true
    · rw [List.filter_cons_of_neg (by simp [hl])]; exact ih (fun x hm => hx x (List.mem_cons_of_mem _ hm))
    · rw [List.filter_cons_of_pos (by simp [hl]), List.map_cons]
      exact .skip (fun e => h1 ((hsame h hh.1).1 e)) (ih (fun x hm => hx x (List.mem_cons_of_mem _ hm)))

/-- The values of other headers stay as they are. -/
theorem selects_back {n : Str} (hn : ¬ isLengthName n = true) (hn' : lower n ≠ lower "Max-Forwards".toList)
    (hs : List Header) (k : Nat) (vs : List Str)
    (hx : ∀ x ∈ hs, canonicalHeaderName x.name = x.name ∧ trim x.value = x.value) (h : Selects n hs vs) :
    Selects n (readBack hs k) vs := by
  have h1 := selects_kept hn hs vs hx h
  unfold readBack
  have h2 : Selects n (if hs.any (·.nameEq "Max-Forwards".toList) then [] else [⟨"Max-Forwards".toList, "70".toList⟩]) [] := by
    split
    · exact .nil
    · exact .skip (by rw [sameName_iff, eqIgnoreCase, beq_iff_eq]; exact fun e => hn' e.symm) .nil
  have h3 : Selects n [⟨"Content-Length".toList, showNat k⟩] [] := by
    refine .skip ?_ .nil
    rw [sameName_iff]
    intro e
    apply hn
    unfold isLengthName
    unfold eqIgnoreCase at e ⊢
    rw [beq_iff_eq] at e
    simp [← e]
  have h4 := selects_append (selects_append h1 h2) h3
  rw [List.append_nil, List.append_nil] at h4
  exact h4

/-- C29: forwarding. A request from the network, written and read again, is its normal form: the checks it passed the
first time do not fail the second time, only the number of headers or of bytes can. -/
theorem C29_forward (d : Bytes) (max max' : Nat) (r r' : Siphon.Request) (h : parseRequestWithLimit d max = some r) :
    parseRequestWithLimit (serializeRequest r) max' = some r' ↔
      NormalRequest r r' ∧ (serializeRequest r).length ≤ max' ∧ r'.headers.inner.length ≤ 200 := by
  obtain ⟨hb, hu⟩ := C29_request_built d max r h
  rw [C29_request r r' hb hu max']
  rw [C92_request] at h
  obtain ⟨first, rest, ⟨_, _, _, _, _, h1, _⟩, _, hsing, hbr, _, _, hcs⟩ := h
  have hx : ∀ x ∈ r.headers.inner, canonicalHeaderName x.name = x.name ∧ trim x.value = x.value :=
    fun x hm => (fields_storable h1 x hm).2
  constructor
  · rintro ⟨a, b, c, _⟩; exact ⟨a, b, c⟩
  · rintro ⟨a, b, c⟩
    refine ⟨a, b, c, ?_⟩
    rw [normalRequest_iff] at a
    subst a
    simp only
    have hfirst : ∀ n : String, ¬ isLengthName n.toList = true → lower n.toList ≠ lower "Max-Forwards".toList → ∀ v,
        First (readBack r.headers.inner r.body.length) n v → First r.headers.inner n v := by
      intro n h1 h2 v hv
      have hs := C24_getAll r.headers n.toList
      obtain ⟨more, hm⟩ := hv
      have := selects_unique hm (selects_back h1 h2 r.headers.inner r.body.length _ hx hs)
      exact ⟨more, this ▸ hs⟩
    refine ⟨?_, ?_, ?_⟩
    · intro n hn vs hvs
      simp only [List.mem_cons, List.not_mem_nil, or_false] at hn
      have other : ¬ isLengthName n.toList = true → lower n.toList ≠ lower "Max-Forwards".toList →
          n ∈ ["Call-ID", "CSeq", "From", "To", "Max-Forwards"] → vs.length ≤ 1 := by
        intro g1 g2 g3
        have hs := C24_getAll r.headers n.toList
        have := selects_unique hvs (selects_back g1 g2 r.headers.inner r.body.length _ hx hs)
        rw [this]
        exact hsing n g3 _ hs
      rcases hn with rfl | rfl | rfl | rfl | rfl
      · exact other (by decide) (by decide) (by decide)
      · exact other (by decide) (by decide) (by decide)
      · exact other (by decide) (by decide) (by decide)
      · exact other (by decide) (by decide) (by decide)
      · have hs := C24_getAll r.headers "Max-Forwards".toList
        have hk := selects_kept (by decide) r.headers.inner _ hx hs
        unfold readBack at hvs
        have hlast : Selects "Max-Forwards".toList [⟨"Content-Length".toList, showNat r.body.length⟩] [] :=
          .skip (fun e => absurd ((sameName_iff _ _).1 e : eqIgnoreCase "Content-Length".toList "Max-Forwards".toList = true) (by decide)) .nil
        by_cases hm : r.headers.inner.any (·.nameEq "Max-Forwards".toList) = true
        · rw [if_pos hm] at hvs
          have := selects_unique hvs (selects_append (selects_append hk .nil) hlast)
          rw [this]
          have := hsing "Max-Forwards" (by decide) _ hs
          simpa using this
        · rw [if_neg hm] at hvs
          have hmf : Selects "Max-Forwards".toList [⟨"Max-Forwards".toList, "70".toList⟩] ["70".toList] :=
            .take (by rw [sameName_iff]; decide) .nil
          have := selects_unique hvs (selects_append (selects_append hk hmf) hlast)
          have hnone : r.headers.getAll "Max-Forwards".toList = [] := by
            refine selects_unique hs (selects_none _ ?_)
            intro x hxm e
            exact hm ((hasMax_iff _).1 ⟨x, hxm, e⟩)
          rw [this, hnone]
          simp
    · intro via b t h1 h2 h3
      exact hbr via b t (hfirst "Via" (by decide) (by decide) via h1) h2 h3
    · intro v hv
      exact hcs v (hfirst "CSeq" (by decide) (by decide) v hv)

theorem kept_append (a b : List Header) : kept (a ++ b) = kept a ++ kept b := List.filter_append ..

theorem kept_all (a : List Header) (h : ∀ x ∈ a, isLengthName x.name = false) : kept a = a :=
  List.filter_eq_self.2 (fun x hx => by simp [h x hx])

theorem readBack_again (hs : List Header) (n : Nat) : readBack (readBack hs n) n = readBack hs n := by
  obtain ⟨init, e, hi⟩ := readBack_init hs n
  have hany : (readBack hs n).any (·.nameEq "Max-Forwards".toList) = true := by
    rw [← hasMax_iff]
    by_cases hm : hs.any (·.nameEq "Max-Forwards".toList) = true
    · obtain ⟨x, hx, hs'⟩ := (hasMax_iff _).2 hm
      have hl : lower x.name = lower "Max-Forwards".toList := by
        rw [sameName_iff, eqIgnoreCase, beq_iff_eq] at hs'; exact hs'
      have hk : x ∈ kept hs := by
        refine List.mem_filter.2 ⟨hx, ?_⟩
        unfold isLengthName eqIgnoreCase
        rw [hl]
        decide
      refine ⟨⟨canonicalHeaderName (canonicalName x.name), trim x.value⟩, ?_, ?_⟩
      · unfold readBack
        simp only [List.mem_append]
        exact .inl (.inl (List.mem_map.2 ⟨x, hk, rfl⟩))
      · rw [sameName_iff, eqIgnoreCase, beq_iff_eq]
        rcases canonicalHeader_or (canonicalName x.name) with e | ⟨p, hp, h1, _⟩
        · simp only; rw [e, canonicalName_lower, hl]
        · rw [canonicalName_lower, hl] at h1
          have h12 : (12 : Nat) = 1 := congrArg List.length h1
          exact absurd h12 (by decide)
    · refine ⟨⟨"Max-Forwards".toList, "70".toList⟩, ?_, (sameName_iff _ _).2 (by decide)⟩
      unfold readBack
      rw [if_neg hm]
      simp only [List.mem_append]
      exact .inl (.inr (by simp))
  have hfix : ∀ x ∈ init, (⟨canonicalHeaderName (canonicalName x.name), trim x.value⟩ : Header) = x := by
    intro x hx
    have hx' : x ∈ (kept hs).map (fun h => (⟨canonicalHeaderName (canonicalName h.name), trim h.value⟩ : Header)) ++
        (if hs.any (·.nameEq "Max-Forwards".toList) then [] else [⟨"Max-Forwards".toList, "70".toList⟩]) := by
      have e2 : readBack hs n = _ ++ [_] := rfl
      rw [e2] at e
      rw [(List.append_inj' e rfl).1]; exact hx
    rcases List.mem_append.1 hx' with hx | hx
    · obtain ⟨y, _, rfl⟩ := List.mem_map.1 hx
      simp only [trim_trim]
      congr 1
      rcases canonicalHeader_or (canonicalName y.name) with e | ⟨p, hp, _, e⟩
      · rw [e]
        rcases canonicalName_or y.name with e' | ⟨c, hc, _, e'⟩
        · rw [e']; rw [e'] at e; rw [e', e]
        · rw [e']
          have : ∀ c ∈ fourNames, canonicalHeaderName (canonicalName c.toList) = c.toList := by decide +kernel
          exact this c hc
      · rw [e, (compact_again p hp).1, (compact_again p hp).2]
    · split at hx
      · cases hx
      · simp only [List.mem_cons, List.not_mem_nil, or_false] at hx
        subst hx
        decide +kernel
  have hun : ∀ l, readBack l n = (kept l).map (fun h => ⟨canonicalHeaderName (canonicalName h.name), trim h.value⟩) ++
    (if l.any (·.nameEq "Max-Forwards".toList) then [] else [⟨"Max-Forwards".toList, "70".toList⟩]) ++
    [⟨"Content-Length".toList, showNat n⟩] := fun _ => rfl
  rw [hun (readBack hs n), if_pos hany, e, kept_append, kept_all init hi]
  have hl : kept [⟨"Content-Length".toList, showNat n⟩] = [] := by
    unfold kept
    rw [List.filter_cons_of_neg (by simp only [Bool.not_eq_true', Bool.not_eq_false]; decide)]
    rfl
  rw [hl, List.append_nil, List.append_nil]
  congr 1
  conv => rhs; rw [← List.map_id init]
  exact List.map_congr_left hfix

/-- C29: the normal form is its own normal form: what was read once is written and read without any change. -/
theorem C29_stable (r r' : Siphon.Request) (h : NormalRequest r r') : NormalRequest r' r' := by
  rw [normalRequest_iff] at h ⊢
  subst h
  simp only
  rw [readBack_again]

/-- C29: a request that came back from one pass comes back from every further pass unchanged, as long as it fits. -/
theorem C29_second_pass (r r' : Siphon.Request) (h : BuiltRequest r) (hu : ∀ c ∈ r.uri, isWs c = false) (max : Nat)
    (h1 : parseRequestWithLimit (serializeRequest r) max = some r') (h2 : (serializeRequest r').length ≤ max) :
    parseRequestWithLimit (serializeRequest r') max = some r' := by
  have hb := C29_request_built _ _ _ h1
  rw [C29_request r r' h hu max] at h1
  exact (C29_request r' r' hb.1 hb.2 max).2 ⟨C29_stable r r' h1.1, h2, h1.2.2⟩

/-- the example comes back with long names, its own length and a Max-Forwards -/
example : parseRequest (serializeRequest sample) = some { sample with headers :=
    ⟨[⟨"Via".toList, "SIP/2.0/UDP h;branch=z9hG4bKabc".toList⟩, ⟨"CSeq".toList, "1 INVITE".toList⟩,
      ⟨"Max-Forwards".toList, "70".toList⟩, ⟨"Content-Length".toList, "2".toList⟩]⟩ } := by decide +kernel

/-- and fits the theorem -/
example : ∃ r', NormalRequest sample r' ∧ parseRequestWithLimit (serializeRequest sample) 65536 = some r' := by
  have : (parseRequestWithLimit (serializeRequest sample) 65536).isSome = true := by decide +kernel
  obtain ⟨r', hr⟩ := Option.isSome_iff_exists.1 this
  exact ⟨r', ((C29_request sample r' sample_built (by decide +kernel) 65536).1 hr).1, hr⟩

/-! ### Responses -/

/-- C29: a response read from the network can be written again, and its reason is not empty. -/
theorem C29_response_built (d : Bytes) (r : Siphon.Response) (h : parseResponse d = some r) : BuiltResponse r ∧ r.reason ≠ [] := by
  rw [C92_response] at h
  obtain ⟨first, rest, hsp, ⟨v, g, dd, g', x, h0, _, _, _, h1, h2, h3, h4, h5, h6⟩, _, hb, _⟩ := h
  have hl1 := splits_length hsp
  have hl2 := body_length hb
  obtain ⟨_, _, _, _, _, hf, hc⟩ := hsp
  refine ⟨⟨⟨h1, h2⟩, ⟨h5, h6⟩, fun x hx => (fields_storable hf x hx).1, hc, by omega⟩, ?_⟩
  intro e
  rw [e] at h4
  obtain ⟨a, b, e1, e2, e3, _⟩ := h4
  have hx : ∀ c ∈ x, isWs c = true := by
    intro c hc
    rw [e1] at hc
    simp only [List.append_nil, List.mem_append] at hc
    rcases hc with hc | hc
    · exact e2 c hc
    · exact e3 c hc
  obtain ⟨_, _, _, _, _, _, hlast⟩ := h0
  have hws : ∀ c ∈ g' ++ x, isWs c = true := by
    intro c hc
    rcases List.mem_append.1 hc with hc | hc
    · rcases h3.2 c hc with rfl | rfl <;> decide
    · exact hx c hc
  have hne : g' ++ x ≠ [] := fun e => h3.1 (List.append_eq_nil_iff.1 e).1
  cases hg : (g' ++ x).getLast? with
  | none => exact hne (List.getLast?_eq_none_iff.1 hg)
  | some c =>
    have := hlast c (by rw [List.append_assoc, List.getLast?_append, hg]; rfl)
    rw [hws c (List.mem_of_getLast? hg)] at this
    cases this

/-- C29: forwarding a response. -/
theorem C29_response_forward (d : Bytes) (r r' : Siphon.Response) (h : parseResponse d = some r) :
    parseResponse (serializeResponse r) = some r' ↔
      NormalResponse r r' ∧ (serializeResponse r).length ≤ 65536 ∧ r'.headers.inner.length ≤ 200 := by
  obtain ⟨hb, hne⟩ := C29_response_built d r h
  rw [C29_response r r' hb]
  have hreason : trim r.reason ≠ [] := by
    rw [C92_response] at h
    obtain ⟨first, rest, _, ⟨v, g, dd, g', x, _, _, _, _, _, _, _, h4, _⟩, _⟩ := h
    rw [strips_trim] at h4
    rw [h4, trim_trim, ← h4]
    exact hne
  rw [C92_response] at h
  obtain ⟨first, rest, ⟨_, _, _, _, _, h1, _⟩, _, hsing, _, hcs⟩ := h
  have hx : ∀ x ∈ r.headers.inner, canonicalHeaderName x.name = x.name ∧ trim x.value = x.value :=
    fun x hm => (fields_storable h1 x hm).2
  constructor
  · rintro ⟨a, _, b, c, _⟩; exact ⟨a, b, c⟩
  · rintro ⟨a, b, c⟩
    have a0 := a
    rw [normalResponse_iff] at a
    subst a
    have hmap : (kept r.headers.inner).map (fun h => (⟨canonicalHeaderName h.name, trim h.value⟩ : Header)) = kept r.headers.inner := by
      conv => rhs; rw [← List.map_id (kept r.headers.inner)]
      refine List.map_congr_left (fun x hm => ?_)
      have := hx x (kept_mem hm).1
      rw [this.1, this.2]
      rfl
    simp only [hmap] at a0 c ⊢
    have hsel : ∀ n : Str, ¬ isLengthName n = true → ∀ vs, Selects n (kept r.headers.inner ++ [⟨"Content-Length".toList, showNat r.body.length⟩]) vs →
        Selects n r.headers.inner vs := by
      intro n hn vs hvs
      have hs := C24_getAll r.headers n
      have hlast : Selects n [⟨"Content-Length".toList, showNat r.body.length⟩] [] := by
        refine .skip ?_ .nil
        rw [sameName_iff]
        intro e
        apply hn
        unfold isLengthName
        unfold eqIgnoreCase at e ⊢
        rw [beq_iff_eq] at e
        simp [← e]
      have hk : ∀ (l : List Header) (vs : List Str), Selects n l vs → Selects n (kept l) vs := by
        intro l vs h
        induction h with
        | nil => exact .nil
        | @take h l vs h1 _ ih =>
          have hl : isLengthName h.name = false := by
            rw [sameName_iff, eqIgnoreCase, beq_iff_eq] at h1
            rw [← Bool.not_eq_true]
            intro e
            apply hn
            unfold isLengthName eqIgnoreCase at e ⊢
            rwa [← h1]
          unfold kept at ih ⊢
          rw [List.filter_cons_of_pos (by simp [hl])]
          exact .take h1 ih
        | @skip h l vs h1 _ ih =>
          unfold kept at ih ⊢
          by_cases hl : isLengthName h.name = true
          · rw [List.filter_cons_of_neg (by simp [hl])]; exact ih
          · rw [List.filter_cons_of_pos (by simp [hl])]; exact .skip h1 ih
      have h4 := selects_append (hk _ _ hs) hlast
      rw [List.append_nil] at h4
      rw [selects_unique hvs h4]
      exact hs
    refine ⟨a0, hreason, b, c, ?_, ?_⟩
    · intro n hn vs hvs
      refine hsing n hn vs (hsel _ ?_ vs hvs)
      have : ∀ n ∈ ["Call-ID", "CSeq", "From", "To", "Max-Forwards"], ¬ isLengthName n.toList = true := by decide
      exact this n hn
    · rintro v ⟨more, hv⟩
      exact hcs v ⟨more, hsel _ (by decide) _ hv⟩

/-! ### What does not come back -/

/-- C29: the URI parser accepts a URI with a space in a parameter; the request with it is written, and cannot be read. -/
theorem C29_uri_space : ∃ r : Siphon.Request, BuiltRequest r ∧ parseRequest (serializeRequest r) = none := by
  refine ⟨⟨.bye, "sip:a@b;x=y z".toList, ⟨[]⟩, []⟩, ⟨⟨"BYE".toList, (names_iff _ _).1 (by decide +kernel)⟩, ?_, by simp, by simp, by simp⟩,
    by decide +kernel⟩
  have : (Uri.parse "sip:a@b;x=y z".toList).isSome = true := by decide +kernel
  exact Option.isSome_iff_exists.1 this

/-- C29: a response with an empty reason, which RFC 3261 allows and `Response::new` accepts, is written and cannot be
read. -/
theorem C29_empty_reason (r : Siphon.Response) (h : BuiltResponse r) (he : trim r.reason = []) :
    parseResponse (serializeResponse r) = none := by
  cases hp : parseResponse (serializeResponse r) with
  | none => rfl
  | some r' =>
    obtain ⟨h1, h2, _⟩ := (C29_response r r' h).1 hp
    have := (strips_trim _ _).1 h1.2.1
    rw [he] at this
    exact absurd this h2

example : BuiltResponse ⟨200, [], ⟨[]⟩, []⟩ := ⟨by decide, by decide, by simp, by simp, by simp⟩

theorem rewritten_length {S : Str → Str → Prop} {hs hs' : List Header} (h : Rewritten S hs hs')
    (hn : ∀ x ∈ hs, ¬ LengthName x.name) : hs'.length = hs.length := by
  induction h with
  | nil => rfl
  | skip hl _ _ => exact absurd hl (hn _ (by simp))
  | keep _ _ _ _ ih => simp [ih (fun x hx => hn x (List.mem_cons_of_mem _ hx))]

/-- C29: a request with 200 headers, none of them a Content-Length, is written with more than 200 lines, and cannot be
read; with 199 headers the same happens if none is a Max-Forwards. -/
theorem C29_too_many (r : Siphon.Request) (h : BuiltRequest r) (hu : ∀ c ∈ r.uri, isWs c = false)
    (hn : ∀ x ∈ r.headers.inner, ¬ LengthName x.name)
    (hc : r.headers.inner.length = 200 ∨ (r.headers.inner.length = 199 ∧ ¬ HasMaxForwards r.headers.inner)) (max : Nat) :
    parseRequestWithLimit (serializeRequest r) max = none := by
  cases hp : parseRequestWithLimit (serializeRequest r) max with
  | none => rfl
  | some r' =>
    obtain ⟨⟨_, _, _, hs, extra, g1, g2, g3⟩, _, h2, _⟩ := (C29_request r r' h hu max).1 hp
    rw [g3] at h2
    simp only [List.length_append, List.length_cons, List.length_nil, rewritten_length g1 hn] at h2
    rcases hc with hc | ⟨hc, hm⟩
    · omega
    · rcases g2 with ⟨g, _⟩ | ⟨_, rfl⟩
      · exact absurd g hm
      · simp at h2; omega

/-- C29: a request whose text has more than 65 536 bytes is written, and `parse_request` does not read it, although
bodies of up to 10 MiB can be set. -/
theorem C29_too_long (r : Siphon.Request) (h : BuiltRequest r) (hu : ∀ c ∈ r.uri, isWs c = false)
    (hl : 65536 < (serializeRequest r).length) : parseRequest (serializeRequest r) = none := by
  cases hp : parseRequest (serializeRequest r) with
  | none => rfl
  | some r' =>
    have := ((C29_request r r' h hu 65536).1 hp).2.1
    omega

/-! ## C30: the length of the body -/

/-- C30: the strict parsers take all bytes after the blank line as the body, and every Content-Length says how many. -/
theorem C30_strict_request (d : Bytes) (max : Nat) (r : Siphon.Request) (h : parseRequestStrictWithLimit d max = some r) :
    (∃ head, HeadBody d head r.body) ∧ ∃ vs, Selects "Content-Length".toList r.headers.inner vs ∧
      (∀ v ∈ vs, LengthText v r.body.length) ∧ (r.body ≠ [] → vs ≠ []) := by
  rw [C92_request_strict] at h
  obtain ⟨first, rest, ⟨_, head, _, h1, _⟩, _, _, _, ⟨h2, vs, h3, h4, h5⟩, _⟩ := h
  rw [← h2] at h1 h4 h5
  exact ⟨⟨head, h1⟩, vs, h3, fun v hv => (h4 v hv).1, fun hb hv => hb (h5 hv)⟩

/-- C30: the same for responses. -/
theorem C30_strict_response (d : Bytes) (r : Siphon.Response) (h : parseResponseStrict d = some r) :
    (∃ head, HeadBody d head r.body) ∧ ∃ vs, Selects "Content-Length".toList r.headers.inner vs ∧
      (∀ v ∈ vs, LengthText v r.body.length) ∧ (r.body ≠ [] → vs ≠ []) := by
  rw [C92_response_strict] at h
  obtain ⟨first, rest, ⟨_, head, _, h1, _⟩, _, _, ⟨h2, vs, h3, h4, h5⟩, _⟩ := h
  rw [← h2] at h1 h4 h5
  exact ⟨⟨head, h1⟩, vs, h3, fun v hv => (h4 v hv).1, fun hb hv => hb (h5 hv)⟩

/-- C30: the lenient parsers take as many bytes after the blank line as any readable Content-Length says. Missing for
the full property: values that are not numbers below 2^64 are passed over (`C30_malformed`, `C30_huge`). -/
theorem C30_lenient_partial (d : Bytes) (max : Nat) (r : Siphon.Request) (h : parseRequestWithLimit d max = some r) :
    ∃ head rest vs, HeadBody d head rest ∧ Selects "Content-Length".toList r.headers.inner vs ∧
      r.body = rest.take r.body.length ∧ (∀ v ∈ vs, ∀ n, LengthText v n → n = r.body.length) ∧
      ((∀ v ∈ vs, ∀ n, ¬ LengthText v n) → r.body = rest) := by
  rw [C92_request] at h
  obtain ⟨first, rest, ⟨_, head, _, h1, _⟩, _, _, _, ⟨vs, h3, h4, h5⟩, _⟩ := h
  refine ⟨head, rest, vs, h1, h3, ?_⟩
  rcases h5 with ⟨n, g1, ⟨v, hv, g2⟩, g3, g4⟩ | ⟨g1, g2⟩
  · have hl : r.body.length = n := by rw [g4, List.length_take]; omega
    rw [hl]
    exact ⟨g4, g3, fun hno => absurd g2 (hno v hv n)⟩
  · refine ⟨by rw [g2]; simp, fun v hv n hn => absurd hn (g1 v hv n), fun _ => g2⟩

/-- The same for responses. -/
theorem C30_lenient_response_partial (d : Bytes) (r : Siphon.Response) (h : parseResponse d = some r) :
    ∃ head rest vs, HeadBody d head rest ∧ Selects "Content-Length".toList r.headers.inner vs ∧
      r.body = rest.take r.body.length ∧ (∀ v ∈ vs, ∀ n, LengthText v n → n = r.body.length) ∧
      ((∀ v ∈ vs, ∀ n, ¬ LengthText v n) → r.body = rest) := by
  rw [C92_response] at h
  obtain ⟨first, rest, ⟨_, head, _, h1, _⟩, _, _, ⟨vs, h3, h4, h5⟩, _⟩ := h
  refine ⟨head, rest, vs, h1, h3, ?_⟩
  rcases h5 with ⟨n, g1, ⟨v, hv, g2⟩, g3, g4⟩ | ⟨g1, g2⟩
  · have hl : r.body.length = n := by rw [g4, List.length_take]; omega
    rw [hl]
    exact ⟨g4, g3, fun hno => absurd g2 (hno v hv n)⟩
  · refine ⟨by rw [g2]; simp, fun v hv n hn => absurd hn (g1 v hv n), fun _ => g2⟩

theorem splits_unique {d : Bytes} {max max' : Nat} {f f' : Str} {hs hs' : List Header} {r r' : Bytes}
    (h : Splits d max f hs r) (h' : Splits d max' f' hs' r') : f = f' ∧ hs = hs' ∧ r = r' := by
  obtain ⟨_, _, _, a1, a2, a3, _⟩ := h
  obtain ⟨_, _, _, b1, b2, b3, _⟩ := h'
  obtain ⟨rfl, rfl⟩ := headBody_unique a1 b1
  have := lines_unique a2 b2
  simp only [List.cons.injEq] at this
  obtain ⟨rfl, rfl⟩ := this
  exact ⟨rfl, fields_unique a3 b3, rfl⟩

/-- C30: no parser accepts a message in which two Content-Length values are different numbers, or in which one is more
than the bytes that are there. -/
theorem C30_rejected (d : Bytes) (max : Nat) (first : Str) (hs : List Header) (rest : Bytes) (vs : List Str)
    (hsp : Splits d max first hs rest) (hsel : Selects "Content-Length".toList hs vs)
    (hbad : (∃ v ∈ vs, ∃ w ∈ vs, ∃ n m, LengthText v n ∧ LengthText w m ∧ n ≠ m) ∨ (∃ v ∈ vs, ∃ n, LengthText v n ∧ rest.length < n)) :
    parseRequestWithLimit d max = none ∧ parseRequestStrictWithLimit d max = none ∧ parseResponse d = none ∧
      parseResponseStrict d = none := by
  have hB : ∀ b, ¬ Body hs rest b := by
    rintro b ⟨us, h1, h2, h3⟩
    have := selects_unique h1 hsel
    subst this
    rcases h3 with ⟨k, g1, _, g3, _⟩ | ⟨g1, _⟩
    · rcases hbad with ⟨v, hv, w, hw, n, m, e1, e2, e3⟩ | ⟨v, hv, n, e1, e2⟩
      · exact e3 (by rw [g3 v hv n e1, g3 w hw m e2])
      · have := g3 v hv n e1; omega
    · rcases hbad with ⟨v, hv, w, hw, n, m, e1, e2, e3⟩ | ⟨v, hv, n, e1, e2⟩
      · exact g1 v hv n e1
      · exact g1 v hv n e1
  have hS : ∀ b, ¬ StrictBody hs rest b := by
    rintro b ⟨_, us, h1, h2, h3⟩
    have := selects_unique h1 hsel
    subst this
    rcases hbad with ⟨v, hv, w, hw, n, m, e1, e2, e3⟩ | ⟨v, hv, n, e1, e2⟩
    · exact e3 (by rw [lengthText_unique e1 (h2 v hv).1, lengthText_unique e2 (h2 w hw).1])
    · have := lengthText_unique e1 (h2 v hv).1; omega
  refine ⟨?_, ?_, ?_, ?_⟩
  · rw [Option.eq_none_iff_forall_ne_some]
    intro r hr
    rw [C92_request] at hr
    obtain ⟨_, _, h1, _, _, _, h2, _⟩ := hr
    obtain ⟨_, e, rfl⟩ := splits_unique hsp h1
    exact hB _ (e ▸ h2)
  · rw [Option.eq_none_iff_forall_ne_some]
    intro r hr
    rw [C92_request_strict] at hr
    obtain ⟨_, _, h1, _, _, _, h2, _⟩ := hr
    obtain ⟨_, e, rfl⟩ := splits_unique hsp h1
    exact hS _ (e ▸ h2)
  · rw [Option.eq_none_iff_forall_ne_some]
    intro r hr
    rw [C92_response] at hr
    obtain ⟨_, _, h1, _, _, h2, _⟩ := hr
    obtain ⟨_, e, rfl⟩ := splits_unique hsp h1
    exact hB _ (e ▸ h2)
  · rw [Option.eq_none_iff_forall_ne_some]
    intro r hr
    rw [C92_response_strict] at hr
    obtain ⟨_, _, h1, _, _, h2, _⟩ := hr
    obtain ⟨_, e, rfl⟩ := splits_unique hsp h1
    exact hS _ (e ▸ h2)

/-- C30: the strict parsers accept no message with a Content-Length that is not a number. -/
theorem C30_strict_malformed (d : Bytes) (max : Nat) (first : Str) (hs : List Header) (rest : Bytes) (vs : List Str)
    (hsp : Splits d max first hs rest) (hsel : Selects "Content-Length".toList hs vs)
    (hbad : ∃ v ∈ vs, ∀ n, ¬ LengthText v n) :
    parseRequestStrictWithLimit d max = none ∧ parseResponseStrict d = none := by
  have hS : ∀ b, ¬ StrictBody hs rest b := by
    rintro b ⟨_, us, h1, h2, h3⟩
    have := selects_unique h1 hsel
    subst this
    obtain ⟨v, hv, hn⟩ := hbad
    exact hn _ (h2 v hv).1
  refine ⟨?_, ?_⟩
  · rw [Option.eq_none_iff_forall_ne_some]
    intro r hr
    rw [C92_request_strict] at hr
    obtain ⟨_, _, h1, _, _, _, h2, _⟩ := hr
    obtain ⟨_, e, rfl⟩ := splits_unique hsp h1
    exact hS _ (e ▸ h2)
  · rw [Option.eq_none_iff_forall_ne_some]
    intro r hr
    rw [C92_response_strict] at hr
    obtain ⟨_, _, h1, _, _, h2, _⟩ := hr
    obtain ⟨_, e, rfl⟩ := splits_unique hsp h1
    exact hS _ (e ▸ h2)

/-- C30 is false for the lenient parsers: a Content-Length that is not a number is passed over, and the rest of the
datagram becomes the body. -/
theorem C30_malformed : (parseRequest (utf8 "BYE sip:a@b SIP/2.0\r\nContent-Length: two\r\n\r\nhi!".toList)).map (·.body) =
    some (utf8 "hi!".toList) := by decide +kernel

/-- C30: a Content-Length of 2^64 is passed over in the same way, while 67 108 865 is refused. -/
theorem C30_huge :
    (parseRequest (utf8 "BYE sip:a@b SIP/2.0\r\nContent-Length: 18446744073709551616\r\n\r\nhi!".toList)).map (·.body) =
      some (utf8 "hi!".toList) ∧
    parseRequest (utf8 "BYE sip:a@b SIP/2.0\r\nContent-Length: 67108865\r\n\r\nhi!".toList) = none := by decide +kernel

/-- conflicting values, too few bytes, and a good message -/
example : parseRequest (utf8 "BYE sip:a@b SIP/2.0\r\nl: 2\r\nContent-Length: 3\r\n\r\nhi!".toList) = none := by decide +kernel
example : parseRequest (utf8 "BYE sip:a@b SIP/2.0\r\nl: 4\r\n\r\nhi!".toList) = none := by decide +kernel
example : (parseRequest (utf8 "BYE sip:a@b SIP/2.0\r\nl: 2\r\n\r\nhi!".toList)).map (·.body) = some (utf8 "hi".toList) := by decide +kernel
example : parseRequestStrict (utf8 "BYE sip:a@b SIP/2.0\r\nl: 2\r\n\r\nhi!".toList) = none := by decide +kernel

end Siphon.Parse
