import Verif.Transport.LemmasFraming

set_option linter.unusedSimpArgs false

/-!
# Stream framing: C31 – C34

`session cs` is a TCP/TLS session that gets the reads `cs`; `.out` is what it hands on, `.buf`
what it still holds, `.closed` why it ended.  `Delivers cs w` says that the reads are non-empty
and make up the byte stream `w`.  `Layout w fs r`: `w` is the messages `fs` in order, with only
line ends in front of each, then `r`.
-/

namespace Siphon.Transport

/-! Material for the examples: two small messages. -/

/-- `a\r\nl:2\r\n\r\nhi` -/
def msgA : Bytes := [97, 13, 10, 108, 58, 50, 13, 10, 13, 10, 104, 105]
/-- `b\r\nContent-Length: 0\r\n\r\n` -/
def msgB : Bytes := [98, 13, 10, 67, 111, 110, 116, 101, 110, 116, 45, 76, 101, 110, 103, 116, 104,
  58, 32, 48, 13, 10, 13, 10]
/-- `c\r\nl:x\r\n\r\n` -/
def msgBad : Bytes := [99, 13, 10, 108, 58, 120, 13, 10, 13, 10]

theorem message_of_cut {f : Bytes} (h : cut f = .frame f []) : Message maxHeader f := by
  obtain ⟨g, _, _, h⟩ := cut_frame h
  exact h

theorem message_mono {f : Bytes} {m k : Nat} (h : Message m f) (hf : f.length ≤ k) : Message k f := by
  obtain ⟨head, body, rfl, h1, h2, h3, h4⟩ := h
  refine ⟨head, body, rfl, h1, ?_, h3, h4⟩
  simp at hf; omega

theorem msgA_ok : Message 65533 msgA := message_mono (message_of_cut (by decide)) (by decide)
theorem msgB_ok : Message 65533 msgB := message_mono (message_of_cut (by decide)) (by decide)

/-! ## C32: bytes are conserved -/

/-- C32.  However the bytes arrive, what was handed on is a run of consecutive pieces of the
stream, in order, separated by nothing but line ends; while the connection is open the rest of
the stream is exactly the session's buffer. -/
theorem C32_conserved (cs : List Bytes) (w : Bytes) (h : Delivers cs w) :
    ∃ rest, Layout w (session cs).out rest ∧
      ((session cs).closed = none → rest = (session cs).buf) := by
  obtain ⟨r, h1, _, h3⟩ := session_layout h
  exact ⟨r, h1, h3⟩

example : Delivers [msgA ++ [13], [10] ++ msgB.take 5] (msgA ++ [13, 10] ++ msgB.take 5) ∧
    (session [msgA ++ [13], [10] ++ msgB.take 5]).out = [msgA] ∧
    (session [msgA ++ [13], [10] ++ msgB.take 5]).buf = msgB.take 5 ∧
    (session [msgA ++ [13], [10] ++ msgB.take 5]).closed = none := by
  refine ⟨⟨by decide, by decide⟩, by decide +kernel⟩

/-- The buffer never comes near the 16 MiB limit, so that limit never closes a session. -/
theorem C32_buffer_bounded (cs : List Bytes) (w : Bytes) (h : Delivers cs w) :
    (session cs).closed ≠ some .overflow ∧
    ((session cs).closed = none → (session cs).buf.length < 65536 + 4 + 10485760) := by
  rcases reads_session h with ⟨h1, h2⟩ | ⟨e, u, c, v, h1, _⟩
  · rw [h1]
    exact ⟨by simp, fun _ => pending_length (drain_sound _ _ _ h2).2.2⟩
  · rw [h1]
    exact ⟨by simp, by simp⟩

/-! ## C33: only complete messages are delivered -/

/-- C33.  Everything a session hands on is a header block of at most 64 KiB up to its first blank
line, whose Content-Length lines all declare one and the same number, and exactly that many body
bytes, at most 10 MiB. -/
theorem C33_only_messages (cs : List Bytes) (w : Bytes) (h : Delivers cs w) :
    ∀ f ∈ (session cs).out, Message 65536 f := by
  obtain ⟨_, _, h2, _⟩ := session_layout h
  exact h2

example : Delivers [msgA ++ msgB] (msgA ++ msgB) ∧ (session [msgA ++ msgB]).out = [msgA, msgB] := by
  refine ⟨⟨by decide, by decide⟩, by decide +kernel⟩

/-- C33.  If what follows the messages `fs` is a header block that is too long, or declares no
Content-Length, or several that differ, or one that is not a number, or one above 10 MiB, then
the connection is closed with a framing error and nothing from that block on is handed on. -/
theorem C33_bad_header_closes (cs : List Bytes) (w : Bytes) (fs : List Bytes) (head rest : Bytes)
    (h : Delivers cs w) (hl : Layout w fs (head ++ blank ++ rest))
    (hf : ∀ f ∈ fs, Message 65536 f) (hh : HeaderBlock head)
    (hbad : ¬ (head.length ≤ 65536 ∧ ∃ n, n ≤ 10485760 ∧ Declares head n)) :
    (∃ e, (session cs).closed = some (.framing e)) ∧ (session cs).out <+: fs := by
  have hcut : ∃ e, cut (head ++ blank ++ rest) = .fail e := by
    cases hc : cut (head ++ blank ++ rest) with
    | fail e => exact ⟨e, rfl⟩
    | frame f w' =>
      exfalso
      obtain ⟨g, h1, h2, hd', body, rfl, h3, h4, h5, h6⟩ := cut_frame hc
      obtain ⟨⟨b, t, hb, hb1, hb2⟩, _⟩ := id hh
      have hg : g = [] := by
        cases g with
        | nil => rfl
        | cons x g =>
          exfalso
          rw [hb] at h1
          simp at h1
          rcases h2 x (by simp) with hx | hx
          · exact hb1 (h1.1.trans hx)
          · exact hb2 (h1.1.trans hx)
      subst hg
      have e1 := findBlank_header head rest hh
      have e2 := findBlank_header hd' (body ++ w') h3
      rw [h1] at e1
      rw [show [] ++ (hd' ++ blank ++ body) ++ w' = hd' ++ blank ++ (body ++ w') by simp, e2] at e1
      simp only [Option.some.injEq] at e1
      have e3 : head = hd' := by
        have := congrArg (List.take head.length) h1
        rw [show [] ++ (hd' ++ blank ++ body) ++ w' = hd' ++ (blank ++ (body ++ w')) by simp] at this
        rw [← e1, List.take_left] at this
        rw [e1, List.append_assoc, List.take_left] at this
        exact this
      exact hbad ⟨by rw [e3]; exact h4, _, h6, e3 ▸ h5⟩
    | wait r =>
      exfalso
      obtain ⟨g, h1, h2, hp⟩ := cut_wait hc
      obtain ⟨⟨b, t, hb, hb1, hb2⟩, _⟩ := id hh
      have hg : g = [] := by
        cases g with
        | nil => rfl
        | cons x g =>
          exfalso
          rw [hb] at h1
          simp at h1
          rcases h2 x (by simp) with hx | hx
          · exact hb1 (h1.1.trans hx)
          · exact hb2 (h1.1.trans hx)
      subst hg
      rw [List.nil_append] at h1
      have e1 := findBlank_header head rest hh
      rcases hp.short with ⟨h3, _⟩ | ⟨hd', body, n, h3, h4, h5, h6, h7, _⟩
      · rw [h1, h3] at e1; simp at e1
      · have e2 := findBlank_header hd' body h4
        rw [h1, h3] at e1
        rw [e2] at e1
        simp only [Option.some.injEq] at e1
        have e3 : head = hd' := by
          have := congrArg (List.take head.length) (h1.trans h3)
          rw [List.append_assoc, List.take_left, ← e1, List.append_assoc, List.take_left] at this
          exact this
        exact hbad ⟨by rw [e3]; exact h5, n, h7, e3 ▸ h6⟩
  obtain ⟨e, hcut⟩ := hcut
  have hdr : drain (head ++ blank ++ rest) = .error e := by rw [drain_eq, hcut]
  have hdw : drain w = .error e := by
    rw [drain_layout (Nat.le_refl _) hl hf, hdr]
  constructor
  · rcases reads_session h with ⟨_, h2⟩ | ⟨e', _, _, _, h1, _⟩
    · rw [hdw] at h2; simp at h2
    · exact ⟨e', h1⟩
  · obtain ⟨r, h1, h2, _⟩ := session_layout h
    exact layout_stop hl hf hcut h1 h2

example : (session [msgA, msgBad ++ msgB]).closed = some (.framing .nonDigit) ∧
    (session [msgA, msgBad ++ msgB]).out = [msgA] := by decide +kernel

/-- C33.  A header block that goes on for more than 64 KiB without a blank line closes the
connection. -/
theorem C33_endless_header_closes (cs : List Bytes) (w : Bytes) (fs : List Bytes) (r : Bytes)
    (h : Delivers cs w) (hl : Layout w fs r) (hf : ∀ f ∈ fs, Message 65536 f)
    (hs : ∀ x, r.head? = some x → x ≠ CR ∧ x ≠ LF) (hn : ∀ a c, r ≠ a ++ blank ++ c)
    (hlen : 65536 < r.length) : ∃ e, (session cs).closed = some (.framing e) := by
  have hcut : cut r = .fail .unterminated := by
    rw [cut_fail_iff, skipCrlf_id r hs]
    exact Or.inl ⟨rfl, findBlank_none hn, hlen⟩
  have hdw : drain w = .error .unterminated := by
    rw [drain_layout (Nat.le_refl _) hl hf, drain_eq, hcut]
  rcases reads_session h with ⟨_, h2⟩ | ⟨e', _, _, _, h1, _⟩
  · rw [hdw] at h2; simp at h2
  · exact ⟨e', h1⟩

/-! ## C34: a well-formed pipeline is split into exactly its messages -/

/-- C34.  A stream that is a sequence of messages with any number of line ends before each and
after the last is handed on as exactly those messages, with the connection open and nothing left
over, however the network splits it.  Header blocks must be at least three bytes below the
64 KiB limit: see `C31_limit_matters`. -/
theorem C34_pipeline (cs : List Bytes) (w : Bytes) (fs : List Bytes) (h : Delivers cs w)
    (hl : Layout w fs []) (hf : ∀ f ∈ fs, Message 65533 f) :
    session cs = { buf := [], out := fs, closed := none } := by
  have hc : Calm w := calm_layout (m := 65533) (by decide) hl hf
    (calm_tail ⟨by simp, Or.inl ⟨by simp, by simp⟩⟩)
  have hd : drain w = .ok (fs, []) := by
    rw [drain_layout (m := 65533) (by decide) hl hf]
    have : drain [] = .ok ([], []) := by decide
    rw [this]
    simp
  exact session_calm hc hd h

/-- C34.  In a single read the full 64 KiB are available. -/
theorem C34_one_read (w : Bytes) (fs : List Bytes) (hw : w ≠ []) (hl : Layout w fs [])
    (hf : ∀ f ∈ fs, Message 65536 f) :
    session [w] = { buf := [], out := fs, closed := none } := by
  have hd : drain w = .ok (fs, []) := by
    rw [drain_layout (m := 65536) (by decide) hl hf]
    have : drain [] = .ok ([], []) := by decide
    rw [this]
    simp
  have hwb : ([] : Bytes).length ≥ maxBuffer ↔ False := by decide
  simp only [session, List.foldl_cons, List.foldl_nil, Session.read, hwb, if_false, hw,
    List.nil_append, hd]

example : Layout ([13, 10] ++ msgA ++ ([10] ++ msgB ++ ([13, 10] ++ []))) [msgA, msgB] [] ∧
    (∀ f ∈ [msgA, msgB], Message 65533 f) := by
  refine ⟨.cons _ _ _ _ _ (by simp [LineEnds]) (.cons _ _ _ _ _ (by simp [LineEnds])
    (.done _ _ (by simp [LineEnds]))), ?_⟩
  intro f hf
  simp only [List.mem_cons, List.not_mem_nil, or_false] at hf
  rcases hf with rfl | rfl
  · exact msgA_ok
  · exact msgB_ok

/-! ## C31: the split does not matter -/

/-- C31, full statement for streams whose header blocks stay three bytes below the limit and that
contain no framing error: every split of the stream ends with the connection open, the same
messages handed on and the same bytes held back. -/
theorem C31_split_partial (w : Bytes) (fs : List Bytes) (r : Bytes) (hl : Layout w fs r)
    (hf : ∀ f ∈ fs, Message 65533 f) (hr : Tail r) (cs : List Bytes) (h : Delivers cs w) :
    session cs = { buf := r, out := fs, closed := none } := by
  have hc : Calm w := calm_layout (m := 65533) (by decide) hl hf (calm_tail hr)
  have hd : drain w = .ok (fs, r) := by
    rw [drain_layout (m := 65533) (by decide) hl hf, drain_pending r (pending_of_tail hr)]
    simp
  exact session_calm hc hd h

example : Layout ([] ++ msgA ++ ([10] ++ msgB.take 9)) [msgA] (msgB.take 9) ∧
    Tail (msgB.take 9) := by
  refine ⟨.cons _ _ _ _ _ (by simp [LineEnds]) (.done _ _ (by simp [LineEnds])), ?_, Or.inl ⟨by decide, ?_⟩⟩
  · intro x hx
    simp [msgB] at hx
    subst hx; decide
  · intro a c hac
    obtain ⟨p, hp, _⟩ := findBlank_exists a c
    rw [← hac] at hp
    have hn : findBlank (msgB.take 9) = none := by decide
    rw [hn] at hp
    simp at hp

/-- C31.  Whatever the stream, two splits after which the connection is still open have handed on
the same messages and hold the same bytes. -/
theorem C31_open_agree (w : Bytes) (cs cs' : List Bytes) (h : Delivers cs w) (h' : Delivers cs' w)
    (ho : (session cs).closed = none) (ho' : (session cs').closed = none) :
    session cs = session cs' := by
  rcases reads_session h with ⟨h1, h2⟩ | ⟨_, _, _, _, h1, _⟩
  · rcases reads_session h' with ⟨h1', h2'⟩ | ⟨_, _, _, _, h1', _⟩
    · rw [h2] at h2'
      cases hs : session cs
      cases hs' : session cs'
      rw [hs] at h1 h2'
      rw [hs'] at h1' h2'
      simp_all
    · rw [ho'] at h1'; simp at h1'
  · rw [ho] at h1; simp at h1

/-- C31.  Whatever the stream and its splits, one of two sessions has handed on a beginning of
what the other has: they never disagree on a message. -/
theorem C31_never_disagree (w : Bytes) (cs cs' : List Bytes) (h : Delivers cs w)
    (h' : Delivers cs' w) :
    (session cs).out <+: (session cs').out ∨ (session cs').out <+: (session cs).out := by
  obtain ⟨_, h1, h2, _⟩ := session_layout h
  obtain ⟨_, h1', h2', _⟩ := session_layout h'
  exact layout_prefix h1 h2 h1' h2'

/-- C31.  A framing error other than "header block not ended within 64 KiB" closes the
connection for every split, and if the other session does not run into that limit, for the same
reason. -/
theorem C31_error_for_all (w : Bytes) (cs cs' : List Bytes) (e : FrameErr) (h : Delivers cs w)
    (h' : Delivers cs' w) (hc : (session cs).closed = some (.framing e)) (he : e ≠ .unterminated) :
    (session cs').closed = some (.framing e) ∨
      (session cs').closed = some (.framing .unterminated) := by
  rcases reads_session h with ⟨h1, _⟩ | ⟨e1, u, c, v, h1, hw, h3, _⟩
  · rw [hc] at h1; simp at h1
  · rw [hc] at h1
    simp only [Option.some.injEq, Closed.framing.injEq] at h1
    subst h1
    have hd : drain w = .error e := by rw [hw]; exact drain_error_append _ _ h3 he v
    rcases reads_session h' with ⟨_, h2⟩ | ⟨e2, u', c', v', h1', hw', h3', _⟩
    · rw [hd] at h2; simp at h2
    · by_cases he2 : e2 = .unterminated
      · exact Or.inr (he2 ▸ h1')
      · have hd' : drain w = .error e2 := by rw [hw']; exact drain_error_append _ _ h3' he2 v'
        rw [hd] at hd'
        simp only [Except.error.injEq] at hd'
        exact Or.inl (hd' ▸ h1')

example : (session [msgBad]).closed = some (.framing .nonDigit) := by decide +kernel

/-- C31 does not hold of the code in full: a message that arrives in the same read as a later
framing error is lost, one read earlier it is handed on. -/
theorem C31_error_loses_messages : ∃ w cs cs', Delivers cs w ∧ Delivers cs' w ∧
    (session cs).out = [msgA] ∧ (session cs').out = [] ∧
    (session cs).closed = (session cs').closed :=
  ⟨msgA ++ msgBad, [msgA, msgBad], [msgA ++ msgBad], ⟨by decide, by decide⟩,
    ⟨by decide, by decide⟩, by decide +kernel⟩

theorem limit_matters (pad : Bytes) (hpad : pad.length = 65531) (hmem : ∀ x ∈ pad, x = 97) :
    ∃ w cs cs', Delivers cs w ∧ Delivers cs' w ∧
    session cs = { buf := [], out := [w], closed := none } ∧
    (session cs').closed = some (.framing .unterminated) := by
  -- `l:0\r\n` and 65531 further bytes without line end, then the blank line
  let head : Bytes := [108, 58, 48, 13, 10] ++ pad
  have hlf : LF ∉ pad := fun h => absurd (hmem _ h) (by decide)
  have hcol : splitColon (stripCr pad) = none := by
    have h1 : stripCr pad = pad := by
      unfold stripCr
      rw [if_neg]
      intro h
      exact absurd (hmem _ (List.mem_of_getLast? h)) (by decide)
    rw [h1]
    cases hs : splitColon pad with
    | none => rfl
    | some p =>
      obtain ⟨n, v⟩ := p
      have := (splitColon_iff pad n v).1 hs
      exact absurd (hmem COLON (by rw [this.1]; simp)) (by decide)
  have hcl : parseContentLength head = .ok (some 0) := by
    have hsp : splitB LF head = [[108, 58, 48, 13], pad] := by
      have := splitB_append LF [108, 58, 48, 13] pad (by decide)
      rw [splitB_of_not_mem LF pad hlf] at this
      exact this
    unfold parseContentLength
    rw [hsp, lengthLoop_eq]
    have : List.filterMap valueOf [[108, 58, 48, 13], pad] = [[48]] := by
      have h1 : valueOf [108, 58, 48, 13] = some [48] := by decide
      have h2 : valueOf pad = none := by unfold valueOf; rw [hcol]
      simp [List.filterMap_cons, h1, h2]
    rw [this]
    decide
  have hblk : HeaderBlock head := by
    refine ⟨⟨108, [58, 48, 13, 10] ++ pad, rfl, by decide, by decide⟩, ?_⟩
    intro a c hac
    -- an occurrence of CR LF CR LF before the end would need a CR inside `pad` or early on
    by_cases hlt : head.length ≤ a.length
    · exact hlt
    · exfalso
      have hget : ∀ i, i < 4 → (head ++ blank)[a.length + i]? = blank[i]? := by
        intro i hi
        rw [hac, List.append_assoc, List.getElem?_append_right (by omega)]
        rw [show a.length + i - a.length = i by omega]
        rw [List.getElem?_append_left (by simpa using hi)]
      have hlen : head.length = 65536 := by
        show ([108, 58, 48, 13, 10] ++ pad).length = 65536
        rw [List.length_append, hpad]; rfl
      have hin : ∀ j, 5 ≤ j → j < 65536 → (head ++ blank)[j]? = some 97 := by
        intro j h1 h2
        rw [List.getElem?_append_left (by omega)]
        show ([108, 58, 48, 13, 10] ++ pad)[j]? = some 97
        rw [List.getElem?_append_right (by simpa using h1)]
        simp only [List.length_cons, List.length_nil]
        rw [List.getElem?_eq_getElem (by omega)]
        exact congrArg some (hmem _ (List.getElem_mem _))
      have hsmall : ∀ j, j < 5 → (head ++ blank)[j]? = [(108 : UInt8), 58, 48, 13, 10][j]? := by
        intro j hj
        show ([108, 58, 48, 13, 10] ++ pad ++ blank)[j]? = _
        rw [List.append_assoc, List.getElem?_append_left (by simpa using hj)]
      by_cases h5 : 5 ≤ a.length
      · have h0 := hget 0 (by decide)
        rw [Nat.add_zero, hin a.length h5 (by omega)] at h0
        simp at h0
        exact absurd h0 (by decide)
      · have h2 := hget 2 (by decide)
        have h0 := hget 0 (by decide)
        rw [Nat.add_zero, hsmall _ (by omega)] at h0
        rcases (show a.length = 0 ∨ a.length = 1 ∨ a.length = 2 ∨ a.length = 3 ∨ a.length = 4
          by omega) with h | h | h | h | h <;> rw [h] at h0 h2
        · simp at h0; exact absurd h0 (by decide)
        · simp at h0; exact absurd h0 (by decide)
        · simp at h0; exact absurd h0 (by decide)
        · rw [hin 5 (by decide) (by decide)] at h2; simp at h2; exact absurd h2 (by decide)
        · simp at h0; exact absurd h0 (by decide)
  have hlen : head.length = 65536 := by
    show ([108, 58, 48, 13, 10] ++ pad).length = 65536
    rw [List.length_append, hpad]; rfl
  have hdec := ((parseContentLength_some head 0).1 hcl).1
  have hmsg : Message 65536 (head ++ blank ++ []) := ⟨head, [], rfl, hblk, by omega, hdec, by simp⟩
  rw [List.append_nil] at hmsg
  have hw : head ++ blank = (head ++ [CR, LF, CR]) ++ [LF] := by simp
  have hd : Delivers [head ++ [CR, LF, CR], [LF]] (head ++ blank) :=
    ⟨by rw [hw]; simp, by simp⟩
  refine ⟨head ++ blank, [head ++ blank], [head ++ [CR, LF, CR], [LF]], ⟨by simp, by simp⟩,
    hd, ?_, ?_⟩
  · refine C34_one_read _ _ (by simp) ?_ (by simpa using hmsg)
    have := Layout.cons [] (head ++ blank) [] [] [] (by simp [LineEnds])
      (Layout.done [] [] (by simp [LineEnds]))
    simpa using this
  · have hnb : findBlank (head ++ [CR, LF, CR]) = none := by
      refine findBlank_none ?_
      intro a c hac
      have := hblk.2 a (c ++ [LF]) (by rw [hw, hac]; simp)
      have hl := congrArg List.length hac
      simp at hl
      omega
    have hst : ∀ x, (head ++ [CR, LF, CR]).head? = some x → x ≠ CR ∧ x ≠ LF := by
      intro x hx
      have : x = 108 := by
        have h : ((108 : UInt8) :: ([58, 48, 13, 10] ++ pad ++ [CR, LF, CR])).head? = some x := hx
        simpa using h.symm
      subst this; decide
    have hcut : cut (head ++ [CR, LF, CR]) = .fail .unterminated := by
      rw [cut_fail_iff, skipCrlf_id _ hst]
      refine Or.inl ⟨rfl, hnb, ?_⟩
      rw [List.length_append, hlen]; decide
    have hdr : drain (head ++ [CR, LF, CR]) = .error .unterminated := by rw [drain_eq, hcut]
    have hb : ([] : Bytes).length ≥ maxBuffer ↔ False := by decide
    simp only [session, List.foldl_cons, List.foldl_nil]
    have h1 : Session.read {} (head ++ [CR, LF, CR]) = { closed := some (.framing .unterminated) } := by
      simp only [Session.read, hb, if_false, List.nil_append, hdr]
      rw [if_neg (by simp)]
    rw [h1]
    rfl

/-- C31 does not hold of the code in full: a message whose header block is exactly at the limit is
accepted in one read and closes the connection when the last byte of the blank line comes in a
second read. -/
theorem C31_limit_matters : ∃ w cs cs', Delivers cs w ∧ Delivers cs' w ∧
    session cs = { buf := [], out := [w], closed := none } ∧
    (session cs').closed = some (.framing .unterminated) :=
  limit_matters (List.replicate 65531 97) List.length_replicate
    fun _ hx => (List.mem_replicate.1 hx).2

end Siphon.Transport
