import Verif.Parse.Lemmas
/-!
# C92, C30: which messages are read, and how

The parsers accept exactly the datagrams of `Verif.Parse.Spec`, and return what these say.
-/
namespace Siphon.Parse

open Siphon.HdrSpec Siphon.TextSpec Spec

set_option linter.unusedSimpArgs false

theorem requestLine_trim (l : Str) (m : Method) (u : Str) : RequestLine (trim l) m u ↔ RequestLine l m u := by
  unfold RequestLine
  simp only [strips_trim, trim_trim]

theorem requestLine_nil (m : Method) (u : Str) : ¬ RequestLine [] m u := by
  rintro ⟨t, g, g', v, h1, _, h2, _⟩
  rw [strips_trim] at h1
  have : g = [] := by
    have e : trim [] = ([] : Str) := rfl
    rw [e] at h1
    simp only [List.append_eq_nil_iff] at h1
    simp [h1]
  exact h2.1 this

theorem statusLine_trim (l : Str) (c : Nat) (r : Str) : StatusLine (trim l) c r ↔ StatusLine l c r := by
  unfold StatusLine
  simp only [strips_trim, trim_trim]

theorem statusLine_nil (c : Nat) (r : Str) : ¬ StatusLine [] c r := by
  rintro ⟨t, g, d, g', v, h1, _, h2, _⟩
  rw [strips_trim] at h1
  have : g = [] := by
    have e : trim [] = ([] : Str) := rfl
    rw [e] at h1
    simp only [List.append_eq_nil_iff] at h1
    simp [h1]
  exact h2.1 this

theorem requestNew_iff (m : Method) (u : Str) (hs : Headers) (b : Bytes) (r : Siphon.Request) :
    (Request.new m u hs b).toOption = some r ↔ b.length ≤ 10485760 ∧ r = ⟨m, u, hs, b⟩ := by
  unfold Request.new MAX_MSG_BODY
  by_cases h : b.length > 10 * 1024 * 1024
  · rw [if_pos h]
    simp only [Except.toOption, reduceCtorEq, false_iff, not_and]
    omega
  · rw [if_neg h]
    simp only [Except.toOption, Option.some.injEq]
    constructor
    · rintro rfl; exact ⟨by omega, rfl⟩
    · rintro ⟨_, rfl⟩; rfl

theorem responseNew_iff (c : Nat) (u : Str) (hs : Headers) (b : Bytes) (r : Siphon.Response) :
    (Response.new c u hs b).toOption = some r ↔
      (100 ≤ c ∧ c ≤ 699 ∧ validateReason u = .ok ()) ∧ b.length ≤ 10485760 ∧ r = ⟨c, u, hs, b⟩ := by
  unfold Response.new MAX_MSG_BODY
  by_cases hc : 100 ≤ c ∧ c ≤ 699
  · rw [if_neg (by simp [hc])]
    cases hv : validateReason u with
    | error e => simp [Except.toOption]
    | ok x =>
      simp only
      by_cases h : b.length > 10 * 1024 * 1024
      · rw [if_pos h]
        simp only [Except.toOption, reduceCtorEq, false_iff, not_and]
        omega
      · rw [if_neg h]
        simp only [Except.toOption, Option.some.injEq]
        constructor
        · rintro rfl; exact ⟨⟨hc.1, hc.2, trivial⟩, by omega, rfl⟩
        · rintro ⟨_, _, rfl⟩; rfl
  · rw [if_pos (by simp only [Bool.not_eq_true', Bool.and_eq_false_iff, decide_eq_false_iff_not]; omega)]
    simp only [Except.toOption, reduceCtorEq, false_iff]
    rintro ⟨h, _⟩
    exact hc ⟨h.1, h.2.1⟩

/-- The parts of a request, as the parser goes through them. -/
theorem request_parts (body : Bytes → Headers → Option Bytes) (B : List Header → Bytes → Bytes → Prop)
    (hB : ∀ rest b hs, body rest hs = some b ↔ B hs.inner rest b) (d : Bytes) (max : Nat) (r : Siphon.Request) :
    (∃ f ls rest, splitMessage d max = some (f, ls, rest) ∧ parseRequestLine f = some (r.method, r.uri) ∧
      parseHeaders ls Headers.empty = some r.headers ∧ singletonUnique r.headers = true ∧ branchOk r.headers = true ∧
      body rest r.headers = some r.body ∧ cseqMatches r.headers r.method = some true ∧ r.body.length ≤ 10485760) ↔
    Spec.Request B d max r := by
  unfold Spec.Request
  simp only [single_iff, branches_iff, hB, cseqMatches_iff]
  constructor
  · rintro ⟨f, ls, rest, h1, h2, h3, h4, h5, h6, h7, h8⟩
    obtain ⟨l, g1, g2⟩ := (splits_iff d max r.headers rest (fun l => RequestLine l r.method r.uri)
      (fun l => requestLine_trim l _ _) (requestLine_nil _ _)).1 ⟨f, ls, h1, h3, (requestLine_iff _ _ _).1 h2⟩
    exact ⟨l, rest, g1, g2, h4, h5, h6, h8, h7⟩
  · rintro ⟨l, rest, g1, g2, h4, h5, h6, h8, h7⟩
    obtain ⟨f, ls, h1, h3, h2⟩ := (splits_iff d max r.headers rest (fun l => RequestLine l r.method r.uri)
      (fun l => requestLine_trim l _ _) (requestLine_nil _ _)).2 ⟨l, g1, g2⟩
    exact ⟨f, ls, rest, h1, (requestLine_iff _ _ _).2 h2, h3, h4, h5, h6, h7, h8⟩

/-- C92: the lenient request parser accepts exactly the datagrams that say a request, and returns that request. -/
theorem C92_request (d : Bytes) (max : Nat) (r : Siphon.Request) :
    parseRequestWithLimit d max = some r ↔ Spec.Request Body d max r := by
  rw [← request_parts extractBody Body (fun rest b hs => body_iff rest b hs)]
  unfold parseRequestWithLimit
  constructor
  · intro h
    split at h
    · cases h
    rename_i f ls rest h1
    split at h
    · cases h
    rename_i m u h2
    split at h
    · cases h
    rename_i hs h3
    split at h
    · cases h
    rename_i h4
    split at h
    · cases h
    rename_i h5
    split at h
    · cases h
    rename_i b h6
    split at h
    · cases h
    · cases h
    rename_i h7
    obtain ⟨h8, rfl⟩ := (requestNew_iff _ _ _ _ _).1 h
    exact ⟨f, ls, rest, h1, h2, h3, by simpa using h4, by simpa using h5, h6, h7, h8⟩
  · rintro ⟨f, ls, rest, h1, h2, h3, h4, h5, h6, h7, h8⟩
    rw [h1]; simp only
    rw [h2]; simp only
    rw [h3]; simp only
    rw [if_neg (by simp [h4]), if_neg (by simp [h5]), h6]; simp only
    rw [h7]; simp only
    exact (requestNew_iff _ _ _ _ _).2 ⟨h8, rfl⟩

/-- C92: the same for the strict request parser. -/
theorem C92_request_strict (d : Bytes) (max : Nat) (r : Siphon.Request) :
    parseRequestStrictWithLimit d max = some r ↔ Spec.Request StrictBody d max r := by
  rw [← request_parts (fun rest hs => (declaredStrict rest hs).bind (extractBodyStrict rest)) StrictBody
    (fun rest b hs => strictBody_iff rest b hs)]
  unfold parseRequestStrictWithLimit
  constructor
  · intro h
    split at h
    · cases h
    rename_i f ls rest h1
    split at h
    · cases h
    rename_i m u h2
    split at h
    · cases h
    rename_i hs h3
    split at h
    · cases h
    rename_i h4
    split at h
    · cases h
    rename_i h5
    split at h
    · cases h
    rename_i n h6
    split at h
    · cases h
    rename_i b h6'
    split at h
    · cases h
    · cases h
    rename_i h7
    obtain ⟨h8, rfl⟩ := (requestNew_iff _ _ _ _ _).1 h
    exact ⟨f, ls, rest, h1, h2, h3, by simpa using h4, by simpa using h5, by simp [h6, h6'], h7, h8⟩
  · rintro ⟨f, ls, rest, h1, h2, h3, h4, h5, h6, h7, h8⟩
    obtain ⟨n, h6, h6'⟩ := Option.bind_eq_some_iff.1 h6
    rw [h1]; simp only
    rw [h2]; simp only
    rw [h3]; simp only
    rw [if_neg (by simp [h4]), if_neg (by simp [h5]), h6]; simp only
    rw [h6']; simp only
    rw [h7]; simp only
    exact (requestNew_iff _ _ _ _ _).2 ⟨h8, rfl⟩

theorem splits_length {d : Bytes} {max : Nat} {f : Str} {hs : List Header} {rest : Bytes} (h : Splits d max f hs rest) :
    rest.length ≤ max := by
  obtain ⟨h1, head, lines, h2, _⟩ := h
  rcases h2 with ⟨rfl, _⟩ | ⟨_, rfl, _⟩
  · simp only [List.length_append] at h1; omega
  · simp

theorem body_length {hs : List Header} {rest b : Bytes} (h : Body hs rest b) : b.length ≤ rest.length := by
  obtain ⟨vs, _, _, h⟩ := h
  rcases h with ⟨n, _, _, _, rfl⟩ | ⟨_, rfl⟩
  · rw [List.length_take]; omega
  · omega

theorem response_parts (body : Bytes → Headers → Option Bytes) (B : List Header → Bytes → Bytes → Prop)
    (hB : ∀ rest b hs, body rest hs = some b ↔ B hs.inner rest b) (hlen : ∀ hs rest b, B hs rest b → b.length ≤ rest.length)
    (d : Bytes) (r : Siphon.Response) :
    (∃ f ls rest, splitMessage d 65536 = some (f, ls, rest) ∧ parseStatusLine f = some (r.code, r.reason) ∧
      parseHeaders ls Headers.empty = some r.headers ∧ singletonUnique r.headers = true ∧
      validateResponseCseq r.headers = true ∧ body rest r.headers = some r.body ∧
      (100 ≤ r.code ∧ r.code ≤ 699 ∧ validateReason r.reason = .ok ()) ∧ r.body.length ≤ 10485760) ↔
    Spec.Response B d r := by
  unfold Spec.Response
  simp only [single_iff, hB, responseCseq_iff]
  constructor
  · rintro ⟨f, ls, rest, h1, h2, h3, h4, h5, h6, h7, h8⟩
    obtain ⟨l, g1, g2⟩ := (splits_iff d 65536 r.headers rest (fun l => StatusLine l r.code r.reason)
      (fun l => statusLine_trim l _ _) (statusLine_nil _ _)).1 ⟨f, ls, h1, h3, (statusLine_iff _ _ _).1 ⟨h2, h7⟩⟩
    exact ⟨l, rest, g1, g2, h4, h6, h5⟩
  · rintro ⟨l, rest, g1, g2, h4, h6, h5⟩
    obtain ⟨f, ls, h1, h3, h2⟩ := (splits_iff d 65536 r.headers rest (fun l => StatusLine l r.code r.reason)
      (fun l => statusLine_trim l _ _) (statusLine_nil _ _)).2 ⟨l, g1, g2⟩
    obtain ⟨h2, h7⟩ := (statusLine_iff _ _ _).2 h2
    have := hlen _ _ _ h6
    have := splits_length g1
    exact ⟨f, ls, rest, h1, h2, h3, h4, h5, h6, h7, by omega⟩

/-- C92: the lenient response parser accepts exactly the datagrams that say a response, and returns that response. -/
theorem C92_response (d : Bytes) (r : Siphon.Response) : parseResponse d = some r ↔ Spec.Response Body d r := by
  rw [← response_parts extractBody Body (fun rest b hs => body_iff rest b hs) (fun _ _ _ h => body_length h)]
  unfold parseResponse DEFAULT_MAX_MESSAGE_SIZE
  constructor
  · intro h
    split at h
    · cases h
    rename_i f ls rest h1
    split at h
    · cases h
    rename_i m u h2
    split at h
    · cases h
    rename_i hs h3
    split at h
    · cases h
    rename_i h4
    split at h
    · cases h
    rename_i h5
    split at h
    · cases h
    rename_i b h6
    obtain ⟨h7, h8, rfl⟩ := (responseNew_iff _ _ _ _ _).1 h
    exact ⟨f, ls, rest, h1, h2, h3, by simpa using h4, by simpa using h5, h6, h7, h8⟩
  · rintro ⟨f, ls, rest, h1, h2, h3, h4, h5, h6, h7, h8⟩
    rw [show (64 * 1024 : Nat) = 65536 from rfl, h1]; simp only
    rw [h2]; simp only
    rw [h3]; simp only
    rw [if_neg (by simp [h4]), if_neg (by simp [h5]), h6]; simp only
    exact (responseNew_iff _ _ _ _ _).2 ⟨h7, h8, rfl⟩

/-- C92: the same for the strict response parser. -/
theorem C92_response_strict (d : Bytes) (r : Siphon.Response) :
    parseResponseStrict d = some r ↔ Spec.Response StrictBody d r := by
  rw [← response_parts (fun rest hs => (declaredStrict rest hs).bind (extractBodyStrict rest)) StrictBody
    (fun rest b hs => strictBody_iff rest b hs) (fun _ _ _ h => by rw [h.1]; exact Nat.le_refl _)]
  unfold parseResponseStrict DEFAULT_MAX_MESSAGE_SIZE
  constructor
  · intro h
    split at h
    · cases h
    rename_i f ls rest h1
    split at h
    · cases h
    rename_i m u h2
    split at h
    · cases h
    rename_i hs h3
    split at h
    · cases h
    rename_i h4
    split at h
    · cases h
    rename_i h5
    split at h
    · cases h
    rename_i n h6
    split at h
    · cases h
    rename_i b h6'
    obtain ⟨h7, h8, rfl⟩ := (responseNew_iff _ _ _ _ _).1 h
    exact ⟨f, ls, rest, h1, h2, h3, by simpa using h4, by simpa using h5, by simp [h6, h6'], h7, h8⟩
  · rintro ⟨f, ls, rest, h1, h2, h3, h4, h5, h6, h7, h8⟩
    obtain ⟨n, h6, h6'⟩ := Option.bind_eq_some_iff.1 h6
    rw [show (64 * 1024 : Nat) = 65536 from rfl, h1]; simp only
    rw [h2]; simp only
    rw [h3]; simp only
    rw [if_neg (by simp [h4]), if_neg (by simp [h5]), h6]; simp only
    rw [h6']; simp only
    exact (responseNew_iff _ _ _ _ _).2 ⟨h7, h8, rfl⟩

/-- C92: the public entry points without a limit use 65 536 bytes. -/
theorem C92_default_limit (d : Bytes) (r : Siphon.Request) :
    (parseRequest d = some r ↔ Spec.Request Body d 65536 r) ∧
      (parseRequestStrict d = some r ↔ Spec.Request StrictBody d 65536 r) :=
  ⟨C92_request d 65536 r, C92_request_strict d 65536 r⟩

end Siphon.Parse
