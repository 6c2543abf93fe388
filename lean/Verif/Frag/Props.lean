import Verif.Frag.Spec
import Verif.Base.Strip
import Verif.Core.HeadersProps
import Verif.Core.UriTextLemmas
/-!
# C144: message fragments
-/
namespace Siphon.Frag
open TextSpec HdrSpec Spec

theorem bodyHeaders_iff (hs : Headers) (n : Nat) (hn : n ≤ 65536) : bodyHeaders hs n = true ↔ (n ≠ 0 → Describe hs.inner n) := by
  unfold bodyHeaders Describe
  by_cases h0 : n = 0
  · simp [h0]
  · rw [if_neg h0]
    simp only [ne_eq, h0, not_false_eq_true, forall_const]
    have ht : (hs.get "Content-Type".toList).isNone = true ↔ ¬ ∃ h ∈ hs.inner, SameName h.name "Content-Type".toList := by
      rw [Option.isNone_iff_eq_none, C24_get_none]
      simp
    by_cases h1 : (hs.get "Content-Type".toList).isNone = true
    · rw [if_pos h1]
      exact ⟨fun h => (by cases h), fun h => absurd h.1 (ht.mp h1)⟩
    · rw [if_neg h1]
      have h1' : ∃ h ∈ hs.inner, SameName h.name "Content-Type".toList := Classical.byContradiction (fun h => h1 (ht.mpr h))
      cases hg : hs.get "Content-Length".toList with
      | none =>
        refine ⟨fun h => (by cases h), ?_⟩
        rintro ⟨_, pre, h, post, d, he, hs', _⟩
        exact absurd hs' ((C24_get_none _ _).mp hg h (by rw [he]; simp))
      | some v =>
        simp only [beq_iff_eq]
        constructor
        · intro hp
          obtain ⟨pre, h, post, he, hs', rfl, hpre⟩ := (C24_get _ _ _).mp hg
          exact ⟨h1', pre, h, post, _, he, hs', hpre, (strips_trim _ _).mpr rfl, ((parseDec_iff _ _ _).mp hp).1⟩
        · rintro ⟨_, pre, h, post, d, he, hs', hpre, hd, hn'⟩
          have := (C24_get hs "Content-Length".toList h.value).mpr ⟨pre, h, post, he, hs', rfl, hpre⟩
          rw [hg] at this
          cases this
          rw [← (strips_trim _ _).mp hd]
          exact (parseDec_iff _ _ _).mpr ⟨hn', by omega⟩

/-- **C144**: a body is taken exactly if it is not too large and the headers describe it; nothing else changes.  Likewise a response. -/
theorem C144_body (f g : Frag) (b : Bytes) (r : Response) :
    (f.setBody b = some g ↔ b.length ≤ 65536 ∧ (b ≠ [] → Describe f.headers.inner b.length) ∧ g = { f with body := b }) ∧
    (Frag.fromResponse r = some g ↔ r.body.length ≤ 65536 ∧ (r.body ≠ [] → Describe r.headers.inner r.body.length) ∧
      g = ⟨some (.response r.code r.reason), r.headers, r.body⟩) := by
  have key : ∀ (hs : Headers) (b : Bytes) (x : Frag), (if b.length > MAX_SIPFRAG_BODY_SIZE then none
      else if !bodyHeaders hs b.length then none else some x) = some g ↔
      b.length ≤ 65536 ∧ (b ≠ [] → Describe hs.inner b.length) ∧ g = x := by
    intro hs b x
    have hM : MAX_SIPFRAG_BODY_SIZE = 65536 := rfl
    by_cases hl : b.length > MAX_SIPFRAG_BODY_SIZE
    · rw [if_pos hl]
      exact ⟨fun h => (by cases h), fun h => absurd h.1 (by omega)⟩
    · rw [if_neg hl]
      have hb := bodyHeaders_iff hs b.length (by omega)
      rw [show (b.length ≠ 0) = (b ≠ []) by simp] at hb
      cases hx : bodyHeaders hs b.length with
      | false =>
        rw [hx] at hb
        simp only [Bool.not_false, if_true, reduceCtorEq, false_iff]
        rintro ⟨_, h, _⟩
        exact absurd (hb.mpr h) (by decide)
      | true =>
        rw [hx] at hb
        simp only [Bool.not_true, Bool.false_eq_true, if_false, Option.some.injEq]
        exact ⟨fun h => ⟨by omega, hb.mp rfl, h.symm⟩, fun h => h.2.2.symm⟩
  exact ⟨key _ _ _, key _ _ _⟩

theorem describe_append {hs : List Header} {n : Nat} (h : Describe hs n) (x : Header) : Describe (hs ++ [x]) n := by
  obtain ⟨⟨y, hy, hn⟩, pre, h, post, d, rfl, h1, h2, h3⟩ := h
  exact ⟨⟨y, List.mem_append_left _ hy, hn⟩, pre, h, post ++ [x], d, by simp, h1, h2, h3⟩

theorem begins_sound {f : Frag} (h : Begins f) : Sound f := by
  cases h with
  | empty => intro h; exact absurd rfl h
  | status h =>
    unfold Frag.statusOnly at h
    split at h
    · cases h
    · split at h
      · cases h
      · cases h; intro h; exact absurd rfl h
  | response h =>
    obtain ⟨h1, h2, rfl⟩ := (C144_body f _ [] _).2.mp h
    exact fun hb => ⟨h1, h2 hb⟩
  | start s => intro h; exact absurd rfl h
  | headers hs => intro h; exact absurd rfl h

/-- **C144**: whatever headers and bodies are put into a fragment, in whatever order, a body it has is described by its headers. -/
theorem C144_sound {f : Frag} (h : Begins f) (cs : List Call) : Sound (cs.foldl Call.run f) := by
  have step : ∀ (f : Frag) (c : Call), Sound f → Sound (c.run f) := by
    intro f c hs
    cases c with
    | header n v =>
      simp only [Call.run, Frag.addHeader]
      cases hp : f.headers.push n v with
      | error e => exact hs
      | ok r =>
        intro hb
        obtain ⟨h1, h2⟩ := hs hb
        refine ⟨h1, ?_⟩
        simp only [Option.getD_some]
        rw [C24_push _ _ _ _ hp]
        exact describe_append h2 _
    | body b =>
      simp only [Call.run]
      cases hb : f.setBody b with
      | none => exact hs
      | some g =>
        obtain ⟨h1, h2, rfl⟩ := (C144_body f g b ⟨0, [], f.headers, []⟩).1.mp hb
        exact fun hne => ⟨h1, h2 hne⟩
  have : ∀ (cs : List Call) (f : Frag), Sound f → Sound (cs.foldl Call.run f) := by
    intro cs
    induction cs with
    | nil => exact fun f h => h
    | cons c cs ih => exact fun f h => ih _ (step f c h)
  exact this cs f (begins_sound h)

/-- A fragment with a body, made so. -/
example : (([.body [65], .header "Content-Type".toList "a/b".toList, .header "content-length".toList " 2 ".toList,
    .body [65], .body [65, 66]] : List Call).foldl Call.run Frag.empty).body = [65, 66] := by decide +kernel

/-- **C144** fails: `headers_mut` hands out the headers, and what is done to them there is not checked. -/
theorem C144_headers_mut : ∃ f, Begins f ∧ Sound f ∧ f.body ≠ [] ∧ ¬ Sound { f with headers := (f.headers.remove "Content-Type".toList).1 } := by
  refine ⟨⟨some (.response 200 "OK".toList), ⟨[⟨"Content-Type".toList, "a/b".toList⟩, ⟨"Content-Length".toList, "1".toList⟩]⟩, [65]⟩, ?_⟩
  have hb : Begins ⟨some (.response 200 "OK".toList), ⟨[⟨"Content-Type".toList, "a/b".toList⟩, ⟨"Content-Length".toList, "1".toList⟩]⟩, [65]⟩ :=
    .response (r := ⟨200, "OK".toList, ⟨[⟨"Content-Type".toList, "a/b".toList⟩, ⟨"Content-Length".toList, "1".toList⟩]⟩, [65]⟩) (by decide +kernel)
  refine ⟨hb, begins_sound hb, by decide, ?_⟩
  intro h
  obtain ⟨y, hy, hn⟩ := (h (by decide)).2.1
  exact (C24_remove _ "Content-Type".toList).1 y hy hn

/-- **C144**: a header is taken exactly if there is room and it is a header; it goes last, and nothing else changes. -/
theorem C144_header (f g : Frag) (n v : Str) : f.addHeader n v = some g ↔
    f.headers.inner.length < 200 ∧ Token n ∧ utf8Len n ≤ 128 ∧ OneLine v ∧ utf8Len v ≤ 8192 ∧
      g = { f with headers := ⟨f.headers.inner ++ [⟨n, v⟩]⟩ } := by
  constructor
  · intro h
    unfold Frag.addHeader at h
    cases hp : f.headers.push n v with
    | error e => rw [hp] at h; cases h
    | ok r =>
      rw [hp] at h
      cases h
      have hr := C24_push _ _ _ _ hp
      unfold Headers.push at hp
      have hM : MAX_HEADERS = 200 := rfl
      split at hp
      · cases hp
      · rename_i hl
        cases hh : Header.new n v with
        | error e => rw [hh] at hp; cases hp
        | ok x =>
          obtain ⟨_, h1, h2, h3, h4⟩ := (header_new_ok_iff n v x).mp hh
          refine ⟨by omega, h1, h2, h3, h4, ?_⟩
          obtain ⟨r⟩ := r
          cases hr; rfl
  · rintro ⟨h0, h1, h2, h3, h4, rfl⟩
    unfold Frag.addHeader
    rw [C24_push_ok _ _ _ h0 h1 h2 h3 h4]

/-- **C144**: the code, or the method and target, of a fragment are those of its start line, and no call changes them. -/
theorem C144_start (f : Frag) (c : Nat) (m : Method) (u : Str) (x : Call) :
    (f.statusCode = some c ↔ ∃ r, f.start = some (.response c r)) ∧ (f.target = some (m, u) ↔ f.start = some (.request m u)) ∧
    (x.run f).start = f.start := by
  refine ⟨?_, ?_, ?_⟩
  · unfold Frag.statusCode
    rcases f.start with _ | ⟨m, u⟩ | ⟨c', r⟩ <;> simp
  · unfold Frag.target
    rcases f.start with _ | ⟨m', u'⟩ | ⟨c', r⟩ <;> simp
  · cases x with
    | header n v =>
      simp only [Call.run, Frag.addHeader]
      cases f.headers.push n v <;> rfl
    | body b =>
      simp only [Call.run]
      cases hb : f.setBody b with
      | none => rfl
      | some g => obtain ⟨_, _, rfl⟩ := (C144_body f g b ⟨0, [], f.headers, []⟩).1.mp hb; rfl

/-- **C144**: a status fragment is made exactly for a code of a response and a reason that fits a line. -/
theorem C144_status (c : Nat) (r : Str) (f : Frag) :
    Frag.statusOnly c r = some f ↔ 100 ≤ c ∧ c ≤ 699 ∧ utf8Len r ≤ 256 ∧ (∀ x ∈ r, isAsciiControl x = false) ∧
      f = ⟨some (.response c r), ⟨[]⟩, []⟩ := by
  unfold Frag.statusOnly validateReason MAX_REASON_LENGTH
  by_cases hc : 100 ≤ c ∧ c ≤ 699
  · have e : (!(decide (100 ≤ c) && decide (c ≤ 699))) = false := by simp [hc]
    rw [if_neg (by rw [e]; decide)]
    by_cases hl : utf8Len r > 256
    · rw [if_pos hl]
      exact ⟨fun h => (by cases h), fun h => absurd h.2.2.1 (by omega)⟩
    · rw [if_neg hl]
      cases ha : r.any isAsciiControl with
      | true =>
        obtain ⟨x, hx, hx'⟩ := List.any_eq_true.mp ha
        refine ⟨fun h => (by cases h), fun h => ?_⟩
        rw [h.2.2.2.1 x hx] at hx'; cases hx'
      | false =>
        have hall : ∀ x ∈ r, isAsciiControl x = false := by
          intro x hx
          simpa using List.any_eq_false.mp ha x hx
        simp only [Bool.false_eq_true, if_false, Option.some.injEq]
        exact ⟨fun h => ⟨hc.1, hc.2, by omega, hall, h.symm⟩, fun h => h.2.2.2.2.symm⟩
  · have e : (!(decide (100 ≤ c) && decide (c ≤ 699))) = true := by
      simp only [Bool.not_eq_true', Bool.and_eq_false_iff, decide_eq_false_iff_not]
      omega
    rw [if_pos e]
    exact ⟨fun h => (by cases h), fun h => absurd ⟨h.1, h.2.1⟩ hc⟩

theorem headerText_eq (hs : List Header) :
    headerText hs = (hs.map (fun h => h.name ++ ": ".toList ++ h.value)).flatMap (· ++ "\r\n".toList) := by
  induction hs with
  | nil => rfl
  | cons h t ih =>
    rw [List.map_cons, List.flatMap_cons, ← ih]
    simp only [headerText, show ": ".toList = [':', ' '] from rfl, show "\r\n".toList = ['\r', '\n'] from rfl, List.append_assoc,
      List.cons_append, List.nil_append]

theorem start_request (m u : Str) : m ++ ' ' :: (u ++ ' ' :: ("SIP/2.0".toList ++ ['\r', '\n'])) =
    [m ++ " ".toList ++ u ++ " SIP/2.0".toList].flatMap (· ++ "\r\n".toList) := by
  have e1 : "\r\n".toList = ['\r', '\n'] := rfl
  have e2 : " ".toList = [' '] := rfl
  have e4 : " SIP/2.0".toList = ' ' :: "SIP/2.0".toList := by decide
  rw [e1, e2, e4]
  generalize "SIP/2.0".toList = v
  simp

theorem start_response (n r : Str) : "SIP/2.0".toList ++ ' ' :: (n ++ ' ' :: (r ++ ['\r', '\n'])) =
    ["SIP/2.0 ".toList ++ n ++ " ".toList ++ r].flatMap (· ++ "\r\n".toList) := by
  have e1 : "\r\n".toList = ['\r', '\n'] := rfl
  have e2 : " ".toList = [' '] := rfl
  have e5 : "SIP/2.0 ".toList = "SIP/2.0".toList ++ [' '] := by decide
  rw [e1, e2, e5]
  generalize "SIP/2.0".toList = v
  simp

theorem show_eq (f : Frag) : startText f.start ++ headerText f.headers.inner = (lines f).flatMap (· ++ "\r\n".toList) := by
  obtain ⟨st, hs, b⟩ := f
  unfold lines
  rw [List.flatMap_append, ← headerText_eq]
  refine congrArg (· ++ headerText hs.inner) ?_
  match st with
  | none => rfl
  | some (.request m u) => exact start_request m.asStr u
  | some (.response c r) => exact start_response (showNat c) r

/-- **C144**: a fragment is written as its lines, each with a line end, and for a body that is not empty a blank line and the body; it can
be written exactly if its body is text. -/
theorem C144_text (f : Frag) (t : Str) :
    f.show = some t ↔ ∃ b, utf8 b = f.body ∧
      t = (lines f).flatMap (· ++ "\r\n".toList) ++ (if b = [] then [] else "\r\n".toList ++ b) := by
  unfold Frag.show
  rw [show_eq]
  cases hb : f.body with
  | nil =>
    simp only [List.isEmpty_nil, if_true, Option.some.injEq]
    constructor
    · rintro rfl; exact ⟨[], rfl, by simp⟩
    · rintro ⟨b, hb', rfl⟩
      have : b = [] := by
        have e := (UriText.utf8Decode_iff [] b).mpr hb'
        have e' := (UriText.utf8Decode_iff [] []).mpr rfl
        rw [e'] at e; cases e; rfl
      simp [this]
  | cons x xs =>
    simp only [List.isEmpty_cons, Bool.false_eq_true, if_false]
    cases hd : utf8Decode (x :: xs) with
    | none =>
      simp only [reduceCtorEq, false_iff]
      rintro ⟨b, hb', _⟩
      rw [(UriText.utf8Decode_iff _ b).mpr hb'] at hd; cases hd
    | some s =>
      have hs := (UriText.utf8Decode_iff _ s).mp hd
      have hne : s ≠ [] := by rintro rfl; cases hs
      simp only [Option.some.injEq]
      constructor
      · rintro rfl; exact ⟨s, hs, by simp [hne]⟩
      · rintro ⟨b, hb', rfl⟩
        have e := (UriText.utf8Decode_iff _ b).mpr hb'
        rw [hd] at e; cases e
        simp [hne]

example : (Frag.ofStart (.response 200 "OK".toList)).show = some "SIP/2.0 200 OK\r\n".toList := by decide +kernel

/-- **C144** fails: a fragment that the API accepts cannot be written when its body is not text, and `to_string` panics. -/
theorem C144_panic : ∃ f, Begins f ∧ Sound f ∧ f.show = none := by
  have hb : Begins ⟨some (.response 200 "OK".toList), ⟨[⟨"Content-Type".toList, "a/b".toList⟩, ⟨"Content-Length".toList, "1".toList⟩]⟩, [255]⟩ :=
    .response (r := ⟨200, "OK".toList, ⟨[⟨"Content-Type".toList, "a/b".toList⟩, ⟨"Content-Length".toList, "1".toList⟩]⟩, [255]⟩) (by decide +kernel)
  exact ⟨_, hb, begins_sound hb, by decide +kernel⟩

end Siphon.Frag
