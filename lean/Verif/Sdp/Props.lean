import Verif.Sdp.Build
set_option linter.unusedSimpArgs false
/-!
# Answers to offers (C62, C63, C64)

The specification of an answer is `Spec.Answers` and, for one accepted stream, `Spec.Accepts` (`Verif.Sdp.Spec`).
-/
namespace Siphon.Sdp
open Siphon.TextSpec Spec

/-! ## Example: a call with audio and video, where only the audio has a codec in common -/

/-- The local description of the examples. -/
def exCaps : Session :=
  { origin := ⟨"bob".toList, "1".toList, "1".toList, false, "192.0.2.2".toList⟩, name := "call".toList,
    media := [
      { kind := .audio, port := 4000, formats := ["0".toList, "111".toList],
        attributes := [.value "rtpmap".toList "111 opus/48000/2".toList, .value "fmtp".toList "111 useinbandfec=1".toList,
          .value "ptime".toList "20".toList],
        rtpmaps := [(111, ⟨111, "opus".toList, 48000, some "2".toList⟩)] },
      { kind := .video, port := 4002, formats := ["31".toList] }] }

/-- The offer of the examples. -/
def exOffer : Session :=
  { media := [
      { kind := .audio, port := 5000, formats := ["96".toList, "8".toList, "0".toList],
        attributes := [.value "rtpmap".toList "96 OPUS/48000/2".toList, .value "fmtp".toList "96 stereo=1".toList,
          .property "sendonly".toList],
        rtpmaps := [(96, ⟨96, "OPUS".toList, 48000, some "2".toList⟩)] },
      { kind := .video, port := 5002, formats := ["32".toList] },
      { kind := .audio, port := 5004, formats := ["0".toList] }] }

/-- The answer of the examples. -/
def exAnswer : Session :=
  { origin := ⟨"bob".toList, "7".toList, "0".toList, false, "192.0.2.2".toList⟩, name := "call".toList,
    connection := some ⟨false, "192.0.2.2".toList⟩,
    media := [
      { kind := .audio, port := 4000, formats := ["96".toList, "0".toList],
        attributes := [.value "rtpmap".toList "96 opus/48000/2".toList, .value "fmtp".toList "96 stereo=1".toList,
          .value "ptime".toList "20".toList, .property "recvonly".toList],
        rtpmaps := [(96, ⟨96, "opus".toList, 48000, some "2".toList⟩)] },
      { kind := .video, port := 0, formats := ["32".toList] },
      { kind := .audio, port := 0, formats := ["0".toList] }] }

theorem ex_answer : negotiateAnswer "7".toList exOffer "192.0.2.2".toList exCaps = .ok exAnswer := by decide +kernel

/-! ## C62 -/

/-- The fields that go into the lines of the session. -/
def Usable (sessionId addr : Str) (caps : Session) : Prop :=
  Field caps.origin.username 256 ∧ Field sessionId 256 ∧ Field addr 256 ∧ Field caps.name 512

theorem answerBase_iff (sessionId addr : Str) (caps b : Session) : answerBase sessionId addr caps = some b ↔
    Usable sessionId addr caps ∧
      b = { origin := ⟨caps.origin.username, sessionId, "0".toList, addr.contains ':', addr⟩, name := caps.name,
            connection := some ⟨addr.contains ':', addr⟩, times := [⟨0, 0, []⟩], media := [] } := by
  unfold answerBase Usable Session.setOrigin Origin.new Session.setName Session.setConnection Connection.new Session.setTime
  simp only [field_iff]
  cases h1 : validField caps.origin.username 256 <;> cases h2 : validField sessionId 256 <;> cases h3 : validField addr 256 <;>
    cases h4 : validField caps.name 512 <;> simp [h1, h2, h3, h4, eq_comm]

/-- **C62.** An answer consists of the answerer's origin, name and address, and of one stream for each stream of the offer,
as the specification says. -/
theorem C62_answer (sessionId addr : Str) (offer caps ans : Session)
    (h : negotiateAnswer sessionId offer addr caps = .ok ans) :
    Answers caps [] offer.media ans.media ∧
    ans = { origin := ⟨caps.origin.username, sessionId, "0".toList, addr.contains ':', addr⟩, name := caps.name,
            connection := some ⟨addr.contains ':', addr⟩, times := [⟨0, 0, []⟩], media := ans.media } := by
  unfold negotiateAnswer at h
  cases hb : answerBase sessionId addr caps with
  | none => rw [hb] at h; cases h
  | some b =>
    rw [hb] at h
    simp only at h
    obtain ⟨as, h1, h2, _⟩ := answerLoop_ok caps offer.media [] b ans h
    obtain ⟨_, hb⟩ := (answerBase_iff _ _ _ _).mp hb
    subst hb
    simp only [List.nil_append] at h2
    subst h2
    exact ⟨h1, rfl⟩

/-- **C62.** There is an answer if and only if the session's fields are usable, there are at most twenty streams, and each of
them can be refused or accepted. -/
theorem C62_succeeds (sessionId addr : Str) (offer caps : Session) :
    (∃ ans, negotiateAnswer sessionId offer addr caps = .ok ans) ↔
      Usable sessionId addr caps ∧ offer.media.length ≤ 20 ∧ ∃ as, Answers caps [] offer.media as := by
  have hlen : ∀ {seen os as}, Answers caps seen os as → as.length = os.length := by
    intro seen os as h
    induction h <;> simp_all
  unfold negotiateAnswer
  constructor
  · rintro ⟨ans, h⟩
    cases hb : answerBase sessionId addr caps with
    | none => rw [hb] at h; cases h
    | some b =>
      rw [hb] at h
      simp only at h
      obtain ⟨hu, hb⟩ := (answerBase_iff _ _ _ _).mp hb
      subst hb
      obtain ⟨as, h1, _, h3⟩ := answerLoop_ok caps offer.media [] _ ans h
      refine ⟨hu, ?_, as, h1⟩
      have hl := hlen h1
      cases hm : offer.media with
      | nil => simp
      | cons x xs =>
        have := h3 (by rw [hm]; simp)
        simp only [List.nil_append] at this
        rw [hl, hm] at this
        exact this
  · rintro ⟨hu, hl, as, h⟩
    rw [(answerBase_iff _ _ _ _).mpr ⟨hu, rfl⟩]
    simp only
    exact answerLoop_total caps offer.media [] as _ h (by simp only [List.nil_append]; rw [hlen h]; exact hl)

example : ∃ as, Answers exCaps [] exOffer.media as := ⟨_, (C62_answer _ _ _ _ _ ex_answer).1⟩

theorem shared_sublist {o l : Media} {fs : List Str} {ms : List (Str × Option RtpMap)} (h : Shared o l fs ms) :
    (ms.map (·.1)).Sublist fs := by
  induction h with
  | nil => exact List.Sublist.refl _
  | keep _ _ ih => exact List.Sublist.cons_cons _ ih
  | drop _ _ ih => exact List.Sublist.cons _ ih

/-- What every stream of an answer has from the offer. -/
def Mirrors (o a : Media) : Prop :=
  a.kind = o.kind ∧ a.protocol = o.protocol ∧ a.numPorts = o.numPorts ∧
    (a.formats.Sublist o.formats ∨ o.formats = [] ∧ a.port = 0 ∧ a.formats = ["0".toList]) ∧
    (a.port ≠ 0 → a.formats ≠ [])

theorem mirrors_refused (o : Media) : Mirrors o (refused o) := by
  unfold Mirrors refused
  refine ⟨rfl, rfl, rfl, ?_, fun h => absurd rfl h⟩
  by_cases h : o.formats = []
  · exact Or.inr ⟨h, rfl, by simp [h]⟩
  · exact Or.inl (by simp [h])

theorem mirrors_accepts {caps : Session} {o a : Media} (h : Accepts caps o a) : Mirrors o a := by
  obtain ⟨l, fs, od, ld, d, es, pl, ⟨_, _, hs, hne⟩, _, _, _, _, _, _, _, _, _, _, ha⟩ := h
  rw [ha]
  refine ⟨rfl, rfl, rfl, Or.inl (shared_sublist hs), fun _ => ?_⟩
  simp only
  intro h
  exact hne (List.map_eq_nil_iff.mp h)

theorem answers_mirror {caps : Session} : ∀ {seen : List MediaType} {os as : List Media}, Answers caps seen os as →
    as.length = os.length ∧ ∀ (i : Nat) (o a : Media), os[i]? = some o → as[i]? = some a → Mirrors o a := by
  intro seen os as h
  induction h with
  | nil => exact ⟨rfl, fun i o a h => by simp at h⟩
  | again _ _ ih =>
    refine ⟨by simp [ih.1], fun i o a h1 h2 => ?_⟩
    cases i with
    | zero => simp only [List.getElem?_cons_zero, Option.some.injEq] at h1 h2; subst h1 h2; exact mirrors_refused _
    | succ i => exact ih.2 i o a (by simpa using h1) (by simpa using h2)
  | accept _ ha _ ih =>
    refine ⟨by simp [ih.1], fun i o a h1 h2 => ?_⟩
    cases i with
    | zero => simp only [List.getElem?_cons_zero, Option.some.injEq] at h1 h2; subst h1 h2; exact mirrors_accepts ha
    | succ i => exact ih.2 i o a (by simpa using h1) (by simpa using h2)
  | refuse _ _ _ ih =>
    refine ⟨by simp [ih.1], fun i o a h1 h2 => ?_⟩
    cases i with
    | zero => simp only [List.getElem?_cons_zero, Option.some.injEq] at h1 h2; subst h1 h2; exact mirrors_refused _
    | succ i => exact ih.2 i o a (by simpa using h1) (by simpa using h2)

/-- **C62.** An answer has as many streams as the offer, in the same order, with the same kinds and protocols, and every
format of an accepted stream was offered. -/
theorem C62_mirror (sessionId addr : Str) (offer caps ans : Session)
    (h : negotiateAnswer sessionId offer addr caps = .ok ans) :
    ans.media.length = offer.media.length ∧ ∀ (i : Nat) (o a : Media), offer.media[i]? = some o → ans.media[i]? = some a →
      a.kind = o.kind ∧ a.protocol = o.protocol ∧ a.numPorts = o.numPorts ∧
        (a.formats.Sublist o.formats ∨ o.formats = [] ∧ a.port = 0 ∧ a.formats = ["0".toList]) ∧
        (a.port ≠ 0 → a.formats ≠ []) :=
  answers_mirror (C62_answer _ _ _ _ _ h).1

example : exAnswer.media.length = 3 ∧ ∃ a, exAnswer.media[0]? = some a ∧ a.port ≠ 0 ∧ a.formats = ["96".toList, "0".toList] :=
  ⟨by decide, _, rfl, by decide, by decide⟩

/-- **C62, finding.** The port of an offered stream is not looked at: a stream that the offer disables (port zero) is
answered like any other (RFC 3264, section 6, requires port zero). -/
theorem C62_ignores_port (sessionId addr : Str) (offer caps : Session) (port : Nat) :
    negotiateAnswer sessionId { offer with media := offer.media.map (fun m => { m with port := port }) } addr caps =
      negotiateAnswer sessionId offer addr caps := by
  have key : ∀ (os : List Media) (seen : List MediaType) (b : Session),
      answerLoop caps (os.map (fun m => { m with port := port })) seen b = answerLoop caps os seen b := by
    intro os
    induction os with
    | nil => intro _ _; rfl
    | cons o os ih =>
      intro seen b
      have h1 : negotiateMedia { o with port := port } caps = negotiateMedia o caps := by
        have e1 : ∀ l, commonFormats { o with port := port } l = commonFormats o l := fun _ => rfl
        have e2 : ∀ l fs as, addFmtps { o with port := port } l fs as = addFmtps o l fs as := by
          intro l fs
          induction fs with
          | nil => intro _; rfl
          | cons f fs ih => intro as; simp only [addFmtps, ih]
        simp only [negotiateMedia, buildAnswer, e1, e2, baseAnswer, addPtime]
      have h2 : rejectedMedia { o with port := port } = rejectedMedia o := rfl
      simp only [List.map_cons, answerLoop, h1, h2, ih]
  unfold negotiateAnswer
  cases answerBase sessionId addr caps with
  | none => rfl
  | some b => exact key _ _ _

theorem C62_disabled_accepted : ∃ ans a,
    negotiateAnswer "7".toList { media := [{ kind := .audio, port := 0, formats := ["0".toList] }] } "192.0.2.2".toList exCaps =
      .ok ans ∧ ans.media = [a] ∧ a.port = 4000 := by
  have h : (negotiateAnswer "7".toList { media := [{ kind := .audio, port := 0, formats := ["0".toList] }] }
      "192.0.2.2".toList exCaps).toOption.map (fun s => s.media.map (·.port)) = some [4000] := by decide +kernel
  cases hn : negotiateAnswer "7".toList { media := [{ kind := .audio, port := 0, formats := ["0".toList] }] }
      "192.0.2.2".toList exCaps with
  | error e => rw [hn] at h; cases h
  | ok ans =>
    rw [hn] at h
    simp only [Except.toOption, Option.map_some, Option.some.injEq] at h
    cases hm : ans.media with
    | nil => rw [hm] at h; cases h
    | cons a as =>
      cases as with
      | nil => rw [hm] at h; exact ⟨ans, a, rfl, hm, by simpa using h⟩
      | cons _ _ => rw [hm] at h; simp at h

/-- **C62, finding.** A payload type below 96 is accepted by number alone, whatever codec the offer's map gives it. -/
theorem C62_static_unchecked : (negotiateAnswer "7".toList
    { media := [{ kind := .audio, port := 9, formats := ["0".toList],
                  attributes := [.value "rtpmap".toList "0 L16/44100".toList],
                  rtpmaps := [(0, ⟨0, "L16".toList, 44100, none⟩)] }] } "192.0.2.2".toList exCaps).toOption.map
      (fun s => s.media.map (fun m => (m.port, m.formats))) = some [(4000, ["0".toList])] := by decide +kernel

/-- **C62, finding.** The answerer's parameters are looked up by the offer's payload type even if the answerer uses that
number for another codec: here the answer gives opus the parameters of telephone events. -/
theorem C62_wrong_parameters : (negotiateAnswer "7".toList
    { media := [{ kind := .audio, port := 9, formats := ["96".toList],
                  rtpmaps := [(96, ⟨96, "opus".toList, 48000, some "2".toList⟩)] }] } "192.0.2.2".toList
    { exCaps with
      media := [
        { kind := .audio, port := 4000, formats := ["96".toList, "111".toList],
          attributes := [.value "fmtp".toList "96 0-16".toList, .value "fmtp".toList "111 useinbandfec=1".toList],
          rtpmaps := [(96, ⟨96, "telephone-event".toList, 8000, none⟩),
                      (111, ⟨111, "opus".toList, 48000, some "2".toList⟩)] }] }).toOption.map
      (fun s => s.media.map (·.attributes)) =
    some [[.value "rtpmap".toList "96 opus/48000/2".toList, .value "fmtp".toList "96 0-16".toList,
      .property "sendrecv".toList]] := by decide +kernel

/-! ## C63 -/

theorem answers_first {caps : Session} : ∀ {seen : List MediaType} {os as : List Media}, Answers caps seen os as →
    ∀ (i : Nat) (o a : Media), os[i]? = some o → as[i]? = some a →
      ((o.kind ∉ seen ∧ (∃ l fs, Talks caps o l fs) ∧
          ∀ (j : Nat) (o' : Media), j < i → os[j]? = some o' → o'.kind = o.kind → ∀ l fs, ¬ Talks caps o' l fs) → Accepts caps o a) ∧
      (¬ (o.kind ∉ seen ∧ (∃ l fs, Talks caps o l fs) ∧
          ∀ (j : Nat) (o' : Media), j < i → os[j]? = some o' → o'.kind = o.kind → ∀ l fs, ¬ Talks caps o' l fs) → a = refused o) := by
  intro seen os as h
  induction h with
  | nil => intro i o a h; simp at h
  | @again seen o0 os as hk _ ih =>
    intro i o a h1 h2
    cases i with
    | zero =>
      simp only [List.getElem?_cons_zero, Option.some.injEq] at h1 h2
      subst h1 h2
      exact ⟨fun h => absurd hk h.1, fun _ => rfl⟩
    | succ i =>
      obtain ⟨p1, p2⟩ := ih i o a (by simpa using h1) (by simpa using h2)
      constructor
      · rintro ⟨q1, q2, q3⟩
        exact p1 ⟨q1, q2, fun j o' hj ho => q3 (j + 1) o' (by omega) (by simpa using ho)⟩
      · intro hn
        apply p2
        rintro ⟨q1, q2, q3⟩
        apply hn
        refine ⟨q1, q2, fun j o' hj ho hko => ?_⟩
        cases j with
        | zero =>
          simp only [List.getElem?_cons_zero, Option.some.injEq] at ho
          subst ho
          rw [hko] at hk
          exact absurd hk q1
        | succ j => exact q3 j o' (by omega) (by simpa using ho) hko
  | @accept seen o0 a0 os as hk ha _ ih =>
    intro i o a h1 h2
    have htalk : ∃ l fs, Talks caps o0 l fs := by
      obtain ⟨l, fs, _, _, _, _, _, ht, _⟩ := ha
      exact ⟨l, fs, ht⟩
    cases i with
    | zero =>
      simp only [List.getElem?_cons_zero, Option.some.injEq] at h1 h2
      subst h1 h2
      exact ⟨fun _ => ha, fun hn => absurd ⟨hk, htalk, fun j o' hj => by omega⟩ hn⟩
    | succ i =>
      obtain ⟨p1, p2⟩ := ih i o a (by simpa using h1) (by simpa using h2)
      constructor
      · rintro ⟨q1, q2, q3⟩
        refine p1 ⟨?_, q2, fun j o' hj ho => q3 (j + 1) o' (by omega) (by simpa using ho)⟩
        intro hm
        rcases List.mem_cons.mp hm with hm | hm
        · obtain ⟨l, fs, ht⟩ := htalk
          exact q3 0 o0 (by omega) (by simp) hm.symm l fs ht
        · exact q1 hm
      · intro hn
        apply p2
        rintro ⟨q1, q2, q3⟩
        apply hn
        refine ⟨fun hm => q1 (List.mem_cons_of_mem _ hm), q2, fun j o' hj ho hko => ?_⟩
        cases j with
        | zero =>
          simp only [List.getElem?_cons_zero, Option.some.injEq] at ho
          subst ho
          exact absurd (by rw [hko]; exact List.mem_cons_self) q1
        | succ j => exact q3 j o' (by omega) (by simpa using ho) hko
  | @refuse seen o0 os as hk hnt _ ih =>
    intro i o a h1 h2
    cases i with
    | zero =>
      simp only [List.getElem?_cons_zero, Option.some.injEq] at h1 h2
      subst h1 h2
      refine ⟨?_, fun _ => rfl⟩
      rintro ⟨_, ⟨l, fs, ht⟩, _⟩
      exact absurd ht (hnt l fs)
    | succ i =>
      obtain ⟨p1, p2⟩ := ih i o a (by simpa using h1) (by simpa using h2)
      constructor
      · rintro ⟨q1, q2, q3⟩
        exact p1 ⟨q1, q2, fun j o' hj ho => q3 (j + 1) o' (by omega) (by simpa using ho)⟩
      · intro hn
        apply p2
        rintro ⟨q1, q2, q3⟩
        apply hn
        refine ⟨q1, q2, fun j o' hj ho hko => ?_⟩
        cases j with
        | zero =>
          simp only [List.getElem?_cons_zero, Option.some.injEq] at ho
          subst ho
          exact hnt
        | succ j => exact q3 j o' (by omega) (by simpa using ho) hko

/-- **C63.** A stream is accepted if and only if the answerer has a codec in common and no stream of the same kind before it
was such; all others are refused (with port zero). -/
theorem C63_first (sessionId addr : Str) (offer caps ans : Session) (i : Nat) (o a : Media)
    (h : negotiateAnswer sessionId offer addr caps = .ok ans) (ho : offer.media[i]? = some o) (ha : ans.media[i]? = some a) :
    ((∃ l fs, Talks caps o l fs) ∧
        (∀ (j : Nat) (o' : Media), j < i → offer.media[j]? = some o' → o'.kind = o.kind → ∀ l fs, ¬ Talks caps o' l fs) → Accepts caps o a) ∧
    (¬ ((∃ l fs, Talks caps o l fs) ∧
        (∀ (j : Nat) (o' : Media), j < i → offer.media[j]? = some o' → o'.kind = o.kind → ∀ l fs, ¬ Talks caps o' l fs)) → a = refused o) := by
  obtain ⟨p1, p2⟩ := answers_first (C62_answer _ _ _ _ _ h).1 i o a ho ha
  exact ⟨fun h => p1 ⟨List.not_mem_nil, h⟩, fun h => p2 (fun h' => h h'.2)⟩

/-- **C63.** Of the streams of one kind at most one is answered with a port. -/
theorem C63_one (sessionId addr : Str) (offer caps ans : Session) (i j : Nat) (a b : Media)
    (h : negotiateAnswer sessionId offer addr caps = .ok ans) (ha : ans.media[i]? = some a) (hb : ans.media[j]? = some b)
    (hk : a.kind = b.kind) (hpa : a.port ≠ 0) (hpb : b.port ≠ 0) : i = j := by
  have key : ∀ (i j : Nat) (a b : Media), ans.media[i]? = some a → ans.media[j]? = some b → a.kind = b.kind → a.port ≠ 0 →
      b.port ≠ 0 → ¬ i < j := by
    intro i j a b ha hb hk hpa hpb hlt
    obtain ⟨hl, hm⟩ := C62_mirror _ _ _ _ _ h
    have hi : i < offer.media.length := by
      rw [← hl]
      exact (List.getElem?_eq_some_iff.mp ha).1
    have hj : j < offer.media.length := by
      rw [← hl]
      exact (List.getElem?_eq_some_iff.mp hb).1
    have hoi := List.getElem?_eq_getElem hi
    have hoj := List.getElem?_eq_getElem hj
    have hki := (hm i _ a hoi ha).1
    have hkj := (hm j _ b hoj hb).1
    obtain ⟨_, p2⟩ := C63_first _ _ _ _ _ i _ a h hoi ha
    obtain ⟨_, q2⟩ := C63_first _ _ _ _ _ j _ b h hoj hb
    have ti : ∃ l fs, Talks caps offer.media[i] l fs := by
      refine Classical.byContradiction fun hn => hpa ?_
      rw [p2 (fun h => hn h.1)]
      rfl
    refine hpb ?_
    rw [q2]
    · rfl
    · rintro ⟨_, h'⟩
      obtain ⟨l, fs, ht⟩ := ti
      exact h' i _ hlt hoi (by rw [← hki, hk, hkj]) l fs ht
  rcases Nat.lt_trichotomy i j with hlt | heq | hgt
  · exact absurd hlt (key i j a b ha hb hk hpa hpb)
  · exact heq
  · exact absurd hgt (key j i b a hb ha hk.symm hpb hpa)

example : exAnswer.media.map (fun m => (m.kind, m.port)) = [(.audio, 4000), (.video, 0), (.audio, 0)] := by decide +kernel

/-! ## C64 -/

/-- Who sends with a direction. -/
def Sends (d : Dir) : Prop := d = .sendrecv ∨ d = .sendonly
/-- Who receives with a direction. -/
def Receives (d : Dir) : Prop := d = .sendrecv ∨ d = .recvonly

instance (d : Dir) : Decidable (Sends d) := by unfold Sends; infer_instance
instance (d : Dir) : Decidable (Receives d) := by unfold Receives; infer_instance

theorem agreed_offerer {o l d : Dir} (h : Agreed o l d) : (Sends d → Receives o) ∧ (Receives d → Sends o) := by
  cases h <;> decide

theorem agreed_exact {o l d : Dir} (h : Agreed o l d) (hs : o = .sendrecv ∨ l = .sendrecv ∨ o = .inactive) :
    (Sends d ↔ Receives o ∧ Sends l) ∧ (Receives d ↔ Sends o ∧ Receives l) := by
  cases h <;> first | decide | (revert hs; decide)

/-- The direction written into a stream of an answer. -/
def Says (a : Media) (d : Dir) : Prop := ∃ as, a.attributes = as ++ [.property d.word]

theorem word_inj {d e : Dir} (h : d.word = e.word) : d = e := by
  revert h
  cases d <;> cases e <;> decide

theorem accepts_says {caps : Session} {o a : Media} (h : Accepts caps o a) : ∃ l od ld d, Capability caps o.kind l ∧
    Declares o.attributes od ∧ Declares l.attributes ld ∧ Agreed od ld d ∧ ∀ e, Says a e ↔ e = d := by
  obtain ⟨l, fs, od, ld, d, es, pl, ⟨hc, _⟩, h1, h2, h3, _, _, _, _, _, _, _, ha⟩ := h
  refine ⟨l, od, ld, d, hc, h1, h2, h3, ?_⟩
  intro e
  unfold Says
  rw [ha]
  simp only
  constructor
  · rintro ⟨as, he⟩
    have := (List.append_inj' he rfl).2
    simp only [List.cons.injEq, Attribute.property.injEq, and_true] at this
    exact (word_inj this).symm
  · rintro rfl
    exact ⟨_, rfl⟩

theorem declares_fun {as : List Attribute} {d e : Dir} (h1 : Declares as d) (h2 : Declares as e) : d = e := by
  rw [declares_iff] at h1 h2
  rw [← h1, ← h2]

/-- **C64.** The direction in an accepted stream never lets the answerer send what the offerer does not receive, nor expect
what the offerer does not send. -/
theorem C64_offerer (sessionId addr : Str) (offer caps ans : Session) (i : Nat) (o a : Media) (od d : Dir)
    (h : negotiateAnswer sessionId offer addr caps = .ok ans) (ho : offer.media[i]? = some o) (ha : ans.media[i]? = some a)
    (hod : Declares o.attributes od) (hd : Says a d) : (Sends d → Receives od) ∧ (Receives d → Sends od) := by
  obtain ⟨p1, p2⟩ := C63_first _ _ _ _ _ i o a h ho ha
  have hacc : Accepts caps o a := by
    refine Classical.byContradiction fun hn => ?_
    have hr := p2 (fun h => hn (p1 h))
    subst hr
    obtain ⟨as, he⟩ := hd
    simp [refused] at he
  obtain ⟨l, od', ld, d', hc, h1, h2, h3, h4⟩ := accepts_says hacc
  rw [(h4 d).mp hd, declares_fun hod h1]
  exact agreed_offerer h3

/-- **C64, partial.** If the offer or the answerer's description says `sendrecv`, or the offer says `inactive`, the answer
lets the answerer send exactly if it may and the offerer receives, and receive exactly if it may and the offerer sends.
Missing: that the answerer's own restriction holds if both sides restrict the direction (`C64_local_ignored`), and that there
is an answer for every pair of directions (`C64_no_answer`). -/
theorem C64_exact_partial (sessionId addr : Str) (offer caps ans : Session) (i : Nat) (o a l : Media) (od ld d : Dir)
    (h : negotiateAnswer sessionId offer addr caps = .ok ans) (ho : offer.media[i]? = some o) (ha : ans.media[i]? = some a)
    (hl : Capability caps o.kind l) (hod : Declares o.attributes od) (hld : Declares l.attributes ld) (hd : Says a d)
    (hs : od = .sendrecv ∨ ld = .sendrecv ∨ od = .inactive) :
    (Sends d ↔ Receives od ∧ Sends ld) ∧ (Receives d ↔ Sends od ∧ Receives ld) := by
  obtain ⟨p1, p2⟩ := C63_first _ _ _ _ _ i o a h ho ha
  have hacc : Accepts caps o a := by
    refine Classical.byContradiction fun hn => ?_
    have hr := p2 (fun h => hn (p1 h))
    subst hr
    obtain ⟨as, he⟩ := hd
    simp [refused] at he
  obtain ⟨l', od', ld', d', hc, h1, h2, h3, h4⟩ := accepts_says hacc
  have e1 : l' = l := by
    rw [capability_iff] at hc hl
    rw [hc] at hl
    cases hl; rfl
  subst e1
  have e2 := declares_fun hod h1
  have e3 := declares_fun hld h2
  have e4 := (h4 d).mp hd
  subst e2 e3 e4
  exact agreed_exact h3 hs

/-- The hypotheses are met: the offer of the examples says `sendonly`, the answerer nothing, and the answer `recvonly`. -/
example : (∃ o a l, exOffer.media[0]? = some o ∧ exAnswer.media[0]? = some a ∧ exCaps.findMedia o.kind = some l ∧
    dirOf o.attributes = .sendonly ∧ dirOf l.attributes = .sendrecv ∧ Says a .recvonly) :=
  ⟨_, _, _, rfl, rfl, rfl, by decide +kernel, by decide +kernel,
    [.value "rtpmap".toList "96 opus/48000/2".toList, .value "fmtp".toList "96 stereo=1".toList,
      .value "ptime".toList "20".toList], rfl⟩

/-- A description with one audio stream of the given direction, for the findings. -/
def audioDir (port : Nat) (d : Dir) : Session :=
  { exCaps with media := [{ kind := .audio, port := port, formats := ["0".toList], attributes := [.property d.word] }] }

/-- **C64, finding.** If both sides only send, the answer says `recvonly`: the answerer promises to receive although its
description forbids it; and the mirror case. -/
theorem C64_local_ignored :
    (negotiateAnswer "7".toList (audioDir 9 .sendonly) "192.0.2.2".toList (audioDir 4000 .sendonly)).toOption.map
      (fun s => s.media.map (·.attributes)) = some [[.property "recvonly".toList]] ∧
    (negotiateAnswer "7".toList (audioDir 9 .recvonly) "192.0.2.2".toList (audioDir 4000 .recvonly)).toOption.map
      (fun s => s.media.map (·.attributes)) = some [[.property "sendonly".toList]] := by
  constructor <;> decide +kernel

/-- **C64, finding.** These pairs of directions have no answer, although RFC 3264 allows one for every pair: the whole
negotiation fails. Among them is the plain call: one side sends only and the other receives only. -/
theorem C64_no_answer (o l : Dir) :
    (∃ ans, negotiateAnswer "7".toList (audioDir 9 o) "192.0.2.2".toList (audioDir 4000 l) = .ok ans) ↔
      (o, l) ∉ [(Dir.sendonly, Dir.recvonly), (.recvonly, .sendonly), (.inactive, .sendrecv), (.inactive, .sendonly),
        (.inactive, .recvonly), (.sendrecv, .inactive), (.sendonly, .inactive), (.recvonly, .inactive)] := by
  have key : ∀ o l, (negotiateAnswer "7".toList (audioDir 9 o) "192.0.2.2".toList (audioDir 4000 l)).toBool =
      decide ((o, l) ∉ [(Dir.sendonly, Dir.recvonly), (.recvonly, .sendonly), (.inactive, .sendrecv), (.inactive, .sendonly),
        (.inactive, .recvonly), (.sendrecv, .inactive), (.sendonly, .inactive), (.recvonly, .inactive)]) := by
    intro o l
    cases o <;> cases l <;> decide +kernel
  have h := key o l
  cases hn : negotiateAnswer "7".toList (audioDir 9 o) "192.0.2.2".toList (audioDir 4000 l) with
  | ok ans =>
    rw [hn] at h
    exact ⟨fun _ => of_decide_eq_true h.symm, fun _ => ⟨ans, rfl⟩⟩
  | error e =>
    rw [hn] at h
    exact ⟨fun ⟨_, h'⟩ => (by cases h'), fun h' => absurd h' (of_decide_eq_false h.symm)⟩

/-- **C64.** In general: a stream that could be talked about, whose directions have no agreed direction, and that is not
refused because of an earlier one, leaves the whole offer without an answer. -/
theorem C64_fails (sessionId addr : Str) (offer caps : Session) (i : Nat) (o l : Media) (od ld : Dir)
    (ho : offer.media[i]? = some o) (hl : Capability caps o.kind l) (ht : ∃ fs, Talks caps o l fs)
    (hfirst : ∀ (j : Nat) (o' : Media), j < i → offer.media[j]? = some o' → o'.kind = o.kind → ∀ l fs, ¬ Talks caps o' l fs)
    (hod : Declares o.attributes od) (hld : Declares l.attributes ld) (hno : ∀ d, ¬ Agreed od ld d) :
    ∀ ans, negotiateAnswer sessionId offer addr caps ≠ .ok ans := by
  intro ans h
  obtain ⟨hlen, _⟩ := C62_mirror _ _ _ _ _ h
  have hi : i < ans.media.length := by
    rw [hlen]
    exact (List.getElem?_eq_some_iff.mp ho).1
  obtain ⟨fs, ht⟩ := ht
  have hacc := (C63_first _ _ _ _ _ i o _ h ho (List.getElem?_eq_getElem hi)).1 ⟨⟨l, fs, ht⟩, hfirst⟩
  obtain ⟨l', od', ld', d', hc, h1, h2, h3, _⟩ := accepts_says hacc
  have e1 : l' = l := by
    rw [capability_iff] at hc hl
    rw [hc] at hl
    cases hl; rfl
  subst e1
  rw [← declares_fun hod h1, ← declares_fun hld h2] at h3
  exact hno _ h3

/-- **C64, finding.** Directions at the level of the session are not looked at: only the offered streams matter. -/
theorem C64_session_ignored (sessionId addr : Str) (offer offer' caps : Session) (h : offer.media = offer'.media) :
    negotiateAnswer sessionId offer addr caps = negotiateAnswer sessionId offer' addr caps := by
  unfold negotiateAnswer
  rw [h]

end Siphon.Sdp
