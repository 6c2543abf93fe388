import Verif.Core.UriTextTel
import Verif.Core.UriProps
/-!
# C140: a URI without its headers

What `without_uri_headers` is for: a URI from outside must not bring header fields into a request.
-/
namespace Siphon.UriText
open Siphon.TextSpec Siphon.HdrSpec Siphon.UriP Siphon.UriSpec

theorem no_question {u : SipUri} (hs : Sound u) : '?' ∉ { u with headers := [] }.buildRaw := by
  rw [buildRaw_eq]
  simp only [renderUriHeaders, List.append_nil]
  intro hm
  have e1 : ∀ c ∈ (if u.sips then "sips".toList else "sip".toList), c ≠ '?' := by
    cases u.sips <;> decide
  rcases List.mem_append.mp hm with h | h
  · exact e1 _ h rfl
  · rcases List.mem_cons.mp h with h | h
    · exact absurd h (by decide)
    · have hp : '?' ∉ renderParams u.params := by
        rw [renderParams_eq]
        intro h
        obtain ⟨e, he, h⟩ := List.mem_flatMap.mp h
        rcases List.mem_cons.mp h with h | h
        · exact absurd h (by decide)
        · have hg := hs.params e he
          exact not_mem_paramText hg '?' (by decide) (by decide) (fun v hv => (hg.2.2 v hv).2.2.2) h
      have hh : '?' ∉ renderHost u.host ++ portText u.port :=
        bracket_not_mem hs.host '?' (by decide) (by decide) (by decide) (by decide)
      have hu : ∀ x, u.user = some x → '?' ∉ x := fun x hx => user_not_mem (hs.user x hx) '?' (by decide)
      have hut : '?' ∉ userText u.user := by
        cases hx : u.user with
        | none => simp [userText]
        | some x => simp [userText, hu x hx]
      rcases List.mem_append.mp h with h | h
      · rw [List.append_assoc] at h
        rcases List.mem_append.mp h with h | h
        · exact hut h
        · exact hh h
      · exact hp h

/-- Without a question mark a text has no headers. -/
theorem headers_nil {t : Str} {w : SipUri} (hq : '?' ∉ t) (h : SipUri.parse t = some w) : w.headers = [] := by
  obtain ⟨_, _, _, scheme, addr, query, base, ps, hp, host, d, ht, _, _, _, _, hh, _⟩ := (C130_sip _ _).mp h
  rcases hh with ⟨_, h⟩ | ⟨h, hs, he, _⟩
  · exact h
  · exfalso
    apply hq
    rw [ht, he]
    simp

/-- **C140**: a URI from outside loses its headers and nothing else.  A SIP URI keeps its scheme, user, host, port and parameters; if it
had headers, its new text has no question mark, otherwise its text stays what it was; and whoever reads the text again, finds no headers in
it.  Other URIs are left as they are. -/
theorem C140_without_headers {t : Str} {x : Uri} (hx : Uri.parse t = some x) :
    (∀ u, x = .sip u → ∃ v, x.withoutUriHeaders = .sip v ∧ Effect u .noHeaders v ∧
      (u.headers ≠ [] → '?' ∉ v.raw) ∧ (u.headers = [] → v.raw = t) ∧
      ∀ w, SipUri.parse v.raw = some w → w.headers = []) ∧
    ((∀ u, x ≠ .sip u) → x.withoutUriHeaders = x) := by
  constructor
  · rintro u rfl
    have hu : SipUri.parse t = some u := (C130_sip _ _).mpr (by
      have := (C130_uri _ _).mp hx
      exact this.2.2)
    obtain ⟨hs, hr⟩ := parse_sound hu
    refine ⟨u.withoutUriHeaders, rfl, edit_effect hs.paramsSorted rfl, ?_, ?_, ?_⟩
    · intro hne
      unfold SipUri.withoutUriHeaders
      rw [if_neg (by simpa using hne)]
      exact no_question hs
    · intro he
      unfold SipUri.withoutUriHeaders
      rw [if_pos (by simpa using he), hr]
    · intro w hw
      unfold SipUri.withoutUriHeaders at hw
      split at hw
      · rename_i he
        rw [hr, hu] at hw
        cases hw
        simpa using he
      · exact headers_nil (no_question hs) hw
  · intro hn
    cases x with
    | sip u => exact absurd rfl (hn u)
    | tel u => rfl
    | absolute s => rfl

/-- A URI that tries to bring a Route into the request, and one of another scheme. -/
example : (Uri.parse "sip:a@h:5070;lr?Route=%3Csip:evil%3E&Subject=x".toList).map (fun x => x.withoutUriHeaders.asStr) =
      some "sip:a@h:5070;lr".toList ∧
    (Uri.parse "mailto:a@h?subject=x".toList).map Uri.withoutUriHeaders = some (.absolute "mailto:a@h?subject=x".toList) := by
  constructor <;> decide +kernel

/-- **C140** fails: written with the scheme in upper case a URI keeps its headers, since `Uri::parse` does not take it for a SIP URI; read
as one, as RFC 3261 asks, it still has them. -/
theorem C140_upper_case_keeps_headers : ∃ x w, Uri.parse "SIP:a@h?Route=evil".toList = some x ∧
    x.withoutUriHeaders.asStr = "SIP:a@h?Route=evil".toList ∧
    SipUri.parse x.withoutUriHeaders.asStr = some w ∧ w.host = "h".toList ∧ w.headers = [("route".toList, "evil".toList)] := by
  refine ⟨.absolute "SIP:a@h?Route=evil".toList,
    { raw := "SIP:a@h?Route=evil".toList, sips := false, user := some "a".toList, host := "h".toList, port := none, params := [],
      headers := [("route".toList, "evil".toList)] }, ?_, rfl, ?_, rfl, rfl⟩ <;> decide +kernel

end Siphon.UriText
