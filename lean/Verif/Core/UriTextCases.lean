import Verif.Core.UriTextTel
/-!
# C130: cases

Texts that meet the hypotheses of `Core/UriTextProps.lean` and `Core/UriTextTel.lean`, and texts whose reading differs from RFC 3261.
-/
namespace Siphon.UriText
open Siphon.TextSpec Siphon.HdrSpec Siphon.UriP

/-- An ordinary URI: every part of it. -/
example : SipUriText "sips:al%69ce@Example.COM:5061;Transport=tcp;lr?Subject=x&y".toList
    { raw := "sips:al%69ce@Example.COM:5061;Transport=tcp;lr?Subject=x&y".toList, sips := true, user := some "alice".toList,
      host := "example.com".toList, port := some 5061,
      params := [("lr".toList, none), ("transport".toList, some "tcp".toList)], headers := [("subject".toList, "x".toList)] } :=
  (C130_sip _ _).mp (by decide +kernel)

/-- An IPv6 host with a port. -/
example : SipUriText "sip:[2001:db8::1.2.3.4]:5060".toList
    { raw := "sip:[2001:db8::1.2.3.4]:5060".toList, sips := false, user := none, host := "2001:db8::1.2.3.4".toList,
      port := some 5060, params := [], headers := [] } :=
  (C130_sip _ _).mp (by decide +kernel)

/-- Texts that are not SIP URIs. -/
example : ∀ u, ¬ SipUriText "sip:[1:2:3:4:5:6:7:8:9]".toList u ∧ ¬ SipUriText "sip:host:99999".toList u ∧
    ¬ SipUriText "sip:a%40b@host".toList u := by
  intro u
  refine ⟨?_, ?_, ?_⟩ <;> rw [← C130_sip]
  · rw [show SipUri.parse "sip:[1:2:3:4:5:6:7:8:9]".toList = none by decide +kernel]; exact fun h => by cases h
  · rw [show SipUri.parse "sip:host:99999".toList = none by decide +kernel]; exact fun h => by cases h
  · rw [show SipUri.parse "sip:a%40b@host".toList = none by decide +kernel]; exact fun h => by cases h

/-- A global and a local number. -/
example : TelUriText "tel:+1-(555) 123;ext=7".toList
      { raw := "tel:+1-(555) 123;ext=7".toList, number := "+1555123".toList, isGlobal := true, phoneContext := none,
        parameters := [("ext".toList, some "7".toList)] } ∧
    TelUriText "tel:7042;phone-context=example.com".toList
      { raw := "tel:7042;phone-context=example.com".toList, number := "7042".toList, isGlobal := false,
        phoneContext := some "example.com".toList, parameters := [("phone-context".toList, some "example.com".toList)] } :=
  ⟨(C130_tel _ _).mp (by decide +kernel), (C130_tel _ _).mp (by decide +kernel)⟩

/-- Each kind of URI. -/
example : UriText "mailto:bob@example.com".toList (.absolute "mailto:bob@example.com".toList) :=
  (C130_uri _ _).mp (by decide +kernel)

/-- RFC 3261 allows `;` and `?` in a user part.  Here what precedes the first of them is taken for the whole address: an `@` after it is
not looked for, and there is no user. -/
theorem C130_user_cut {a r : Str} {c : Char} {u : SipUri} (hc : c = ';' ∨ c = '?') (ha : ∀ x ∈ a, x ≠ '@' ∧ x ≠ ';' ∧ x ≠ '?')
    (h : SipUri.parse ("sip:".toList ++ (a ++ c :: r)) = some u) : u.user = none := by
  obtain ⟨_, _, _, scheme, addr, query, base, ps, hp, host, d, ht, hs, hq, hps, _, _, hua, _⟩ := (C130_sip _ _).mp h
  have hsc : scheme = "sip".toList ∧ a ++ c :: r = addr ++ query := by
    have e : "sip".toList ++ ':' :: (a ++ c :: r) = scheme ++ ':' :: (addr ++ query) := by
      rw [← ht]; rfl
    have hnc : ':' ∉ scheme := by
      intro hm
      rcases hs with ⟨hs, _⟩ | ⟨hs, _⟩
      · have := (sameName_iff _ _).mp hs
        unfold eqIgnoreCase at this
        rw [beq_iff_eq] at this
        have h1 : (':' : Char) ∈ lower scheme := List.mem_map.mpr ⟨':', hm, by decide⟩
        rw [this] at h1
        revert h1
        decide
      · have := (sameName_iff _ _).mp hs
        unfold eqIgnoreCase at this
        rw [beq_iff_eq] at this
        have h1 : (':' : Char) ∈ lower scheme := List.mem_map.mpr ⟨':', hm, by decide⟩
        rw [this] at h1
        revert h1
        decide
    have h1 := (Auth.splitOnce_some_iff ':' _ "sip".toList (a ++ c :: r)).mpr ⟨rfl, by decide⟩
    have h2 := (Auth.splitOnce_some_iff ':' _ scheme (addr ++ query)).mpr ⟨rfl, hnc⟩
    rw [e, h2] at h1
    simp only [Option.some.injEq, Prod.mk.injEq] at h1
    exact ⟨h1.1, h1.2.symm⟩
  -- the base consists of characters of `a`
  have hbase : ∀ x ∈ base, x ≠ '@' := by
    have hb : addr = base ∨ ∃ t, addr = base ++ ';' :: t := by
      obtain ⟨_, e, _⟩ := hps
      cases ps with
      | nil => exact Or.inl e
      | cons p ps => exact Or.inr ⟨_, e⟩
    have hb2 : ';' ∉ base := hps.2.2 base (by simp)
    have hb3 : '?' ∉ base := by
      intro hm
      apply hq
      rcases hb with e | ⟨t, e⟩
      · rw [e]; exact hm
      · rw [e]; simp [hm]
    have hpre : ∃ t, a ++ c :: r = base ++ t := by
      rcases hb with e | ⟨t, e⟩
      · exact ⟨query, by rw [hsc.2, e]⟩
      · exact ⟨';' :: t ++ query, by rw [hsc.2, e]; simp⟩
    obtain ⟨t, e⟩ := hpre
    rcases List.append_eq_append_iff.mp e with ⟨z, hz1, hz2⟩ | ⟨z, hz1, _⟩
    · cases z with
      | nil =>
        rw [List.append_nil] at hz1
        intro x hx
        rw [hz1] at hx
        exact (ha x hx).1
      | cons y z =>
        rw [List.cons_append] at hz2
        have hy : c = y := (List.cons.inj hz2).1
        exfalso
        rcases hc with rfl | rfl
        · exact hb2 (by rw [hz1, ← hy]; simp)
        · exact hb3 (by rw [hz1, ← hy]; simp)
    · intro x hx
      exact (ha x (by rw [hz1]; simp [hx])).1
  rcases hua with ⟨a', _, b, _, h1, _⟩ | ⟨h1, _⟩
  · obtain ⟨x, y, e, _⟩ := h1
    exact absurd rfl (hbase '@' (by rw [e]; simp))
  · exact h1

/-- The example of RFC 3261 section 19.1.3: the host is `alice`. -/
theorem C130_rfc_example : ∃ u, SipUri.parse "sip:alice;day=tuesday@atlanta.com".toList = some u ∧ u.user = none ∧
    u.host = "alice".toList ∧ u.params = [("day".toList, some "tuesday@atlanta.com".toList)] := by
  refine ⟨_, (by decide +kernel : SipUri.parse "sip:alice;day=tuesday@atlanta.com".toList =
    some { raw := "sip:alice;day=tuesday@atlanta.com".toList, sips := false, user := none, host := "alice".toList, port := none,
           params := [("day".toList, some "tuesday@atlanta.com".toList)], headers := [] }), rfl, rfl, rfl⟩

/-- What follows the bracket of an IPv6 host is not read unless it begins with a colon. -/
theorem C130_after_bracket (h r' : Str) (hr : r'.head? ≠ some ':')
    (hh : ']' ∉ h) : HostPort ('[' :: (h ++ ']' :: r')) h none ∧
    (SipUri.parse "sip:[::1].example.com".toList).map (·.host) = some "::1".toList :=
  ⟨.bracketed hh hr, by decide +kernel⟩

/-- A parameter that is given twice is accepted, and so is a header without a value, which is dropped. -/
theorem C130_repeated : (SipUri.parse "sip:a;x=1;X=2?Subject&b=c".toList).map (fun u => (u.params, u.headers)) =
    some ([("x".toList, some "2".toList)], [("b".toList, "c".toList)]) := by decide +kernel

/-- The scheme of a SIP URI is read in any case by `SipUri::parse`, in lower case only by `Uri::parse`. -/
theorem C130_scheme_case (t : Str) : (∃ u, SipUri.parse "SIP:a".toList = some u) ∧
    Uri.parse "SIP:a".toList = some (.absolute "SIP:a".toList) ∧
    (∀ u, Uri.parse t = some (.sip u) → "sip:".toList <+: t ∨ "sips:".toList <+: t) := by
  refine ⟨⟨_, (by decide +kernel : SipUri.parse "SIP:a".toList =
    some { raw := "SIP:a".toList, sips := false, user := none, host := "a".toList, port := none, params := [], headers := [] })⟩,
    by decide +kernel, ?_⟩
  intro u h
  exact ((C130_uri _ _).mp h).2.1

end Siphon.UriText
