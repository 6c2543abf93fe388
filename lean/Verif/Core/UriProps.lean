import Verif.Core.UriRoundtrip
set_option linter.unusedSimpArgs false
/-!
# C69: a rebuilt URI reads back

`UriSpec.Effect` says what each builder call is for, `UriSpec.Plain` which arguments are written as they
are meant.
-/
namespace Siphon.UriP
open Siphon.UriSpec

theorem mem_insert_iff {β : Type} {k : Str} {v : β} : ∀ {m : BMap β}, Sorted m → ∀ x y,
    (x, y) ∈ m.insert k v ↔ (x = k ∧ y = v) ∨ (x ≠ k ∧ (x, y) ∈ m)
  | [], _, x, y => by
    simp only [BMap.insert, List.mem_singleton, Prod.mk.injEq, List.not_mem_nil, and_false, or_false]
  | (k', v') :: t, hs, x, y => by
    have hk := (List.pairwise_cons.mp hs).1
    have ht := (List.pairwise_cons.mp hs).2
    simp only [BMap.insert]
    split
    · rename_i heq
      have hne : ∀ e ∈ t, e.1 ≠ k := by
        intro e he hek
        have := hk e he
        have h2 : strLt k' e.1 = true := this
        rw [hek, heq, strLt_irrefl] at h2; cases h2
      simp only [List.mem_cons, Prod.mk.injEq]
      constructor
      · rintro (h | h)
        · exact Or.inl h
        · exact Or.inr ⟨hne _ h, Or.inr h⟩
      · rintro (h | ⟨h1, h2 | h2⟩)
        · exact Or.inl h
        · exact absurd (h2.1.trans heq.symm) h1
        · exact Or.inr h2
    · rename_i hnk
      split
      · rename_i hlt
        have hne : ∀ e ∈ ((k', v') :: t : BMap β), e.1 ≠ k := by
          intro e he hek
          rcases List.mem_cons.mp he with rfl | he
          · exact hnk (Eq.symm hek)
          · have h2 := strLt_trans _ _ _ hlt (hk e he)
            rw [hek, strLt_irrefl] at h2; cases h2
        simp only [List.mem_cons (a := (x, y)) (b := (k, v)), Prod.mk.injEq]
        constructor
        · rintro (h | h)
          · exact Or.inl h
          · exact Or.inr ⟨hne _ h, h⟩
        · rintro (h | h)
          · exact Or.inl h
          · exact Or.inr h.2
      · have ih := mem_insert_iff (k := k) (v := v) ht x y
        simp only [List.mem_cons, Prod.mk.injEq]
        rw [ih]
        constructor
        · rintro (h | h | h)
          · exact Or.inr ⟨fun e => hnk (e.symm.trans h.1), Or.inl h⟩
          · exact Or.inl h
          · exact Or.inr ⟨h.1, Or.inr h.2⟩
        · rintro (h | ⟨h1, h2 | h2⟩)
          · exact Or.inr (Or.inl h)
          · exact Or.inl h2
          · exact Or.inr (Or.inr ⟨h1, h2⟩)

theorem edit_effect {u v : SipUri} {e : UriEdit} (hs : Sorted u.params) (h : u.edit e = some v) :
    Effect u e v := by
  cases e with
  | host x =>
    simp only [SipUri.edit, SipUri.withHost] at h
    split at h
    · cases h; exact ⟨rfl, rfl, rfl, rfl, rfl, rfl⟩
    · cases h
  | noPort =>
    simp only [SipUri.edit, Option.some.injEq] at h
    subst h; exact ⟨rfl, rfl, rfl, rfl, rfl, rfl⟩
  | user x =>
    simp only [SipUri.edit, SipUri.withUser] at h
    split at h
    · cases h; exact ⟨rfl, rfl, rfl, rfl, rfl, rfl⟩
    · cases h
  | port p =>
    simp only [SipUri.edit, SipUri.withPort] at h
    split at h
    · cases h
    · cases h; exact ⟨rfl, rfl, rfl, rfl, rfl, rfl⟩
  | noHeaders =>
    simp only [SipUri.edit, Option.some.injEq, SipUri.withoutUriHeaders] at h
    subst h
    split
    · rename_i hh; exact ⟨rfl, rfl, rfl, rfl, List.isEmpty_iff.mp hh, rfl⟩
    · exact ⟨rfl, rfl, rfl, rfl, rfl, rfl⟩
  | param n x =>
    simp only [SipUri.edit, SipUri.withParam] at h
    split at h
    · cases h
    · split at h
      · cases h
      · cases x with
        | none => cases h; exact ⟨rfl, rfl, rfl, rfl, rfl, fun k y => mem_insert_iff hs k y⟩
        | some x =>
          simp only at h
          split at h
          · cases h; exact ⟨rfl, rfl, rfl, rfl, rfl, fun k y => mem_insert_iff hs k y⟩
          · cases h

theorem lower_of_no_upper : ∀ {h : Str}, (∀ c ∈ h, ¬ (65 ≤ c.toNat ∧ c.toNat ≤ 90)) → lower h = h
  | [], _ => rfl
  | c :: t, h => by
    have h1 := h c (by simp)
    show c.toLower :: lower t = c :: t
    rw [lower_of_no_upper (fun x hx => h x (by simp [hx]))]
    have : c.toLower = c := by
      apply char_ext_toNat
      rw [toLower_toNat, if_neg h1]
    rw [this]

/-- the text is the one that was parsed, or a rebuilt one -/
def TextOk (u : SipUri) : Prop := SipUri.parse u.raw = some u ∨ u.raw = u.buildRaw

theorem edit_keeps {u v : SipUri} {e : UriEdit} (hs : Sound u) (hu : ∀ x, u.user = some x → PlainUser x)
    (ht : TextOk u) (he : Plain e) (h : u.edit e = some v) :
    Sound v ∧ (∀ x, v.user = some x → PlainUser x) ∧ TextOk v := by
  have rb : ∀ w : SipUri, w.rebuilt.raw = w.rebuilt.buildRaw := fun w => rfl
  cases e with
  | host x =>
    simp only [SipUri.edit, SipUri.withHost] at h
    split at h
    · rename_i hv
      cases h
      exact ⟨⟨hs.user, hv, lower_of_no_upper he, hs.port, hs.params, hs.paramsSorted, hs.paramsFew, hs.headers,
        hs.headersSorted, hs.headersFew⟩, hu, Or.inr (rb _)⟩
    · cases h
  | noPort =>
    simp only [SipUri.edit, Option.some.injEq] at h
    subst h
    exact ⟨⟨hs.user, hs.host, hs.hostLower, fun p hp => (by cases hp), hs.params, hs.paramsSorted, hs.paramsFew,
      hs.headers, hs.headersSorted, hs.headersFew⟩, hu, Or.inr (rb _)⟩
  | user x =>
    simp only [SipUri.edit, SipUri.withUser] at h
    split at h
    · rename_i hv
      cases h
      exact ⟨⟨fun y hy => (by cases hy; exact hv), hs.host, hs.hostLower, hs.port, hs.params, hs.paramsSorted,
        hs.paramsFew, hs.headers, hs.headersSorted, hs.headersFew⟩, fun y hy => (by cases hy; exact he), Or.inr (rb _)⟩
    · cases h
  | port p =>
    simp only [SipUri.edit, SipUri.withPort] at h
    split at h
    · cases h
    · rename_i hp
      cases h
      exact ⟨⟨hs.user, hs.host, hs.hostLower, fun q hq => (by cases hq; exact ⟨Nat.pos_of_ne_zero hp, he⟩), hs.params,
        hs.paramsSorted, hs.paramsFew, hs.headers, hs.headersSorted, hs.headersFew⟩, hu, Or.inr (rb _)⟩
  | noHeaders =>
    simp only [SipUri.edit, Option.some.injEq, SipUri.withoutUriHeaders] at h
    subst h
    split
    · exact ⟨hs, hu, ht⟩
    · exact ⟨⟨hs.user, hs.host, hs.hostLower, hs.port, hs.params, hs.paramsSorted, hs.paramsFew,
        fun e he => absurd he List.not_mem_nil, List.Pairwise.nil, Nat.zero_le _⟩, hu, Or.inr (rb _)⟩
  | param n x =>
    simp only [SipUri.edit, SipUri.withParam] at h
    split at h
    · cases h
    · rename_i hlen
      split at h
      · cases h
      · rename_i hn
        have hn : validUriParamName n = true := by simpa using hn
        have key : ∀ y : Option Str, (∀ v, y = some v → validUriParamValue v = true ∧ Trimmed v ∧ ';' ∉ v ∧ '?' ∉ v) →
            Sound { u with params := u.params.insert (lower n) y }.rebuilt := by
          intro y hy
          refine ⟨hs.user, hs.host, hs.hostLower, hs.port, ?_, sorted_insert _ _ hs.paramsSorted, ?_, hs.headers,
            hs.headersSorted, hs.headersFew⟩
          · intro e he
            rcases mem_insert he with rfl | he
            · exact ⟨validName_lower hn, lower_lower n, hy⟩
            · exact hs.params e he
          · have := length_insert u.params (lower n) y
            show (u.params.insert (lower n) y).length ≤ MAX_URI_PARAMS
            omega
        cases x with
        | none => cases h; exact ⟨key none (by simp), hu, Or.inr (rb _)⟩
        | some x =>
          simp only at h
          split at h
          · rename_i hv
            cases h
            exact ⟨key (some x) (fun v e => by cases e; exact ⟨hv, he.1, he.2.1, he.2.2⟩), hu, Or.inr (rb _)⟩
          · cases h

theorem edits_keep : ∀ {es : List UriEdit} {u v : SipUri}, Sound u → (∀ x, u.user = some x → PlainUser x) →
    TextOk u → (∀ e ∈ es, Plain e) → u.edits es = some v →
    Sound v ∧ (∀ x, v.user = some x → PlainUser x) ∧ TextOk v
  | [], u, v, hs, hu, ht, _, h => by
    simp only [SipUri.edits, Option.some.injEq] at h
    subst h; exact ⟨hs, hu, ht⟩
  | e :: es, u, v, hs, hu, ht, he, h => by
    simp only [SipUri.edits, Option.bind_eq_some_iff] at h
    obtain ⟨w, h1, h2⟩ := h
    obtain ⟨a, b, c⟩ := edit_keeps hs hu ht (he e (by simp)) h1
    exact edits_keep a b c (fun x hx => he x (by simp [hx])) h2

theorem edits_sorted : ∀ {es : List UriEdit} {u v : SipUri}, Sorted u.params → u.edits es = some v → Sorted v.params
  | [], u, v, hs, h => by
    simp only [SipUri.edits, Option.some.injEq] at h
    subst h; exact hs
  | e :: es, u, v, hs, h => by
    simp only [SipUri.edits, Option.bind_eq_some_iff] at h
    obtain ⟨w, h1, h2⟩ := h
    refine edits_sorted ?_ h2
    cases e with
    | param n x =>
      simp only [SipUri.edit, SipUri.withParam] at h1
      split at h1
      · cases h1
      · split at h1
        · cases h1
        · cases x with
          | none => cases h1; exact sorted_insert _ _ hs
          | some x =>
            simp only at h1
            split at h1
            · cases h1; exact sorted_insert _ _ hs
            · cases h1
    | _ => have := (edit_effect hs h1).2.2.2.2.2; simp only at this; rw [this]; exact hs

/-! ## The theorems -/

/-- **C69**, effect: after any sequence of successful calls, one more successful call changes the
component it names and nothing else. -/
theorem C69_effect {text : Str} {u v w : SipUri} {es : List UriEdit} {e : UriEdit}
    (hp : SipUri.parse text = some u) (hv : u.edits es = some v) (hw : v.edit e = some w) : Effect v e w :=
  edit_effect (edits_sorted (parse_sound hp).1.paramsSorted hv) hw

/-- **C69** (partial): a URI that was read from a text and modified by any sequence of calls whose
arguments are plain has a text that reads back as exactly that URI, provided its user part is plain and
the text is not longer than the reader accepts.

Missing from the full property: users containing a percent sign after decoding, parameter values
containing `;` or `?`, upper case hosts, and texts longer than 2048 bytes; the theorems below show that
the property fails for each of them. -/
theorem C69_reparse_partial {text : Str} {u v : SipUri} {es : List UriEdit}
    (hp : SipUri.parse text = some u) (hu : ∀ x, u.user = some x → PlainUser x)
    (hes : ∀ e ∈ es, Plain e) (hv : u.edits es = some v) (hlen : utf8Len v.raw ≤ 2048) :
    SipUri.parse v.raw = some v := by
  obtain ⟨hs, hr⟩ := parse_sound hp
  have ht : TextOk u := Or.inl (by rw [hr]; exact hp)
  obtain ⟨hs', hu', ht'⟩ := edits_keep hs hu ht hes hv
  rcases ht' with h | h
  · exact h
  · have := reparse hs' hu' (by rw [← h]; exact hlen)
    rw [← h] at this
    exact this

/-- Non-vacuity: a text with user, port, parameters and headers, and three modifications. -/
example : ∃ u v, SipUri.parse "SIP:Bob@EXAMPLE.com:5070;Transport=tcp;lr?Subject=x".toList = some u
    ∧ (∀ x, u.user = some x → PlainUser x)
    ∧ u.edits [.host "2001:db8::1".toList, .port 5061, .param "maddr".toList (some "h".toList), .noHeaders] = some v
    ∧ v.raw = "sip:Bob@[2001:db8::1]:5061;lr;maddr=h;transport=tcp".toList := by
  refine ⟨_, _, rfl, ?_, rfl, ?_⟩
  · intro x hx
    have : x = "Bob".toList := by
      have h : some "Bob".toList = some x := hx
      exact (Option.some.inj h).symm
    subst this
    exact ⟨trimmed_of_all _ (by decide), by decide⟩
  · decide +kernel

/-! ## Where the full property fails -/

/-- what the text of a modified URI reads as -/
def again (text : String) (e : UriEdit) : Option (Option SipUri × SipUri) :=
  match SipUri.parse text.toList with
  | some u => match u.edit e with | some v => some (SipUri.parse v.raw, v) | none => none
  | none => none

/-- **C69** fails: the user part is written without escaping it again, so a user that contains an escaped
percent sign reads back as another user. -/
theorem C69_user_not_escaped :
    (match again "sip:a%2541b@h" .noPort with
      | some (some w, v) => v.user == some "a%41b".toList && w.user == some "aAb".toList
      | _ => false) = true := by decide +kernel

/-- **C69** fails: ... or as no URI at all. -/
theorem C69_user_unreadable :
    (match again "sip:a%2540b@h" .noPort with
      | some (none, v) => v.user == some "a%40b".toList
      | _ => false) = true := by decide +kernel

/-- **C69** fails: a parameter value with a semicolon is accepted, and the text then has two parameters. -/
theorem C69_param_injection :
    (match again "sip:a@h" (.param "x".toList (some "1;maddr=evil".toList)) with
      | some (some w, v) => v.params == [("x".toList, some "1;maddr=evil".toList)]
          && w.params == [("maddr".toList, some "evil".toList), ("x".toList, some "1".toList)]
      | _ => false) = true := by decide +kernel

/-- **C69** fails: `with_host` keeps the case of the host, reading does not. -/
theorem C69_host_case :
    (match again "sip:a@h" (.host "Example.COM".toList) with
      | some (some w, v) => v.host == "Example.COM".toList && w.host == "example.com".toList
      | _ => false) = true := by decide +kernel

/-- **C69** fails: the text can grow past what the reader accepts.  (Any URI whose text becomes longer
than 2048 bytes.) -/
theorem C69_too_long {v : SipUri} (h : 2048 < utf8Len v.raw) : SipUri.parse v.raw = none := by
  have h : utf8Len v.raw > MAX_URI_LENGTH := h
  unfold SipUri.parse
  rw [if_pos h]
  split <;> rfl

/-- A URI whose header part has no header keeps its question mark when the headers are removed. -/
theorem C69_empty_headers_stay :
    (match again "sip:a@h?x" .noHeaders with
      | some (some _, v) => v.raw == "sip:a@h?x".toList
      | _ => false) = true := by decide +kernel

/-- A URI made from an IPv6 address without going through the reader has a text that cannot be read. -/
theorem C69_new_ipv6 :
    (match SipUri.new "2001:db8::1".toList with
      | some u => u.raw == "sip:2001:db8::1".toList && (SipUri.parse u.raw).isNone
      | none => false) = true := by decide +kernel

end Siphon.UriP
