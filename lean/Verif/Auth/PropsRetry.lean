import Verif.Auth.PropsClient
import Verif.Auth.RetrySpec
import Verif.Base.TextLemmas
set_option linter.unusedSimpArgs false
/-!
# C68: an authenticated retry is the same request
-/
namespace Siphon.Auth
open Spec HdrSpec TextSpec RetrySpec

theorem isPrefix_lower (k t : Str) (hl : lower k = k) :
    k.isPrefixOf (lower t) = true ↔ ∃ n v, t = n ++ v ∧ SameName n k := by
  rw [List.isPrefixOf_iff_prefix]
  constructor
  · rintro ⟨r, hr⟩
    refine ⟨t.take k.length, t.drop k.length, (List.take_append_drop _ _).symm, (sameName_iff _ _).mpr ?_⟩
    have : lower (t.take k.length) = k := by
      have e : lower (t.take k.length) = (lower t).take k.length := by unfold lower; rw [List.map_take]
      rw [e, ← hr, List.take_left]
    unfold eqIgnoreCase
    rw [this, hl]; simp
  · rintro ⟨n, v, rfl, hn⟩
    have := (sameName_iff _ _).mp hn
    unfold eqIgnoreCase at this
    have : lower n = k := by rw [hl] at this; simpa using this
    refine ⟨lower v, ?_⟩
    unfold lower at *
    rw [List.map_append, this]

theorem isBranch_iff (t : Str) : "branch=".toList.isPrefixOf (lower t) = true ↔ IsBranch t :=
  isPrefix_lower _ t (by decide)

theorem newParams (branch : Str) : ∀ ps, NewParams branch ps (viaParams branch ps).1 (viaParams branch ps).2
  | [] => .nil
  | p :: ps => by
    have ih := newParams branch ps
    have hs : Strips isWs p (trim p) := (strips_trim _ _).mpr rfl
    unfold viaParams
    simp only
    split
    · rename_i h; exact .branch hs ((isBranch_iff _).mp h) ih
    · rename_i h
      split
      · rename_i he
        rw [List.isEmpty_iff.mp he] at hs
        exact .blank hs ih
      · rename_i he
        exact .keep hs (by simpa using he) (fun hb => h ((isBranch_iff _).mpr hb)) ih

theorem joinSemi_join (b : Str) (qs : List Str) : joinSemi b qs = join ';' (b :: qs) := by
  unfold joinSemi
  induction qs generalizing b with
  | nil => rfl
  | cons q qs ih =>
    rw [List.foldl_cons, ih]
    cases qs with
    | nil => simp [join]
    | cons r rs => simp [join]

theorem newBranch (branch via : Str) : NewBranch branch via (replaceViaBranch via branch) := by
  unfold replaceViaBranch
  have hp := (pieces_iff ';' via _).mpr rfl
  cases hs : splitChar ';' via with
  | nil => exact absurd hs (splitChar_ne_nil _ _)
  | cons b ps =>
    rw [hs] at hp
    refine ⟨b, trim b, ps, _, _, hp, (strips_trim _ _).mpr rfl, newParams branch ps, ?_⟩
    simp only
    rw [joinSemi_join]
    cases (viaParams branch ps).2 <;> simp

theorem carried (branch : Str) : ∀ (l : List Header) (d : Bool) (acc hs : Headers),
    copyWithCseq branch l d acc = .ok hs → ∃ l', Carried branch d l l' ∧ hs.inner = acc.inner ++ l'
  | [], d, acc, hs, h => by
    simp only [copyWithCseq, Except.ok.injEq] at h
    subst h; exact ⟨[], .nil, by simp⟩
  | h :: l, d, acc, hs, hc => by
    have push : ∀ (n v : Str) (d : Bool), (match acc.push n v with
        | .error _ => .error .panic
        | .ok acc => copyWithCseq branch l d acc) = Except.ok hs →
        ∃ l', Carried branch d l l' ∧ hs.inner = acc.inner ++ ⟨n, v⟩ :: l' := by
      intro n v d hp
      split at hp
      · cases hp
      · rename_i acc' hpush
        obtain ⟨l', h1, h2⟩ := carried branch l d acc' hs hp
        exact ⟨l', h1, by rw [h2, C24_push _ _ _ _ hpush]; simp⟩
    unfold copyWithCseq at hc
    simp only at hc
    split at hc
    · rename_i hv
      obtain ⟨l', h1, h2⟩ := push _ _ _ hc
      exact ⟨_, .via hv (newBranch branch h.value) h1, h2⟩
    · rename_i hv
      split at hc
      · rename_i hcs
        obtain ⟨hcs, rfl⟩ := hcs
        have un : (∀ n m, Numbered h.value n m → 4294967295 < n) →
            (match acc.push h.name h.value with
              | .error _ => .error .panic
              | .ok acc => copyWithCseq branch l false acc) = Except.ok hs →
            ∃ l', Carried branch false (h :: l) l' ∧ hs.inner = acc.inner ++ l' := by
          intro hn hc
          obtain ⟨l', h1, h2⟩ := push _ _ _ hc
          exact ⟨_, .unnumbered hcs hn h1, h2⟩
        split at hc
        · rename_i num m hsp
          obtain ⟨e1, e2⟩ := (splitOnce_some_iff _ _ _ _).mp hsp
          split at hc
          · rename_i n hd
            split at hc
            · cases hc
            · rename_i hle
              obtain ⟨l', h1, h2⟩ := push _ _ _ hc
              simp only [U32_MAX] at hle
              exact ⟨_, .cseq hcs ⟨num, e1, e2, parseDec_some hd⟩ (by omega) h1, by simpa using h2⟩
          · rename_i hd
            refine un ?_ hc
            rintro n m' ⟨num', e3, e4, e5⟩
            have hnum : num = num' := by
              have a1 := (splitOnce_some_iff ' ' h.value num' m').mpr ⟨e3, e4⟩
              rw [hsp] at a1
              simp only [Option.some.injEq, Prod.mk.injEq] at a1
              exact a1.1
            subst hnum
            apply Classical.byContradiction
            intro hle
            rw [parseDec_complete e5 (by simp only [U32_MAX]; omega)] at hd
            cases hd
        · rename_i hsp
          refine un ?_ hc
          rintro n m' ⟨num', e3, e4, e5⟩
          rw [(splitOnce_some_iff ' ' h.value num' m').mpr ⟨e3, e4⟩] at hsp
          cases hsp
      · rename_i hcs
        obtain ⟨l', h1, h2⟩ := push _ _ _ hc
        refine ⟨_, .other hv ?_ h1, h2⟩
        by_cases hn : h.name = "CSeq".toList
        · right
          cases d
          · exact absurd ⟨hn, rfl⟩ hcs
          · rfl
        · exact Or.inl hn

/-- **C68** (partial): the request built to answer a challenge has the method, URI and body of the original
and its headers, one for one and in order: every `Via` has the new branch and is otherwise the same, the
first numbered `CSeq` has the next number and the same method, everything else is unchanged; the
credentials come last.
(Missing: headers whose names are written in another case, see `C68_case`.) -/
theorem C68_same_request_partial (H : Hash) (c c' : Client) (orig r : Request) (resp : Response) (cnonce branch : Str)
    (h : createAuthenticatedRequest H c orig resp cnonce branch = .ok (r, c')) :
    r.method = orig.method ∧ r.uri = orig.uri ∧ r.body = orig.body ∧
    ∃ hs credentials, Carried branch false orig.headers.inner hs ∧
      r.headers.inner = hs ++ [⟨credentialsName (resp.code == 407), credentials⟩] := by
  unfold createAuthenticatedRequest at h
  simp only at h
  split at h
  · cases h
  · split at h
    · cases h
    · split at h
      · split at h
        · cases h
        · rename_i hs hcopy
          split at h
          · cases h
          · rename_i hs' hpush
            split at h
            · cases h
            · rename_i r' hnew
              simp only [Except.ok.injEq, Prod.mk.injEq] at h
              obtain ⟨rfl, _⟩ := h
              have hr : r' = Request.mk orig.method orig.uri hs' orig.body := by
                unfold Request.new at hnew
                split at hnew
                · cases hnew
                · cases hnew; rfl
              subst hr
              obtain ⟨l', h1, h2⟩ := carried branch _ _ _ _ hcopy
              have hi := C24_push _ _ _ _ hpush
              rw [h2] at hi
              exact ⟨rfl, rfl, rfl, l', _, h1, hi⟩
      · cases h

namespace Demo
def challenge : Response :=
  ⟨401, [], ⟨[⟨"WWW-Authenticate".toList, Demo.server.challengeValue "n1".toList false⟩]⟩, []⟩
def names (x : Except Fail (Request × Client)) : List (String × String) :=
  match x with
  | .ok (r, _) => r.headers.inner.dropLast.map (fun h => (String.ofList h.name, String.ofList h.value))
  | .error _ => []
def retried (hs : List (String × String)) : List (String × String) :=
  names (createAuthenticatedRequest H bob { orig with headers := ⟨hs.map (fun h => ⟨h.1.toList, h.2.toList⟩)⟩ }
    challenge "cn".toList "z9hG4bKnew".toList)
end Demo

/-- Non-vacuity: two Vias, one without a branch, and a CSeq. -/
example : Demo.retried [("Via", "SIP/2.0/UDP a ; Branch=z9hG4bKold;rport"), ("Via", "SIP/2.0/UDP b"), ("CSeq", "7 OPTIONS"), ("X", "y")]
    = [("Via", "SIP/2.0/UDP a;branch=z9hG4bKnew;rport"), ("Via", "SIP/2.0/UDP b;branch=z9hG4bKnew"),
       ("CSeq", "8 OPTIONS"), ("X", "y")] := by decide +kernel

/-- **C68** fails when the original writes the header names in another case, which is legal: neither the
sequence number nor the branch changes, and the retry is a retransmission of the original. -/
theorem C68_case : Demo.retried [("via", "SIP/2.0/UDP a;branch=z9hG4bKold"), ("CSEQ", "7 OPTIONS")]
    = [("via", "SIP/2.0/UDP a;branch=z9hG4bKold"), ("CSEQ", "7 OPTIONS")] := by decide +kernel

end Siphon.Auth
