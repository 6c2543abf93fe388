import Verif.Sub.PropsMgr
import Verif.Dialog.PropsCreate
import Verif.Dialog.UacProps
import Verif.Uas.ResponseProps
set_option linter.unusedSimpArgs false
namespace Siphon.Sub
open Spec TextSpec HdrSpec Dlg.Spec
open Siphon.Dlg (headerTag contactUri cseqNumber addAll angle bareAddr cseqValue Ua first_iff absent_iff headerTag_some
  headerTag_none headerTag_ascii cseqNumber_iff contactOf_iff addAll_inner selects_iff tagOf_mk bareAddr_eq tagOf_unique)

/-! ## Tables of headers -/

/-- the values of the header `n` in a list of names and values -/
def pick (l : List (String × Str)) (n : String) : List Str :=
  l.filterMap (fun p => if eqIgnoreCase p.1.toList n.toList then some p.2 else none)

theorem getAll_pick (l : List (String × Str)) (n : String) :
    Headers.getAll ⟨l.map (fun p => ⟨p.1.toList, p.2⟩)⟩ n.toList = pick l n := by
  induction l with
  | nil => rfl
  | cons p l ih =>
    rw [List.map_cons, Uas.getAll_cons, ih]
    unfold pick
    rw [List.filterMap_cons]
    cases eqIgnoreCase p.1.toList n.toList <;> simp

theorem pick_hit {a n : String} (h : eqIgnoreCase a.toList n.toList = true) (v : Str) (l : List (String × Str)) :
    pick ((a, v) :: l) n = v :: pick l n := by
  unfold pick
  rw [List.filterMap_cons, if_pos h]

theorem pick_miss {a n : String} (h : eqIgnoreCase a.toList n.toList = false) (v : Str) (l : List (String × Str)) :
    pick ((a, v) :: l) n = pick l n := by
  unfold pick
  rw [List.filterMap_cons, if_neg (by rw [h]; decide)]

/-- computes `pick` for literal names -/
macro "picks" : tactic => `(tactic| ((repeat (first | rw [pick_miss (by decide +kernel)] | rw [pick_hit (by decide +kernel)])); try rfl))

theorem selects_pick {hs : Headers} {l : List (String × Str)} (h : hs.inner = l.map (fun p => ⟨p.1.toList, p.2⟩)) (n : String)
    (vs : List Str) : Selects n.toList hs.inner vs ↔ vs = pick l n := by
  have e : hs = ⟨l.map (fun p => ⟨p.1.toList, p.2⟩)⟩ := by cases hs; simp only at h; rw [h]
  rw [selects_iff, e, getAll_pick]

theorem first_of_selects {hs : Headers} {n : String} {v : Str} {vs : List Str} (h : Selects n.toList hs.inner (v :: vs)) :
    First hs n v := ⟨vs, h⟩

/-! ## Identifiers -/

theorem id_some {rq rs : Headers} {id : SubId} (h : SubId.fromRequestResponse rq rs = .done (some id)) : Named rq rs id := by
  unfold SubId.fromRequestResponse at h
  split at h
  · cases h
  · rename_i c hc
    split at h
    · cases h
    · cases h
    · rename_i f hf
      split at h
      · cases h
      · cases h
      · rename_i t ht
        split at h
        · cases h
        · rename_i e he
          cases h
          exact ⟨(first_iff _ _ _).2 hc, headerTag_some hf, headerTag_some ht, (first_iff _ _ _).2 he⟩

theorem tag_of {hs : Headers} {n : String} {t : Str} (ha : AsciiHeaders hs) (h : ∃ v, First hs n v ∧ TagOf v t) :
    headerTag hs n.toList = .done (some t) := by
  cases hh : headerTag hs n.toList with
  | panic => exact absurd hh (headerTag_ascii ha)
  | done o =>
    cases o with
    | none => exact absurd h (headerTag_none hh)
    | some u =>
      obtain ⟨v, hv, ht⟩ := h
      obtain ⟨w, hw, hu⟩ := headerTag_some hh
      cases Dlg.first_unique hv hw
      cases tagOf_unique ht hu
      rfl

theorem id_of {rq rs : Headers} {id : SubId} (h1 : AsciiHeaders rq) (h2 : AsciiHeaders rs) (h : Named rq rs id) :
    SubId.fromRequestResponse rq rs = .done (some id) := by
  unfold SubId.fromRequestResponse
  rw [(first_iff _ _ _).1 h.callId, tag_of h1 h.subscriber, tag_of h2 h.notifier, (first_iff _ _ _).1 h.event]

theorem named_unique {rq rs : Headers} {a b : SubId} (h : Named rq rs a) (h' : Named rq rs b) : a = b := by
  obtain ⟨c, f, t, e⟩ := a
  obtain ⟨c', f', t', e'⟩ := b
  obtain ⟨h1, ⟨v, hv, hf⟩, ⟨w, hw, ht⟩, h4⟩ := h
  obtain ⟨h1', ⟨v', hv', hf'⟩, ⟨w', hw', ht'⟩, h4'⟩ := h'
  cases Dlg.first_unique h1 h1'
  cases Dlg.first_unique h4 h4'
  cases Dlg.first_unique hv hv'
  cases Dlg.first_unique hw hw'
  cases tagOf_unique hf hf'
  cases tagOf_unique ht ht'
  rfl

/-! ## Times -/

theorem expiresOf_iff (hs : Headers) (n : Nat) :
    ExpiresOf hs n ↔ ∃ v, hs.get "Expires".toList = some v ∧ parseDec MAX_U64 v = some n := by
  unfold ExpiresOf
  simp only [first_iff, parseDec_iff, MAX_U64]
  constructor
  · rintro ⟨v, h1, h2, h3⟩; exact ⟨v, h1, h2, by omega⟩
  · rintro ⟨v, h1, h2, h3⟩; exact ⟨v, h1, h2, by omega⟩

theorem heldFor_iff (rs : Headers) (n : Nat) : HeldFor rs n ↔ subscriberExpires rs = some n := by
  unfold subscriberExpires
  constructor
  · intro h
    cases h with
    | answer h =>
      obtain ⟨v, h1, h2⟩ := (expiresOf_iff _ _).1 h
      rw [h1]
      exact h2
    | default h => rw [(absent_iff _ _).1 h]
  · intro h
    split at h
    · rename_i v hv
      exact .answer ((expiresOf_iff _ _).2 ⟨v, hv, h⟩)
    · rename_i hv
      cases h
      exact .default ((absent_iff _ _).2 hv)

theorem servedFor_iff (rq rs : Headers) (n : Nat) : ServedFor rq rs n ↔ notifierExpires rq rs = some n := by
  unfold notifierExpires
  constructor
  · intro h
    cases h with
    | answer h =>
      obtain ⟨v, h1, h2⟩ := (expiresOf_iff _ _).1 h
      rw [h1]
      exact h2
    | request ha h =>
      obtain ⟨v, h1, h2⟩ := (expiresOf_iff _ _).1 h
      rw [(absent_iff _ _).1 ha, h1]
      exact h2
    | default ha h => rw [(absent_iff _ _).1 ha, (absent_iff _ _).1 h]
  · intro h
    split at h
    · rename_i v hv
      exact .answer ((expiresOf_iff _ _).2 ⟨v, hv, h⟩)
    · rename_i hv
      split at h
      · rename_i w hw
        exact .request ((absent_iff _ _).2 hv) ((expiresOf_iff _ _).2 ⟨w, hw, h⟩)
      · rename_i hw
        cases h
        exact .default ((absent_iff _ _).2 hv) ((absent_iff _ _).2 hw)

/-! ## New subscriptions -/

theorem validCSeq_iff (n : Nat) : validCSeq n = true ↔ 1 ≤ n ∧ n < 2 ^ 31 := by
  unfold validCSeq
  simp only [Bool.and_eq_true, decide_eq_true_eq]
  omega

theorem newSub_some {rq rs : Headers} {l r : SipUri} {e : Option Nat} {s : Sub} (h : newSub rq rs l r e = .done (some s)) :
    Records rq rs l r s ∧ e = some s.expires := by
  unfold newSub at h
  split at h
  · cases h
  · cases h
  · rename_i id hid
    split at h
    · cases h
    · rename_i c hc
      split at h
      · cases h
      · rename_i n hn
        split at h
        · cases h
        · rename_i hv
          split at h
          · cases h
          · rename_i e'
            cases h
            simp only [Bool.not_eq_true', Bool.not_eq_false] at hv
            exact ⟨⟨id_some hid, (contactOf_iff _ _).2 hc, (cseqNumber_iff _ _).1 hn, (validCSeq_iff _).1 hv, rfl, ⟨rfl, rfl⟩, rfl⟩,
              rfl⟩

theorem newSub_of {rq rs : Headers} {l r : SipUri} {s : Sub} (h1 : AsciiHeaders rq) (h2 : AsciiHeaders rs)
    (h : Records rq rs l r s) : newSub rq rs l r (some s.expires) = .done (some s) := by
  unfold newSub
  rw [id_of h1 h2 h.named, (contactOf_iff _ _).1 h.contact, (cseqNumber_iff _ _).2 h.cseq]
  simp only [(validCSeq_iff _).2 h.range, Bool.not_true, Bool.false_eq_true, if_false]
  obtain ⟨id, st, l', r', c, e, lc, rc⟩ := s
  have h5 := h.state
  have h6 := h.uris
  have h7 := h.fresh
  simp only at h5 h6 h7
  rw [h5, h6.1, h6.2, h7]

/-! ## The seconds granted -/

theorem granted_iff (rq : Headers) (e : Option Nat) (n : Nat) : Granted rq e n ↔ grantedExpires rq e = n := by
  constructor
  · intro h
    cases h with
    | given => rfl
    | asked h1 h2 h3 =>
      unfold grantedExpires
      rw [(first_iff _ _ _).1 h1]
      simp only
      rw [(parseDec_iff _ _ _).2 ⟨h2, by omega⟩]
    | unreadable h1 h2 =>
      unfold grantedExpires
      rw [(first_iff _ _ _).1 h1]
      simp only
      split
      · rename_i k hk
        obtain ⟨h3, h4⟩ := (parseDec_iff _ _ _).1 hk
        have := h2 k h3
        omega
      · rfl
    | absent h1 =>
      unfold grantedExpires
      rw [(absent_iff _ _).1 h1]
  · intro h
    cases e with
    | some k => cases h; exact .given
    | none =>
      unfold grantedExpires at h
      simp only at h
      split at h
      · rename_i hv
        cases h
        exact .absent ((absent_iff _ _).2 hv)
      · rename_i v hv
        split at h
        · rename_i k hk
          cases h
          obtain ⟨h3, h4⟩ := (parseDec_iff _ _ _).1 hk
          exact .asked ((first_iff _ _ _).2 hv) h3 (by omega)
        · rename_i hk
          cases h
          refine .unreadable ((first_iff _ _ _).2 hv) ?_
          intro n hd
          apply Nat.le_of_not_lt
          intro hlt
          have := (parseDec_iff 4294967295 v n).2 ⟨hd, by omega⟩
          rw [hk] at this
          cases this

end Siphon.Sub
