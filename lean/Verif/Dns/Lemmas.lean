import Verif.Dns.SrvRun
import Verif.Core.HeadersProps
import Verif.Core.UriLemmas
import Verif.Core.Ipv6Props
/-! # Lemmas: the model computes what the specification describes -/
namespace Siphon.Dns
open Spec Siphon.HdrSpec
open Siphon.UriP (strLt_irrefl strLt_trans strLt_total)

/-! ## Transports -/

theorem upper_eq_iff_lower (a b : Str) : upper a = upper b ↔ lower a = lower b :=
  ⟨fun h => by rw [← lower_upper a, ← lower_upper b, h], upper_eq_of_lower_eq a b⟩

theorem sameName_lower {v p : Str} (h : lower p = p) : SameName v p ↔ lower v = p := by
  rw [sameName_iff, eqIgnoreCase, beq_iff_eq, h]

theorem reads_iff (v : Str) (t : Transport) : Reads v t ↔ t = transportOf v := by
  have h1 : SameName v "tcp".toList ↔ lower v = "tcp".toList := sameName_lower (by decide)
  have h2 : SameName v "tls".toList ↔ lower v = "tls".toList := sameName_lower (by decide)
  have h3 : SameName v "ws".toList ↔ lower v = "ws".toList := sameName_lower (by decide)
  have h4 : SameName v "wss".toList ↔ lower v = "wss".toList := sameName_lower (by decide)
  have h5 : SameName v "sctp".toList ↔ lower v = "sctp".toList := sameName_lower (by decide)
  have h6 : SameName v "tls-sctp".toList ↔ lower v = "tls-sctp".toList := sameName_lower (by decide)
  unfold Reads named transportOf
  simp only [List.mem_cons, List.not_mem_nil, or_false, exists_eq_or_imp, forall_eq_or_imp, exists_eq_left, forall_eq,
    h1, h2, h3, h4, h5, h6]
  split
  · rename_i e; simp [e]
  · split
    · rename_i e; simp [e]
    · split
      · rename_i e; simp [e]
      · split
        · rename_i e; simp [e]
        · split
          · rename_i e; simp [e]
          · split
            · rename_i e; simp [e]
            · rename_i a b c d e f
              simp only [a, b, c, d, e, f, false_and, false_or, not_false_eq_true, true_and, and_self]

/-- What the URI insists on, computed. -/
def insists (u : SipUri) : Option Transport := if u.sips then some .tls else transportParam u

theorem insists_iff (u : SipUri) (o : Option Transport) : Insists u o ↔ o = insists u := by
  unfold Insists insists transportParam
  cases hs : u.sips
  · simp only [Bool.false_eq_true, false_and, false_or, true_and, if_false, reads_iff]
    cases hg : u.params.get "transport".toList with
    | none => simp
    | some x =>
      cases x with
      | none => simp
      | some v => simp
  · simp

theorem defaultTransport_eq (u : SipUri) : defaultTransport u = orUdp (insists u) := by
  unfold defaultTransport insists transportParam
  cases u.sips
  · simp only [Bool.false_eq_true, if_false]
    cases u.params.get "transport".toList with
    | none => rfl
    | some x => cases x <;> rfl
  · rfl

theorem defaultTransportOrder_eq (u : SipUri) : defaultTransportOrder u = fallbackOrder (insists u) := by
  unfold defaultTransportOrder insists transportParam
  cases u.sips
  · simp only [Bool.false_eq_true, if_false]
    cases u.params.get "transport".toList with
    | none => rfl
    | some x => cases x <;> rfl
  · rfl

/-! ## NAPTR -/

theorem hasSub_iff (p : Str) : ∀ s, hasSub p s = true ↔ ∃ a b, s = a ++ p ++ b
  | [] => by
    simp only [hasSub, List.isEmpty_iff]
    constructor
    · rintro rfl; exact ⟨[], [], rfl⟩
    · rintro ⟨a, b, h⟩
      have := congrArg List.length h
      simp at this
      have h2 : p.length = 0 := by omega
      exact List.length_eq_zero_iff.mp h2
  | c :: s => by
    simp only [hasSub, Bool.or_eq_true, List.isPrefixOf_iff_prefix, hasSub_iff p s]
    constructor
    · rintro (⟨b, h⟩ | ⟨a, b, rfl⟩)
      · exact ⟨[], b, h.symm⟩
      · exact ⟨c :: a, b, rfl⟩
    · rintro ⟨a, b, h⟩
      cases a with
      | nil => exact Or.inl ⟨b, h.symm⟩
      | cons x a =>
        simp only [List.cons_append, List.cons.injEq] at h
        exact Or.inr ⟨a, b, h.2⟩

theorem mentions_iff {s p : Str} (hp : upper p = p) : Mentions s p ↔ hasSub p (upper s) = true := by
  rw [hasSub_iff]
  constructor
  · rintro ⟨a, m, b, rfl, h⟩
    rw [sameName_iff, eqIgnoreCase, beq_iff_eq, ← upper_eq_iff_lower, hp] at h
    exact ⟨upper a, upper b, by rw [← h]; simp [upper]⟩
  · rintro ⟨a, b, h⟩
    have h' : s.map Char.toUpper = (a ++ p) ++ b := h
    obtain ⟨s1, s2, rfl, e1, e2⟩ := List.map_eq_append_iff.mp h'
    obtain ⟨s3, s4, rfl, e3, e4⟩ := List.map_eq_append_iff.mp e1
    refine ⟨s3, s4, s2, rfl, ?_⟩
    rw [sameName_iff, eqIgnoreCase, beq_iff_eq, ← upper_eq_iff_lower, hp]
    exact e4

theorem firstOf_iff (s : Str) (t : Transport) : FirstOf s services t ↔ serviceTransport s = some t := by
  have h1 : Mentions s "SIPS+D2T".toList ↔ hasSub "SIPS+D2T".toList (upper s) = true := mentions_iff (by decide)
  have h2 : Mentions s "SIP+D2T".toList ↔ hasSub "SIP+D2T".toList (upper s) = true := mentions_iff (by decide)
  have h3 : Mentions s "SIP+D2U".toList ↔ hasSub "SIP+D2U".toList (upper s) = true := mentions_iff (by decide)
  have h4 : Mentions s "SIPS+D2W".toList ↔ hasSub "SIPS+D2W".toList (upper s) = true := mentions_iff (by decide)
  have h5 : Mentions s "SIP+D2W".toList ↔ hasSub "SIP+D2W".toList (upper s) = true := mentions_iff (by decide)
  have h6 : Mentions s "SIPS+D2S".toList ↔ hasSub "SIPS+D2S".toList (upper s) = true := mentions_iff (by decide)
  have h7 : Mentions s "SIP+D2S".toList ↔ hasSub "SIP+D2S".toList (upper s) = true := mentions_iff (by decide)
  have hc : ∀ (p : Str) (x : Transport) (l : List (Str × Transport)), FirstOf s ((p, x) :: l) t ↔
      (Mentions s p ∧ t = x) ∨ (¬ Mentions s p ∧ FirstOf s l t) := by
    intro p x l
    constructor
    · intro h
      cases h with
      | here h => exact Or.inl ⟨h, rfl⟩
      | later h h' => exact Or.inr ⟨h, h'⟩
    · rintro (⟨h, rfl⟩ | ⟨h, h'⟩)
      · exact .here h
      · exact .later h h'
  have hn : ¬ FirstOf s [] t := by intro h; cases h
  unfold services
  simp only [hc, hn, and_false, or_false, h1, h2, h3, h4, h5, h6, h7]
  unfold serviceTransport
  simp only
  generalize hasSub "SIPS+D2T".toList (upper s) = b1
  generalize hasSub "SIP+D2T".toList (upper s) = b2
  generalize hasSub "SIP+D2U".toList (upper s) = b3
  generalize hasSub "SIPS+D2W".toList (upper s) = b4
  generalize hasSub "SIP+D2W".toList (upper s) = b5
  generalize hasSub "SIPS+D2S".toList (upper s) = b6
  generalize hasSub "SIP+D2S".toList (upper s) = b7
  clear hc hn h1 h2 h3 h4 h5 h6 h7
  cases b1 <;> cases b2 <;> cases b3 <;> cases b4 <;> cases b5 <;> cases b6 <;> cases b7 <;> cases t <;> decide

theorem leads_iff (o : Option Transport) (a : Answer) (r : NaptrRecord) : Leads o a r ↔ naptrRecord o a = some r := by
  constructor
  · intro h
    cases h with
    | @name ord pref s rep t h hf ho hb hne =>
      rw [bare_iff] at hb
      have e1 : serviceTransport s = some t := (firstOf_iff _ _).mp hf
      have e2 : excluded o t = false := by
        cases o with
        | none => rfl
        | some x => simp [excluded, ho x rfl]
      have e3 : rep ≠ ".".toList := by rintro rfl; exact hne (hb.trans trimDots_dot)
      simp only [naptrRecord, e1, e2, Bool.false_eq_true, if_false, if_neg e3]
      rw [← hb]
      have : h.isEmpty = false := by cases h with | nil => exact absurd rfl hne | cons _ _ => rfl
      rw [this]
      rfl
    | @self ord pref s rep t hf ho hd hb =>
      rw [bare_iff] at hb
      have e1 : serviceTransport s = some t := (firstOf_iff _ _).mp hf
      have e2 : excluded o t = false := by
        cases o with
        | none => rfl
        | some x => simp [excluded, ho x rfl]
      have e3 : rep ≠ ".".toList := hd
      simp only [naptrRecord, e1, e2, Bool.false_eq_true, if_false, if_neg e3]
      rw [← hb]
      rfl
  · intro h
    cases a with
    | srv a b c d => cases h
    | other => cases h
    | naptr ord pref s rep =>
      simp only [naptrRecord] at h
      split at h
      · cases h
      · rename_i t ht
        split at h
        · cases h
        · rename_i ho
          split at h
          · cases h
          · rename_i hd
            have hf := (firstOf_iff _ _).mpr ht
            have ho' : ∀ x, o = some x → x = t := by
              rintro x rfl
              simp [excluded] at ho
              exact ho.symm
            simp only [Option.some.injEq] at h
            subst h
            split
            · rename_i he
              exact .self hf ho' hd ((bare_iff _ _).mpr (List.isEmpty_iff.mp he).symm)
            · rename_i he
              exact .name hf ho' (bare_trimDots rep) (by simpa using he)

theorem records_iff (o : Option Transport) : ∀ (as : List Answer) (rs : List NaptrRecord),
    Records o as rs ↔ rs = as.filterMap (naptrRecord o)
  | [], rs => ⟨fun h => by cases h; rfl, by rintro rfl; exact .nil⟩
  | a :: as, rs => by
    cases ha : naptrRecord o a with
    | none =>
      rw [List.filterMap_cons_none ha]
      constructor
      · intro h
        cases h with
        | keep hl hr => rw [(leads_iff _ _ _).mp hl] at ha; cases ha
        | drop hl hr => exact (records_iff o as rs).mp hr
      · intro h
        refine .drop ?_ ((records_iff o as rs).mpr h)
        intro r hl
        rw [(leads_iff _ _ _).mp hl] at ha; cases ha
    | some x =>
      rw [List.filterMap_cons_some ha]
      constructor
      · intro h
        cases h with
        | keep hl hr =>
          rw [(leads_iff _ _ _).mp hl] at ha
          cases ha
          rw [(records_iff o as _).mp hr]
        | drop hl hr => exact absurd ((leads_iff _ _ _).mpr ha) (hl x)
      · rintro rfl
        exact .keep ((leads_iff _ _ _).mpr ha) ((records_iff o as _).mpr rfl)

/-! ### The order of the records -/

theorem textBefore_iff : ∀ a b : Str, TextBefore a b ↔ strLt b a = false
  | [], [] => ⟨fun _ => rfl, fun _ => .nil⟩
  | [], _ :: _ => ⟨fun _ => rfl, fun _ => .nil⟩
  | _ :: _, [] => ⟨fun h => (by cases h), fun h => (by simp [strLt] at h)⟩
  | c :: a, d :: b => by
    simp only [strLt]
    by_cases h1 : d.toNat < c.toNat
    · rw [if_pos h1]
      constructor
      · intro h
        cases h with
        | lt h => omega
        | eq h => omega
      · intro h; cases h
    · rw [if_neg h1]
      by_cases h2 : c.toNat < d.toNat
      · rw [if_pos h2]
        exact ⟨fun _ => rfl, fun _ => .lt h2⟩
      · rw [if_neg h2, ← textBefore_iff a b]
        have : c = d := char_ext_toNat (by omega)
        subst this
        constructor
        · intro h
          cases h with
          | lt h => omega
          | eq h => exact h
        · exact .eq

theorem noLater_iff (a b : NaptrRecord) : NoLater a b ↔ a.le b = true := by
  unfold NaptrRecord.le
  by_cases h1 : a.order = b.order
  · rw [if_neg (by simpa using h1)]
    by_cases h2 : a.preference = b.preference
    · rw [if_neg (by simpa using h2)]
      by_cases h3 : a.transport = b.transport
      · rw [if_neg (by simpa using h3)]
        have h3' : ¬ a.transport.rank < b.transport.rank := by rw [h3]; omega
        constructor
        · intro h
          cases h with
          | order h => omega
          | preference _ h => omega
          | transport _ _ h => exact absurd h h3'
          | self _ _ _ h => rw [h]; rfl
          | name _ _ _ hx hy ht =>
            rw [hx, hy, optLe, (textBefore_iff _ _).mp ht]
            rfl
        · intro h
          cases ha : a.replacement with
          | none => exact .self h1 h2 h3 ha
          | some x =>
            cases hb : b.replacement with
            | none => rw [ha, hb] at h; cases h
            | some y =>
              rw [ha, hb, optLe] at h
              exact .name h1 h2 h3 ha hb ((textBefore_iff _ _).mpr (by simpa using h))
      · rw [if_pos (by simpa using h3), decide_eq_true_eq]
        constructor
        · intro h
          cases h with
          | order h => omega
          | preference _ h => omega
          | transport _ _ h => exact h
          | self _ _ h _ => exact absurd h h3
          | name _ _ h _ _ _ => exact absurd h h3
        · exact .transport h1 h2
    · rw [if_pos (by simpa using h2), decide_eq_true_eq]
      constructor
      · intro h
        cases h with
        | order h => omega
        | preference _ h => exact h
        | transport _ h _ => exact absurd h h2
        | self _ h _ _ => exact absurd h h2
        | name _ h _ _ _ _ => exact absurd h h2
      · exact .preference h1
  · rw [if_pos (by simpa using h1), decide_eq_true_eq]
    constructor
    · intro h
      cases h with
      | order h => exact h
      | preference h _ => exact absurd h h1
      | transport h _ _ => exact absurd h h1
      | self h _ _ _ => exact absurd h h1
      | name h _ _ _ _ _ => exact absurd h h1
    · exact .order

theorem rank_inj {a b : Transport} (h : a.rank = b.rank) : a = b := by
  cases a <;> cases b <;> first | rfl | (exact absurd h (by decide))

theorem optLe_total (a b : Option Str) : optLe a b = true ∨ optLe b a = true := by
  cases a with
  | none => exact Or.inl rfl
  | some x =>
    cases b with
    | none => exact Or.inr rfl
    | some y =>
      simp only [optLe, Bool.not_eq_true']
      by_cases e : x = y
      · subst e; exact Or.inl (strLt_irrefl x)
      · cases h : strLt x y with
        | false => exact Or.inr rfl
        | true =>
          refine Or.inl ?_
          cases h' : strLt y x with
          | false => rfl
          | true =>
            have := strLt_trans x y x h h'
            rw [strLt_irrefl] at this
            cases this

theorem optLe_trans {a b c : Option Str} (h1 : optLe a b = true) (h2 : optLe b c = true) : optLe a c = true := by
  cases a with
  | none => rfl
  | some x =>
    cases b with
    | none => cases h1
    | some y =>
      cases c with
      | none => cases h2
      | some z =>
        simp only [optLe, Bool.not_eq_true'] at h1 h2 ⊢
        cases h : strLt z x with
        | false => rfl
        | true =>
          by_cases e : x = y
          · subst e; rw [h2] at h; cases h
          · have h3 := strLt_total y x (fun h => e h.symm) h1
            rw [strLt_trans z x y h h3] at h2
            cases h2

theorem optLe_antisymm {a b : Option Str} (h1 : optLe a b = true) (h2 : optLe b a = true) : a = b := by
  cases a with
  | none =>
    cases b with
    | none => rfl
    | some _ => cases h2
  | some x =>
    cases b with
    | none => cases h1
    | some y =>
      simp only [optLe, Bool.not_eq_true'] at h1 h2
      by_cases e : x = y
      · rw [e]
      · rw [strLt_total x y e h2] at h1; cases h1

theorem le_total (a b : NaptrRecord) : a.le b = true ∨ b.le a = true := by
  unfold NaptrRecord.le
  by_cases h1 : a.order = b.order
  · by_cases h2 : a.preference = b.preference
    · by_cases h3 : a.transport = b.transport
      · simp only [h1, h2, h3, ne_eq, not_true_eq_false, if_false]
        exact optLe_total _ _
      · have h3' : b.transport ≠ a.transport := fun e => h3 e.symm
        have : a.transport.rank ≠ b.transport.rank := fun e => h3 (rank_inj e)
        simp only [h1, h2, h3, h3', ne_eq, not_true_eq_false, not_false_eq_true, if_false, if_true, decide_eq_true_eq]
        omega
    · have h2' : b.preference ≠ a.preference := fun e => h2 e.symm
      simp only [h1, h2, h2', ne_eq, not_true_eq_false, not_false_eq_true, if_false, if_true, decide_eq_true_eq]
      omega
  · have h1' : b.order ≠ a.order := fun e => h1 e.symm
    simp only [h1, h1', ne_eq, not_false_eq_true, if_true, decide_eq_true_eq]
    omega

theorem le_trans {a b c : NaptrRecord} (h1 : a.le b = true) (h2 : b.le c = true) : a.le c = true := by
  rw [← noLater_iff] at h1 h2 ⊢
  cases h1 with
  | order h =>
    cases h2 with
    | order h' => exact .order (by omega)
    | preference e _ => exact .order (by omega)
    | transport e _ _ => exact .order (by omega)
    | self e _ _ _ => exact .order (by omega)
    | name e _ _ _ _ _ => exact .order (by omega)
  | preference e1 h =>
    cases h2 with
    | order h' => exact .order (by omega)
    | preference e _ => exact .preference (by omega) (by omega)
    | transport e _ _ => exact .preference (by omega) (by omega)
    | self e _ _ _ => exact .preference (by omega) (by omega)
    | name e _ _ _ _ _ => exact .preference (by omega) (by omega)
  | transport e1 e2 h =>
    cases h2 with
    | order h' => exact .order (by omega)
    | preference e _ => exact .preference (by omega) (by omega)
    | transport e f _ => exact .transport (by omega) (by omega) (by omega)
    | self e f g _ => exact .transport (by omega) (by omega) (g ▸ h)
    | name e f g _ _ _ => exact .transport (by omega) (by omega) (g ▸ h)
  | self e1 e2 e3 h =>
    cases h2 with
    | order h' => exact .order (by omega)
    | preference e _ => exact .preference (by omega) (by omega)
    | transport e f _ => exact .transport (by omega) (by omega) (e3 ▸ by assumption)
    | self e f g _ => exact .self (by omega) (by omega) (e3.trans g) h
    | name e f g _ _ _ => exact .self (by omega) (by omega) (e3.trans g) h
  | name e1 e2 e3 hx hy ht =>
    cases h2 with
    | order h' => exact .order (by omega)
    | preference e _ => exact .preference (by omega) (by omega)
    | transport e f _ => exact .transport (by omega) (by omega) (e3 ▸ by assumption)
    | self e f g h => rw [h] at hy; cases hy
    | name e f g hx' hy' ht' =>
      rw [hx'] at hy
      cases hy
      refine .name (by omega) (by omega) (e3.trans g) hx hy' ?_
      rw [textBefore_iff] at ht ht' ⊢
      have := optLe_trans (a := some _) (b := some _) (c := some _) (by rw [optLe, ht]; rfl) (by rw [optLe, ht']; rfl)
      simpa [optLe] using this

theorem le_antisymm {a b : NaptrRecord} (h1 : a.le b = true) (h2 : b.le a = true) : a = b := by
  unfold NaptrRecord.le at h1 h2
  have e1 : a.order = b.order := by
    by_cases h : a.order = b.order
    · exact h
    · have h' : b.order ≠ a.order := fun e => h e.symm
      simp only [h, h', ne_eq, not_false_eq_true, if_true, decide_eq_true_eq] at h1 h2
      omega
  simp only [e1, ne_eq, not_true_eq_false, if_false] at h1 h2
  have e2 : a.preference = b.preference := by
    by_cases h : a.preference = b.preference
    · exact h
    · have h' : b.preference ≠ a.preference := fun e => h e.symm
      simp only [h, h', not_false_eq_true, if_true, decide_eq_true_eq] at h1 h2
      omega
  simp only [e2, not_true_eq_false, if_false] at h1 h2
  have e3 : a.transport = b.transport := by
    by_cases h : a.transport = b.transport
    · exact h
    · have h' : b.transport ≠ a.transport := fun e => h e.symm
      simp only [h, h', not_false_eq_true, if_true, decide_eq_true_eq] at h1 h2
      omega
  simp only [e3, not_true_eq_false, if_false] at h1 h2
  have e4 := optLe_antisymm h1 h2
  cases a; cases b
  simp only at e1 e2 e3 e4
  rw [e1, e2, e3, e4]

theorem insertRecord_perm (x : NaptrRecord) : ∀ l, (insertRecord x l).Perm (x :: l)
  | [] => List.Perm.refl _
  | y :: l => by
    simp only [insertRecord]
    split
    · exact List.Perm.refl _
    · exact ((insertRecord_perm x l).cons y).trans (List.Perm.swap x y l)

theorem sortRecords_perm : ∀ l, (sortRecords l).Perm l
  | [] => List.Perm.refl _
  | x :: l => (insertRecord_perm x _).trans ((sortRecords_perm l).cons x)

theorem insertRecord_sorted (x : NaptrRecord) : ∀ l, l.Pairwise (fun a b => a.le b = true) →
    (insertRecord x l).Pairwise (fun a b => a.le b = true)
  | [], _ => List.pairwise_singleton _ _
  | y :: l, h => by
    obtain ⟨h1, h2⟩ := List.pairwise_cons.mp h
    simp only [insertRecord]
    split
    · rename_i hxy
      refine List.pairwise_cons.mpr ⟨?_, h⟩
      intro z hz
      rcases List.mem_cons.mp hz with rfl | hz
      · exact hxy
      · exact le_trans hxy (h1 z hz)
    · rename_i hxy
      refine List.pairwise_cons.mpr ⟨?_, insertRecord_sorted x l h2⟩
      intro z hz
      rcases List.mem_cons.mp ((insertRecord_perm x l).mem_iff.mp hz) with rfl | hz
      · exact (le_total z y).resolve_left (by simpa using hxy)
      · exact h1 z hz

theorem sortRecords_sorted : ∀ l, (sortRecords l).Pairwise (fun a b => a.le b = true)
  | [] => List.Pairwise.nil
  | x :: l => insertRecord_sorted x _ (sortRecords_sorted l)

theorem sorted_unique : ∀ l l' : List NaptrRecord, l.Perm l' → l.Pairwise (fun a b => a.le b = true) →
    l'.Pairwise (fun a b => a.le b = true) → l = l'
  | [], l', hp, _, _ => hp.symm.eq_nil.symm
  | x :: l, l', hp, h, h' => by
    cases l' with
    | nil => exact absurd hp.eq_nil (by simp)
    | cons y l' =>
      obtain ⟨a1, a2⟩ := List.pairwise_cons.mp h
      obtain ⟨b1, b2⟩ := List.pairwise_cons.mp h'
      have e : x = y := by
        rcases List.mem_cons.mp (hp.mem_iff.mp List.mem_cons_self) with h | hx
        · exact h
        · rcases List.mem_cons.mp (hp.mem_iff.mpr List.mem_cons_self) with h | hy
          · exact h.symm
          · exact le_antisymm (a1 y hy) (b1 x hx)
      subst e
      rw [sorted_unique l l' ((List.perm_cons x).mp hp) a2 b2]

theorem sorted_iff (s l : List NaptrRecord) : s.Perm l ∧ s.Pairwise NoLater ↔ s = sortRecords l := by
  have hc : ∀ l : List NaptrRecord, l.Pairwise NoLater ↔ l.Pairwise (fun a b => a.le b = true) :=
    fun l => ⟨fun h => h.imp (fun h => (noLater_iff _ _).mp h), fun h => h.imp (fun h => (noLater_iff _ _).mpr h)⟩
  rw [hc]
  constructor
  · rintro ⟨h1, h2⟩
    exact sorted_unique _ _ (h1.trans (sortRecords_perm l).symm) h2 (sortRecords_sorted l)
  · rintro rfl
    exact ⟨sortRecords_perm l, sortRecords_sorted l⟩

/-- The queries, computed. -/
def queries (net : Net) (enabled : Bool) (host : Str) (o : Option Transport) : List (Str × Transport) :=
  match (if enabled then lookupNaptr net host o else none) with
  | some records => records.map (query host)
  | none => (fallbackOrder o).map (fun t => (host, t))

theorem naptrQueries_iff (net : Net) (en : Bool) (host : Str) (o : Option Transport) (qs : List (Str × Transport)) :
    NaptrQueries net en host o qs ↔
      ∃ rs, (if en then lookupNaptr net host o else none) = some rs ∧ qs = rs.map (query host) := by
  unfold NaptrQueries
  cases en with
  | false => simp
  | true =>
    simp only [true_and, if_true, lookupNaptr]
    constructor
    · rintro ⟨as, rs, s, h1, h2, h3, h4, h5, rfl⟩
      rw [records_iff] at h2
      subst h2
      refine ⟨s, ?_, rfl⟩
      rw [h1]
      simp only
      rw [if_neg (by simpa using h3), (sorted_iff _ _).mp ⟨h4, h5⟩]
    · rintro ⟨rs, h, rfl⟩
      split at h
      · cases h
      · rename_i as ha
        split at h
        · cases h
        · rename_i hne
          simp only [Option.some.injEq] at h
          subst h
          obtain ⟨h1, h2⟩ := (sorted_iff _ _).mpr (rfl : sortRecords (as.filterMap (naptrRecord o)) = _)
          exact ⟨as, _, _, ha, (records_iff _ _ _).mpr rfl, by simpa using hne, h1, h2, rfl⟩

theorem queries_iff (net : Net) (en : Bool) (host : Str) (o : Option Transport) (qs : List (Str × Transport)) :
    Queries net en host o qs ↔ qs = queries net en host o := by
  unfold Queries queries
  simp only [naptrQueries_iff]
  cases h : (if en then lookupNaptr net host o else none) with
  | none => simp
  | some rs => simp

/-! ## Addresses -/

theorem family_iff (b : Bool) : ∀ (is r : List Ip), Family b is r ↔ r = is.filter (fun i => i.v6 == b)
  | [], r => ⟨fun h => (by cases h; rfl), by rintro rfl; exact .nil⟩
  | i :: is, r => by
    by_cases h : i.v6 = b
    · rw [List.filter_cons_of_pos (by simpa using h)]
      constructor
      · intro hf
        cases hf with
        | take _ hr => rw [(family_iff b is _).mp hr]
        | skip hn _ => exact absurd h hn
      · rintro rfl
        exact .take h ((family_iff b is _).mpr rfl)
    · rw [List.filter_cons_of_neg (by simpa using h)]
      constructor
      · intro hf
        cases hf with
        | take hn _ => exact absurd hn h
        | skip _ hr => exact (family_iff b is _).mp hr
      · rintro rfl
        exact .skip h ((family_iff b is _).mpr rfl)

theorem inTurn_iff : ∀ (as bs r : List Ip), InTurn as bs r ↔ r = interleave as bs
  | [], bs, r => by
    constructor
    · intro h
      cases h with
      | v4 => cases bs <;> rfl
      | v6 => rfl
    · intro h
      have : interleave [] bs = bs := by cases bs <;> rfl
      rw [h, this]
      exact .v4
  | a :: as, [], r => by
    constructor
    · intro h
      cases h with
      | v6 => rfl
    · rintro rfl
      exact .v6
  | a :: as, b :: bs, r => by
    constructor
    · intro h
      cases h with
      | both h => rw [(inTurn_iff as bs _).mp h]; rfl
    · rintro rfl
      exact .both ((inTurn_iff as bs _).mpr rfl)

/-- The addresses, computed. -/
def addresses (net : Net) (host : Str) : List Ip :=
  match lookupIp net host with
  | some r => r
  | none => []

theorem addresses_iff (net : Net) (host : Str) (r : List Ip) : Addresses net host r ↔ r = addresses net host := by
  unfold Addresses addresses lookupIp
  cases h : net.ip host with
  | none => simp
  | some ips =>
    simp only [reduceCtorEq, false_and, false_or, Option.some.injEq]
    have hf : ips.filter (fun i => i.v6 == true) = ips.filter (fun i => i.v6) :=
      List.filter_congr (fun x _ => by simp)
    have hg : ips.filter (fun i => i.v6 == false) = ips.filter (fun i => !i.v6) :=
      List.filter_congr (fun x _ => by simp)
    constructor
    · rintro ⟨_, six, four, rfl, h1, h2, h3⟩
      rw [family_iff, hf] at h1
      rw [family_iff, hg] at h2
      subst h1 h2
      rw [(inTurn_iff _ _ _).mp h3]
      split
      · rename_i he
        split at he
        · cases he
        · simp only [Option.some.injEq] at he; exact he
      · rename_i he
        split at he
        · rename_i hn; simpa using hn
        · cases he
    · intro hr
      refine ⟨ips, _, _, rfl, (family_iff _ _ _).mpr hf.symm, (family_iff _ _ _).mpr hg.symm, (inTurn_iff _ _ _).mpr ?_⟩
      rw [hr]
      split
      · rename_i he
        split at he
        · cases he
        · simp only [Option.some.injEq] at he; exact he.symm
      · rename_i he
        split at he
        · rename_i hn; simpa using hn.symm
        · cases he

theorem lookupIp_none (net : Net) (host : Str) : lookupIp net host = none ↔ addresses net host = [] := by
  unfold addresses
  cases h : lookupIp net host with
  | none => simp
  | some r =>
    simp only [reduceCtorEq, false_iff]
    rintro rfl
    unfold lookupIp at h
    split at h
    · cases h
    · simp only at h
      split at h
      · cases h
      · rename_i hn
        simp only [Option.some.injEq] at h
        exact hn (by rw [h]; rfl)

theorem lookupIp_some {net : Net} {host : Str} {r : List Ip} (h : lookupIp net host = some r) : addresses net host = r := by
  unfold addresses; rw [h]

/-! ### IPv4 and IPv6 texts (`Core/Ipv6Props.lean`) -/

theorem numeric_iff (h : Str) : Numeric h ↔ isNumericIp h = true := by
  unfold Numeric isNumericIp
  rw [dottedQuad_iff, ipv6_iff, Bool.or_eq_true, beq_iff_eq]

theorem defaultPort_iff (u : SipUri) (p : Nat) : DefaultPort u.sips p ↔ p = defaultPort u := by
  unfold DefaultPort defaultPort
  cases u.sips <;> simp

theorem answers_iff (ts : List Target) (r : Option (List Target)) :
    Answers ts r ↔ r = if ts.isEmpty then none else enforceLimit ts := by
  unfold Answers enforceLimit MAX_TARGETS_PER_QUERY
  cases ts with
  | nil => simp
  | cons t ts =>
    simp only [ne_eq, reduceCtorEq, not_false_eq_true, true_and, false_or, List.isEmpty_cons, Bool.false_eq_true, if_false]
    by_cases h : 100 < (t :: ts).length
    · rw [if_pos h]
      constructor
      · rintro (⟨h', _⟩ | ⟨_, h'⟩)
        · omega
        · exact h'
      · intro e; exact Or.inr ⟨h, e⟩
    · rw [if_neg h]
      constructor
      · rintro (⟨_, h'⟩ | ⟨h', _⟩)
        · exact h'
        · exact absurd h' h
      · intro e; exact Or.inl ⟨by omega, e⟩

end Siphon.Dns
