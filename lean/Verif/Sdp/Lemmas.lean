import Verif.Sdp.Spec
import Verif.Core.HeadersProps
import Verif.Base.TextLemmas
import Verif.Base.Strip
import Verif.Auth.Lemmas
set_option linter.unusedSimpArgs false
/-!
# Lemmas about negotiation
-/
namespace Siphon.Sdp
open Siphon.TextSpec Spec

theorem first_iff {α β : Type} {P : α → β → Prop} {f : α → Option β} (h : ∀ a x, P a x ↔ f a = some x) :
    ∀ (items : List α) (x : β), First P items x ↔ items.findSome? f = some x
  | [], x => by
    constructor
    · rintro ⟨pre, a, post, e, _⟩
      cases pre <;> cases e
    · intro h
      cases h
  | i :: is, x => by
    rw [List.findSome?_cons]
    constructor
    · rintro ⟨pre, a, post, e, hp, hpre⟩
      cases pre with
      | nil =>
        simp only [List.nil_append, List.cons.injEq] at e
        obtain ⟨rfl, rfl⟩ := e
        rw [(h i x).mp hp]
      | cons b pre =>
        simp only [List.cons_append, List.cons.injEq] at e
        obtain ⟨rfl, rfl⟩ := e
        have hn : f i = none := by
          cases hf : f i with
          | none => rfl
          | some y => exact absurd ((h i y).mpr hf) (hpre i List.mem_cons_self y)
        rw [hn]
        exact (first_iff h _ x).mp ⟨pre, a, post, rfl, hp, fun b hb => hpre b (List.mem_cons_of_mem _ hb)⟩
    · intro hx
      cases hf : f i with
      | some y =>
        rw [hf] at hx
        simp only [Option.some.injEq] at hx
        subst hx
        exact ⟨[], i, is, rfl, (h i y).mpr hf, by simp⟩
      | none =>
        rw [hf] at hx
        obtain ⟨pre, a, post, rfl, hp, hpre⟩ := (first_iff h is x).mpr hx
        refine ⟨i :: pre, a, post, rfl, hp, ?_⟩
        intro b hb y hy
        cases hb with
        | head => rw [h, hf] at hy; cases hy
        | tail _ hb => exact hpre b hb y hy

/-! ## Pieces -/

theorem field_iff (s : Str) (max : Nat) : Field s max ↔ validField s max = true := by
  unfold Field validField
  simp only [Bool.and_eq_true, Bool.not_eq_true', List.isEmpty_eq_false_iff, decide_eq_true_eq, List.any_eq_false,
    Bool.not_eq_true, ne_eq, and_assoc]

theorem payload_iff (fmt : Str) (pt : Nat) : Payload fmt pt ↔ parsePayload fmt = some pt := by
  unfold Payload parsePayload
  constructor
  · rintro ⟨h1, h2⟩
    rw [(parseDec_iff 65535 fmt pt).mpr ⟨h1, by omega⟩]
    simp only
    rw [if_neg (by omega)]
  · intro h
    cases hp : parseDec 65535 fmt with
    | none => rw [hp] at h; cases h
    | some n =>
      rw [hp] at h
      simp only at h
      split at h
      · cases h
      · simp only [Option.some.injEq] at h
        subst h
        exact ⟨((parseDec_iff _ _ _).mp hp).1, by omega⟩

theorem rtp_iff (p : Protocol) : Rtp p ↔ isRtp p = true := by
  unfold Rtp isRtp
  cases p <;> simp

theorem listed_iff (m : Media) (pt : Nat) : (∃ f ∈ m.formats, Payload f pt) ↔ listed m pt = true := by
  unfold listed
  simp only [List.any_eq_true, beq_iff_eq, payload_iff]

theorem local_iff (l : Media) (r x : RtpMap) : Local l r x ↔ matchingRtpmap l r = some x := by
  unfold Local matchingRtpmap
  rw [first_iff (f := fun e : Nat × RtpMap =>
    if listed l e.2.payload && eqIgnoreCase r.encoding e.2.encoding && r.clock == e.2.clock && r.params == e.2.params then
      some e.2 else none)]
  · rw [List.find?_map]
    induction l.rtpmaps with
    | nil => rfl
    | cons e es ih =>
      rw [List.findSome?_cons, List.find?_cons]
      simp only [Function.comp]
      cases (listed l e.2.payload && eqIgnoreCase r.encoding e.2.encoding && r.clock == e.2.clock && r.params == e.2.params) with
      | true => simp
      | false => simpa using ih
  · intro a y
    simp only [listed_iff, SameCodec, sameName_iff]
    constructor
    · rintro ⟨rfl, h1, h2, h3, h4⟩
      rw [if_pos (by simp [h1, h2, h3, h4])]
    · intro h
      split at h
      · rename_i hc
        simp only [Option.some.injEq] at h
        subst h
        simp only [Bool.and_eq_true, beq_iff_eq] at hc
        exact ⟨rfl, hc.1.1.1, hc.1.1.2, hc.1.2, hc.2⟩
      · cases h

theorem common_iff (o l : Media) (fmt : Str) (m : Option RtpMap) : Common o l fmt m ↔ commonFormat o l fmt = some (fmt, m) := by
  unfold commonFormat
  constructor
  · intro h
    cases h with
    | static h1 h2 h3 h4 =>
      rw [if_pos ((rtp_iff _).mp h1), (payload_iff _ _).mp h2]
      simp only
      rw [if_pos h3, if_pos ((listed_iff _ _).mp h4)]
    | dynamic h1 h2 h3 h4 h5 =>
      rw [if_pos ((rtp_iff _).mp h1), (payload_iff _ _).mp h2]
      simp only
      rw [if_neg (by omega), h4]
      simp only
      rw [(local_iff _ _ _).mp h5]
    | token h1 h2 =>
      rw [if_neg (by rwa [← rtp_iff]), if_pos (by simpa using h2)]
  · intro h
    split at h
    · rename_i hr
      split at h
      · cases h
      · rename_i pt hp
        split at h
        · split at h
          · simp only [Option.some.injEq, Prod.mk.injEq, true_and] at h
            subst h
            exact .static ((rtp_iff _).mpr hr) ((payload_iff _ _).mpr hp) (by assumption) ((listed_iff _ _).mpr (by assumption))
          · cases h
        · split at h
          · cases h
          · split at h
            · cases h
            · simp only [Option.some.injEq, Prod.mk.injEq, true_and] at h
              subst h
              exact .dynamic ((rtp_iff _).mpr hr) ((payload_iff _ _).mpr hp) (by omega) (by assumption)
                ((local_iff _ _ _).mpr (by assumption))
    · rename_i hr
      split at h
      · simp only [Option.some.injEq, Prod.mk.injEq, true_and] at h
        subst h
        exact .token (by rwa [rtp_iff]) (by simpa using ‹l.formats.contains fmt = true›)
      · cases h

theorem commonFormat_fst {o l : Media} {fmt : Str} {e : Str × Option RtpMap} (h : commonFormat o l fmt = some e) : e.1 = fmt := by
  unfold commonFormat at h
  repeat' split at h
  all_goals first
    | (cases h; done)
    | (cases h; rfl)

theorem shared_iff (o l : Media) : ∀ (fs : List Str) (ms : List (Str × Option RtpMap)),
    Shared o l fs ms ↔ fs.filterMap (commonFormat o l) = ms
  | [], ms => ⟨fun h => (by cases h; rfl), fun h => (by cases h; exact .nil)⟩
  | f :: fs, ms => by
    cases hc : commonFormat o l f with
    | none =>
      rw [List.filterMap_cons_none hc]
      constructor
      · intro h
        cases h with
        | keep hm _ => rw [common_iff, hc] at hm; cases hm
        | drop _ h => exact (shared_iff o l fs _).mp h
      · intro h
        refine .drop ?_ ((shared_iff o l fs _).mpr h)
        intro m hm
        rw [common_iff, hc] at hm
        cases hm
    | some e =>
      rw [List.filterMap_cons_some hc]
      have hf := commonFormat_fst hc
      obtain ⟨f', m⟩ := e
      simp only at hf
      subst hf
      constructor
      · intro h
        cases h with
        | keep hm h =>
          rw [common_iff, hc] at hm
          cases hm
          rw [(shared_iff o l fs _).mp h]
        | drop hn _ => exact absurd ((common_iff _ _ _ _).mpr hc) (hn m)
      · rintro rfl
        exact .keep ((common_iff _ _ _ _).mpr hc) ((shared_iff o l fs _).mpr rfl)

/-! ## Directions -/

theorem ofAttribute_iff (a : Attribute) (d : Dir) : a = .property d.word ↔ Dir.ofAttribute a = some d := by
  cases a with
  | value n v => simp [Dir.ofAttribute]
  | property name =>
    simp only [Attribute.property.injEq, Dir.ofAttribute]
    constructor
    · rintro rfl
      cases d <;> decide
    · intro h
      split at h
      · cases h; assumption
      · split at h
        · cases h; assumption
        · split at h
          · cases h; assumption
          · split at h
            · cases h; assumption
            · cases h

theorem declares_iff (as : List Attribute) (d : Dir) : Declares as d ↔ dirOf as = d := by
  unfold Declares dirOf extractDirection
  rw [first_iff ofAttribute_iff]
  have hnone : as.findSome? Dir.ofAttribute = none ↔ ∀ d : Dir, Attribute.property d.word ∉ as := by
    rw [List.findSome?_eq_none_iff]
    constructor
    · intro h d hd
      have := h _ hd
      rw [(ofAttribute_iff _ d).mp rfl] at this
      cases this
    · intro h a ha
      cases hf : Dir.ofAttribute a with
      | none => rfl
      | some d =>
        rw [← ofAttribute_iff] at hf
        exact absurd (hf ▸ ha) (h d)
  rw [← hnone]
  cases h : as.findSome? Dir.ofAttribute with
  | none => simp [eq_comm]
  | some e => simp

theorem agreed_iff (o l d : Dir) : Agreed o l d ↔ o.reverse.negotiate l = some d := by
  constructor
  · intro h
    cases h <;> rfl
  · intro h
    cases o <;> cases l <;> cases h <;> constructor

/-! ## Parameters -/

theorem fmtpLine_iff (pt : Nat) (a : Attribute) (params : Str) : FmtpLine pt a params ↔
    (match a with
      | .value name value =>
        if name = "fmtp".toList then
          (match parseFmtp value with
          | some (p, ps) => if p = pt then some ps else none
          | none => none)
        else none
      | .property _ => none) = some params := by
  unfold FmtpLine
  constructor
  · rintro ⟨p, rest, rfl, h1, h2, h3, h4⟩
    simp only [if_true, parseFmtp]
    rw [(Siphon.Auth.splitOnce_some_iff ' ' _ p rest).mpr ⟨rfl, h1⟩]
    simp only
    rw [(parseDec_iff 255 p pt).mpr ⟨h2, h3⟩]
    simp only [Option.map_some, if_true, (strips_trim _ _).mp h4]
  · intro h
    cases a with
    | property _ => cases h
    | value name value =>
      simp only at h
      split at h
      · rename_i hn
        subst hn
        simp only [parseFmtp] at h
        cases hs : splitOnce ' ' value with
        | none => rw [hs] at h; cases h
        | some e =>
          obtain ⟨p, rest⟩ := e
          rw [hs] at h
          simp only at h
          cases hp : parseDec 255 p with
          | none => rw [hp] at h; cases h
          | some q =>
            rw [hp] at h
            simp only [Option.map_some] at h
            split at h
            · rename_i he
              subst he
              simp only [Option.some.injEq] at h
              obtain ⟨e1, e2⟩ := (Siphon.Auth.splitOnce_some_iff ' ' _ p rest).mp hs
              obtain ⟨e3, e4⟩ := (parseDec_iff _ _ _).mp hp
              exact ⟨p, rest, by rw [e1], e2, e3, e4, (strips_trim _ _).mpr h.symm⟩
            · cases h
      · cases h

theorem fmtpFor_eq (pt : Nat) : ∀ as : List Attribute, fmtpFor pt as = as.findSome? (fun a =>
    match a with
      | .value name value =>
        if name = "fmtp".toList then
          (match parseFmtp value with
          | some (p, ps) => if p = pt then some ps else none
          | none => none)
        else none
      | .property _ => none)
  | [] => rfl
  | .property _ :: as => by
    rw [List.findSome?_cons]
    simp only [fmtpFor, fmtpFor_eq pt as]
  | .value name value :: as => by
    rw [List.findSome?_cons]
    simp only [fmtpFor]
    split
    · cases hp : parseFmtp value with
      | none => simp only [fmtpFor_eq pt as]
      | some e =>
        obtain ⟨p, ps⟩ := e
        simp only
        split
        · rfl
        · simp only [fmtpFor_eq pt as]
    · simp only [fmtpFor_eq pt as]

theorem fmtpFor_iff (pt : Nat) (as : List Attribute) (params : Str) :
    First (FmtpLine pt) as params ↔ fmtpFor pt as = some params := by
  rw [fmtpFor_eq]
  exact first_iff (fmtpLine_iff pt) as params

/-- The parameters for one format. -/
def wanted (o l : Media) (fmt : Str) : Option (Nat × Str) :=
  match parsePayload fmt with
  | none => none
  | some pt =>
    match fmtpFor pt l.attributes with
    | some params => some (pt, params)
    | none =>
      match fmtpFor pt o.attributes with
      | some params => some (pt, params)
      | none => none

theorem wants_iff (o l : Media) (fmt : Str) (e : Nat × Str) : Wants o l fmt e ↔ wanted o l fmt = some e := by
  obtain ⟨pt, params⟩ := e
  unfold Wants wanted
  simp only [payload_iff, fmtpFor_iff]
  cases hp : parsePayload fmt with
  | none => simp
  | some q =>
    simp only [Option.some.injEq]
    cases hl : fmtpFor q l.attributes with
    | some ps =>
      constructor
      · rintro ⟨rfl, h | ⟨h, _⟩⟩
        · rw [hl] at h; simp only [Option.some.injEq] at h; rw [h]
        · exact absurd hl (h ps)
      · intro h
        cases h
        exact ⟨rfl, Or.inl hl⟩
    | none =>
      cases ho : fmtpFor q o.attributes with
      | some ps =>
        constructor
        · rintro ⟨rfl, h | ⟨_, h⟩⟩
          · rw [hl] at h; cases h
          · rw [ho] at h; simp only [Option.some.injEq] at h; rw [h]
        · intro h
          cases h
          exact ⟨rfl, Or.inr ⟨by rw [hl]; simp, ho⟩⟩
      | none =>
        constructor
        · rintro ⟨rfl, h | ⟨_, h⟩⟩
          · rw [hl] at h; cases h
          · rw [ho] at h; cases h
        · intro h
          cases h

theorem fmtps_iff (o l : Media) : ∀ (fs : List Str) (es : List (Nat × Str)), Fmtps o l fs es ↔ fs.filterMap (wanted o l) = es
  | [], es => ⟨fun h => (by cases h; rfl), fun h => (by cases h; exact .nil)⟩
  | f :: fs, es => by
    cases hc : wanted o l f with
    | none =>
      rw [List.filterMap_cons_none hc]
      constructor
      · intro h
        cases h with
        | keep hm _ => rw [wants_iff, hc] at hm; cases hm
        | drop _ h => exact (fmtps_iff o l fs _).mp h
      · intro h
        refine .drop ?_ ((fmtps_iff o l fs _).mpr h)
        intro m hm
        rw [wants_iff, hc] at hm
        cases hm
    | some e =>
      rw [List.filterMap_cons_some hc]
      constructor
      · intro h
        cases h with
        | keep hm h =>
          rw [wants_iff, hc] at hm
          cases hm
          rw [(fmtps_iff o l fs _).mp h]
        | drop hn _ => exact absurd ((wants_iff _ _ _ _).mpr hc) (hn e)
      · rintro rfl
        exact .keep ((wants_iff _ _ _ _).mpr hc) ((fmtps_iff o l fs _).mpr rfl)

theorem fmtp_params_trimmed {o l : Media} {fmt : Str} {e : Nat × Str} (h : wanted o l fmt = some e) :
    e.1 ≤ 127 ∧ trim e.2 = e.2 := by
  have h' := (wants_iff o l fmt e).mpr h
  refine ⟨h'.1.2, ?_⟩
  have key : ∀ as, First (FmtpLine e.1) as e.2 → trim e.2 = e.2 := by
    rintro as ⟨_, a, _, _, ⟨p, rest, _, _, _, _, hs⟩, _⟩
    have ht := hs
    unfold Strips at ht
    have : Strips isWs e.2 e.2 := by
      obtain ⟨a, b, _, _, _, h1, h2⟩ := ht
      exact ⟨[], [], by simp, by simp, by simp, h1, h2⟩
    exact ((strips_trim _ _).mp this).symm
  rcases h'.2 with h | ⟨_, h⟩
  · exact key _ h
  · exact key _ h

/-! ## Packet time -/

theorem valueAttr_iff (key : Str) (as : List Attribute) (v : Str) :
    First (fun a v => a = .value key v) as v ↔ valueAttr key as = some v := by
  rw [first_iff (f := fun a => match a with | .value n v => if n = key then some v else none | .property _ => none)]
  · induction as with
    | nil => exact Iff.rfl
    | cons a as ih =>
      rw [List.findSome?_cons]
      cases a with
      | property n => simpa [valueAttr] using ih
      | value n w =>
        simp only [valueAttr]
        by_cases h : n = key
        · simp [h]
        · simpa [h] using ih
  · intro a x
    cases a with
    | property n => simp
    | value n w =>
      simp only [Attribute.value.injEq]
      constructor
      · rintro ⟨rfl, rfl⟩; simp
      · intro h
        split at h
        · cases h; exact ⟨by assumption, rfl⟩
        · cases h

theorem packetTime_iff (as : List Attribute) (n : Nat) : PacketTime as n ↔ ptime as = some n := by
  unfold PacketTime ptime
  simp only [valueAttr_iff]
  cases h : valueAttr "ptime".toList as with
  | none => simp
  | some v =>
    simp only [Option.some.injEq, exists_eq_left', parseDec_iff]
    constructor
    · rintro ⟨h1, h2⟩; exact ⟨h1, by omega⟩
    · rintro ⟨h1, h2⟩; exact ⟨h1, by omega⟩

/-- The lines for the packet time. -/
def ptimeLines (o l : Media) : List Attribute :=
  match ptime l.attributes with
  | some n => [.value "ptime".toList (showNat n)]
  | none =>
    match ptime o.attributes with
    | some n => [.value "ptime".toList (showNat n)]
    | none => []

theorem ptimeLines_iff (o l : Media) (as : List Attribute) : PtimeLines o l as ↔ ptimeLines o l = as := by
  unfold PtimeLines ptimeLines
  simp only [packetTime_iff]
  cases hl : ptime l.attributes with
  | some n =>
    constructor
    · rintro (⟨m, h | ⟨h, _⟩, rfl⟩ | ⟨h, _⟩)
      · cases h; rfl
      · exact absurd rfl (h n)
      · exact absurd rfl (h n)
    · rintro rfl
      exact Or.inl ⟨n, Or.inl rfl, rfl⟩
  | none =>
    cases ho : ptime o.attributes with
    | some n =>
      constructor
      · rintro (⟨m, h | ⟨_, h⟩, rfl⟩ | ⟨_, h, _⟩)
        · cases h
        · cases h; rfl
        · exact absurd rfl (h n)
      · rintro rfl
        exact Or.inl ⟨n, Or.inr ⟨by simp, rfl⟩, rfl⟩
    | none =>
      constructor
      · rintro (⟨m, h | ⟨_, h⟩, rfl⟩ | ⟨_, _, rfl⟩)
        · cases h
        · cases h
        · rfl
      · rintro rfl
        exact Or.inr ⟨by simp, by simp, rfl⟩

theorem capability_iff (caps : Session) (k : MediaType) (l : Media) : Capability caps k l ↔ caps.findMedia k = some l := by
  unfold Capability Session.findMedia
  rw [first_iff (f := fun m : Media => if m.kind == k then some m else none)]
  · induction caps.media with
    | nil => exact Iff.rfl
    | cons m ms ih =>
      rw [List.findSome?_cons, List.find?_cons]
      cases m.kind == k with
      | true => simp
      | false => simpa using ih
  · intro a x
    constructor
    · rintro ⟨rfl, rfl⟩; simp
    · intro h
      split at h
      · cases h; exact ⟨rfl, by simpa using ‹(a.kind == k) = true›⟩
      · cases h

end Siphon.Sdp
