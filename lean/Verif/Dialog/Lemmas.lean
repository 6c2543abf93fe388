import Verif.Dialog.Spec
import Verif.Base.TextLemmas
import Verif.Base.Strip
import Verif.Core.HeadersGet
/-! Reading of messages: the model against the specification. -/
namespace Siphon.Dlg
open Spec TextSpec HdrSpec

theorem first_iff (hs : Headers) (n : String) (v : Str) : First hs n v ↔ hs.get n.toList = some v :=
  (get_iff hs n.toList v).symm

theorem absent_iff (hs : Headers) (n : String) : Absent hs n ↔ hs.get n.toList = none :=
  (get_none_iff hs n.toList).symm

theorem first_unique {hs : Headers} {n : String} {v w : Str} (h : First hs n v) (h' : First hs n w) : v = w := by
  rw [first_iff] at h h'
  rw [h] at h'
  exact Option.some.inj h'

theorem cseqNumber_iff (hs : Headers) (n : Nat) : cseqNumber hs = some n ↔ CSeqOf hs n := by
  unfold cseqNumber CSeqOf
  constructor
  · intro h
    split at h
    · cases h
    · rename_i v hv
      split at h
      · cases h
      · rename_i w ws hw
        obtain ⟨hd, hn⟩ := (parseDec_iff _ _ _).1 h
        refine ⟨v, w, ws, (first_iff hs "CSeq" v).2 hv, (words_iff _ _).2 hw, hd, ?_⟩
        unfold MAX_U32 at hn
        omega
  · rintro ⟨v, w, ws, hv, hw, hd, hn⟩
    rw [(first_iff hs "CSeq" v).1 hv]
    simp only
    rw [(words_iff _ _).1 hw]
    exact (parseDec_iff _ _ _).2 ⟨hd, by unfold MAX_U32; omega⟩

theorem cseqOf_unique {hs : Headers} {a b : Nat} (ha : CSeqOf hs a) (hb : CSeqOf hs b) : a = b := by
  rw [← cseqNumber_iff] at ha hb
  rw [ha] at hb
  exact Option.some.inj hb

/-! ## Tags -/

theorem sameName_utf8Len {a b : Str} (h : SameName a b) : utf8Len a = utf8Len b := by
  have h := (sameName_iff _ _).1 h
  unfold eqIgnoreCase at h
  rw [beq_iff_eq] at h
  rw [← utf8Len_lower a, ← utf8Len_lower b, h]

theorem tagPiece_iff (p t : Str) :
    TagPiece p t ↔ ∃ a, splitAtByte 4 (trim p) = some (a, t) ∧ eqIgnoreCase a "tag=".toList = true := by
  unfold TagPiece
  constructor
  · rintro ⟨k, hs, hk⟩
    rw [strips_trim] at hs
    refine ⟨k, (splitAtByte_iff _ _ _ _).2 ⟨hs.symm, ?_⟩, (sameName_iff _ _).1 hk⟩
    rw [sameName_utf8Len hk]
    decide
  · rintro ⟨a, hs, hk⟩
    obtain ⟨hs, _⟩ := (splitAtByte_iff _ _ _ _).1 hs
    exact ⟨a, (strips_trim _ _).2 hs.symm, (sameName_iff _ _).2 hk⟩

theorem tagPiece_unique {p t u : Str} (h : TagPiece p t) (h' : TagPiece p u) : t = u := by
  obtain ⟨a, h, _⟩ := (tagPiece_iff _ _).1 h
  obtain ⟨b, h', _⟩ := (tagPiece_iff _ _).1 h'
  rw [h] at h'
  simpa using congrArg (fun x => x.map Prod.snd) h'

theorem utf8Len_append (a b : Str) : utf8Len (a ++ b) = utf8Len a + utf8Len b := by simp [utf8Len]

theorem splitAtByte_len {n : Nat} {s a b : Str} (h : splitAtByte n s = some (a, b)) : n ≤ utf8Len s := by
  obtain ⟨rfl, hl⟩ := (splitAtByte_iff _ _ _ _).1 h
  rw [utf8Len_append]
  omega

theorem tagIn_some (t : Str) : ∀ ps, tagIn ps = .done (some t) →
    ∃ pre p post, ps = pre ++ p :: post ∧ TagPiece p t ∧ ∀ q ∈ pre, ∀ x, ¬ TagPiece q x
  | [], h => by cases h
  | p :: ps, h => by
    unfold tagIn at h
    split at h
    · rename_i hlen
      split at h
      · cases h
      · rename_i a b hsp
        split at h
        · rename_i he
          simp only [Run.done.injEq, Option.some.injEq] at h
          subst h
          exact ⟨[], p, ps, rfl, (tagPiece_iff _ _).2 ⟨a, hsp, he⟩, by simp⟩
        · rename_i he
          obtain ⟨pre, q, post, rfl, hq, hpre⟩ := tagIn_some t ps h
          refine ⟨p :: pre, q, post, rfl, hq, ?_⟩
          intro r hr x hx
          simp only [List.mem_cons] at hr
          rcases hr with rfl | hr
          · obtain ⟨a', h1, h2⟩ := (tagPiece_iff _ _).1 hx
            rw [hsp] at h1
            simp only [Option.some.injEq, Prod.mk.injEq] at h1
            rw [h1.1] at he
            exact he h2
          · exact hpre r hr x hx
    · rename_i hlen
      obtain ⟨pre, q, post, rfl, hq, hpre⟩ := tagIn_some t ps h
      refine ⟨p :: pre, q, post, rfl, hq, ?_⟩
      intro r hr x hx
      simp only [List.mem_cons] at hr
      rcases hr with rfl | hr
      · obtain ⟨a', h1, _⟩ := (tagPiece_iff _ _).1 hx
        exact hlen (splitAtByte_len h1)
      · exact hpre r hr x hx

theorem tagIn_none : ∀ ps, tagIn ps = .done none → ∀ q ∈ ps, ∀ x, ¬ TagPiece q x
  | [], _ => by simp
  | p :: ps, h => by
    intro q hq x hx
    unfold tagIn at h
    split at h
    · split at h
      · cases h
      · rename_i a b hsp
        split at h
        · cases h
        · rename_i he
          simp only [List.mem_cons] at hq
          rcases hq with rfl | hq
          · obtain ⟨a', h1, h2⟩ := (tagPiece_iff _ _).1 hx
            rw [hsp] at h1
            simp only [Option.some.injEq, Prod.mk.injEq] at h1
            rw [h1.1] at he
            exact he h2
          · exact tagIn_none ps h q hq x hx
    · rename_i hlen
      simp only [List.mem_cons] at hq
      rcases hq with rfl | hq
      · obtain ⟨a', h1, _⟩ := (tagPiece_iff _ _).1 hx
        exact hlen (splitAtByte_len h1)
      · exact tagIn_none ps h q hq x hx

/-- A tag that is found is the tag. -/
theorem extractTag_some {v t : Str} (h : extractTag v = .done (some t)) : TagOf v t := by
  obtain ⟨pre, p, post, hs, hp, hpre⟩ := tagIn_some t _ h
  exact ⟨pre, p, post, (pieces_iff _ _ _).2 hs.symm, hp, hpre⟩

theorem extractTag_none {v : Str} (h : extractTag v = .done none) : NoTag v :=
  ⟨_, (pieces_iff _ _ _).2 rfl, tagIn_none _ h⟩

theorem tagOf_unique {v t u : Str} (h : TagOf v t) (h' : TagOf v u) : t = u := by
  obtain ⟨pre, p, post, hp, ht, hpre⟩ := h
  obtain ⟨pre', p', post', hp', ht', hpre'⟩ := h'
  rw [pieces_iff] at hp hp'
  rw [← hp'] at hp
  clear hp'
  induction pre generalizing pre' with
  | nil =>
    cases pre' with
    | nil =>
      simp only [List.nil_append, List.cons.injEq] at hp
      rw [hp.1] at ht
      exact tagPiece_unique ht ht'
    | cons q l =>
      simp only [List.nil_append, List.cons_append, List.cons.injEq] at hp
      rw [hp.1] at ht
      exact absurd ht (hpre' q (by simp) t)
  | cons q l ih =>
    cases pre' with
    | nil =>
      simp only [List.nil_append, List.cons_append, List.cons.injEq] at hp
      rw [← hp.1] at ht'
      exact absurd ht' (hpre q (by simp) u)
    | cons q' l' =>
      simp only [List.cons_append, List.cons.injEq] at hp
      exact ih (fun r hr => hpre r (List.mem_cons_of_mem _ hr)) l' hp.2 (fun r hr => hpre' r (List.mem_cons_of_mem _ hr))

theorem noTag_not {v t : Str} (h : NoTag v) : ¬ TagOf v t := by
  rintro ⟨pre, p, post, hp, ht, _⟩
  obtain ⟨ps, hps, hn⟩ := h
  rw [pieces_iff] at hp hps
  rw [← hps] at hp
  exact hn p (by rw [← hp]; simp) t ht

/-! ## When reading a tag panics -/

theorem tagIn_panic : ∀ ps, tagIn ps = .panic →
    ∃ pre p post, ps = pre ++ p :: post ∧ 4 ≤ utf8Len (trim p) ∧ (∀ a b, trim p = a ++ b → utf8Len a ≠ 4) ∧
      ∀ q ∈ pre, ∀ x, ¬ TagPiece q x
  | [], h => by cases h
  | p :: ps, h => by
    unfold tagIn at h
    split at h
    · rename_i hlen
      split at h
      · rename_i hsp
        refine ⟨[], p, ps, rfl, hlen, ?_, by simp⟩
        intro a b hab hl
        have := (splitAtByte_iff 4 (trim p) a b).2 ⟨hab, hl⟩
        rw [hsp] at this
        cases this
      · rename_i a b hsp
        split at h
        · cases h
        · rename_i he
          obtain ⟨pre, q, post, rfl, h1, h2, hpre⟩ := tagIn_panic ps h
          refine ⟨p :: pre, q, post, rfl, h1, h2, ?_⟩
          intro r hr x hx
          simp only [List.mem_cons] at hr
          rcases hr with rfl | hr
          · obtain ⟨a', h1, h2⟩ := (tagPiece_iff _ _).1 hx
            rw [hsp] at h1
            simp only [Option.some.injEq, Prod.mk.injEq] at h1
            rw [h1.1] at he
            exact he h2
          · exact hpre r hr x hx
    · rename_i hlen
      obtain ⟨pre, q, post, rfl, h1, h2, hpre⟩ := tagIn_panic ps h
      refine ⟨p :: pre, q, post, rfl, h1, h2, ?_⟩
      intro r hr x hx
      simp only [List.mem_cons] at hr
      rcases hr with rfl | hr
      · obtain ⟨a', h1, _⟩ := (tagPiece_iff _ _).1 hx
        exact hlen (splitAtByte_len h1)
      · exact hpre r hr x hx

theorem tagIn_panic_conv : ∀ (pre : List Str) (p : Str) (post : List Str), 4 ≤ utf8Len (trim p) →
    (∀ a b, trim p = a ++ b → utf8Len a ≠ 4) → (∀ q ∈ pre, ∀ x, ¬ TagPiece q x) → tagIn (pre ++ p :: post) = .panic
  | [], p, post, h1, h2, _ => by
    show tagIn (p :: post) = .panic
    unfold tagIn
    rw [if_pos h1]
    cases hsp : splitAtByte 4 (trim p) with
    | none => rfl
    | some x =>
      obtain ⟨a, b⟩ := x
      obtain ⟨hab, hl⟩ := (splitAtByte_iff _ _ _ _).1 hsp
      exact absurd hl (h2 a b hab)
  | q :: pre, p, post, h1, h2, h3 => by
    show tagIn (q :: (pre ++ p :: post)) = .panic
    have ih := tagIn_panic_conv pre p post h1 h2 (fun r hr => h3 r (List.mem_cons_of_mem _ hr))
    unfold tagIn
    split
    · split
      · rfl
      · rename_i a b hsp
        split
        · rename_i he
          exact absurd ((tagPiece_iff _ _).2 ⟨a, hsp, he⟩) (h3 q (by simp) b)
        · exact ih
    · exact ih

theorem ascii_split {s : Str} (h : ∀ c ∈ s, c.toNat < 128) (n : Nat) (hn : n ≤ utf8Len s) :
    ∃ a b, s = a ++ b ∧ utf8Len a = n := by
  induction s generalizing n with
  | nil =>
    simp [utf8Len] at hn
    exact ⟨[], [], rfl, by simp [utf8Len, hn]⟩
  | cons c s ih =>
    have hc : c.utf8Size = 1 := by
      rw [utf8Size_toNat]
      have := h c (by simp)
      rw [if_pos (by omega)]
    cases n with
    | zero => exact ⟨[], c :: s, rfl, rfl⟩
    | succ n =>
      obtain ⟨a, b, rfl, hl⟩ := ih (fun x hx => h x (List.mem_cons_of_mem _ hx)) n (by
        simp only [utf8Len, List.map_cons, List.sum_cons] at hn ⊢
        omega)
      refine ⟨c :: a, b, rfl, ?_⟩
      simp only [utf8Len, List.map_cons, List.sum_cons] at hl ⊢
      omega

theorem mem_trim {c : Char} {s : Str} (h : c ∈ trim s) : c ∈ s := by
  obtain ⟨a, b, hs, _⟩ := (strips_trim s (trim s)).2 rfl
  rw [hs]
  simp [h]

theorem mem_join {c d : Char} {p : Str} : ∀ {ps : List Str}, p ∈ ps → d ∈ p → d ∈ join c ps
  | [], h, _ => by cases h
  | [q], h, hd => by simp at h; subst h; exact hd
  | q :: r :: ps, h, hd => by
    rw [join_cons c q (r :: ps) (by simp)]
    simp only [List.mem_cons] at h
    rcases h with rfl | h
    · simp [hd]
    · have := mem_join (c := c) (ps := r :: ps) (by simpa using h) hd
      simp [this]

theorem extractTag_ascii {v : Str} (h : ∀ c ∈ v, c.toNat < 128) : extractTag v ≠ .panic := by
  intro hp
  obtain ⟨pre, p, post, hs, h1, h2, _⟩ := tagIn_panic _ hp
  have hv := (join_splitChar ';' v).1
  have hmem : ∀ c ∈ trim p, c.toNat < 128 := by
    intro c hc
    apply h
    rw [← hv]
    exact mem_join (p := p) (by rw [hs]; simp) (mem_trim hc)
  obtain ⟨a, b, hab, hl⟩ := ascii_split hmem 4 h1
  exact h2 a b hab hl

theorem headerTag_some {hs : Headers} {n : String} {t : Str} (h : headerTag hs n.toList = .done (some t)) :
    ∃ v, First hs n v ∧ TagOf v t := by
  unfold headerTag at h
  split at h
  · cases h
  · rename_i v hv
    exact ⟨v, (first_iff _ _ _).2 hv, extractTag_some h⟩

theorem headerTag_none {hs : Headers} {n : String} {t : Str} (h : headerTag hs n.toList = .done none) :
    ¬ ∃ v, First hs n v ∧ TagOf v t := by
  rintro ⟨v, hv, ht⟩
  unfold headerTag at h
  rw [(first_iff _ _ _).1 hv] at h
  exact noTag_not (extractTag_none h) ht

theorem headerTag_ascii {hs : Headers} {n : Str} (h : AsciiHeaders hs) : headerTag hs n ≠ .panic := by
  unfold headerTag
  split
  · simp
  · rename_i v hv
    refine extractTag_ascii ?_
    unfold Headers.get Headers.getHeader at hv
    obtain ⟨x, hx, rfl⟩ := Option.map_eq_some_iff.1 hv
    exact h x (List.mem_of_find?_eq_some hx)

/-- An identifier that is read is the one the message names. -/
theorem fromRequest_some {hs : Headers} {i : DialogId} (h : DialogId.fromRequest hs = .done (some i)) :
    Names hs i.callId i.localTag i.remoteTag := by
  unfold DialogId.fromRequest at h
  split at h
  · cases h
  · rename_i c hc
    split at h
    · cases h
    · cases h
    · rename_i f hf
      split at h
      · cases h
      · cases h
      · rename_i t ht
        simp only [Run.done.injEq, Option.some.injEq] at h
        subst h
        exact ⟨(first_iff _ _ _).2 hc, headerTag_some hf, headerTag_some ht⟩

theorem names_unique {hs : Headers} {c f t c' f' t' : Str} (h : Names hs c f t) (h' : Names hs c' f' t') :
    c = c' ∧ f = f' ∧ t = t' := by
  obtain ⟨h1, ⟨v, h2, h3⟩, ⟨w, h4, h5⟩⟩ := h
  obtain ⟨h1', ⟨v', h2', h3'⟩, ⟨w', h4', h5'⟩⟩ := h'
  have e := first_unique h2 h2'
  have e' := first_unique h4 h4'
  subst e e'
  exact ⟨first_unique h1 h1', tagOf_unique h3 h3', tagOf_unique h5 h5'⟩

theorem fromRequest_none {hs : Headers} (h : DialogId.fromRequest hs = .done none) :
    ∀ c f t, ¬ Names hs c f t := by
  rintro c f t ⟨h1, h2, h3⟩
  unfold DialogId.fromRequest at h
  rw [(first_iff _ _ _).1 h1] at h
  simp only at h
  split at h
  · cases h
  · rename_i hf
    exact headerTag_none (n := "From") (t := f) hf h2
  · split at h
    · cases h
    · rename_i hf
      exact headerTag_none (n := "To") (t := t) hf h3
    · cases h

theorem fromRequest_ascii {hs : Headers} (h : AsciiHeaders hs) : DialogId.fromRequest hs ≠ .panic := by
  intro hp
  unfold DialogId.fromRequest at hp
  split at hp
  · cases hp
  · split at hp
    · rename_i hf; exact headerTag_ascii h hf
    · cases hp
    · split at hp
      · rename_i hf; exact headerTag_ascii h hf
      · cases hp
      · cases hp

theorem fromResponseUas_some {hs : Headers} {i : DialogId} (h : DialogId.fromResponseUas hs = .done (some i)) :
    Names hs i.callId i.remoteTag i.localTag := by
  unfold DialogId.fromResponseUas at h
  split at h
  · cases h
  · rename_i c hc
    split at h
    · cases h
    · cases h
    · rename_i t ht
      split at h
      · cases h
      · cases h
      · rename_i f hf
        simp only [Run.done.injEq, Option.some.injEq] at h
        subst h
        exact ⟨(first_iff _ _ _).2 hc, headerTag_some hf, headerTag_some ht⟩

theorem fromResponseUas_none {hs : Headers} (h : DialogId.fromResponseUas hs = .done none) :
    ∀ c f t, ¬ Names hs c f t := by
  rintro c f t ⟨h1, h2, h3⟩
  unfold DialogId.fromResponseUas at h
  rw [(first_iff _ _ _).1 h1] at h
  simp only at h
  split at h
  · cases h
  · rename_i hf
    exact headerTag_none (n := "To") (t := t) hf h3
  · split at h
    · cases h
    · rename_i hf
      exact headerTag_none (n := "From") (t := f) hf h2
    · cases h

theorem fromResponseUas_ascii {hs : Headers} (h : AsciiHeaders hs) : DialogId.fromResponseUas hs ≠ .panic := by
  intro hp
  unfold DialogId.fromResponseUas at hp
  split at hp
  · cases hp
  · split at hp
    · rename_i hf; exact headerTag_ascii h hf
    · cases hp
    · split at hp
      · rename_i hf; exact headerTag_ascii h hf
      · cases hp
      · cases hp

end Siphon.Dlg
