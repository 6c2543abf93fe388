import Verif.Dialog.UacSpec
import Verif.Dialog.PropsMatch
set_option linter.unusedSimpArgs false
namespace Siphon.Dlg
open Spec TextSpec HdrSpec

theorem selects_iff (n : Str) (hs : Headers) (vs : List Str) : Selects n hs.inner vs ↔ vs = hs.getAll n :=
  ⟨fun h => selects_unique h (C24_getAll hs n), fun h => h ▸ C24_getAll hs n⟩

theorem getAll_append (a b : List Header) (n : Str) :
    Headers.getAll ⟨a ++ b⟩ n = Headers.getAll ⟨a⟩ n ++ Headers.getAll ⟨b⟩ n := by
  simp [Headers.getAll]

theorem addAll_inner : ∀ (l : List (String × Str)) (hs hs' : Headers), addAll l hs = .done hs' →
    hs'.inner = hs.inner ++ l.map (fun p => ⟨p.1.toList, p.2⟩)
  | [], hs, hs', h => by simp [addAll] at h; simp [h]
  | (n, v) :: rest, hs, hs', h => by
    unfold addAll at h
    split at h
    · cases h
    · rename_i hs1 h1
      rw [addAll_inner rest _ _ h, C24_push _ _ _ _ h1]
      simp

theorem addAll_ok : ∀ (l : List (String × Str)) (hs : Headers), hs.inner.length + l.length ≤ 200 →
    (∀ p ∈ l, Token p.1.toList ∧ utf8Len p.1.toList ≤ 128 ∧ OneLine p.2 ∧ utf8Len p.2 ≤ 8192) →
    addAll l hs = .done ⟨hs.inner ++ l.map (fun p => ⟨p.1.toList, p.2⟩)⟩
  | [], hs, _, _ => by simp [addAll]
  | (n, v) :: rest, hs, hl, hok => by
    obtain ⟨h1, h2, h3, h4⟩ := hok (n, v) (by simp)
    simp only [List.length_cons] at hl
    unfold addAll
    rw [C24_push_ok hs n.toList v (by unfold Headers.len; omega) h1 h2 h3 h4]
    simp only
    rw [addAll_ok rest _ (by simp; omega) (fun p hp => hok p (by simp [hp]))]
    simp

theorem addAll_panic : ∀ (l : List (String × Str)) (hs : Headers), (∃ p ∈ l, 8192 < utf8Len p.2) → addAll l hs = .panic
  | [], _, h => by simp at h
  | (n, v) :: rest, hs, h => by
    unfold addAll
    split
    · rfl
    · rename_i hs1 h1
      apply addAll_panic rest
      obtain ⟨p, hp, hl⟩ := h
      simp only [List.mem_cons] at hp
      rcases hp with rfl | hp
      · exfalso
        unfold Headers.push at h1
        split at h1
        · cases h1
        · split at h1
          · cases h1
          · rename_i x hx
            have := ((header_new_ok_iff _ _ _).mp hx).2.2.2.2
            simp only at hl
            omega
      · exact ⟨p, hp, hl⟩

/-! ## Addresses -/

theorem trimStart_keep (a : Str) (c : Char) (b : Str) (h : isWs c = false) : trimStart (a ++ c :: b) = trimStart a ++ c :: b := by
  unfold trimStart
  induction a with
  | nil => simp [List.dropWhile_cons, h]
  | cons x a ih =>
    simp only [List.cons_append, List.dropWhile_cons]
    split
    · exact ih
    · rfl

theorem trimEnd_keep (a : Str) (c : Char) (b : Str) (h : isWs c = false) : trimEnd (a ++ c :: b) = a ++ c :: trimEnd b := by
  have := trimStart_keep b.reverse c a.reverse h
  unfold trimStart at this
  unfold trimEnd
  simp only [List.reverse_append, List.reverse_cons, List.append_assoc, List.cons_append, List.nil_append]
  rw [this]
  simp

theorem mem_trimStart {c : Char} {s : Str} (h : c ∈ trimStart s) : c ∈ s := by
  unfold trimStart at h
  exact (List.dropWhile_sublist _).mem h

theorem trim_bracketed (pre x post : Str) :
    trim (pre ++ '<' :: x ++ '>' :: post) = trimStart pre ++ '<' :: x ++ '>' :: trimEnd post := by
  unfold trim
  have e : pre ++ '<' :: x ++ '>' :: post = pre ++ '<' :: (x ++ '>' :: post) := by simp
  rw [e, trimStart_keep pre '<' _ (by decide)]
  have e2 : trimStart pre ++ '<' :: (x ++ '>' :: post) = (trimStart pre ++ '<' :: x) ++ '>' :: post := by simp
  rw [e2, trimEnd_keep _ '>' _ (by decide)]

theorem parseUri_bracketed {pre x post : Str} (h1 : '<' ∉ pre) (h2 : '>' ∉ x) :
    parseUriFromHeader (trim (pre ++ '<' :: x ++ '>' :: post)) = SipUri.parse (trim x) := by
  unfold parseUriFromHeader
  rw [trim_bracketed, trim_bracketed]
  have e : trimStart (trimStart pre) ++ '<' :: x ++ '>' :: trimEnd (trimEnd post) =
      trimStart (trimStart pre) ++ '<' :: (x ++ '>' :: trimEnd (trimEnd post)) := by simp
  rw [e, splitOnce_append '<' _ _ (fun h => h1 (mem_trimStart (mem_trimStart h)))]
  simp only
  rw [splitOnce_append '>' _ _ h2]

/-- Characters that do not end a part. -/
def Quiet (q : Bool) (depth : Nat) (s : Str) : Prop :=
  ∀ c ∈ s, c ≠ '"' ∧ c ≠ '<' ∧ c ≠ '>' ∧ (c = ',' → q = true ∨ depth ≠ 0)

theorem go_quiet (q : Bool) (depth : Nat) (t : Str) : ∀ (s cur : Str), Quiet q depth s →
    splitValuesGo (s ++ t) q depth cur = splitValuesGo t q depth (s.reverse ++ cur)
  | [], cur, _ => by simp
  | c :: s, cur, h => by
    obtain ⟨h1, h2, h3, h4⟩ := h c (by simp)
    simp only [List.cons_append]
    rw [splitValuesGo, if_neg h1, if_neg h2, if_neg h3, if_neg (by
      intro hc
      simp only [Bool.and_eq_true, decide_eq_true_eq, Bool.not_eq_true', beq_iff_eq] at hc
      rcases h4 hc.1.1 with h | h
      · rw [h] at hc; simp at hc
      · exact h hc.2)]
    rw [go_quiet q depth t s (c :: cur) (fun x hx => h x (by simp [hx]))]
    simp

theorem go_lead {pre : Str} (h : Lead pre) (t cur : Str) :
    splitValuesGo (pre ++ t) false 0 cur = splitValuesGo t false 0 (pre.reverse ++ cur) := by
  cases h with
  | plain h => exact go_quiet false 0 t pre cur (fun c hc => ⟨(h c hc).2.2.1, (h c hc).1, (h c hc).2.1, fun e => absurd e (h c hc).2.2.2⟩)
  | @quoted a q b ha hq hb =>
    have e : a ++ '"' :: q ++ '"' :: b ++ t = a ++ ('"' :: (q ++ ('"' :: (b ++ t)))) := by simp
    rw [e, go_quiet false 0 _ a cur (fun c hc => ⟨(ha c hc).2.2.1, (ha c hc).1, (ha c hc).2.1, fun e => absurd e (ha c hc).2.2.2⟩)]
    rw [splitValuesGo, if_pos rfl, go_quiet (!false) 0 _ q _ (fun c hc => ⟨(hq c hc).2.2, (hq c hc).1, (hq c hc).2.1, fun _ => Or.inl rfl⟩)]
    rw [splitValuesGo, if_pos rfl, go_quiet (!!false) 0 _ b _ (fun c hc => ⟨(hb c hc).2.2.1, (hb c hc).1, (hb c hc).2.1, fun e => absurd e (hb c hc).2.2.2⟩)]
    simp

theorem lead_no_angle {pre : Str} (h : Lead pre) : '<' ∉ pre := by
  cases h with
  | plain h => exact fun hm => (h _ hm).1 rfl
  | quoted ha hq hb =>
    intro hm
    simp only [List.mem_append, List.mem_cons] at hm
    rcases hm with (hm | hm | hm) | hm | hm
    · exact (ha _ hm).1 rfl
    · exact absurd hm (by decide)
    · exact (hq _ hm).1 rfl
    · exact absurd hm (by decide)
    · exact (hb _ hm).1 rfl

theorem go_entry {pre x post : Str} (hp : Lead pre) (hx : ∀ c ∈ x, c ≠ '<' ∧ c ≠ '>' ∧ c ≠ '"') (ho : Plain post) (t cur : Str) :
    splitValuesGo (pre ++ '<' :: x ++ '>' :: post ++ t) false 0 cur =
      splitValuesGo t false 0 ((pre ++ '<' :: x ++ '>' :: post).reverse ++ cur) := by
  have e : pre ++ '<' :: x ++ '>' :: post ++ t = pre ++ ('<' :: (x ++ ('>' :: (post ++ t)))) := by simp
  rw [e, go_lead hp]
  rw [splitValuesGo, if_neg (by decide), if_pos rfl]
  rw [go_quiet false (0 + 1) _ x _ (fun c hc => ⟨(hx c hc).2.2, (hx c hc).1, (hx c hc).2.1, fun _ => Or.inr (by omega)⟩)]
  rw [splitValuesGo, if_neg (by decide), if_neg (by decide), if_pos rfl]
  rw [go_quiet false (0 + 1 - 1) _ post _ (fun c hc => ⟨(ho c hc).2.2.1, (ho c hc).1, (ho c hc).2.1, fun e => absurd e (ho c hc).2.2.2⟩)]
  simp

theorem trim_entry_ne (pre x post : Str) : (trim (pre ++ '<' :: x ++ '>' :: post)).isEmpty = false := by
  rw [trim_bracketed]
  cases trimStart pre <;> simp

/-- The parts found in a list of addresses give the bracketed texts. -/
theorem splitValues_addresses {v : Str} {xs : List Str} (h : Addresses v xs) :
    (splitValues v).map parseUriFromHeader = xs.map (fun x => SipUri.parse (trim x)) := by
  unfold splitValues
  induction h with
  | @one pre x post hp hx ho =>
    have := go_entry hp hx ho [] []
    rw [List.append_nil] at this
    rw [this, splitValuesGo]
    simp only [List.append_nil, List.reverse_reverse]
    rw [trim_entry_ne]
    simp only [Bool.false_eq_true, if_false, List.map_cons, List.map_nil]
    rw [parseUri_bracketed (lead_no_angle hp) (fun hm => (hx _ hm).2.1 rfl)]
  | @more pre x post rest xs hp hx ho _ ih =>
    rw [go_entry hp hx ho, splitValuesGo, if_neg (by decide), if_neg (by decide), if_neg (by decide), if_pos (by decide)]
    simp only [List.append_nil, List.reverse_reverse]
    rw [trim_entry_ne]
    simp only [Bool.false_eq_true, if_false, List.map_cons]
    rw [parseUri_bracketed (lead_no_angle hp) (fun hm => (hx _ hm).2.1 rfl), ih]

theorem splitValues_all {vs xs : List Str} (h : AllAddresses vs xs) :
    (vs.flatMap splitValues).map parseUriFromHeader = xs.map (fun x => SipUri.parse (trim x)) := by
  induction h with
  | nil => rfl
  | cons hv _ ih => rw [List.flatMap_cons, List.map_append, splitValues_addresses hv, ih, List.map_append]

theorem areUris_map {xs : List Str} {us : List SipUri} (h : AreUris xs us) :
    xs.map (fun x => SipUri.parse (trim x)) = us.map some := by
  induction h with
  | nil => rfl
  | cons hs hp _ ih => rw [List.map_cons, List.map_cons, ih, ← (strips_trim _ _).1 hs, hp]

/-- What `collectRoutes` makes of parts that are all URIs. -/
theorem collectRoutes_ok : ∀ (vs : List Str) (us acc l : List SipUri), vs.map parseUriFromHeader = us.map some →
    collectRoutes vs acc = .ok l → l = acc ++ us
  | [], us, acc, l, hm, h => by
    cases us with
    | nil => simp [collectRoutes] at h; simp [h]
    | cons => simp at hm
  | v :: vs, us, acc, l, hm, h => by
    cases us with
    | nil => simp at hm
    | cons u us =>
      simp only [List.map_cons, List.cons.injEq] at hm
      unfold collectRoutes at h
      split at h
      · cases h
      · rw [hm.1] at h
        simp only at h
        split at h
        · rw [collectRoutes_ok vs us _ l hm.2 h]
          simp
        · cases h

theorem buildRouteSet_recorded {hs : Headers} {us l : List SipUri} {rev : Bool} (h : Recorded hs us)
    (hb : buildRouteSet hs rev = .ok l) : l = if rev then us.reverse else us := by
  obtain ⟨vs, xs, h1, h2, h3⟩ := h
  unfold buildRouteSet at hb
  rw [← (selects_iff _ _ _).1 h1] at hb
  split at hb
  · cases hb
  · rename_i l' hl
    have := collectRoutes_ok _ us [] l' (by rw [splitValues_all h2, areUris_map h3]) hl
    simp only [List.nil_append] at this
    subst this
    exact (Except.ok.inj hb).symm

theorem assemble_routes {id : DialogId} {st : DState} {t : SipUri} {rs : Except DErr (List SipUri)} {c : Option Nat}
    {se : Option SessionExpires} {l r : SipUri} {b : Bool} {d : Dialog} (h : assemble id st t rs c se l r b = some d) :
    rs = .ok d.routeSet := by
  unfold assemble at h
  repeat' split at h
  all_goals first
    | cases h; rfl
    | cases h

/-! ## Tags -/

theorem tagOf_text {v t : Str} (h : TagOf v t) : TagText t := by
  obtain ⟨pre, p, post, hp, ⟨k, hs, _⟩, _⟩ := h
  rw [pieces_iff] at hp
  have hmem := (join_splitChar ';' v).2 p (by rw [← hp]; simp)
  have ht := (strips_trim _ _).1 hs
  obtain ⟨a, b, he, _, _, _, hb⟩ := hs
  constructor
  · intro hm
    apply hmem
    rw [he]; simp [hm]
  · intro x c hx
    exact hb c (by rw [hx]; simp)

theorem trim_tag {t : Str} (ht : TagText t) : trim ("tag=".toList ++ t) = "tag=".toList ++ t := by
  apply trim_of_trimmed
  constructor
  · intro c hc
    simp at hc
    subst hc
    decide
  · intro c hc
    cases hl : t.getLast? with
    | none =>
      have : t = [] := List.getLast?_eq_none_iff.1 hl
      subst this
      simp at hc
      subst hc
      decide
    | some x =>
      rw [List.getLast?_append, hl] at hc
      simp at hc
      subst hc
      obtain ⟨ys, hys⟩ := List.getLast?_eq_some_iff.1 hl
      exact ht.2 ys x hys

theorem tagOf_mk {s t : Str} (hs : NoTag s) (ht : TagText t) : TagOf (s ++ ";tag=".toList ++ t) t := by
  obtain ⟨ps, hps, hn⟩ := hs
  rw [pieces_iff] at hps
  subst hps
  refine ⟨splitChar ';' s, "tag=".toList ++ t, [], ?_, ?_, hn⟩
  · rw [pieces_iff]
    have hj := (join_splitChar ';' s).1
    have hno : ∀ p ∈ splitChar ';' s ++ ["tag=".toList ++ t], ';' ∉ p := by
      intro p hp
      simp only [List.mem_append, List.mem_singleton] at hp
      rcases hp with hp | rfl
      · exact (join_splitChar ';' s).2 p hp
      · intro hm
        simp at hm
        exact ht.1 hm
    rw [← splitChar_join ';' _ (by simp) hno]
    congr 1
    have : ∀ l : List Str, l ≠ [] → join ';' (l ++ ["tag=".toList ++ t]) = join ';' l ++ ";tag=".toList ++ t := by
      intro l
      induction l with
      | nil => intro h; exact absurd rfl h
      | cons p l ih =>
        intro _
        cases l with
        | nil => simp [join]
        | cons q l =>
          rw [List.cons_append, join_cons ';' p _ (by simp), ih (by simp), join_cons ';' p (q :: l) (by simp)]
          simp
    rw [this _ (splitChar_ne_nil ';' s), hj]
  · refine ⟨"tag=".toList, ?_, sameName_refl _⟩
    rw [strips_trim, trim_tag ht]

end Siphon.Dlg
