import Verif.Uas.ResponseSpec
import Verif.Uas.ResponseLemmas
set_option linter.unusedSimpArgs false
/-!
# A response belongs to its request
-/
namespace Siphon.Uas
open Siphon.Dlg (Dialog DialogId addAll copyHeader angle addAll_inner addAll_ok selects_iff)
open Siphon.Dlg.Spec HdrSpec TextSpec Spec

/-- the further headers, as headers -/
def extra (contact : SipUri) (a : Answer) : List Header := (further contact a).map (fun p => ⟨p.1.toList, p.2⟩)

/-- the CSeq values of an answer -/
def cseqs (rq : Headers) : Answer → List Str
  | .terminated => ((rq.get "CSeq".toList).map (fun v => cseqWord v ++ " INVITE".toList)).toList
  | _ => (rq.get "CSeq".toList).toList

/-- the To values of an answer -/
def tos (rq : Headers) (tag : Str) : Answer → Option Str
  | .reliable c _ _ t _ => (toOf rq c tag).map (fun v => stripTag v ++ ";tag=".toList ++ t)
  | a => toOf rq a.code tag

/-- the Content-Length of an answer -/
def lengthOf (a : Answer) : Str :=
  match bodyOf a with
  | none => "0".toList
  | some s => showNat (utf8Len s)

def bytesOf (a : Answer) : Bytes :=
  match bodyOf a with
  | none => []
  | some s => utf8 s

theorem toOf_idem (rq : Headers) (c : Nat) (tag : Str) (hc : c ≠ 100) : (toOf rq c tag).map (toTagged tag) = toOf rq c tag := by
  unfold toOf
  rw [if_neg hc, Option.map_map]
  congr 1
  funext v
  exact toTagged_idem tag v

theorem framed_ok {contact : SipUri} {rq : Headers} {tag : Str} {b : Option Str} {r : Response}
    (h : createOk contact rq tag b = .done r) :
    Framed rq r (cseqs rq (.ok b)) (tos rq tag (.ok b)).toList (lengthOf (.ok b)) (extra contact (.ok b)) ∧ r.code = 200 ∧
      r.body = bytesOf (.ok b) := by
  simp only [createOk, Run.bind_eq_done] at h
  obtain ⟨r1, h1, r2, h2, r3, h3, h4⟩ := h
  obtain ⟨f1, c1, s1, b1⟩ := framed_create h1
  obtain ⟨f2, c2, s2, b2⟩ := framed_push f1 h2
  obtain ⟨f3, c3, s3, b3⟩ := framed_ensure f2 (by
    intro h hh
    simp only [List.nil_append, List.mem_singleton] at hh
    subst hh
    exact (by decide : ("Contact".toList == "To".toList) = false)) h3
  rw [toOf_idem _ _ _ (by decide)] at f3
  obtain ⟨c4, s4, f4⟩ := framed_sdp f3 h4
  cases b with
  | none => exact ⟨f4.1, by rw [c4, c3, c2, c1], by rw [f4.2, b3, b2, b1]; rfl⟩
  | some s => exact ⟨f4.1, by rw [c4, c3, c2, c1], f4.2⟩

/-- every builder gives exactly these headers -/
theorem framed_build {contact : SipUri} {rq : Headers} {tag : Str} {a : Answer} {r : Response}
    (h : build contact rq tag a = .done (some r)) :
    Framed rq r (cseqs rq a) (tos rq tag a).toList (lengthOf a) (extra contact a) ∧ r.code = a.code ∧ r.body = bytesOf a := by
  cases a with
  | plain c s =>
    simp only [build, Run.bind_eq_done] at h
    obtain ⟨r1, h1, h2⟩ := h
    simp only [Run.done.injEq, Option.some.injEq] at h2
    subst h2
    obtain ⟨f1, c1, s1, b1⟩ := framed_create h1
    exact ⟨f1, c1, b1⟩
  | ok b =>
    simp only [build] at h
    split at h
    · cases h
    · rw [Run.bind_eq_done] at h
      obtain ⟨r1, h1, h2⟩ := h
      simp only [Run.done.injEq, Option.some.injEq] at h2
      subst h2
      exact framed_ok h1
  | timed b v =>
    simp only [build] at h
    split at h
    · cases h
    · rw [Run.bind_eq_done] at h
      obtain ⟨r1, h1, h2⟩ := h
      obtain ⟨f1, c1, b1⟩ := framed_ok h1
      split at h2
      · cases h2
      · rename_i hs1 p1
        split at h2
        · cases h2
        · rename_i hs2 p2
          simp only [Run.done.injEq, Option.some.injEq] at h2
          subst h2
          have e1 := C24_push _ _ _ _ p1
          have e2 := C24_push _ _ _ _ p2
          refine ⟨?_, c1, b1⟩
          unfold Framed at *
          simp only [e2, e1, f1]
          unfold frame
          simp only [List.append_assoc]
          cases b <;> rfl
  | publish e =>
    simp only [build] at h
    split at h
    · cases h
    · rw [Run.bind_eq_done] at h
      obtain ⟨r1, h1, h2⟩ := h
      obtain ⟨f1, c1, s1, b1⟩ := framed_create h1
      cases e with
      | none =>
        simp only [Run.done.injEq, Option.some.injEq] at h2
        subst h2
        exact ⟨f1, c1, b1⟩
      | some v =>
        simp only [Run.bind_eq_done] at h2
        obtain ⟨r2, h2, h3⟩ := h2
        simp only [Run.done.injEq, Option.some.injEq] at h3
        subst h3
        obtain ⟨f2, c2, s2, b2⟩ := framed_push f1 h2
        exact ⟨f2, by rw [c2, c1]; rfl, by rw [b2, b1]; rfl⟩
  | options =>
    simp only [build, Run.bind_eq_done] at h
    obtain ⟨r1, h1, r2, h2, r3, h3, h4⟩ := h
    simp only [Run.done.injEq, Option.some.injEq] at h4
    subst h4
    obtain ⟨f1, c1, s1, b1⟩ := framed_create h1
    obtain ⟨f2, c2, s2, b2⟩ := framed_set_other (by decide) (by simp) f1 h2
    obtain ⟨f3, c3, s3, b3⟩ := framed_set_other (by decide) (by
      intro h hh
      simp only [List.nil_append, List.mem_singleton] at hh
      subst hh
      exact (by decide : eqIgnoreCase "Allow".toList "Accept".toList = false)) f2 h3
    exact ⟨f3, by rw [c3, c2, c1]; rfl, by rw [b3, b2, b1]; rfl⟩
  | terminated =>
    simp only [build, Run.bind_eq_done] at h
    obtain ⟨r1, h1, r2, h2, h3⟩ := h
    obtain ⟨f1, c1, s1, b1⟩ := framed_create h1
    obtain ⟨f2, c2, s2, b2⟩ := framed_ensure f1 (by simp) h2
    rw [toOf_idem _ _ _ (by decide)] at f2
    cases hc : rq.get "CSeq".toList with
    | none =>
      simp only [hc, Run.done.injEq, Option.some.injEq] at h3
      subst h3
      rw [hc] at f2
      refine ⟨?_, by rw [c2, c1]; rfl, by rw [b2, b1]; rfl⟩
      simp only [cseqs, hc]
      exact f2
    | some v =>
      simp only [hc, Run.bind_eq_done] at h3
      obtain ⟨r3, h3, h4⟩ := h3
      simp only [Run.done.injEq, Option.some.injEq] at h4
      subst h4
      rw [hc] at f2
      obtain ⟨f3, c3, s3, b3⟩ := framed_set_cseq f2 h3
      refine ⟨?_, by rw [c3, c2, c1]; rfl, by rw [b3, b2, b1]; rfl⟩
      simp only [cseqs, hc]
      exact f3
  | tooSmall m =>
    simp only [build, Run.bind_eq_done] at h
    obtain ⟨r1, h1, r2, h2, r3, h3, h4⟩ := h
    simp only [Run.done.injEq, Option.some.injEq] at h4
    subst h4
    obtain ⟨f1, c1, s1, b1⟩ := framed_create h1
    obtain ⟨f2, c2, s2, b2⟩ := framed_push f1 h2
    obtain ⟨f3, c3, s3, b3⟩ := framed_ensure f2 (by
      intro h hh
      simp only [List.nil_append, List.mem_singleton] at hh
      subst hh
      exact (by decide : ("Min-SE".toList == "To".toList) = false)) h3
    rw [toOf_idem _ _ _ (by decide)] at f3
    exact ⟨f3, by rw [c3, c2, c1]; rfl, by rw [b3, b2, b1]; rfl⟩
  | refer =>
    simp only [build, Run.bind_eq_done] at h
    obtain ⟨r1, h1, r2, h2, r3, h3, h4⟩ := h
    simp only [Run.done.injEq, Option.some.injEq] at h4
    subst h4
    obtain ⟨f1, c1, s1, b1⟩ := framed_create h1
    obtain ⟨f2, c2, s2, b2⟩ := framed_push f1 h2
    obtain ⟨f3, c3, s3, b3⟩ := framed_ensure f2 (by
      intro h hh
      simp only [List.nil_append, List.mem_singleton] at hh
      subst hh
      exact (by decide : ("Contact".toList == "To".toList) = false)) h3
    rw [toOf_idem _ _ _ (by decide)] at f3
    exact ⟨f3, by rw [c3, c2, c1]; rfl, by rw [b3, b2, b1]; rfl⟩
  | reliable c s n t b =>
    simp only [build] at h
    split at h
    · cases h
    · split at h
      · cases h
      · split at h
        · cases h
        · simp only [Run.bind_eq_done] at h
          obtain ⟨r1, h1, r2, h2, r3, h3, r4, h4, r5, h5, r6, h6, h7⟩ := h
          simp only [Run.done.injEq, Option.some.injEq] at h7
          subst h7
          obtain ⟨f1, c1, s1, b1⟩ := framed_create h1
          obtain ⟨f2, c2, s2, b2⟩ := framed_push f1 h2
          obtain ⟨f3, c3, s3, b3⟩ := framed_push f2 h3
          obtain ⟨f4, c4, s4, b4⟩ := framed_push f3 h4
          obtain ⟨f5, c5, s5, b5⟩ := framed_replace f4 (by
            intro h hh
            simp only [List.nil_append, List.mem_append, List.mem_singleton] at hh
            rcases hh with (rfl | rfl) | rfl
            · exact (by decide : ("RSeq".toList == "To".toList) = false)
            · exact (by decide : ("Require".toList == "To".toList) = false)
            · exact (by decide : ("Contact".toList == "To".toList) = false)) h5
          obtain ⟨c6, s6, f6⟩ := framed_sdp f5 h6
          cases b with
          | none => exact ⟨f6.1, by rw [c6, c5, c4, c3, c2, c1]; rfl, by rw [f6.2, b5, b4, b3, b2, b1]; rfl⟩
          | some s => exact ⟨f6.1, by rw [c6, c5, c4, c3, c2, c1]; rfl, f6.2⟩

theorem getAll_cons (n v m : Str) (l : List Header) :
    Headers.getAll ⟨⟨n, v⟩ :: l⟩ m = (if eqIgnoreCase n m then [v] else []) ++ Headers.getAll ⟨l⟩ m :=
  getAll_named n m [v] l

theorem others_map (l : List (String × Str)) (h : ∀ p ∈ l, Other p.1) :
    Others (l.map (fun p => (⟨p.1.toList, p.2⟩ : Header))) := by
  intro n hn
  induction l with
  | nil => rfl
  | cons p l ih =>
    rw [List.map_cons, getAll_cons, if_neg, ih (fun q hq => h q (by simp [hq]))]
    · rfl
    · have := h p (by simp) n hn
      intro he
      have s := sameName_symm ((sameName_iff _ _).mpr he)
      rw [sameName_iff, this] at s
      cases s

theorem extra_others (contact : SipUri) (a : Answer) : Others (extra contact a) := by
  apply others_map
  have d : ∀ n ∈ ["Contact", "Content-Type", "Session-Expires", "Require", "SIP-ETag", "Allow", "Accept", "Min-SE", "RSeq"], Other n := by
    decide
  have sd : ∀ b, ∀ p ∈ further.sdp b, Other p.1 := by
    intro b p hp
    cases b with
    | none => simp [further.sdp] at hp
    | some s => simp only [further.sdp, List.mem_singleton] at hp; subst hp; exact d _ (by simp)
  intro p hp
  cases a with
  | plain | terminated => simp [further] at hp
  | ok b =>
    simp only [further, List.mem_cons] at hp
    rcases hp with rfl | hp
    · exact d _ (by simp)
    · exact sd b p hp
  | timed b v =>
    simp only [further, List.cons_append, List.mem_cons, List.mem_append, List.mem_singleton, List.not_mem_nil, or_false] at hp
    rcases hp with rfl | hp | rfl | rfl
    · exact d _ (by simp)
    · exact sd b p hp
    · exact d _ (by simp)
    · exact d _ (by simp)
  | publish e =>
    cases e with
    | none => simp [further] at hp
    | some e => simp only [further, List.mem_singleton] at hp; subst hp; exact d _ (by simp)
  | options =>
    simp only [further, List.mem_cons, List.not_mem_nil, or_false] at hp
    rcases hp with rfl | rfl <;> exact d _ (by simp)
  | tooSmall => simp only [further, List.mem_singleton] at hp; subst hp; exact d _ (by simp)
  | refer => simp only [further, List.mem_singleton] at hp; subst hp; exact d _ (by simp)
  | reliable c s n t b =>
    simp only [further, List.mem_cons] at hp
    rcases hp with rfl | rfl | rfl | hp
    · exact d _ (by simp)
    · exact d _ (by simp)
    · exact d _ (by simp)
    · exact sd b p hp

theorem copied_of {rq rs : Headers} {n : String} (h : rs.getAll n.toList = (rq.get n.toList).toList) : Copied rq rs n := by
  constructor
  · intro v hv
    have := (get_iff rq n.toList v).mpr hv
    rw [selects_iff, h, this]
    rfl
  · intro ha
    have := (get_none_iff rq n.toList).mpr ha
    unfold Absent
    rw [selects_iff, h, this]
    rfl

theorem allCopied_of {rq rs : Headers} {n : String} (h : rs.getAll n.toList = rq.getAll n.toList) : AllCopied rq rs n := by
  intro vs
  rw [selects_iff, selects_iff, h]

/-- C85: every response a server builds has the code asked for, all Via and Record-Route values of the request in order,
and its From and Call-ID; and its CSeq, except for the response to the INVITE made from a CANCEL. -/
theorem C85_belongs (contact : SipUri) (rq : Headers) (tag : Str) (a : Answer) (r : Response)
    (h : build contact rq tag a = .done (some r)) :
    r.code = a.code ∧ Belongs rq r.headers ∧ (a ≠ .terminated → Copied rq r.headers "CSeq") := by
  obtain ⟨f, c, _⟩ := framed_build h
  obtain ⟨h1, h2, h3, h4, h5, h6, h7⟩ := framed_base f (extra_others _ _)
  refine ⟨c, ⟨allCopied_of h1, allCopied_of h6, copied_of h2, copied_of h3⟩, fun ha => copied_of ?_⟩
  rw [h4]
  cases a <;> first | rfl | exact absurd rfl ha

/-- C85: the response to the INVITE made from its CANCEL carries the number of the CANCEL, which is that of the INVITE,
and the method INVITE. -/
theorem C85_terminated (contact : SipUri) (rq : Headers) (tag : Str) (r : Response) (v w : Str) (ws : List Str)
    (h : build contact rq tag .terminated = .done (some r)) (hv : First rq "CSeq" v) (hw : Words v (w :: ws)) :
    Selects "CSeq".toList r.headers.inner [w ++ " INVITE".toList] := by
  obtain ⟨f, _, _⟩ := framed_build h
  obtain ⟨_, _, _, h4, _⟩ := framed_base f (extra_others _ _)
  have hg := (get_iff rq "CSeq".toList v).mpr hv
  rw [words_iff] at hw
  rw [selects_iff, h4]
  simp only [cseqs, hg, Option.map_some, Option.toList_some]
  unfold cseqWord
  rw [hw]


theorem splitChar_mid (c : Char) (a b : Str) : splitChar c (a ++ c :: b) = splitChar c a ++ splitChar c b := by
  have hj := join_splitChar c a
  have hb := join_splitChar c b
  have hno : ∀ p ∈ splitChar c a ++ splitChar c b, c ∉ p := by
    intro p hp
    rcases List.mem_append.mp hp with hp | hp
    · exact hj.2 p hp
    · exact hb.2 p hp
  rw [← splitChar_join c _ (by simp [splitChar_ne_nil]) hno]
  congr 1
  have key : ∀ l : List Str, l ≠ [] → join c (l ++ splitChar c b) = join c l ++ c :: b := by
    intro l
    induction l with
    | nil => intro h; exact absurd rfl h
    | cons p l ih =>
      intro _
      cases l with
      | nil =>
        rw [List.singleton_append, join_cons c p _ (splitChar_ne_nil c b), hb.1]
        simp [join]
      | cons q l =>
        rw [List.cons_append, join_cons c p _ (by simp), ih (by simp), join_cons c p (q :: l) (by simp)]
        simp
  rw [key _ (splitChar_ne_nil c a), hj.1]

theorem splitChar_lead (c : Char) (a b : Str) (h : c ∉ a) : ∃ p ps, splitChar c b = p :: ps ∧ splitChar c (a ++ b) = (a ++ p) :: ps := by
  induction a with
  | nil =>
    cases hs : splitChar c b with
    | nil => exact absurd hs (splitChar_ne_nil c b)
    | cons p ps => exact ⟨p, ps, rfl, by simp [hs]⟩
  | cons x xs ih =>
    simp only [List.mem_cons, not_or] at h
    obtain ⟨p, ps, h1, h2⟩ := ih h.2
    refine ⟨p, ps, h1, ?_⟩
    simp only [List.cons_append, splitChar, if_neg (Ne.symm h.1), h2]

theorem tagPiece_mk (p : Str) : ∃ x, TagPiece ("tag=".toList ++ p) x := by
  refine ⟨trimEnd p, "tag=".toList, ?_, sameName_refl _⟩
  rw [strips_trim]
  have e : "tag=".toList ++ p = "tag".toList ++ '=' :: p := rfl
  have e2 : trimStart ("tag=".toList ++ p) = "tag=".toList ++ p := by
    show List.dropWhile isWs ('t' :: _) = _
    rw [List.dropWhile_cons_of_neg (by decide)]
    rfl
  unfold trim
  rw [e2, e, Dlg.trimEnd_keep _ _ _ (by decide)]
  rfl

theorem noTag_no_text {v : Str} (h : NoTag v) : ¬ Contains v ";tag=".toList := by
  rintro ⟨a, b, rfl⟩
  obtain ⟨ps, hps, hn⟩ := h
  rw [pieces_iff] at hps
  have e : a ++ ";tag=".toList ++ b = a ++ ';' :: ("tag=".toList ++ b) := by simp
  obtain ⟨p, qs, _, h2⟩ := splitChar_lead ';' "tag=".toList b (by decide)
  rw [e, splitChar_mid, h2] at hps
  obtain ⟨x, hx⟩ := tagPiece_mk p
  exact hn _ (by rw [hps]; simp) x hx

theorem tagOf_more {v t : Str} (x : Str) (h : TagOf v t) : TagOf (v ++ ";tag=".toList ++ x) t := by
  obtain ⟨pre, p, post, hp, ht, hn⟩ := h
  rw [pieces_iff] at hp
  refine ⟨pre, p, post ++ splitChar ';' ("tag=".toList ++ x), ?_, ht, hn⟩
  rw [pieces_iff]
  have e : v ++ ";tag=".toList ++ x = v ++ ';' :: ("tag=".toList ++ x) := by simp
  rw [e, splitChar_mid, ← hp]
  simp

theorem tagged_toTagged (v tag : Str) : Tagged v tag (toTagged tag v) := by
  have iff : (cutAt ";tag=".toList v).isSome = true ↔ Contains v ";tag=".toList := cutAt_isSome semitag_ne v
  by_cases h : Contains v ";tag=".toList
  · have e : toTagged tag v = v := by unfold toTagged; rw [if_pos (iff.mpr h)]
    rw [e]
    exact ⟨fun _ => rfl, fun n => absurd h n, fun t ht => ht, fun hn => absurd h (noTag_no_text hn)⟩
  · have e : toTagged tag v = v ++ ";tag=".toList ++ tag := by unfold toTagged; rw [if_neg (fun x => h (iff.mp x))]
    rw [e]
    exact ⟨fun n => absurd n h, fun _ => rfl, fun t ht => tagOf_more tag ht, fun hn ht => Dlg.tagOf_mk hn ht⟩

/-- C85: except in a 100 Trying, the To of the response is the To of the request, with a tag added if it has none; the
tag read in the request is the tag read in the response.  (For reliable provisional responses see `C87_reliable`.) -/
theorem C85_to (contact : SipUri) (rq : Headers) (tag : Str) (a : Answer) (r : Response) (v : Str)
    (h : build contact rq tag a = .done (some r)) (ha : ∀ c s n t b, a ≠ .reliable c s n t b) (hc : a.code ≠ 100)
    (hv : First rq "To" v) : ∃ v', Selects "To".toList r.headers.inner [v'] ∧ Tagged v tag v' := by
  obtain ⟨f, _, _⟩ := framed_build h
  obtain ⟨_, _, _, _, h5, _⟩ := framed_base f (extra_others _ _)
  have hg := (get_iff rq "To".toList v).mpr hv
  refine ⟨toTagged tag v, ?_, tagged_toTagged v tag⟩
  rw [selects_iff, h5]
  have : tos rq tag a = toOf rq a.code tag := by
    cases a <;> first | rfl | exact absurd rfl (ha _ _ _ _ _)
  rw [this, toOf, if_neg hc, hg]
  rfl

/-- C85: a 100 Trying has the To of the request unchanged, and a response to a request without a To has none. -/
theorem C85_to_plain (contact : SipUri) (rq : Headers) (tag : Str) (a : Answer) (r : Response)
    (h : build contact rq tag a = .done (some r)) :
    (∀ s v, a = .plain 100 s → First rq "To" v → Selects "To".toList r.headers.inner [v]) ∧
    (Absent rq "To" → Absent r.headers "To") := by
  obtain ⟨f, _, _⟩ := framed_build h
  obtain ⟨_, _, _, _, h5, _⟩ := framed_base f (extra_others _ _)
  constructor
  · rintro s v rfl hv
    have hg := (get_iff rq "To".toList v).mpr hv
    rw [selects_iff, h5]
    have : toOf rq 100 tag = rq.get "To".toList := if_pos rfl
    show [v] = (toOf rq 100 tag).toList
    rw [this, hg]
    rfl
  · intro ha
    have hg := (get_none_iff rq "To".toList).mpr ha
    unfold Absent
    rw [selects_iff, h5]
    have : ∀ c, toOf rq c tag = none := by
      intro c
      unfold toOf
      rw [hg]
      split <;> rfl
    cases a <;> simp [tos, this]

/-- C85: the body is the one given, with its length in bytes as the only Content-Length; of the other headers the
response has exactly those the kind of answer asks for. -/
theorem C85_rest (contact : SipUri) (rq : Headers) (tag : Str) (a : Answer) (r : Response)
    (h : build contact rq tag a = .done (some r)) :
    (match bodyOf a with
      | none => r.body = [] ∧ Selects "Content-Length".toList r.headers.inner ["0".toList]
      | some s => r.body = utf8 s ∧ ∃ w, Selects "Content-Length".toList r.headers.inner [w] ∧ Decimal w (utf8 s).length) ∧
    ∀ n vs, (∀ m ∈ usual, ¬ SameName n m.toList) →
      (Selects n r.headers.inner vs ↔ Selects n ((further contact a).map (fun p => ⟨p.1.toList, p.2⟩)) vs) := by
  obtain ⟨f, _, hb⟩ := framed_build h
  obtain ⟨_, _, _, _, _, _, h7⟩ := framed_base f (extra_others _ _)
  constructor
  · unfold lengthOf at h7
    unfold bytesOf at hb
    cases hc : bodyOf a with
    | none =>
      rw [hc] at h7 hb
      exact ⟨hb, (selects_iff _ _ _).mpr h7.symm⟩
    | some s =>
      rw [hc] at h7 hb
      exact ⟨hb, _, (selects_iff _ _ _).mpr h7.symm, by rw [length_utf8]; exact Dlg.decimal_showNat _⟩
  · intro n vs hn
    have e : r.headers = ⟨frame rq (cseqs rq a) (tos rq tag a).toList (lengthOf a) (extra contact a)⟩ := by
      unfold Framed at f
      rw [← f]
    have hs : Selects n ((further contact a).map (fun p => (⟨p.1.toList, p.2⟩ : Header))) vs ↔ vs = Headers.getAll ⟨extra contact a⟩ n :=
      selects_iff n ⟨extra contact a⟩ vs
    rw [hs, selects_iff, e, getAll_frame]
    have no : ∀ m ∈ usual, eqIgnoreCase m.toList n = false := by
      intro m hm
      rw [Bool.eq_false_iff]
      intro he
      exact hn m hm (sameName_symm ((sameName_iff _ _).mpr he))
    rw [no "Via" (by decide), no "From" (by decide), no "Call-ID" (by decide), no "CSeq" (by decide), no "To" (by decide),
      no "Record-Route" (by decide), no "Content-Length" (by decide)]
    simp

/-! ## Tags -/

theorem stripTag_mk (v x post : Str) (hv : ¬ Contains v ";tag=".toList) (hx : ';' ∉ x) (hp : post = [] ∨ ∃ q, post = ';' :: q) :
    stripTag (v ++ ";tag=".toList ++ x ++ post) = v ++ post := by
  have hs : (cutAt ";tag=".toList (v ++ ";tag=".toList ++ x ++ post)).isSome = true :=
    (cutAt_isSome semitag_ne _).mpr ⟨v, x ++ post, by simp⟩
  obtain ⟨⟨a, b⟩, hc⟩ := Option.isSome_iff_exists.mp hs
  obtain ⟨h1, h2⟩ := cutAt_some semitag_ne hc
  have hle := h2 v (x ++ post) (by simp)
  have hpre : a <+: v := by
    have h3 : a <+: v ++ (";tag=".toList ++ x ++ post) := ⟨";tag=".toList ++ b, by rw [← List.append_assoc, ← h1]; simp⟩
    exact List.prefix_of_prefix_length_le h3 (List.prefix_append _ _) hle
  have ha : a = v := by
    obtain ⟨w, rfl⟩ := hpre
    cases w with
    | nil => simp
    | cons c w =>
      exfalso
      have h4 : (c :: w) ++ (";tag=".toList ++ (x ++ post)) = ";tag=".toList ++ b := by
        apply List.append_cancel_left (as := a)
        rw [← List.append_assoc a ";tag=".toList b, ← h1]
        simp
      rcases w with _ | ⟨c1, _ | ⟨c2, _ | ⟨c3, _ | ⟨c4, w⟩⟩⟩⟩
      · simp at h4
      · simp at h4
      · simp at h4
      · simp at h4
      · simp at h4
        obtain ⟨rfl, rfl, rfl, rfl, rfl, _⟩ := h4
        exact hv ⟨a, w, by simp⟩
  subst ha
  have hb : b = x ++ post := by
    apply List.append_cancel_left (as := a ++ ";tag=".toList)
    rw [← h1]
    simp
  unfold stripTag
  rw [hc]
  simp only [hb]
  rcases hp with rfl | ⟨q, rfl⟩
  · rw [List.append_nil, splitOnce_none _ _ hx]
    simp
  · rw [splitOnce_append _ _ _ hx]

/-- C87: a reliable provisional response outside a dialog carries the tag of the dialog it was made for: its To is the
one of the request with that tag. -/
theorem C87_reliable (contact : SipUri) (rq : Headers) (tag : Str) (c : Nat) (s : Str) (n : Nat) (t : Str) (b : Option Str)
    (r : Response) (v : Str) (h : build contact rq tag (.reliable c s n t b) = .done (some r)) (hv : First rq "To" v)
    (hn : NoTag v) (ht : TagText t) (hg : ';' ∉ tag) :
    Selects "To".toList r.headers.inner [v ++ ";tag=".toList ++ t] ∧ TagOf (v ++ ";tag=".toList ++ t) t := by
  obtain ⟨f, _, _⟩ := framed_build h
  obtain ⟨_, _, _, _, h5, _⟩ := framed_base f (extra_others _ _)
  have hget := (get_iff rq "To".toList v).mpr hv
  have hno := noTag_no_text hn
  refine ⟨?_, Dlg.tagOf_mk hn ht⟩
  rw [selects_iff, h5]
  have e : ∃ u, toOf rq c tag = some u ∧ stripTag u = v := by
    unfold toOf
    rw [hget]
    split
    · refine ⟨v, rfl, ?_⟩
      unfold stripTag
      rw [(cutAt_none semitag_ne).mpr (fun a b hab => hno ⟨a, b, hab⟩)]
    · refine ⟨toTagged tag v, rfl, ?_⟩
      rw [(tagged_toTagged v tag).added hno]
      have := stripTag_mk v tag [] hno hg (Or.inl rfl)
      simpa using this
  obtain ⟨u, h1, h2⟩ := e
  simp only [tos, h1, Option.map_some, Option.toList_some, h2]

/-- C87, inside a dialog: the tag in the To is replaced by that of the dialog, at the end; other parameters stay. -/
theorem C87_reliable_again (contact : SipUri) (rq : Headers) (tag : Str) (c : Nat) (s : Str) (n : Nat) (t : Str) (b : Option Str)
    (r : Response) (v x post : Str) (h : build contact rq tag (.reliable c s n t b) = .done (some r))
    (hv : First rq "To" (v ++ ";tag=".toList ++ x ++ post)) (hn : ¬ Contains v ";tag=".toList) (hx : ';' ∉ x)
    (hp : post = [] ∨ ∃ q, post = ';' :: q) :
    Selects "To".toList r.headers.inner [v ++ post ++ ";tag=".toList ++ t] := by
  obtain ⟨f, _, _⟩ := framed_build h
  obtain ⟨_, _, _, _, h5, _⟩ := framed_base f (extra_others _ _)
  have hget := (get_iff rq "To".toList _).mpr hv
  rw [selects_iff, h5]
  have e : toOf rq c tag = some (v ++ ";tag=".toList ++ x ++ post) := by
    unfold toOf
    rw [hget]
    split
    · rfl
    · rw [Option.map_some, (tagged_toTagged _ tag).kept ⟨v, x ++ post, by simp⟩]
  simp only [tos, e, Option.map_some, Option.toList_some, stripTag_mk v x post hn hx hp]

/-- C87 fails in full: every response that is not built for a dialog has a tag of its own.  Two answers to one INVITE
without a To tag (say 180 and 200) carry different tags whenever the generated tags differ. -/
theorem C87_fresh_tags (contact : SipUri) (rq : Headers) (tag tag' : Str) (a a' : Answer) (r r' : Response) (v : Str)
    (h : build contact rq tag a = .done (some r)) (h' : build contact rq tag' a' = .done (some r'))
    (ha : ∀ c s n t b, a ≠ .reliable c s n t b) (ha' : ∀ c s n t b, a' ≠ .reliable c s n t b)
    (hc : a.code ≠ 100) (hc' : a'.code ≠ 100) (hv : First rq "To" v) (hn : NoTag v) (ht : TagText tag) (ht' : TagText tag') :
    ∃ w w', First r.headers "To" w ∧ First r'.headers "To" w' ∧ TagOf w tag ∧ TagOf w' tag' := by
  obtain ⟨w, h1, h2⟩ := C85_to contact rq tag a r v h ha hc hv
  obtain ⟨w', h3, h4⟩ := C85_to contact rq tag' a' r' v h' ha' hc' hv
  exact ⟨w, w', ⟨[], h1⟩, ⟨[], h3⟩, h2.new hn ht, h4.new hn ht'⟩

/-! ## Examples and counterexamples -/

/-- headers from texts -/
def hdrs (l : List (String × String)) : Headers := ⟨l.map (fun p => ⟨p.1.toList, p.2.toList⟩)⟩

/-- an INVITE that came through a proxy -/
def inviteHeaders : Headers := hdrs [("Via", "SIP/2.0/UDP proxy;branch=z9hG4bK2"), ("v", "x"), ("Via", "SIP/2.0/UDP client;branch=z9hG4bK1"),
  ("Record-Route", "<sip:proxy;lr>"), ("from", "<sip:a@h>;tag=1"), ("To", "<sip:b@h>"), ("Call-ID", "c1"), ("CSeq", "7 INVITE"), ("Contact", "<sip:a@client>")]

def me : SipUri := ⟨"sip:b@h".toList, false, some "b".toList, "h".toList, none, [], []⟩

/-- the built response, if any -/
def built (x : Run (Option Response)) : Option (Nat × List (String × String) × Nat) :=
  match x with
  | .done (some r) => some (r.code, r.headers.inner.map (fun h => (String.ofList h.name, String.ofList h.value)), r.body.length)
  | _ => none

example : built (build me inviteHeaders "t1".toList (.plain 180 "Ringing".toList)) =
    some (180, [("Via", "SIP/2.0/UDP proxy;branch=z9hG4bK2"), ("Via", "SIP/2.0/UDP client;branch=z9hG4bK1"), ("From", "<sip:a@h>;tag=1"),
      ("Call-ID", "c1"), ("CSeq", "7 INVITE"), ("To", "<sip:b@h>;tag=t1"), ("Record-Route", "<sip:proxy;lr>"), ("Content-Length", "0")], 0) := by
  decide +kernel
example : built (build me inviteHeaders "t2".toList (.ok (some "v=0".toList))) =
    some (200, [("Via", "SIP/2.0/UDP proxy;branch=z9hG4bK2"), ("Via", "SIP/2.0/UDP client;branch=z9hG4bK1"), ("From", "<sip:a@h>;tag=1"),
      ("Call-ID", "c1"), ("CSeq", "7 INVITE"), ("To", "<sip:b@h>;tag=t2"), ("Record-Route", "<sip:proxy;lr>"), ("Content-Length", "3"),
      ("Contact", "<sip:b@h>"), ("Content-Type", "application/sdp")], 3) := by
  decide +kernel
example : built (build me inviteHeaders "t2".toList (.reliable 183 "Session Progress".toList 9 "dlg".toList none)) =
    some (183, [("Via", "SIP/2.0/UDP proxy;branch=z9hG4bK2"), ("Via", "SIP/2.0/UDP client;branch=z9hG4bK1"), ("From", "<sip:a@h>;tag=1"),
      ("Call-ID", "c1"), ("CSeq", "7 INVITE"), ("To", "<sip:b@h>;tag=dlg"), ("Record-Route", "<sip:proxy;lr>"), ("Content-Length", "0"),
      ("RSeq", "9"), ("Require", "100rel"), ("Contact", "<sip:b@h>")], 0) := by
  decide +kernel
/-- C85 fails in full: a tag written `;Tag=` is not noticed, and a second one is added. -/
theorem C85_two_tags : (built (build me (hdrs [("To", "<sip:b@h>;Tag=7")]) "t1".toList (.plain 200 "OK".toList))).map (·.2.1) =
    some [("To", "<sip:b@h>;Tag=7;tag=t1"), ("Content-Length", "0")] := by decide +kernel

/-- C85 fails in full: `;tag=` inside the URI is taken for the tag, and none is added. -/
theorem C85_tag_in_uri : (built (build me (hdrs [("To", "<sip:b@h;tag=7>")]) "t1".toList (.plain 200 "OK".toList))).map (·.2.1) =
    some [("To", "<sip:b@h;tag=7>"), ("Content-Length", "0")] := by decide +kernel

/-- C85 fails for the response to a cancelled INVITE: it is made from the CANCEL, which has only the Via of the last
proxy, so the Vias of the INVITE that lead further back to the caller are lost, and so is its Record-Route. -/
theorem C85_cancel_vias : (built (build me (hdrs [("Via", "SIP/2.0/UDP proxy;branch=z9hG4bK2"), ("From", "<sip:a@h>;tag=1"), ("To", "<sip:b@h>"),
      ("Call-ID", "c1"), ("CSeq", "7 CANCEL")]) "t1".toList .terminated)).map (·.2.1) =
    some [("Via", "SIP/2.0/UDP proxy;branch=z9hG4bK2"), ("From", "<sip:a@h>;tag=1"), ("Call-ID", "c1"), ("CSeq", "7 INVITE"),
      ("To", "<sip:b@h>;tag=t1"), ("Content-Length", "0")] ∧
    inviteHeaders.getAll "Via".toList = ["SIP/2.0/UDP proxy;branch=z9hG4bK2".toList, "SIP/2.0/UDP client;branch=z9hG4bK1".toList] := by
  decide +kernel

end Siphon.Uas
