import Verif.Bridge.Spec
import Verif.Dialog.Lemmas
import Verif.Dialog.UacLemmas
import Verif.Uas.ResponseLemmas
import Verif.Uas.CrashProps
import Verif.Proxy.PropsCancel
/-! Lemmas for the back-to-back user agent. -/
namespace Siphon.Bridge
open HdrSpec TextSpec Spec
open Siphon.Dlg (Dialog DialogId Mgr copyHeader first_iff absent_iff)
open Siphon.Dlg.Spec (First Absent)
open Siphon.Sub (pushQuiet)

/-! ## Texts -/

theorem toTag_some (v t : Str) : toTag v = some t ↔ LowTag v t := by
  unfold toTag LowTag
  rw [Proxy.findPrefixed_iff]
  constructor
  · rintro ⟨pre, p, post, e, h1, h2⟩
    refine ⟨pre, p, post, (pieces_iff _ _ _).mpr e.symm, (strips_trim _ _).mpr h1.symm, ?_⟩
    intro y hy z hz
    exact h2 y hy z ((strips_trim _ _).mp hz).symm
  · rintro ⟨pre, p, post, h0, h1, h2⟩
    refine ⟨pre, p, post, ((pieces_iff _ _ _).mp h0).symm, ((strips_trim _ _).mp h1).symm, ?_⟩
    intro y hy z hz
    exact h2 y hy z ((strips_trim _ _).mpr hz.symm)

theorem toTag_none (v : Str) : toTag v = none ↔ NoLowTag v := by
  unfold toTag NoLowTag
  rw [Proxy.findPrefixed_none]
  constructor
  · intro h
    refine ⟨_, (pieces_iff _ _ _).mpr rfl, ?_⟩
    intro y hy z hz
    exact h y hy z ((strips_trim _ _).mp hz).symm
  · rintro ⟨ps, h0, h1⟩
    rw [← (pieces_iff _ _ _).mp h0]
    intro y hy z hz
    exact h1 y hy z ((strips_trim _ _).mpr hz.symm)

theorem calleeTag_some (r : Response) (t : Str) : (r.headers.get "To".toList).bind toTag = some t ↔ CalleeTag r t := by
  unfold CalleeTag
  cases h : r.headers.get "To".toList with
  | none =>
    simp only [Option.bind_none, reduceCtorEq, false_iff]
    rintro ⟨v, hv, _⟩
    rw [first_iff, h] at hv
    cases hv
  | some v =>
    simp only [Option.bind_some]
    rw [toTag_some]
    constructor
    · intro ht; exact ⟨v, (first_iff _ _ _).mpr h, ht⟩
    · rintro ⟨w, hw, ht⟩
      rw [first_iff, h] at hw
      cases hw
      exact ht

theorem calleeTag_none (r : Response) : (r.headers.get "To".toList).bind toTag = none ↔ NoCalleeTag r := by
  unfold NoCalleeTag
  cases h : r.headers.get "To".toList with
  | none =>
    simp only [Option.bind_none, true_iff]
    exact .inl ((absent_iff _ _).mpr h)
  | some v =>
    simp only [Option.bind_some]
    rw [toTag_none]
    constructor
    · intro ht; exact .inr ⟨v, (first_iff _ _ _).mpr h, ht⟩
    · rintro (hn | ⟨w, hw, ht⟩)
      · rw [absent_iff, h] at hn; cases hn
      · rw [first_iff, h] at hw
        cases hw
        exact ht

/-! ## Headers that are put together -/

/-- the headers for names and values -/
def mk (l : List (String × Str)) : List Header := l.map (fun p => ⟨p.1.toList, p.2⟩)

/-- a name the bridge writes -/
def GoodName (n : String) : Prop := Token n.toList ∧ utf8Len n.toList ≤ 128

theorem pushQuiet_ok {hs : Headers} {n : String} {v : Str} (hl : hs.inner.length < 200) (hn : GoodName n) (hv : Fits v) :
    (pushQuiet hs n v).inner = hs.inner ++ [⟨n.toList, v⟩] := by
  unfold pushQuiet
  rw [C24_push_ok hs n.toList v hl hn.1 hn.2 hv.1 hv.2]

theorem putAll_ok : ∀ (l : List (String × Str)) (hs : Headers), hs.inner.length + l.length ≤ 200 →
    (∀ p ∈ l, GoodName p.1 ∧ Fits p.2) → (putAll l hs).inner = hs.inner ++ mk l
  | [], hs, _, _ => by simp [putAll, mk]
  | (n, v) :: l, hs, hl, hg => by
    have hp := hg (n, v) (by simp)
    simp only [List.length_cons] at hl
    have h1 := pushQuiet_ok (hs := hs) (by omega) hp.1 hp.2
    unfold putAll
    rw [putAll_ok l _ (by rw [h1]; simp; omega) (fun p hp => hg p (by simp [hp])), h1]
    simp [mk]

theorem putAll_append : ∀ (a b : List (String × Str)) (hs : Headers), putAll (a ++ b) hs = putAll b (putAll a hs)
  | [], _, _ => rfl
  | (n, v) :: a, b, hs => by
    show putAll (a ++ b) (pushQuiet hs n v) = _
    rw [putAll_append a b]
    rfl

theorem copies_iff (hs : Headers) : ∀ (ns : List String) (l : List (String × Str)),
    Copies hs ns l ↔ l = ns.flatMap (copyHeader hs)
  | [], l => by
    constructor
    · intro h; cases h; rfl
    · intro h; subst h; exact .nil
  | n :: ns, l => by
    simp only [List.flatMap_cons]
    constructor
    · intro h
      cases h with
      | there h1 h2 =>
        rw [first_iff] at h1
        rw [copyHeader, h1, (copies_iff hs ns _).mp h2]
        rfl
      | absent h1 h2 =>
        rw [absent_iff] at h1
        rw [copyHeader, h1, (copies_iff hs ns _).mp h2]
        rfl
    · intro h
      subst h
      cases hg : hs.get n.toList with
      | none =>
        rw [copyHeader, hg]
        exact .absent ((absent_iff _ _).mpr hg) ((copies_iff hs ns _).mpr rfl)
      | some v =>
        rw [copyHeader, hg]
        exact .there ((first_iff _ _ _).mpr hg) ((copies_iff hs ns _).mpr rfl)

theorem get_fits {hs : Headers} (h : ∀ x ∈ hs.inner, Fits x.value) {n v : Str} (hg : hs.get n = some v) : Fits v := by
  unfold Headers.get Headers.getHeader at hg
  cases hf : hs.inner.find? (·.nameEq n) with
  | none => rw [hf] at hg; cases hg
  | some x =>
    rw [hf] at hg
    cases hg
    exact h x (List.mem_of_find?_eq_some hf)

theorem getAll_fits {hs : Headers} (h : ∀ x ∈ hs.inner, Fits x.value) {n v : Str} (hg : v ∈ hs.getAll n) : Fits v := by
  unfold Headers.getAll at hg
  obtain ⟨x, hx, rfl⟩ := List.mem_map.mp hg
  exact h x (List.mem_filter.mp hx).1

theorem getAll_length (hs : Headers) (n : Str) : (hs.getAll n).length ≤ hs.inner.length := by
  unfold Headers.getAll
  rw [List.length_map]
  exact List.length_filter_le _ _

theorem copyHeader_ok {hs : Headers} (h : ∀ x ∈ hs.inner, Fits x.value) {n : String} (hn : GoodName n) :
    (copyHeader hs n).length ≤ 1 ∧ ∀ p ∈ copyHeader hs n, p.1 = n ∧ GoodName p.1 ∧ Fits p.2 := by
  unfold copyHeader
  cases hg : hs.get n.toList with
  | none => simp
  | some v =>
    refine ⟨by simp, ?_⟩
    intro p hp
    simp only [List.mem_singleton] at hp
    subst hp
    exact ⟨rfl, hn, get_fits h hg⟩

theorem flat_ok {hs : Headers} (h : ∀ x ∈ hs.inner, Fits x.value) : ∀ (ns : List String), (∀ n ∈ ns, GoodName n) →
    (ns.flatMap (copyHeader hs)).length ≤ ns.length ∧
      ∀ p ∈ ns.flatMap (copyHeader hs), p.1 ∈ ns ∧ GoodName p.1 ∧ Fits p.2
  | [], _ => by simp
  | n :: ns, hn => by
    have h1 := copyHeader_ok h (hn n (by simp))
    have h2 := flat_ok h ns (fun m hm => hn m (by simp [hm]))
    simp only [List.flatMap_cons, List.length_append, List.length_cons]
    refine ⟨by omega, ?_⟩
    intro p hp
    rcases List.mem_append.mp hp with hp | hp
    · have := h1.2 p hp
      exact ⟨by simp [this.1], this.2⟩
    · have := h2.2 p hp
      exact ⟨by simp [this.1], this.2⟩

theorem goodName_of {n : String} (h : (!n.toList.isEmpty && n.toList.all isHeaderNameChar && decide (utf8Len n.toList ≤ 128)) = true) :
    GoodName n := by
  simp only [Bool.and_eq_true, decide_eq_true_eq, List.all_eq_true, Bool.not_eq_true'] at h
  refine ⟨⟨?_, fun c hc => (isHeaderNameChar_iff c).mp (h.1.2 c hc)⟩, h.2⟩
  intro e
  rw [e] at h
  simp at h

theorem goodName_via : GoodName "Via" := goodName_of (by decide)
theorem goodName_callId : GoodName "Call-ID" := goodName_of (by decide)
theorem goodName_from : GoodName "From" := goodName_of (by decide)
theorem goodName_to : GoodName "To" := goodName_of (by decide)
theorem goodName_cseq : GoodName "CSeq" := goodName_of (by decide)
theorem goodName_contact : GoodName "Contact" := goodName_of (by decide)
theorem goodName_ctype : GoodName "Content-Type" := goodName_of (by decide)
theorem goodName_clen : GoodName "Content-Length" := goodName_of (by decide)
theorem goodName_mf : GoodName "Max-Forwards" := goodName_of (by decide)

theorem goodName_copied : ∀ n ∈ copied, GoodName n := by
  intro n hn
  apply goodName_of
  revert n
  decide

/-! ## The response -/

theorem fits_show (n : Nat) (h : n ≤ 10485760) : Fits (showNat n) := Uas.showNat_short n (by omega)

theorem decDigits_show (n : Nat) : DecDigits (showNat n) n := by
  rcases Dlg.decimal_showNat n with h | ⟨r, h, _⟩
  · exact h
  · exact absurd (show '+' ∈ showNat n by rw [h]; simp) (showNat_not_mem n '+' (by decide))

/-- the response for the caller -/
def forCaller (cfg : Cfg) (rq : Request) (cid frm to cseq : Str) (r : Response) : Response :=
  finish r (putAll (restHeaders cfg r) (putAll (idHeaders rq.headers cid frm to cseq ((r.headers.get "To".toList).bind toTag)) .empty))

/-- the To value for the caller -/
def toValue (to : Str) (tag : Option Str) : Str := match tag with | some t => to ++ ";tag=".toList ++ t | none => to

theorem getAll_selects (hs : Headers) (n : Str) : Selects n hs.inner (hs.getAll n) := C24_getAll hs n

/-- the headers of the response before the proxy headers are taken out -/
def allHeaders (cfg : Cfg) (rq : Request) (cid frm to cseq : Str) (r : Response) : List (String × Str) :=
  idHeaders rq.headers cid frm to cseq ((r.headers.get "To".toList).bind toTag) ++ restHeaders cfg r

theorem fits_zero : Fits "0".toList := ⟨by unfold OneLine; decide, by decide⟩

theorem idHeaders_ok {rq : Request} {cid frm to cseq : Str} {tag : Option Str} (hc : ∀ x ∈ rq.headers.inner, Fits x.value)
    (h1 : Fits cid) (h2 : Fits frm) (h3 : Fits (toValue to tag)) (h4 : Fits cseq) :
    (idHeaders rq.headers cid frm to cseq tag).length ≤ rq.headers.inner.length + 4 ∧
      ∀ p ∈ idHeaders rq.headers cid frm to cseq tag, GoodName p.1 ∧ Fits p.2 := by
  unfold idHeaders
  have hl := getAll_length rq.headers "Via".toList
  refine ⟨by simp only [List.length_append, List.length_map, List.length_cons, List.length_nil]; omega, ?_⟩
  intro p hp
  rcases List.mem_append.mp hp with hp | hp
  · obtain ⟨v, hv, rfl⟩ := List.mem_map.mp hp
    exact ⟨goodName_via, getAll_fits hc hv⟩
  · simp only [List.mem_cons, List.not_mem_nil, or_false] at hp
    rcases hp with rfl | rfl | rfl | rfl
    · exact ⟨goodName_callId, h1⟩
    · exact ⟨goodName_from, h2⟩
    · exact ⟨goodName_cseq, h4⟩
    · exact ⟨goodName_to, h3⟩

theorem lengthLines_ok {hs : Headers} {b : Bytes} (hc : ∀ x ∈ hs.inner, Fits x.value) (hb : b.length ≤ 10485760) :
    (if b.isEmpty then [("Content-Length", "0".toList)]
     else copyHeader hs "Content-Type" ++ [("Content-Length", showNat b.length)]).length ≤ 2 ∧
      ∀ p ∈ (if b.isEmpty then [("Content-Length", "0".toList)]
     else copyHeader hs "Content-Type" ++ [("Content-Length", showNat b.length)]), p.1 ∈ ["Content-Type", "Content-Length"] ∧ GoodName p.1 ∧ Fits p.2 := by
  have h1 := copyHeader_ok hc goodName_ctype
  split
  · refine ⟨by simp, ?_⟩
    intro p hp
    simp only [List.mem_singleton] at hp
    subst hp
    exact ⟨by simp, goodName_clen, fits_zero⟩
  · refine ⟨by simp only [List.length_append, List.length_singleton]; omega, ?_⟩
    intro p hp
    rcases List.mem_append.mp hp with hp | hp
    · have := h1.2 p hp
      exact ⟨by simp [this.1], this.2⟩
    · simp only [List.mem_singleton] at hp
      subst hp
      exact ⟨by simp, goodName_clen, fits_show _ hb⟩

theorem restHeaders_ok {cfg : Cfg} {r : Response} (hm : Fits (bracket cfg.localUri)) (hc : ∀ x ∈ r.headers.inner, Fits x.value)
    (hb : r.body.length ≤ 10485760) :
    (restHeaders cfg r).length ≤ 9 ∧ ∀ p ∈ restHeaders cfg r, GoodName p.1 ∧ Fits p.2 := by
  have h1 := lengthLines_ok hc hb
  have h2 := flat_ok hc copied goodName_copied
  have h3 : copied.length = 6 := rfl
  unfold restHeaders
  refine ⟨by simp only [List.length_append, List.length_singleton]; omega, ?_⟩
  intro p hp
  rcases List.mem_append.mp hp with hp | hp
  · rcases List.mem_append.mp hp with hp | hp
    · simp only [List.mem_singleton] at hp
      subst hp
      exact ⟨goodName_contact, hm⟩
    · exact (h1.2 p hp).2
  · exact (h2.2 p hp).2

/-- the names of the headers of a relayed response -/
def known : List String :=
  ["Via", "Call-ID", "From", "CSeq", "To", "Contact", "Content-Type", "Content-Length"] ++ copied

theorem known_kept : ∀ n ∈ known,
    (eqIgnoreCase n.toList "Proxy-Authenticate".toList || eqIgnoreCase n.toList "Proxy-Authorization".toList) = false := by
  decide

theorem stripHop_known {l : List (String × Str)} (h : ∀ p ∈ l, p.1 ∈ known) : stripHop ⟨mk l⟩ = ⟨mk l⟩ := by
  unfold stripHop Headers.retain
  congr 1
  apply List.filter_eq_self.mpr
  intro x hx
  obtain ⟨p, hp, rfl⟩ := List.mem_map.mp hx
  have := known_kept _ (h p hp)
  simp only [Header.nameEq]
  rw [this]
  rfl

theorem overwrite_mk (n : String) (v w : Str) : ∀ (a b : List (String × Str)),
    (∀ p ∈ a, eqIgnoreCase p.1.toList n.toList = false) →
    Headers.overwriteFirst n.toList v (mk (a ++ (n, w) :: b)) = some (mk (a ++ (n, v) :: b))
  | [], b, _ => by
    have : (⟨n.toList, w⟩ : Header).nameEq n.toList = true := (nameEq_iff _ _).mpr (sameName_refl _)
    show Headers.overwriteFirst n.toList v (⟨n.toList, w⟩ :: mk b) = _
    rw [Headers.overwriteFirst, if_pos this]
    rfl
  | p :: a, b, h => by
    have h1 : ¬ (⟨p.1.toList, p.2⟩ : Header).nameEq n.toList = true := by
      rw [Header.nameEq, h p (by simp)]
      simp
    show Headers.overwriteFirst n.toList v (⟨p.1.toList, p.2⟩ :: mk (a ++ (n, w) :: b)) = _
    rw [Headers.overwriteFirst, if_neg h1, overwrite_mk n v w a b (fun q hq => h q (by simp [hq]))]
    rfl

theorem setQuiet_mk {n : String} (hn : GoodName n) {v : Str} (hv : Fits v) (w : Str) (a b : List (String × Str))
    (h : ∀ p ∈ a, eqIgnoreCase p.1.toList n.toList = false) :
    setQuiet ⟨mk (a ++ (n, w) :: b)⟩ n v = ⟨mk (a ++ (n, v) :: b)⟩ := by
  unfold setQuiet Headers.setOrPush
  rw [(validateHeaderName_ok_iff _).mpr ⟨hn.1, hn.2⟩, (validateHeaderValue_ok_iff _).mpr ⟨hv.1, hv.2⟩]
  simp only [overwrite_mk n v w a b h]

theorem head_known (rq : Request) (cid frm to cseq me : Str) (tag : Option Str) (l : List (String × Str))
    (hl : ∀ p ∈ l, p.1 = "Content-Type") :
    ∀ p ∈ idHeaders rq.headers cid frm to cseq tag ++ [("Contact", me)] ++ l,
      p.1 ∈ known ∧ eqIgnoreCase p.1.toList "Content-Length".toList = false := by
  intro p hp
  have : p.1 ∈ ["Via", "Call-ID", "From", "CSeq", "To", "Contact", "Content-Type"] := by
    rcases List.mem_append.mp hp with hp | hp
    · rcases List.mem_append.mp hp with hp | hp
      · unfold idHeaders at hp
        rcases List.mem_append.mp hp with hp | hp
        · obtain ⟨v, _, rfl⟩ := List.mem_map.mp hp
          simp
        · simp only [List.mem_cons, List.not_mem_nil, or_false] at hp
          rcases hp with rfl | rfl | rfl | rfl <;> simp
      · simp only [List.mem_singleton] at hp
        subst hp
        simp
    · rw [hl p hp]
      decide
  revert this
  generalize p.1 = n
  revert n
  decide

theorem copied_known {hs : Headers} : ∀ p ∈ copied.flatMap (copyHeader hs), p.1 ∈ known := by
  intro p hp
  obtain ⟨n, hn, hp⟩ := List.mem_flatMap.mp hp
  have : p.1 = n := by
    unfold copyHeader at hp
    split at hp
    · simp only [List.mem_singleton] at hp; subst hp; rfl
    · cases hp
  rw [this]
  unfold known
  exact List.mem_append_right _ hn

theorem ctype_named {hs : Headers} : ∀ p ∈ copyHeader hs "Content-Type", p.1 = "Content-Type" := by
  intro p hp
  unfold copyHeader at hp
  split at hp
  · simp only [List.mem_singleton] at hp; subst hp; rfl
  · cases hp

/-- The response for the caller is as it should be. -/
theorem forCaller_relayed {cfg : Cfg} {rq : Request} {r : Response} {cid frm to cseq : Str} (ha : Answerable rq) (hr : Passable rq r)
    (hm : Fits (bracket cfg.localUri)) (h1 : rq.headers.get "Call-ID".toList = some cid)
    (h2 : rq.headers.get "From".toList = some frm) (h3 : rq.headers.get "To".toList = some to)
    (h4 : rq.headers.get "CSeq".toList = some cseq) :
    Relayed cfg.localUri rq r (forCaller cfg rq cid frm to cseq r) := by
  have hto : Fits (toValue to ((r.headers.get "To".toList).bind toTag)) := by
    unfold toValue
    split
    · rename_i t ht
      exact hr.to to ((first_iff _ _ _).mpr h3) t ((calleeTag_some r t).mp ht)
    · exact get_fits ha.clean h3
  have hid := idHeaders_ok (rq := rq) (cid := cid) (frm := frm) (to := to) (cseq := cseq)
    (tag := (r.headers.get "To".toList).bind toTag) ha.clean (get_fits ha.clean h1) (get_fits ha.clean h2) hto
    (get_fits ha.clean h4)
  have hrest := restHeaders_ok hm hr.clean hr.size
  have hfew := ha.few
  have hput : putAll (restHeaders cfg r) (putAll (idHeaders rq.headers cid frm to cseq ((r.headers.get "To".toList).bind toTag)) .empty) =
      ⟨mk (idHeaders rq.headers cid frm to cseq ((r.headers.get "To".toList).bind toTag) ++ restHeaders cfg r)⟩ := by
    have e1 := putAll_ok _ Headers.empty (by simp only [Headers.empty, List.length_nil]; omega) hid.2
    have e2 := putAll_ok (restHeaders cfg r) (putAll (idHeaders rq.headers cid frm to cseq ((r.headers.get "To".toList).bind toTag)) .empty)
      (by rw [e1]; simp only [Headers.empty, List.nil_append, mk, List.length_map]; omega) hrest.2
    rw [e1] at e2
    cases hh : putAll (restHeaders cfg r) (putAll (idHeaders rq.headers cid frm to cseq ((r.headers.get "To".toList).bind toTag)) .empty)
    rw [hh] at e2
    simp only at e2
    rw [e2]
    simp [Headers.empty, mk]
  -- the two parts of the list
  have hsplit : ∃ ctype len, (r.body = [] ∧ ctype = [] ∨ r.body ≠ [] ∧ Copies r.headers ["Content-Type"] ctype) ∧
      len = showNat r.body.length ∧ (∀ p ∈ ctype, p.1 = "Content-Type") ∧
      idHeaders rq.headers cid frm to cseq ((r.headers.get "To".toList).bind toTag) ++ restHeaders cfg r =
      (idHeaders rq.headers cid frm to cseq ((r.headers.get "To".toList).bind toTag) ++ [("Contact", bracket cfg.localUri)] ++ ctype) ++
        ("Content-Length", len) :: copied.flatMap (copyHeader r.headers) := by
    unfold restHeaders
    cases hb : r.body with
    | nil =>
      refine ⟨[], _, .inl ⟨rfl, rfl⟩, rfl, by simp, ?_⟩
      simp only [List.isEmpty_nil, if_true, List.append_assoc, List.cons_append, List.nil_append, List.length_nil]
      rfl
    | cons x xs =>
      refine ⟨copyHeader r.headers "Content-Type", _, .inr ⟨by simp, ?_⟩, rfl, ctype_named, ?_⟩
      · rw [copies_iff]; simp
      · simp only [List.isEmpty_cons, Bool.false_eq_true, if_false, List.append_assoc, List.cons_append, List.nil_append]
  obtain ⟨ctype, len, hct, hlen, hcn, hsp⟩ := hsplit
  have hkn := head_known rq cid frm to cseq (bracket cfg.localUri) ((r.headers.get "To".toList).bind toTag) ctype hcn
  have hall : ∀ p ∈ idHeaders rq.headers cid frm to cseq ((r.headers.get "To".toList).bind toTag) ++ restHeaders cfg r, p.1 ∈ known := by
    rw [hsp]
    intro p hp
    rcases List.mem_append.mp hp with hp | hp
    · exact (hkn p hp).1
    · rcases List.mem_cons.mp hp with rfl | hp
      · show "Content-Length" ∈ known
        decide
      · exact copied_known p hp
  have hstrip := stripHop_known hall
  -- the lines
  have lines (len' : Str) (b : Bytes) (hs : Headers) (hd : DecDigits len' b.length)
      (hh : hs = ⟨mk ((idHeaders rq.headers cid frm to cseq ((r.headers.get "To".toList).bind toTag) ++ [("Contact", bracket cfg.localUri)] ++ ctype) ++
        ("Content-Length", len') :: copied.flatMap (copyHeader r.headers))⟩) : ∃ vias cid frm to cseq to' ctype len kept,
      Selects "Via".toList rq.headers.inner vias ∧ First rq.headers "Call-ID" cid ∧ First rq.headers "From" frm ∧
      First rq.headers "To" to ∧ First rq.headers "CSeq" cseq ∧
      ((NoCalleeTag r ∧ to' = to) ∨ ∃ t, CalleeTag r t ∧ to' = to ++ ";tag=".toList ++ t) ∧
      (r.body = [] ∧ ctype = [] ∨ r.body ≠ [] ∧ Copies r.headers ["Content-Type"] ctype) ∧
      DecDigits len b.length ∧ Copies r.headers ["Allow", "Supported", "Server", "User-Agent", "RSeq", "Require"] kept ∧
      Lines hs (vias.map (fun v => ("Via", v)) ++
        [("Call-ID", cid), ("From", frm), ("CSeq", cseq), ("To", to'), ("Contact", '<' :: cfg.localUri ++ ['>'])] ++
        ctype ++ [("Content-Length", len)] ++ kept) := by
    refine ⟨rq.headers.getAll "Via".toList, cid, frm, to, cseq, toValue to ((r.headers.get "To".toList).bind toTag), ctype, len',
      copied.flatMap (copyHeader r.headers), getAll_selects _ _, (first_iff _ _ _).mpr h1, (first_iff _ _ _).mpr h2,
      (first_iff _ _ _).mpr h3, (first_iff _ _ _).mpr h4, ?_, hct, hd, (copies_iff _ _ _).mpr rfl, ?_⟩
    · cases ht : (r.headers.get "To".toList).bind toTag with
      | none => exact .inl ⟨(calleeTag_none r).mp ht, rfl⟩
      | some t => exact .inr ⟨t, (calleeTag_some r t).mp ht, rfl⟩
    · unfold Lines
      rw [hh]
      have : idHeaders rq.headers cid frm to cseq ((r.headers.get "To".toList).bind toTag) =
          (rq.headers.getAll "Via".toList).map (fun v => ("Via", v)) ++ [("Call-ID", cid), ("From", frm), ("CSeq", cseq),
            ("To", toValue to ((r.headers.get "To".toList).bind toTag))] := rfl
      rw [this]
      show mk _ = mk _
      congr 1
      simp only [List.append_assoc, List.cons_append, List.nil_append]
      rfl
  unfold forCaller finish
  rw [hput, hstrip]
  by_cases hc : r.code = 407
  · rw [if_pos hc, hsp, setQuiet_mk goodName_clen fits_zero len _ _ (fun p hp => (hkn p hp).2)]
    refine ⟨.inr ⟨hc, rfl, rfl, rfl⟩, ?_⟩
    exact lines "0".toList [] _ (decDigits_show 0) rfl
  · rw [if_neg hc, hsp]
    refine ⟨.inl ⟨hc, rfl, rfl, rfl⟩, ?_⟩
    subst hlen
    exact lines _ r.body _ (decDigits_show _) rfl

end Siphon.Bridge
