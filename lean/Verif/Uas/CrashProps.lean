import Verif.Uas.DispatchProps
import Verif.Core.MaxForwardsProps
set_option linter.unusedSimpArgs false
/-!
# When answering a request crashes: C86
-/
namespace Siphon.Uas
open Siphon.Dlg (Dialog DialogId DState Mgr MOp addAll copyHeader angle addAll_inner addAll_ok selects_iff)
open Siphon.Dlg.Spec HdrSpec TextSpec Spec

/-! ## Counting headers -/

theorem sum_zero (h : Header) : ∀ ns : List Str, (∀ n ∈ ns, h.nameEq n = false) → (ns.map (fun n => if h.nameEq n then 1 else 0)).sum = 0
  | [], _ => rfl
  | n :: ns, hn => by
    simp only [List.map_cons, List.sum_cons, hn n (by simp), sum_zero h ns (fun m hm => hn m (by simp [hm]))]
    simp

theorem sum_le_one (h : Header) : ∀ ns : List Str, ns.Pairwise (fun a b => ¬ SameName a b) →
    (ns.map (fun n => if h.nameEq n then 1 else 0)).sum ≤ 1
  | [], _ => by simp
  | n :: ns, hp => by
    rw [List.pairwise_cons] at hp
    simp only [List.map_cons, List.sum_cons]
    by_cases hc : h.nameEq n = true
    · rw [if_pos hc, sum_zero h ns]
      · omega
      · intro m hm
        rw [Bool.eq_false_iff]
        intro hm'
        exact hp.1 m hm (sameName_trans (sameName_symm ((nameEq_iff _ _).mp hc)) ((nameEq_iff _ _).mp hm'))
    · rw [if_neg hc]
      have := sum_le_one h ns hp.2
      omega

theorem sum_add (f g : Str → Nat) : ∀ ns : List Str, (ns.map (fun n => f n + g n)).sum = (ns.map f).sum + (ns.map g).sum
  | [] => rfl
  | n :: ns => by simp only [List.map_cons, List.sum_cons, sum_add f g ns]; omega

theorem getAll_count (ns : List Str) (hp : ns.Pairwise (fun a b => ¬ SameName a b)) : ∀ l : List Header,
    (ns.map (fun n => (Headers.getAll ⟨l⟩ n).length)).sum ≤ l.length
  | [] => by
    have : ∀ ms : List Str, (ms.map (fun n => (Headers.getAll ⟨[]⟩ n).length)).sum = 0 := by
      intro ms
      induction ms with
      | nil => rfl
      | cons m ms ih => simp only [List.map_cons, List.sum_cons, ih]; rfl
    rw [this]; simp
  | h :: l => by
    have e : (fun n => (Headers.getAll ⟨h :: l⟩ n).length) = fun n => (if h.nameEq n then 1 else 0) + (Headers.getAll ⟨l⟩ n).length := by
      funext n
      rw [getAll_one, List.length_append]
      split <;> rfl
    rw [e, sum_add]
    have := sum_le_one h ns hp
    have := getAll_count ns hp l
    simp only [List.length_cons]
    omega

theorem get_le (hs : Headers) (n : Str) : (hs.get n).toList.length ≤ (hs.getAll n).length := by
  cases hg : hs.get n with
  | none => simp
  | some v =>
    obtain ⟨more, hm⟩ := (get_iff hs n v).mp hg
    rw [selects_iff] at hm
    rw [← hm]
    simp

def copiedNames : List Str := ["Via".toList, "From".toList, "Call-ID".toList, "CSeq".toList, "To".toList, "Record-Route".toList]

theorem copiedNames_distinct : copiedNames.Pairwise (fun a b => ¬ SameName a b) := by
  have : copiedNames.Pairwise (fun a b => ¬ eqIgnoreCase a b = true) := by decide
  exact this.imp (fun h => by rwa [sameName_iff])

/-- The headers of the request that are copied to a response: all Via and Record-Route, and one each of From, Call-ID,
CSeq and To. -/
def copies (hs : Headers) : Nat :=
  (hs.getAll "Via".toList).length + (hs.getAll "Record-Route".toList).length +
    (["From", "Call-ID", "CSeq", "To"].filter (fun n => (hs.get n.toList).isSome)).length

theorem copies_eq (hs : Headers) : copies hs = (hs.getAll "Via".toList).length + (hs.get "From".toList).toList.length +
    (hs.get "Call-ID".toList).toList.length + (hs.get "CSeq".toList).toList.length + (hs.get "To".toList).toList.length +
    (hs.getAll "Record-Route".toList).length := by
  have f : ∀ (n : String) (ns : List String), ((n :: ns).filter (fun n => (hs.get n.toList).isSome)).length =
      (hs.get n.toList).toList.length + (ns.filter (fun n => (hs.get n.toList).isSome)).length := by
    intro n ns
    rw [List.filter_cons]
    cases hs.get n.toList with
    | none => simp
    | some v => simp; omega
  unfold copies
  rw [f, f, f, f]
  simp only [List.filter_nil, List.length_nil]
  omega

theorem copies_le (hs : Headers) : copies hs ≤ hs.inner.length := by
  have h := getAll_count copiedNames copiedNames_distinct hs.inner
  simp only [copiedNames, List.map_cons, List.map_nil, List.sum_cons, List.sum_nil] at h
  have h1 := get_le hs "From".toList
  have h2 := get_le hs "Call-ID".toList
  have h3 := get_le hs "CSeq".toList
  have h4 := get_le hs "To".toList
  rw [copies_eq]
  rw [show (⟨hs.inner⟩ : Headers) = hs from rfl] at h
  omega

theorem answerHeaders_length (rq : Headers) : (answerHeaders rq).length = copies rq + 1 := by
  have : ((answerHeaders rq).map (fun p => (⟨p.1.toList, p.2⟩ : Header))).length = copies rq + 1 := by
    rw [answerHeaders_frame, copies_eq]
    simp only [frame, named, List.length_append, List.length_map, List.length_cons, List.length_nil]
    omega
  simpa using this

theorem frame_length (rq : Headers) (cs to : List Str) (cl : Str) (ex : List Header)
    (hc : cs.length ≤ (rq.get "CSeq".toList).toList.length) (ht : to.length ≤ (rq.get "To".toList).toList.length) :
    (frame rq cs to cl ex).length ≤ rq.inner.length + 1 + ex.length := by
  have h := copies_le rq
  rw [copies_eq] at h
  simp only [frame, named, List.length_append, List.length_map, List.length_cons, List.length_nil]
  omega

/-! ## When building fails -/

theorem oneLine_append {a b : Str} (ha : OneLine a) (hb : OneLine b) : OneLine (a ++ b) := by
  obtain ⟨h1, h2, h3⟩ := ha
  obtain ⟨h4, h5, h6⟩ := hb
  refine ⟨?_, ?_, ?_⟩ <;> rw [List.mem_append, not_or]
  · exact ⟨h1, h4⟩
  · exact ⟨h2, h5⟩
  · exact ⟨h3, h6⟩

theorem oneLine_left {a b : Str} (h : OneLine (a ++ b)) : OneLine a := by
  obtain ⟨h1, h2, h3⟩ := h
  simp only [List.mem_append, not_or] at h1 h2 h3
  exact ⟨h1.1, h2.1, h3.1⟩

theorem get_stored {hs : Headers} (hi : HInv hs) {n v : Str} (h : hs.get n = some v) : OneLine v ∧ utf8Len v ≤ 8192 := by
  unfold Headers.get Headers.getHeader at h
  obtain ⟨x, hx, rfl⟩ := Option.map_eq_some_iff.1 h
  obtain ⟨⟨_, h2⟩, _, h3⟩ := hi.2 x (List.mem_of_find?_eq_some hx)
  exact ⟨h2, h3⟩

theorem getAll_stored {hs : Headers} (hi : HInv hs) {n v : Str} (h : v ∈ hs.getAll n) : OneLine v ∧ utf8Len v ≤ 8192 := by
  simp only [Headers.getAll, List.mem_map, List.mem_filter] at h
  obtain ⟨x, ⟨hx, _⟩, rfl⟩ := h
  obtain ⟨⟨_, h2⟩, _, h3⟩ := hi.2 x hx
  exact ⟨h2, h3⟩

theorem tokens : ∀ n ∈ ["Via", "From", "Call-ID", "CSeq", "To", "Record-Route", "Content-Length", "Contact", "Content-Type", "RSeq", "Require",
    "Allow", "Accept", "Server", "Min-SE", "SIP-ETag"], Token n.toList ∧ utf8Len n.toList ≤ 128 := by
  unfold Token TokenChar
  decide

theorem answerHeaders_fine {rq : Headers} (hi : HInv rq) : ∀ p ∈ answerHeaders rq,
    Token p.1.toList ∧ utf8Len p.1.toList ≤ 128 ∧ OneLine p.2 ∧ utf8Len p.2 ≤ 8192 := by
  have cp : ∀ (n : String) p, p ∈ copyHeader rq n → p.1 = n ∧ OneLine p.2 ∧ utf8Len p.2 ≤ 8192 := by
    intro n p hp
    unfold copyHeader at hp
    split at hp
    · rename_i v hv
      rw [List.mem_singleton] at hp
      subst hp
      exact ⟨rfl, get_stored hi hv⟩
    · cases hp
  have fin : ∀ (p : String × Str) (n : String), n ∈ ["Via", "From", "Call-ID", "CSeq", "To", "Record-Route", "Content-Length", "Contact", "Content-Type", "RSeq", "Require",
    "Allow", "Accept", "Server", "Min-SE", "SIP-ETag"] → p.1 = n → OneLine p.2 ∧ utf8Len p.2 ≤ 8192 →
      Token p.1.toList ∧ utf8Len p.1.toList ≤ 128 ∧ OneLine p.2 ∧ utf8Len p.2 ≤ 8192 := by
    intro p n hn e hv
    rw [e]
    exact ⟨(tokens n hn).1, (tokens n hn).2, hv⟩
  intro p hp
  simp only [answerHeaders, List.mem_append, List.mem_map, List.mem_singleton] at hp
  rcases hp with (((((⟨v, hv, rfl⟩ | hp) | hp) | hp) | hp) | ⟨v, hv, rfl⟩) | rfl
  · exact fin _ "Via" (by simp) rfl (getAll_stored hi hv)
  · exact fin _ "From" (by simp) (cp _ _ hp).1 (cp _ _ hp).2
  · exact fin _ "Call-ID" (by simp) (cp _ _ hp).1 (cp _ _ hp).2
  · exact fin _ "CSeq" (by simp) (cp _ _ hp).1 (cp _ _ hp).2
  · exact fin _ "To" (by simp) (cp _ _ hp).1 (cp _ _ hp).2
  · exact fin _ "Record-Route" (by simp) rfl (getAll_stored hi hv)
  · exact fin _ "Content-Length" (by simp) rfl (by unfold OneLine; decide)

theorem addAll_many : ∀ (l : List (String × Str)) (hs : Headers), hs.inner.length ≤ 200 → 200 < hs.inner.length + l.length →
    addAll l hs = .panic
  | [], hs, h1, h2 => by simp at h2; omega
  | (n, v) :: rest, hs, h1, h2 => by
    unfold addAll
    split
    · rfl
    · rename_i hs1 hh
      have hi := C24_push _ _ _ _ hh
      have hlt : hs.inner.length < 200 := by
        unfold Headers.push at hh
        split at hh
        · cases hh
        · rename_i hx
          simp only [MAX_HEADERS] at hx
          omega
      refine addAll_many rest hs1 ?_ ?_
      · rw [hi]; simp; omega
      · rw [hi]; simp at h2 ⊢; omega

theorem setE_done {r : Response} {n : String} {v : Str} (h : r.headers.inner.length < 200 ∨ ∃ w, r.headers.get n.toList = some w)
    (hn : Token n.toList) (hn' : utf8Len n.toList ≤ 128) (h1 : OneLine v) (h2 : utf8Len v ≤ 8192) : setE r n v ≠ .panic := by
  unfold setE
  rcases C24_setOrPush r.headers n.toList v hn hn' h1 h2 with ⟨_, _, x⟩ | ⟨no, full, _⟩ | ⟨_, _, _, _, _, _, x⟩
  · rw [x]; simp
  · exfalso
    rcases h with h | ⟨w, h⟩
    · unfold Headers.len at full; omega
    · obtain ⟨more, hm⟩ := (get_iff _ _ _).mp h
      rw [selects_iff] at hm
      have := getAll_skip r.headers.inner n.toList no
      rw [show (⟨r.headers.inner⟩ : Headers) = r.headers from rfl] at this
      rw [this] at hm
      cases hm
  · rw [x]; simp

theorem setE_long {r : Response} {n : String} {v : Str} (h : 8192 < utf8Len v) : setE r n v = .panic := by
  unfold setE
  split
  · rename_i hs hh
    exfalso
    unfold Headers.setOrPush at hh
    split at hh
    · cases hh
    · split at hh
      · cases hh
      · rename_i _ hv
        have := (validateHeaderValue_ok_iff v).mp hv
        omega
  · rfl

theorem pushU_done {r : Response} {n : String} {v : Str} (h : r.headers.inner.length < 200)
    (hn : Token n.toList) (hn' : utf8Len n.toList ≤ 128) (h1 : OneLine v) (h2 : utf8Len v ≤ 8192) : pushU r n v ≠ .panic := by
  unfold pushU
  rw [C24_push_ok r.headers n.toList v h hn hn' h1 h2]
  simp

theorem bind_ne {α β} {x : Run α} {f : α → Run β} (h : x ≠ .panic) (hf : ∀ a, x = .done a → f a ≠ .panic) : (x >>= f) ≠ .panic := by
  cases x with
  | panic => exact absurd rfl h
  | done a => exact hf a rfl

/-- A reason phrase that can be sent. -/
def ReasonOk (s : Str) : Prop := utf8Len s ≤ 256 ∧ ∀ c ∈ s, 32 ≤ c.toNat ∧ c.toNat ≠ 127

theorem response_ok {c : Nat} {s : Str} (hs : Headers) {b : Bytes} (hc : 100 ≤ c ∧ c ≤ 699) (hr : ReasonOk s) (hb : b.length ≤ 10485760) :
    Response.new c s hs b = .ok ⟨c, s, hs, b⟩ := by
  unfold Response.new
  rw [if_neg (by simp; omega)]
  have : validateReason s = .ok () := by
    unfold validateReason
    rw [if_neg (by have := hr.1; simp only [MAX_REASON_LENGTH]; omega), if_neg]
    simp only [List.any_eq_true, not_exists, not_and]
    intro ch hch
    have := hr.2 ch hch
    simp only [isAsciiControl, Bool.or_eq_true, decide_eq_true_eq, beq_iff_eq]
    omega
  rw [this]
  simp only []
  rw [if_neg (by simp only [MAX_MSG_BODY]; omega)]

theorem to_from_create {rq hs : Headers} (h : addAll (answerHeaders rq) .empty = .done hs) (r : Response) (hr : r.headers = hs) :
    exactTo r.headers = rq.get "To".toList ∧ hs.getAll "To".toList = (rq.get "To".toList).toList := by
  have hi := addAll_inner _ _ _ h
  simp only [Headers.empty, List.nil_append] at hi
  rw [answerHeaders_frame] at hi
  have f : Framed rq r (rq.get "CSeq".toList).toList (rq.get "To".toList).toList "0".toList [] := by
    unfold Framed; rw [hr, hi]
  constructor
  · rw [exactTo_framed f (by simp)]
    cases rq.get "To".toList <;> rfl
  · have := (framed_base f (by intro n _; rfl)).2.2.2.2.1
    rw [hr] at this
    exact this

/-- C86: building a response to a stored request crashes in exactly two cases: the headers to be copied fill the 200
that fit, leaving no room for Content-Length, or the To with the tag added is too long. -/
theorem C86_create_iff (rq : Headers) (c : Nat) (s tag : Str) (hi : HInv rq) (hc : 100 ≤ c ∧ c ≤ 699) (hr : ReasonOk s) (ht : OneLine tag) :
    createResponse rq c s tag = .panic ↔
      200 ≤ copies rq ∨ (c ≠ 100 ∧ ∃ v, First rq "To" v ∧ ¬ Contains v ";tag=".toList ∧ 8192 < utf8Len v + 5 + utf8Len tag) := by
  unfold createResponse
  by_cases hbig : 200 ≤ copies rq
  · rw [addAll_many (answerHeaders rq) .empty (by simp [Headers.empty]) (by rw [answerHeaders_length]; simp [Headers.empty]; omega)]
    simp [hbig]
  · have hadd := addAll_ok (answerHeaders rq) .empty (by rw [answerHeaders_length]; simp [Headers.empty]; omega) (answerHeaders_fine hi)
    rw [hadd]
    simp only []
    generalize hgs : (⟨Headers.empty.inner ++ (answerHeaders rq).map (fun p => (⟨p.1.toList, p.2⟩ : Header))⟩ : Headers) = hs at hadd ⊢
    rw [response_ok hs hc hr (by simp)]
    simp only []
    obtain ⟨e1, e2⟩ := to_from_create hadd ⟨c, s, hs, []⟩ rfl
    simp only [hbig, false_or]
    split
    · rename_i h100
      simp [h100]
    · rename_i h100
      unfold ensureToTag
      rw [e1]
      cases hg : rq.get "To".toList with
      | none =>
        simp only [reduceCtorEq, false_iff, not_and, not_exists]
        intro _ v hv
        rw [(get_iff rq "To".toList v).mpr hv] at hg
        cases hg
      | some v =>
        have hv : First rq "To" v := (get_iff rq "To".toList v).mp hg
        simp only []
        split
        · rename_i hcut
          simp only [reduceCtorEq, false_iff, not_and, not_exists]
          intro _ w hw hcon
          have := Dlg.first_unique hv hw
          subst this
          exact absurd ((cutAt_isSome semitag_ne v).mp hcut) hcon
        · rename_i hcut
          have hno : ¬ Contains v ";tag=".toList := fun hcon => hcut ((cutAt_isSome semitag_ne v).mpr hcon)
          have hlen : utf8Len (v ++ ";tag=".toList ++ tag) = utf8Len v + 5 + utf8Len tag := by
            rw [utf8_app, utf8_app]; rfl
          constructor
          · intro hp
            refine ⟨h100, v, hv, hno, ?_⟩
            refine Classical.byContradiction fun hle => ?_
            refine setE_done (r := ⟨c, s, hs, []⟩) (n := "To") (v := v ++ ";tag=".toList ++ tag) (Or.inr ?_) (tokens "To" (by simp)).1 (tokens "To" (by simp)).2
              (oneLine_append (oneLine_append (get_stored hi hg).1 (by unfold OneLine; decide)) ht) (by omega) hp
            rw [hg] at e2
            exact ⟨v, (get_iff _ _ _).mpr ⟨[], (selects_iff _ _ _).mpr e2.symm⟩⟩
          · rintro ⟨_, w, hw, _, hlong⟩
            have := Dlg.first_unique hv hw
            subst this
            exact setE_long (by omega)

/-- C86 fails in full: a request with 200 Via headers crashes the server that answers it, whatever the answer (100
included). -/
theorem C86_full_crashes (c : Nat) (s tag : Str) :
    HInv ⟨List.replicate 200 ⟨"Via".toList, "SIP/2.0/UDP h;branch=z9hG4bK1".toList⟩⟩ ∧
    createResponse ⟨List.replicate 200 ⟨"Via".toList, "SIP/2.0/UDP h;branch=z9hG4bK1".toList⟩⟩ c s tag = .panic := by
  constructor
  · refine ⟨Nat.le_of_eq List.length_replicate, fun h hh => ?_⟩
    rw [List.eq_of_mem_replicate hh]
    exact ⟨⟨(tokens "Via" (by simp)).1, by unfold OneLine; decide⟩, by decide, by decide⟩
  · unfold createResponse
    rw [addAll_many _ .empty (by simp [Headers.empty])]
    rw [answerHeaders_length]
    have : ∀ k, (Headers.getAll ⟨List.replicate k ⟨"Via".toList, "SIP/2.0/UDP h;branch=z9hG4bK1".toList⟩⟩ "Via".toList).length = k := by
      intro k
      induction k with
      | zero => rfl
      | succ k ih =>
        rw [List.replicate_succ, getAll_one, List.length_append, ih]
        have : Header.nameEq ⟨"Via".toList, "SIP/2.0/UDP h;branch=z9hG4bK1".toList⟩ "Via".toList = true := by decide
        rw [this]
        simp
        omega
    have h2 := this 200
    unfold copies
    rw [h2]
    simp [Headers.empty]
    omega

/-! ## Requests that are safe -/

/-- A request with room for the headers of an answer, and values with room for a tag. -/
structure Safe (rq : Headers) : Prop where
  stored : HInv rq
  room : rq.inner.length ≤ 190
  to : ∀ v, First rq "To" v → utf8Len v ≤ 7900
  cseq : ∀ v, First rq "CSeq" v → utf8Len v ≤ 8000

/-- A text that is safe to append. -/
def Short (t : Str) : Prop := OneLine t ∧ utf8Len t ≤ 128

/-- An answer whose parts can be sent. -/
def Sendable : Answer → Prop
  | .plain c s => (100 ≤ c ∧ c ≤ 699) ∧ ReasonOk s
  | .tooSmall n => n < 2 ^ 32
  | .reliable c _ n t _ => (100 ≤ c ∧ c < 200) ∧ n < 2 ^ 32 ∧ Short t
  | _ => True

theorem create_safe {rq : Headers} {c : Nat} {s tag : Str} (h : Safe rq) (hc : 100 ≤ c ∧ c ≤ 699) (hr : ReasonOk s) (ht : Short tag) :
    createResponse rq c s tag ≠ .panic := by
  intro hp
  have := h.room
  rcases (C86_create_iff rq c s tag h.stored hc hr ht.1).mp hp with hb | ⟨_, v, hv, _, hl⟩
  · have := copies_le rq; omega
  · have := h.to v hv; have := ht.2; omega

theorem reason_lit (s : String) (h : (utf8Len s.toList ≤ 256 ∧ ∀ c ∈ s.toList, 32 ≤ c.toNat ∧ c.toNat ≠ 127)) : ReasonOk s.toList := h

/-- the length of a framed response -/
theorem framed_length {rq : Headers} {r : Response} {cs to : List Str} {cl : Str} {ex : List Header} (f : Framed rq r cs to cl ex)
    (hc : cs.length ≤ (rq.get "CSeq".toList).toList.length) (ht : to.length ≤ (rq.get "To".toList).toList.length) :
    r.headers.inner.length ≤ rq.inner.length + 1 + ex.length := by
  rw [f]; exact frame_length rq cs to cl ex hc ht

theorem toOf_length (rq : Headers) (c : Nat) (tag : Str) : (toOf rq c tag).toList.length ≤ (rq.get "To".toList).toList.length := by
  unfold toOf
  split
  · exact Nat.le_refl _
  · cases rq.get "To".toList <;> simp

theorem showNat_short (n : Nat) (h : n < 2 ^ 64) : OneLine (showNat n) ∧ utf8Len (showNat n) ≤ 8192 := by
  refine ⟨oneLine_showNat n, ?_⟩
  have h1 : (showNat n).length ≤ 20 := showNatGo_length 19 n n (Nat.le_refl _) (by omega)
  rw [utf8_ascii]
  · omega
  · intro c hc
    have := showNat_digits n c hc
    simp only [isDigit, Bool.and_eq_true, decide_eq_true_eq] at this
    have h2 := this.2
    rw [Char.le_def] at h2
    have : c.val.toNat ≤ 57 := h2
    show c.val.toNat < 128
    omega

theorem toOf_short {rq : Headers} {c : Nat} {tag v : Str} (h : Safe rq) (ht : Short tag) (hv : toOf rq c tag = some v) :
    OneLine v ∧ utf8Len v ≤ 7900 + 133 := by
  have := ht.2
  unfold toOf at hv
  split at hv
  · exact ⟨(get_stored h.stored hv).1, by have := h.to v ((get_iff rq _ v).mp hv); omega⟩
  · obtain ⟨w, hw, rfl⟩ := Option.map_eq_some_iff.mp hv
    have h1 := h.to w ((get_iff rq _ w).mp hw)
    unfold toTagged
    split
    · exact ⟨(get_stored h.stored hw).1, by omega⟩
    · refine ⟨oneLine_append (oneLine_append (get_stored h.stored hw).1 (by unfold OneLine; decide)) ht.1, ?_⟩
      rw [utf8_app, utf8_app]
      have : utf8Len ";tag=".toList = 5 := rfl
      omega

/-- with the tag in place, ensuring it does nothing -/
theorem ensure_noop {rq : Headers} {r : Response} {cs : List Str} {c : Nat} {tag cl : Str} {ex : List Header} (hc : c ≠ 100)
    (f : Framed rq r cs (toOf rq c tag).toList cl ex) (hx : ∀ h ∈ ex, (h.name == "To".toList) = false) : ensureToTag r tag = .done r := by
  unfold ensureToTag
  rw [exactTo_framed f hx]
  unfold toOf
  rw [if_neg hc]
  cases rq.get "To".toList with
  | none => rfl
  | some v =>
    simp only [Option.map_some, Option.toList_some, List.head?_cons]
    rw [if_pos (toTagged_has tag v)]

theorem angle_fine {u : SipUri} (h1 : OneLine u.raw) (h2 : utf8Len u.raw ≤ 8000) : OneLine (angle u) ∧ utf8Len (angle u) ≤ 8192 := by
  unfold angle
  constructor
  · have : OneLine ("<".toList ++ u.raw ++ ">".toList) := oneLine_append (oneLine_append (by unfold OneLine; decide) h1) (by unfold OneLine; decide)
    simpa using this
  · have e : '<' :: u.raw ++ ">".toList = "<".toList ++ (u.raw ++ ">".toList) := rfl
    rw [e, utf8_app, utf8_app]
    have : utf8Len "<".toList = 1 := rfl
    have : utf8Len ">".toList = 1 := rfl
    omega

theorem sdp_safe {rq : Headers} {r : Response} {cs to : List Str} {cl : Str} {ex : List Header} {b : Option Str}
    (f : Framed rq r cs to cl ex) (hlen : r.headers.inner.length < 199) (hc : 100 ≤ r.code ∧ r.code ≤ 699) (hr : ReasonOk r.reason)
    (hb : validBody b = true) : attachSdp r b ≠ .panic := by
  cases b with
  | none => simp [attachSdp]
  | some s =>
    have hb' : utf8Len s ≤ 1048576 := of_decide_eq_true hb
    simp only [attachSdp]
    have sn := showNat_short (utf8Len s) (by omega)
    refine bind_ne (setE_done (Or.inl (by omega)) (tokens "Content-Length" (by simp)).1 (tokens "Content-Length" (by simp)).2 sn.1 sn.2) (fun r1 h1 => ?_)
    obtain ⟨f1, c1, s1, b1⟩ := framed_set_cl f h1
    have l1 : r1.headers.inner.length = r.headers.inner.length := by
      rw [f1, f]; simp [frame, named]
    refine bind_ne (pushU_done (by omega) (tokens "Content-Type" (by simp)).1 (tokens "Content-Type" (by simp)).2 (by unfold OneLine; decide) (by decide)) (fun r2 h2 => ?_)
    obtain ⟨f2, c2, s2, b2⟩ := framed_push f1 h2
    have ok := response_ok (c := r2.code) (s := r2.reason) r2.headers (b := utf8 s) (by rw [c2, c1]; exact hc) (by rw [s2, s1]; exact hr)
      (by rw [length_utf8]; omega)
    rw [ok]
    simp

theorem ok_safe {contact : SipUri} {rq : Headers} {tag : Str} {b : Option Str} (h : Safe rq) (ht : Short tag)
    (h1 : OneLine contact.raw) (h2 : utf8Len contact.raw ≤ 8000) (hb : validBody b = true) : createOk contact rq tag b ≠ .panic := by
  have room := h.room
  simp only [createOk]
  refine bind_ne (create_safe h (by omega) (reason_lit "OK" (by decide)) ht) (fun r1 e1 => ?_)
  obtain ⟨f1, c1, s1, b1⟩ := framed_create e1
  have l1 := framed_length f1 (Nat.le_refl _) (toOf_length _ _ _)
  simp only [List.length_nil] at l1
  refine bind_ne (pushU_done (by omega) (tokens "Contact" (by simp)).1 (tokens "Contact" (by simp)).2 (angle_fine h1 h2).1 (angle_fine h1 h2).2) (fun r2 e2 => ?_)
  obtain ⟨f2, c2, s2, b2⟩ := framed_push f1 e2
  have l2 := framed_length f2 (Nat.le_refl _) (toOf_length _ _ _)
  simp only [List.nil_append, List.length_cons, List.length_nil] at l2
  rw [ensure_noop (by decide) f2 (by
    intro h hh
    simp only [List.nil_append, List.mem_singleton] at hh
    subst hh
    exact (by decide : ("Contact".toList == "To".toList) = false))]
  refine sdp_safe f2 (by omega) (by rw [c2, c1]; omega) (by rw [s2, s1]; exact reason_lit "OK" (by decide)) hb

theorem stripTag_parts (v : Str) : ∃ a b, stripTag v = a ++ b ∧ (∀ c ∈ a ++ b, c ∈ v) ∧ utf8Len (a ++ b) ≤ utf8Len v := by
  unfold stripTag
  split
  · exact ⟨v, [], by simp, by simp, by simp⟩
  · rename_i before after hc
    obtain ⟨e, _⟩ := cutAt_some semitag_ne hc
    split
    · refine ⟨before, [], by simp, ?_, ?_⟩
      · intro c hcm
        rw [e]; simp at hcm ⊢; exact Or.inl hcm
      · rw [e, List.append_nil, utf8_app, utf8_app]; omega
    · rename_i x rest hs
      have e2 := (Auth.splitOnce_some_iff ';' after x rest).mp hs
      refine ⟨before, ';' :: rest, rfl, ?_, ?_⟩
      · intro c hcm
        rw [e, e2.1]
        simp only [List.mem_append, List.mem_cons] at hcm ⊢
        rcases hcm with h | h | h
        · exact Or.inl (Or.inl h)
        · exact Or.inr (Or.inr (Or.inl h))
        · exact Or.inr (Or.inr (Or.inr h))
      · rw [e, e2.1, utf8_app, utf8_app, utf8_app, utf8_app]; omega

theorem word_in (v w : Str) (ws : List Str) (h : splitWhitespace v = w :: ws) : ∃ a b, v = a ++ w ++ b := by
  have := (words_iff v (w :: ws)).mpr h
  cases this with
  | cons _ _ _ _ _ => exact ⟨_, _, (List.append_assoc _ _ _).symm⟩

/-- C86: answering a safe request never crashes, for any of the answers. -/
theorem C86_build_partial (contact : SipUri) (rq : Headers) (tag : Str) (a : Answer) (h : Safe rq) (ht : Short tag) (ha : Sendable a)
    (h1 : OneLine contact.raw) (h2 : utf8Len contact.raw ≤ 8000) : build contact rq tag a ≠ .panic := by
  have room := h.room
  have an := angle_fine h1 h2
  cases a with
  | plain c s =>
    simp only [build]
    exact bind_ne (create_safe h ha.1 ha.2 ht) (fun _ _ => by simp)
  | ok b =>
    simp only [build]
    split
    · simp
    · rename_i hb
      exact bind_ne (ok_safe h ht h1 h2 (by simpa using hb)) (fun _ _ => by simp)
  | timed b v =>
    simp only [build]
    split
    · simp
    · rename_i hb
      refine bind_ne (ok_safe h ht h1 h2 (by simpa using hb)) (fun r _ => ?_)
      split
      · simp
      · split <;> simp
  | publish e =>
    simp only [build]
    split
    · simp
    · rename_i he
      refine bind_ne (create_safe h (by omega) (reason_lit "OK" (by decide)) ht) (fun r1 e1 => ?_)
      obtain ⟨f1, _⟩ := framed_create e1
      have l1 := framed_length f1 (Nat.le_refl _) (toOf_length _ _ _)
      simp only [List.length_nil] at l1
      cases e with
      | none => simp
      | some v =>
        simp only [validEtag, Bool.not_eq_true, Bool.not_eq_false', Bool.and_eq_true, decide_eq_true_eq, Bool.not_eq_true', Bool.not_false] at he
        have hv : utf8Len v ≤ 256 ∧ v.any isControl = false := by simpa [validEtag] using he
        have hctl : ∀ c ∈ v, isControl c = false := by
          intro c hc
          rw [Bool.eq_false_iff]
          intro hx
          have : v.any isControl = true := List.any_eq_true.mpr ⟨c, hc, hx⟩
          rw [hv.2] at this
          cases this
        refine bind_ne (pushU_done (by omega) (tokens "SIP-ETag" (by simp)).1 (tokens "SIP-ETag" (by simp)).2 ⟨?_, ?_, ?_⟩ (by omega)) (fun _ _ => by simp)
        · intro hm; exact absurd (hctl _ hm) (by decide)
        · intro hm; exact absurd (hctl _ hm) (by decide)
        · intro hm; exact absurd (hctl _ hm) (by decide)
  | options =>
    simp only [build]
    refine bind_ne (create_safe h (by omega) (reason_lit "OK" (by decide)) ht) (fun r1 e1 => ?_)
    obtain ⟨f1, _⟩ := framed_create e1
    have l1 := framed_length f1 (Nat.le_refl _) (toOf_length _ _ _)
    simp only [List.length_nil] at l1
    refine bind_ne (setE_done (Or.inl (by omega)) (tokens "Allow" (by simp)).1 (tokens "Allow" (by simp)).2 (by unfold OneLine; decide) (by decide)) (fun r2 e2 => ?_)
    obtain ⟨f2, _⟩ := framed_set_other (by decide) (by simp) f1 e2
    have l2 := framed_length f2 (Nat.le_refl _) (toOf_length _ _ _)
    simp only [List.nil_append, List.length_cons, List.length_nil] at l2
    exact bind_ne (setE_done (Or.inl (by omega)) (tokens "Accept" (by simp)).1 (tokens "Accept" (by simp)).2 (by unfold OneLine; decide) (by decide)) (fun _ _ => by simp)
  | terminated =>
    simp only [build]
    refine bind_ne (create_safe h (by omega) (reason_lit "Request Terminated" (by decide)) ht) (fun r1 e1 => ?_)
    obtain ⟨f1, _⟩ := framed_create e1
    have l1 := framed_length f1 (Nat.le_refl _) (toOf_length _ _ _)
    simp only [List.length_nil] at l1
    rw [ensure_noop (by decide) f1 (by simp), Run.bind_done]
    cases hc : rq.get "CSeq".toList with
    | none => simp
    | some v =>
      simp only []
      have hv := get_stored h.stored hc
      have hl := h.cseq v ((get_iff rq _ v).mp hc)
      have hw : OneLine (cseqWord v) ∧ utf8Len (cseqWord v) ≤ 8001 := by
        unfold cseqWord
        split
        · rename_i w ws hw
          obtain ⟨a, b, e⟩ := word_in v w ws hw
          subst e
          exact ⟨by
            obtain ⟨q1, q2, q3⟩ := hv.1
            simp only [List.mem_append, not_or] at q1 q2 q3
            exact ⟨q1.1.2, q2.1.2, q3.1.2⟩, by rw [utf8_app, utf8_app] at hl; omega⟩
        · exact ⟨by unfold OneLine; decide, by decide⟩
      refine bind_ne (setE_done (Or.inl (by omega)) (tokens "CSeq" (by simp)).1 (tokens "CSeq" (by simp)).2
        (oneLine_append hw.1 (by unfold OneLine; decide)) ?_) (fun _ _ => by simp)
      rw [utf8_app]
      have : utf8Len " INVITE".toList = 7 := rfl
      omega
  | tooSmall m =>
    have ha' : m < 2 ^ 32 := ha
    simp only [build]
    refine bind_ne (create_safe h (by omega) (reason_lit "Session Interval Too Small" (by decide)) ht) (fun r1 e1 => ?_)
    obtain ⟨f1, _⟩ := framed_create e1
    have l1 := framed_length f1 (Nat.le_refl _) (toOf_length _ _ _)
    simp only [List.length_nil] at l1
    have sn := showNat_short m (by omega)
    refine bind_ne (pushU_done (by omega) (tokens "Min-SE" (by simp)).1 (tokens "Min-SE" (by simp)).2 sn.1 sn.2) (fun r2 e2 => ?_)
    obtain ⟨f2, _⟩ := framed_push f1 e2
    rw [ensure_noop (by decide) f2 (by
      intro h hh
      simp only [List.nil_append, List.mem_singleton] at hh
      subst hh
      exact (by decide : ("Min-SE".toList == "To".toList) = false)), Run.bind_done]
    simp
  | refer =>
    simp only [build]
    refine bind_ne (create_safe h (by omega) (reason_lit "Accepted" (by decide)) ht) (fun r1 e1 => ?_)
    obtain ⟨f1, _⟩ := framed_create e1
    have l1 := framed_length f1 (Nat.le_refl _) (toOf_length _ _ _)
    simp only [List.length_nil] at l1
    refine bind_ne (pushU_done (by omega) (tokens "Contact" (by simp)).1 (tokens "Contact" (by simp)).2 an.1 an.2) (fun r2 e2 => ?_)
    obtain ⟨f2, _⟩ := framed_push f1 e2
    rw [ensure_noop (by decide) f2 (by
      intro h hh
      simp only [List.nil_append, List.mem_singleton] at hh
      subst hh
      exact (by decide : ("Contact".toList == "To".toList) = false)), Run.bind_done]
    simp
  | reliable c s n t b =>
    obtain ⟨ha1, ha2, ha3⟩ := ha
    have hn : n < 2 ^ 32 := ha2
    simp only [build]
    rw [if_neg (by simp; omega)]
    split
    · simp
    · rename_i hrs
      have hreason : ReasonOk s := by
        have hrs' : utf8Len s ≤ 128 ∧ s.any isControl = false := by simpa [validReason] using hrs
        refine ⟨by omega, fun ch hch => ?_⟩
        have : isControl ch = false := by
          rw [Bool.eq_false_iff]
          intro hx
          have : s.any isControl = true := List.any_eq_true.mpr ⟨ch, hch, hx⟩
          rw [hrs'.2] at this
          cases this
        simp only [isControl, Bool.or_eq_false_iff, decide_eq_false_iff_not, Bool.and_eq_false_iff] at this
        omega
      split
      · simp
      · rename_i hb
        refine bind_ne (create_safe h (by omega) hreason ht) (fun r1 e1 => ?_)
        obtain ⟨f1, c1, s1, _⟩ := framed_create e1
        have l1 := framed_length f1 (Nat.le_refl _) (toOf_length _ _ _)
        simp only [List.length_nil] at l1
        have sn := showNat_short n (by omega)
        refine bind_ne (pushU_done (by omega) (tokens "RSeq" (by simp)).1 (tokens "RSeq" (by simp)).2 sn.1 sn.2) (fun r2 e2 => ?_)
        obtain ⟨f2, c2, s2, _⟩ := framed_push f1 e2
        have l2 := framed_length f2 (Nat.le_refl _) (toOf_length _ _ _)
        simp only [List.nil_append, List.length_append, List.length_cons, List.length_nil] at l2
        refine bind_ne (pushU_done (by omega) (tokens "Require" (by simp)).1 (tokens "Require" (by simp)).2 (by unfold OneLine; decide) (by decide)) (fun r3 e3 => ?_)
        obtain ⟨f3, c3, s3, _⟩ := framed_push f2 e3
        have l3 := framed_length f3 (Nat.le_refl _) (toOf_length _ _ _)
        simp only [List.nil_append, List.length_append, List.length_cons, List.length_nil] at l3
        refine bind_ne (pushU_done (by omega) (tokens "Contact" (by simp)).1 (tokens "Contact" (by simp)).2 an.1 an.2) (fun r4 e4 => ?_)
        obtain ⟨f4, c4, s4, _⟩ := framed_push f3 e4
        have l4 := framed_length f4 (Nat.le_refl _) (toOf_length _ _ _)
        simp only [List.nil_append, List.length_append, List.length_cons, List.length_nil] at l4
        have hx : ∀ h ∈ (([] ++ [⟨"RSeq".toList, showNat n⟩] ++ [⟨"Require".toList, "100rel".toList⟩] ++ [⟨"Contact".toList, angle contact⟩] : List Header)),
            (h.name == "To".toList) = false := by
          intro h hh
          simp only [List.nil_append, List.mem_append, List.mem_singleton] at hh
          rcases hh with (rfl | rfl) | rfl
          · exact (by decide : ("RSeq".toList == "To".toList) = false)
          · exact (by decide : ("Require".toList == "To".toList) = false)
          · exact (by decide : ("Contact".toList == "To".toList) = false)
        have hrep : replaceToTag r4 t ≠ .panic := by
          unfold replaceToTag
          rw [exactTo_framed f4 hx]
          cases hto : toOf rq c tag with
          | none => simp
          | some v =>
            simp only [Option.toList_some, List.head?_cons]
            obtain ⟨q1, q2⟩ := toOf_short h ht hto
            have ht2 := ha3.2
            have htg := ht.2
            obtain ⟨a, b', e, e1', e2'⟩ := stripTag_parts v
            refine setE_done (Or.inl (by omega)) (tokens "To" (by simp)).1 (tokens "To" (by simp)).2
              (oneLine_append (oneLine_append ?_ (by unfold OneLine; decide)) ha3.1) ?_
            · rw [e]
              exact ⟨fun hm => q1.1 (e1' _ hm), fun hm => q1.2.1 (e1' _ hm), fun hm => q1.2.2 (e1' _ hm)⟩
            · rw [utf8_app, utf8_app, e]
              have : utf8Len ";tag=".toList = 5 := rfl
              omega
        refine bind_ne hrep (fun r5 e5 => ?_)
        obtain ⟨f5, c5, s5, _⟩ := framed_replace f4 hx e5
        have l5 := framed_length f5 (Nat.le_refl _) (by
          have := toOf_length rq c tag
          rw [Option.length_toList] at this ⊢
          rw [Option.isSome_map]
          exact this)
        simp only [List.nil_append, List.length_append, List.length_cons, List.length_nil] at l5
        refine bind_ne (sdp_safe f5 (by omega) (by rw [c5, c4, c3, c2, c1]; omega) (by rw [s5, s4, s3, s2, s1]; exact hreason) (by simpa using hb)) (fun _ _ => by simp)

/-! ## The dispatcher -/

/-- Texts of the configuration that can be sent in a header. -/
structure FineSettings (c : Settings) (s : Server) : Prop where
  allow : OneLine c.allow ∧ utf8Len c.allow ≤ 8192
  agent : OneLine c.agent ∧ utf8Len c.agent ≤ 8192
  contact : OneLine s.contactUri.raw ∧ utf8Len s.contactUri.raw ≤ 8000

theorem setOrPush_length {hs hs' : Headers} {n v : Str} (h : hs.setOrPush n v = .ok hs') : hs'.inner.length ≤ hs.inner.length + 1 := by
  rcases setOrPush_ok_inner h with x | ⟨_, x⟩
  · rcases overwriteFirst_spec n v hs.inner with ⟨y, _⟩ | ⟨pre, z, post, e1, _, _, e4⟩
    · rw [y] at x; cases x
    · rw [e4] at x
      simp only [Option.some.injEq] at x
      rw [← x, e1]
      simp
  · rw [x]; simp

theorem applyRport_length (hs : Headers) (ip : Str) (port : Nat) : (applyRport hs ip port).inner.length ≤ hs.inner.length + 1 := by
  unfold applyRport
  split
  · omega
  · split
    · omega
    · simp only []
      split
      · split
        · rename_i hh
          exact setOrPush_length hh
        · omega
      · omega

theorem fillContact_length (c : Settings) (f : From) (hs : Headers) : (fillContact c f hs).inner.length ≤ hs.inner.length + 1 := by
  unfold fillContact
  split
  · split
    · rename_i hh
      exact setOrPush_length hh
    · omega
  · omega

theorem addMissing_safe {r : Response} {n : String} {v : Str} (h : r.headers.inner.length < 200) (hn : Token n.toList ∧ utf8Len n.toList ≤ 128)
    (hv : OneLine v ∧ utf8Len v ≤ 8192) : addMissing r n v ≠ .panic := by
  unfold addMissing
  split
  · exact pushU_done h hn.1 hn.2 hv.1 hv.2
  · simp

theorem autoFill_safe {c : Settings} {s : Server} {f : From} {r : Response} (hc : FineSettings c s) (h : r.headers.inner.length ≤ 196) :
    autoFill c f r ≠ .panic := by
  simp only [autoFill]
  have l1 := fillContact_length c f (if c.fillVia then applyRport r.headers f.ip f.port else r.headers)
  have l0 : (if c.fillVia then applyRport r.headers f.ip f.port else r.headers).inner.length ≤ r.headers.inner.length + 1 := by
    split
    · exact applyRport_length _ _ _
    · omega
  refine bind_ne (addMissing_safe (by simp only []; omega) (tokens "Allow" (by simp)) hc.allow) (fun r1 e1 => ?_)
  have l2 : r1.headers.inner.length ≤ (fillContact c f (if c.fillVia then applyRport r.headers f.ip f.port else r.headers)).inner.length + 1 := by
    rcases (addMissing_keeps e1).2.2.2 with x | ⟨_, x⟩
    · rw [x]; simp
    · rw [x]; simp
  exact addMissing_safe (by omega) (tokens "Server" (by simp)) hc.agent

theorem create_length {rq : Headers} {c : Nat} {s tag : Str} {r : Response} (h : createResponse rq c s tag = .done r) :
    r.headers.inner.length ≤ rq.inner.length + 1 := by
  have := framed_length (framed_create h).1 (Nat.le_refl _) (toOf_length _ _ _)
  simpa using this

theorem reply_safe {c : Settings} {s : Server} {f : From} {rq : Request} {tag : Str} {code : Nat} {reason : String} (hs : Safe rq.headers)
    (ht : Short tag) (hc : FineSettings c s) (h1 : 100 ≤ code ∧ code ≤ 699) (h2 : ReasonOk reason.toList) : reply c f rq tag code reason ≠ .panic := by
  have := hs.room
  simp only [reply]
  refine bind_ne (create_safe hs h1 h2 ht) (fun r e => ?_)
  have := create_length e
  exact bind_ne (autoFill_safe hc (by omega)) (fun _ _ => by simp)

theorem find_safe {m : Mgr} {hs : Headers} (ha : AsciiHeaders hs) : m.findByRequest hs ≠ .panic := by
  unfold Mgr.findByRequest
  split
  · rename_i hp; exact absurd hp (Dlg.fromRequest_ascii ha)
  · simp
  · simp

/-- C86: dispatching a safe request whose headers are ASCII never crashes. -/
theorem C86_dispatch_partial (c : Settings) (s : Server) (f : From) (rq : Request) (tag : Str) (authed : Option Bool)
    (challenge : Option Response) (handled : Bool) (hs : Safe rq.headers) (ha : AsciiHeaders rq.headers) (ht : Short tag)
    (hc : FineSettings c s) (hch : ∀ r, challenge = some r → r.headers.inner.length ≤ 196) :
    dispatch c s f rq tag authed challenge handled ≠ .panic := by
  have room := hs.room
  have hroute : route c s f rq tag handled ≠ .panic := by
    unfold route
    split
    · rename_i hm
      unfold onInvite
      have hv : validInvite rq ≠ .panic := by
        unfold validInvite
        rw [if_neg (by simp [hm])]
        split
        · simp
        · split
          · simp
          · rename_i v hv
            have hascii : ∀ c ∈ v, c.toNat < 128 := by
              unfold Headers.get Headers.getHeader at hv
              obtain ⟨x, hx, rfl⟩ := Option.map_eq_some_iff.1 hv
              exact ha x (List.mem_of_find?_eq_some hx)
            split
            · rename_i hp; exact absurd hp (Dlg.extractTag_ascii hascii)
            · simp
      split
      · rename_i hp; exact absurd hp hv
      · exact reply_safe hs ht hc (by omega) (reason_lit "Bad Request" (by decide))
      · split
        · rename_i hp; exact absurd hp (find_safe ha)
        · split
          · refine bind_ne (create_safe hs (by omega) (reason_lit "Trying" (by decide)) ht) (fun r e => ?_)
            have := create_length e
            exact bind_ne (autoFill_safe hc (by omega)) (fun _ _ => by simp)
          · simp
    · split
      · unfold onAck
        split
        · rename_i hp; exact absurd hp (find_safe ha)
        · simp
        · simp
      · split
        · unfold onCancel
          split
          · simp
          · split
            · simp
            · split
              · rename_i hp
                exact absurd hp (C86_build_partial _ _ _ _ hs ht trivial hc.contact.1 hc.contact.2)
              · simp
              · rename_i r hb
                obtain ⟨fr, _⟩ := framed_build hb
                have l := framed_length fr (by simp only [cseqs]; cases rq.headers.get "CSeq".toList <;> simp) (toOf_length _ _ _)
                have : (extra s.contactUri Answer.terminated).length = 0 := rfl
                exact bind_ne (autoFill_safe hc (by omega)) (fun _ _ => by simp)
        · split
          · unfold onOptions
            split
            · rename_i hp
              exact absurd hp (C86_build_partial _ _ _ _ hs ht trivial hc.contact.1 hc.contact.2)
            · simp
            · rename_i r hb
              obtain ⟨fr, _⟩ := framed_build hb
              have l := framed_length fr (Nat.le_refl _) (toOf_length _ _ _)
              have : (extra s.contactUri Answer.options).length = 2 := rfl
              refine bind_ne (setE_done (Or.inl (by omega)) (tokens "Allow" (by simp)).1 (tokens "Allow" (by simp)).2 hc.allow.1 hc.allow.2) (fun r1 e1 => ?_)
              obtain ⟨hs1, rfl, hh⟩ := setE_some e1
              have := setOrPush_length hh
              exact bind_ne (autoFill_safe hc (by simp only []; omega)) (fun _ _ => by simp)
          · split
            · simp
            · split
              · unfold inDialog
                split
                · rename_i hp; exact absurd hp (find_safe ha)
                · simp
                · exact reply_safe hs ht hc (by omega) (reason_lit "Call/Transaction Does Not Exist" (by decide))
              · exact reply_safe hs ht hc (by omega) (reason_lit "Not Implemented" (by decide))
  unfold dispatch
  split
  · split
    · simp
    · exact hroute
    · split
      · simp
      · rename_i r
        exact bind_ne (autoFill_safe hc (hch r rfl)) (fun _ _ => by simp)
  · exact hroute

/-- C86 fails in full: the name of a caller can crash the dispatcher. -/
theorem C86_name_crashes : dispatch plainSettings server peer (request .invite
    [("Via", "SIP/2.0/UDP c;branch=z9hG4bK1"), ("From", "\"Zoë\" <sip:zoe@h>;tag=1"), ("To", "<sip:b@h>"), ("Call-ID", "c1"), ("CSeq", "7 INVITE")])
    "t1".toList none none true = .panic := by decide +kernel

-- the hypotheses are met
example : Safe (hdrs (usualHeaders "INVITE")) := by
  refine ⟨⟨by decide, ?_⟩, by decide, ?_, ?_⟩
  · unfold StoredOk Clean Token OneLine TokenChar
    decide
  · intro v hv
    have := (get_iff _ "To".toList v).mpr hv
    have e : (hdrs (usualHeaders "INVITE")).get "To".toList = some "<sip:b@h>".toList := by decide +kernel
    rw [e] at this
    cases this
    decide
  · intro v hv
    have := (get_iff _ "CSeq".toList v).mpr hv
    have e : (hdrs (usualHeaders "INVITE")).get "CSeq".toList = some "7 INVITE".toList := by decide +kernel
    rw [e] at this
    cases this
    decide
example : FineSettings plainSettings server ∧ Short "t1".toList ∧ AsciiHeaders (hdrs (usualHeaders "INVITE")) := by
  refine ⟨⟨⟨?_, by decide⟩, ⟨?_, by decide⟩, ⟨?_, by decide⟩⟩, ⟨?_, by decide⟩, ?_⟩
  · unfold OneLine; decide
  · unfold OneLine; decide
  · unfold OneLine; decide
  · unfold OneLine; decide
  · unfold AsciiHeaders; decide +kernel

end Siphon.Uas
