import Verif.Proxy.PropsForward
/-!
# C51, C56, C73: CANCEL, ACK and challenges in the forking proxy
-/
set_option linter.unusedSimpArgs false
namespace Siphon.Proxy
open Spec HdrSpec TextSpec FwdSpec

namespace CancelSpec

/-- `l'` is `l` without the headers that satisfy `P`. -/
inductive Without (P : Header → Prop) : List Header → List Header → Prop
  | nil : Without P [] []
  | keep {h l l'} : ¬ P h → Without P l l' → Without P (h :: l) (h :: l')
  | drop {h l l'} : P h → Without P l l' → Without P (h :: l) l'

/-- A header that describes a body. -/
def AboutBody (h : Header) : Prop := SameName h.name "Content-Type".toList ∨ SameName h.name "Content-Length".toList

/-- The headers of a CANCEL, below its own Via, for an INVITE with the headers `orig`: no headers about a body,
and `CANCEL` in place of the method of the CSeq. -/
def CancelHeaders (orig rest : List Header) : Prop :=
  ∃ kept pre h post num method, Without AboutBody orig kept ∧ kept = pre ++ h :: post ∧
    SameName h.name "CSeq".toList ∧ (∀ x ∈ pre, ¬ SameName x.name "CSeq".toList) ∧
    h.value = num ++ ' ' :: method ∧ ' ' ∉ num ∧ rest = pre ++ ⟨h.name, num ++ " CANCEL".toList⟩ :: post

/-- A word without white space, `;` and NUL. -/
def Solid (s : Str) : Prop := ∀ c ∈ s, isWs c = false ∧ c ≠ ';' ∧ c ≠ '\x00'

/-- The branch has no final answer and was not cancelled. -/
def Pending (b : Branch) : Prop := b.state ≠ .completed ∧ b.state ≠ .cancelled

end CancelSpec
open CancelSpec

/-! ## The CANCEL requests -/

theorem without_filter (p : Header → Bool) (P : Header → Prop) (hp : ∀ h, p h = true ↔ ¬ P h) :
    ∀ l : List Header, Without P l (l.filter p)
  | [] => .nil
  | h :: l => by
    by_cases hc : p h = true
    · rw [List.filter_cons_of_pos hc]; exact .keep ((hp h).mp hc) (without_filter p P hp l)
    · rw [List.filter_cons_of_neg hc]
      refine .drop ?_ (without_filter p P hp l)
      exact Classical.byContradiction (fun hn => hc ((hp h).mpr hn))

theorem without_filter_eq {p : Header → Bool} {P : Header → Prop} (hp : ∀ h, p h = true ↔ ¬ P h) :
    ∀ {l l' : List Header}, Without P l l' → l' = l.filter p := by
  intro l l' h
  induction h with
  | nil => rfl
  | keep hn _ ih => rw [List.filter_cons_of_pos ((hp _).mpr hn), ih]
  | drop hd _ ih => rw [List.filter_cons_of_neg (fun hc => (hp _).mp hc hd), ih]

theorem via_join (host transport b : Str) : viaValue host transport b =
    join ';' ["SIP/2.0/".toList ++ transport ++ [' '] ++ host, "branch=".toList ++ b, "rport".toList] := by
  have e1 : ";branch=".toList = ';' :: "branch=".toList := rfl
  have e2 : ";rport".toList = ';' :: "rport".toList := rfl
  unfold viaValue join join join
  rw [e1, e2]
  generalize "SIP/2.0/".toList = x
  generalize "branch=".toList = y
  generalize "rport".toList = z
  simp only [List.append_assoc, List.cons_append, List.nil_append]

theorem pieces_via (host transport b : Str) (hh : Solid host) (ht : Solid transport) (hb : Solid b) :
    splitChar ';' (viaValue host transport b) =
      ["SIP/2.0/".toList ++ transport ++ [' '] ++ host, "branch=".toList ++ b, "rport".toList] := by
  symm
  rw [← pieces_iff]
  refine ⟨by simp, ?_, ?_⟩
  · exact via_join host transport b
  · intro p hp
    simp only [List.mem_cons, List.not_mem_nil, or_false] at hp
    rcases hp with rfl | rfl | rfl
    · intro hc
      simp only [List.mem_append] at hc
      rcases hc with ((hc | hc) | hc) | hc
      · revert hc; decide +kernel
      · exact (ht _ hc).2.1 rfl
      · revert hc; decide +kernel
      · exact (hh _ hc).2.1 rfl
    · intro hc
      rcases List.mem_append.mp hc with hc | hc
      · revert hc; decide +kernel
      · exact (hb _ hc).2.1 rfl
    · decide +kernel

theorem trim_first (host transport : Str) (hh : Solid host) (hne : host ≠ []) :
    trim ("SIP/2.0/".toList ++ transport ++ [' '] ++ host) = "SIP/2.0/".toList ++ transport ++ [' '] ++ host := by
  symm
  rw [← strips_trim]
  refine ⟨[], [], by simp, by simp, by simp, ?_, ?_⟩
  · intro c hc
    have : ("SIP/2.0/".toList ++ transport ++ [' '] ++ host).head? = some 'S' := rfl
    rw [this] at hc
    cases hc; decide
  · intro c hc
    rw [List.getLast?_append] at hc
    cases hl : host.getLast? with
    | none => rw [List.getLast?_eq_none_iff] at hl; exact absurd hl hne
    | some x =>
      rw [hl] at hc
      simp at hc
      rw [← hc]
      exact (hh x (List.mem_of_getLast? hl)).1

theorem lower_append (a b : Str) : lower (a ++ b) = lower a ++ lower b := by simp [lower]

/-- The Via of the CANCEL gets the branch of the forwarded INVITE. -/
theorem prepareCancel_eq (q : Request) (host transport b k : Str) (rest : List Header)
    (hq : q.headers.inner = ⟨"Via".toList, viaValue host transport b⟩ :: rest)
    (hh : Solid host) (hne : host ≠ []) (ht : Solid transport) (hb : Solid b)
    (hk : OneLine (viaValue host transport k)) (hlen : utf8Len (viaValue host transport k) ≤ 8192) :
    prepareCancel q k = { q with headers := ⟨⟨"Via".toList, viaValue host transport k⟩ :: rest⟩ } := by
  have hv : Header.nameEq ⟨"Via".toList, viaValue host transport b⟩ "Via".toList = true :=
    (nameEq_iff _ _).mpr (sameName_refl _)
  have hget : q.headers.get "Via".toList = some (viaValue host transport b) := by
    unfold Headers.get Headers.getHeader
    rw [hq, List.find?_cons_of_pos (by exact hv)]
    rfl
  have e2 : trim ("branch=".toList ++ b) = "branch=".toList ++ b := by
    apply trim_of_trimmed
    apply trimmed_of_all
    intro c hc
    rcases List.mem_append.mp hc with hc | hc
    · have : ∀ c ∈ "branch=".toList, isWs c = false := by decide +kernel
      exact this c hc
    · exact (hb c hc).1
  have e3 : trim "rport".toList = "rport".toList := by decide +kernel
  have r1 : ("branch=".toList.isPrefixOf (lower ("SIP/2.0/".toList ++ transport ++ [' '] ++ host))) = false := by
    have : lower ("SIP/2.0/".toList ++ transport ++ [' '] ++ host) = 's' :: lower ("IP/2.0/".toList ++ transport ++ [' '] ++ host) := rfl
    rw [this]
    rfl
  have r2 : ("branch=".toList.isPrefixOf (lower ("branch=".toList ++ b))) = true := by
    rw [lower_append]
    have : lower "branch=".toList = "branch=".toList := by decide +kernel
    rw [this]
    exact List.isPrefixOf_iff_prefix.mpr ⟨_, rfl⟩
  have hj : joinSemi ["SIP/2.0/".toList ++ transport ++ [' '] ++ host, "branch=".toList ++ k, "rport".toList] =
      viaValue host transport k := by
    rw [via_join]
    unfold joinSemi joinSemi joinSemi join join join
    generalize "branch=".toList = y
    generalize "rport".toList = z
    generalize "SIP/2.0/".toList = x
    simp only [List.append_assoc, List.cons_append, List.nil_append]
  unfold prepareCancel
  rw [hget]
  simp only [pieces_via host transport b hh ht hb, List.map_cons, List.map_nil, trim_first host transport hh hne, e2, e3]
  have hr : replaceBranch k ["SIP/2.0/".toList ++ transport ++ [' '] ++ host, "branch=".toList ++ b, "rport".toList] =
      some ["SIP/2.0/".toList ++ transport ++ [' '] ++ host, "branch=".toList ++ k, "rport".toList] := by
    unfold replaceBranch
    rw [r1]
    simp only [Bool.false_eq_true, if_false]
    unfold replaceBranch
    rw [r2]
    rfl
  rw [hr]
  simp only [hj]
  rcases C24_setOrPush q.headers "Via".toList (viaValue host transport k) token_via (by decide +kernel) hk hlen with
    ⟨hno, _⟩ | ⟨hno, _⟩ | ⟨pre, h, post, e, hs, hpre, hset⟩
  · exact absurd (sameName_refl _) (hno _ (by rw [hq]; exact List.mem_cons_self))
  · exact absurd (sameName_refl _) (hno _ (by rw [hq]; exact List.mem_cons_self))
  · rw [hset]
    rw [hq] at e
    cases pre with
    | nil =>
      simp only [List.nil_append, List.cons.injEq] at e
      rw [← e.1, ← e.2]
      rfl
    | cons x pre =>
      simp only [List.cons_append, List.cons.injEq] at e
      exact absurd (sameName_refl _) (e.1 ▸ hpre x (by simp))

theorem splitOnce_eq (c : Char) (a b : Str) (h : c ∉ a) : splitOnce c (a ++ c :: b) = some (a, b) := by
  induction a with
  | nil => simp [splitOnce]
  | cons x t ih =>
    simp only [List.mem_cons, not_or] at h
    simp only [List.cons_append, splitOnce]
    rw [if_neg (fun e => h.1 e.symm), ih h.2]
    rfl

theorem token_cseq : Token "CSeq".toList := ((validateHeaderName_ok_iff "CSeq".toList).mp (by decide +kernel)).1

/-- The CANCEL all others are made from. -/
theorem cancelTemplate_eq (original : Request) (host transport b : Str) (rest : List Header)
    (hv : OneLine (viaValue host transport b)) (hlen : utf8Len (viaValue host transport b) ≤ 8192)
    (hroom : original.headers.inner.length < 200) (hrest : CancelHeaders original.headers.inner rest)
    (hvals : ∀ h ∈ original.headers.inner, OneLine h.value ∧ utf8Len h.value ≤ 8000) :
    cancelTemplate original host transport b =
      some { method := .cancel, uri := original.uri, headers := ⟨⟨"Via".toList, viaValue host transport b⟩ :: rest⟩, body := [] } := by
  obtain ⟨kept, pre, h, post, num, m, hw, hk, hn, hpre, hval, hsp, rfl⟩ := hrest
  have hkept : (((original.headers.remove "Content-Type".toList).1.remove "Content-Length".toList).1).inner = kept := by
    have := without_filter_eq (p := fun h => !(h.nameEq "Content-Type".toList) && !(h.nameEq "Content-Length".toList))
      (P := AboutBody) (by
        intro h
        unfold AboutBody
        rw [Bool.and_eq_true, Bool.not_eq_true', Bool.not_eq_true', not_or, ← nameEq_iff, ← nameEq_iff,
          Bool.not_eq_true, Bool.not_eq_true]) hw
    rw [this]
    simp only [Headers.remove, List.filter_filter]
    congr 1
    funext x
    rw [Bool.and_comm]
  have hle : kept.length ≤ original.headers.inner.length := by
    have h1 := (C24_remove original.headers "Content-Type".toList).2.1.length_le
    have h2 := (C24_remove (original.headers.remove "Content-Type".toList).1 "Content-Length".toList).2.1.length_le
    rw [hkept] at h2
    omega
  have hin : h ∈ original.headers.inner := by
    have h1 := (C24_remove original.headers "Content-Type".toList).2.1
    have h2 := (C24_remove (original.headers.remove "Content-Type".toList).1 "Content-Length".toList).2.1
    rw [hkept] at h2
    exact (h2.trans h1).subset (by rw [hk]; simp)
  unfold cancelTemplate
  simp only
  have ha : addVia { method := .cancel, uri := original.uri, headers :=
      ((original.headers.remove "Content-Type".toList).1.remove "Content-Length".toList).1, body := [] } host transport b =
      some { method := .cancel, uri := original.uri, headers := ⟨⟨"Via".toList, viaValue host transport b⟩ :: kept⟩, body := [] } :=
    (prependVia_iff _ _ _).mpr ⟨hv, hlen, by simp only [hkept]; omega, by simp only [hkept]⟩
  rw [ha]
  simp only
  have hvia : Header.nameEq ⟨"Via".toList, viaValue host transport b⟩ "CSeq".toList = false := by
    have : Header.nameEq ⟨"Via".toList, []⟩ "CSeq".toList = false := by decide +kernel
    exact this
  have hget : (Headers.mk (⟨"Via".toList, viaValue host transport b⟩ :: kept)).get "CSeq".toList = some (num ++ ' ' :: m) := by
    have := (C24_get (Headers.mk (⟨"Via".toList, viaValue host transport b⟩ :: kept)) "CSeq".toList (num ++ ' ' :: m)).mpr
      ⟨⟨"Via".toList, viaValue host transport b⟩ :: pre, h, post, by simp [hk], hn, hval, by
        intro x hx
        rcases List.mem_cons.mp hx with rfl | hx
        · intro hc
          rw [(nameEq_iff _ _).mpr hc] at hvia
          cases hvia
        · exact hpre x hx⟩
    exact this
  rw [hget]
  simp only [splitOnce_eq ' ' num m hsp]
  obtain ⟨o1, o2⟩ := hvals h hin
  have hcan : OneLine (num ++ " CANCEL".toList) ∧ utf8Len (num ++ " CANCEL".toList) ≤ 8192 := by
    rw [hval] at o1 o2
    have hc : OneLine " CANCEL".toList := by unfold OneLine; decide +kernel
    refine ⟨?_, ?_⟩
    · simp only [OneLine, List.mem_append, List.mem_cons, not_or] at o1 hc ⊢
      exact ⟨⟨o1.1.1, hc.1⟩, ⟨o1.2.1.1, hc.2.1⟩, ⟨o1.2.2.1, hc.2.2⟩⟩
    · rw [utf8Len_app] at o2 ⊢
      have : utf8Len " CANCEL".toList = 7 := by decide +kernel
      omega
  rcases C24_setOrPush (Headers.mk (⟨"Via".toList, viaValue host transport b⟩ :: kept)) "CSeq".toList
    (num ++ " CANCEL".toList) token_cseq (by decide +kernel) hcan.1 hcan.2 with
    ⟨hno, _⟩ | ⟨hno, _⟩ | ⟨pre', h', post', e, hs, hpre', hset⟩
  · exact absurd hn (hno h (by simp [hk]))
  · exact absurd hn (hno h (by simp [hk]))
  · rw [hset]
    simp only
    -- the first CSeq is unique
    have huniq : pre' = ⟨"Via".toList, viaValue host transport b⟩ :: pre ∧ h' = h ∧ post' = post := by
      have e' : (⟨"Via".toList, viaValue host transport b⟩ :: pre) ++ h :: post = pre' ++ h' :: post' := by
        rw [← e]; simp [hk]
      have hpre2 : ∀ x ∈ (⟨"Via".toList, viaValue host transport b⟩ :: pre : List Header), ¬ SameName x.name "CSeq".toList := by
        intro x hx
        rcases List.mem_cons.mp hx with rfl | hx
        · intro hc
          rw [(nameEq_iff _ _).mpr hc] at hvia
          cases hvia
        · exact hpre x hx
      have go : ∀ (a a' b b' : List Header), a ++ h :: b = a' ++ h' :: b' → (∀ x ∈ a, ¬ SameName x.name "CSeq".toList) →
          (∀ x ∈ a', ¬ SameName x.name "CSeq".toList) → a' = a ∧ h' = h ∧ b' = b := by
        intro a
        induction a with
        | nil =>
          intro a' b b' e ha ha'
          cases a' with
          | nil => simp at e; exact ⟨rfl, e.1.symm, e.2.symm⟩
          | cons y a' =>
            simp at e
            exact absurd hn (e.1 ▸ ha' y (by simp))
        | cons x a ih =>
          intro a' b b' e ha ha'
          cases a' with
          | nil =>
            simp at e
            exact absurd hs (e.1 ▸ ha x (by simp))
          | cons y a' =>
            simp at e
            obtain ⟨i1, i2, i3⟩ := ih a' b b' e.2 (fun z hz => ha z (by simp [hz])) (fun z hz => ha' z (by simp [hz]))
            exact ⟨by rw [e.1, i1], i2, i3⟩
      exact go _ _ _ _ e' hpre2 hpre'
    obtain ⟨rfl, rfl, rfl⟩ := huniq
    rfl

/-! ## C51 -/

/-- What holds of every context made by `Ctx.new` and calls. -/
structure Reach (c : Ctx) (original : Request) (host transport : Str) : Prop where
  orig : c.original = original
  host : c.proxyHost = host
  trans : c.transport = transport
  nodup : c.branches.keys.Nodup
  valid : ∀ k ∈ c.branches.keys, validBranchId k = true

theorem reach_step {c : Ctx} {original : Request} {host transport : Str} (h : Reach c original host transport) (o : Op) :
    Reach (c.step o).2 original host transport := by
  cases o with
  | add id t =>
    obtain ⟨_, e | ⟨_, _, e⟩⟩ := step_add c id t
    · rw [e]; exact h
    · by_cases hv : validBranchId id = true
      · rw [e]
        refine ⟨h.orig, h.host, h.trans, Tbl.nodup_insert _ _ _ h.nodup, ?_⟩
        intro k hk
        simp only [Tbl.insert, Tbl.keys, List.map_cons, List.mem_cons] at hk
        rcases hk with rfl | hk
        · exact hv
        · have hk' : k ∈ (Tbl.remove c.branches id).keys := hk
          rw [Tbl.keys_remove] at hk'
          exact h.valid k (List.mem_filter.mp hk').1
      · have : (c.step (.add id t)).2 = c := by simp only [Ctx.step]; rw [if_neg hv]
        rw [this]; exact h
  | response id r =>
    cases ht : taken1 c (.response id r) with
    | none =>
      obtain ⟨_, h1, h2, h3, h4, _⟩ := step_other c (.response id r) trivial ht
      exact ⟨h1.trans h.orig, h2.trans h.host, h3.trans h.trans, h4 ▸ h.nodup, h4 ▸ h.valid⟩
    | some p =>
      obtain ⟨_, _, hn, h1, h2, h3, _⟩ := step_final_effect c _ p.1 p.2 ht
      have h4 := keys_step c _ hn
      exact ⟨h1.trans h.orig, h2.trans h.host, h3.trans h.trans, h4 ▸ h.nodup, h4 ▸ h.valid⟩
  | timerC id =>
    cases ht : taken1 c (.timerC id) with
    | none =>
      obtain ⟨_, h1, h2, h3, h4, _⟩ := step_other c (.timerC id) trivial ht
      exact ⟨h1.trans h.orig, h2.trans h.host, h3.trans h.trans, h4 ▸ h.nodup, h4 ▸ h.valid⟩
    | some p =>
      obtain ⟨_, _, hn, h1, h2, h3, _⟩ := step_final_effect c _ p.1 p.2 ht
      have h4 := keys_step c _ hn
      exact ⟨h1.trans h.orig, h2.trans h.host, h3.trans h.trans, h4 ▸ h.nodup, h4 ▸ h.valid⟩
  | transportError id =>
    cases ht : taken1 c (.transportError id) with
    | none =>
      obtain ⟨_, h1, h2, h3, h4, _⟩ := step_other c (.transportError id) trivial ht
      exact ⟨h1.trans h.orig, h2.trans h.host, h3.trans h.trans, h4 ▸ h.nodup, h4 ▸ h.valid⟩
    | some p =>
      obtain ⟨_, _, hn, h1, h2, h3, _⟩ := step_final_effect c _ p.1 p.2 ht
      have h4 := keys_step c _ hn
      exact ⟨h1.trans h.orig, h2.trans h.host, h3.trans h.trans, h4 ▸ h.nodup, h4 ▸ h.valid⟩

theorem reach_run (original : Request) (host transport : Str) (ops : List Op) :
    Reach ((Ctx.new original host transport).run ops).2 original host transport := by
  suffices h : ∀ c, Reach c original host transport → Reach (c.run ops).2 original host transport from
    h _ ⟨rfl, rfl, rfl, by simp [Ctx.new, Tbl.keys], by simp [Ctx.new, Tbl.keys]⟩
  induction ops with
  | nil => intro c h; exact h
  | cons o os ih =>
    intro c h
    show Reach ((c.step o).2.run os).2 original host transport
    exact ih _ (reach_step h o)

theorem selectBest_2xx {o : Option Response} {r : Response} (h2 : Class r 2) (h : ∀ b, o = some b → ¬ Class b 6) :
    selectBest o r = true := by
  have e2 := (class_iff _ _).mp h2
  cases o with
  | none => rfl
  | some b =>
    have := h b rfl
    rw [class_iff] at this
    simp only [selectBest]
    rw [if_neg (by omega), if_neg this, if_pos e2]

theorem validBranchId_via (host transport k : Str) (h : validBranchId k = true) (hh : Solid host) (ht : Solid transport)
    (hl : utf8Len host + utf8Len transport ≤ 8000) :
    OneLine (viaValue host transport k) ∧ utf8Len (viaValue host transport k) ≤ 8192 := by
  simp only [validBranchId, Bool.and_eq_true, Bool.not_eq_true', decide_eq_false_iff_not, MAX_BRANCH_ID_LENGTH,
    List.any_eq_false] at h
  have hl1 : utf8Len "SIP/2.0/".toList = 8 := by decide +kernel
  have hl2 : utf8Len ";branch=".toList = 8 := by decide +kernel
  have hl3 : utf8Len ";rport".toList = 6 := by decide +kernel
  have hl4 : utf8Len [' '] = 1 := by decide +kernel
  have ho : ∀ s, Solid s → OneLine s := by
    intro s hs
    refine ⟨fun hm => ?_, fun hm => ?_, fun hm => (hs _ hm).2.2 rfl⟩
    · have := (hs _ hm).1; revert this; decide
    · have := (hs _ hm).1; revert this; decide
  have hk : OneLine k := by
    refine ⟨fun hm => ?_, fun hm => ?_, fun hm => ?_⟩
    · exact absurd (by decide) (h.2 _ hm)
    · exact absurd (by decide) (h.2 _ hm)
    · exact absurd (by decide) (h.2 _ hm)
  have ho1 : OneLine "SIP/2.0/".toList := by unfold OneLine; decide +kernel
  have ho2 : OneLine ";branch=".toList := by unfold OneLine; decide +kernel
  have ho3 : OneLine ";rport".toList := by unfold OneLine; decide +kernel
  have ho4 : OneLine [' '] := by unfold OneLine; decide +kernel
  have happ : ∀ a b : Str, OneLine a → OneLine b → OneLine (a ++ b) := by
    intro a b ha hb
    simp only [OneLine, List.mem_append, not_or]
    exact ⟨⟨ha.1, hb.1⟩, ⟨ha.2.1, hb.2.1⟩, ⟨ha.2.2, hb.2.2⟩⟩
  refine ⟨happ _ _ (happ _ _ (happ _ _ (happ _ _ (happ _ _ (happ _ _ ho1 (ho _ ht)) ho4) (ho _ hh)) ho2) hk) ho3, ?_⟩
  unfold viaValue
  rw [utf8Len_app, utf8Len_app, utf8Len_app, utf8Len_app, utf8Len_app, utf8Len_app, hl1, hl2, hl3, hl4]
  have hk128 : utf8Len k ≤ 128 := by simpa using h.1
  omega

/-- **C51.**  In any context that has received no 6xx, a 2xx from any of its branches is forwarded as it is;
every other branch without a final answer is then cancelled; and exactly one CANCEL goes to each cancelled
branch: to the target of that branch, with the Via of the INVITE that went there, and with the CSeq number of
the INVITE. -/
theorem C51_success_partial (original : Request) (host transport : Str) (ops : List Op) (id : Str) (r : Response)
    (draw : Str) (rest : List Header)
    (hno6 : ∀ p ∈ taken (Ctx.new original host transport) ops, ¬ Class p.2 6)
    (hknown : Knows ((Ctx.new original host transport).run ops).2 id) (h2 : Class r 2)
    (hh : Solid host) (hne : host ≠ []) (ht : Solid transport) (hd : Solid draw) (hdv : validBranchId draw = true)
    (hl : utf8Len host + utf8Len transport ≤ 8000) (hroom : original.headers.inner.length < 200)
    (hvals : ∀ h ∈ original.headers.inner, OneLine h.value ∧ utf8Len h.value ≤ 8000)
    (hrest : CancelHeaders original.headers.inner rest) :
    let c := ((Ctx.new original host transport).run ops).2
    ∃ c' : Ctx, handleBranchResponse c id r draw =
        some (some r, (c'.branches.filter (fun e => e.2.state = .cancelled)).map (fun e =>
          { method := .cancel, uri := e.2.target,
            headers := ⟨⟨"Via".toList, ViaText host transport e.1⟩ :: rest⟩, body := [] }), c') ∧
      (∀ k b, c.branches.get k = some b → k ≠ id → Pending b →
        c'.branches.get k = some { b with state := .cancelled }) ∧
      (∀ k b, c.branches.get k = some b → k ≠ id → ¬ Pending b → c'.branches.get k = some b) ∧
      (∃ b, c.branches.get id = some b ∧ c'.branches.get id = some { b with state := .completed, best := some r }) ∧
      c'.branches.keys = c.branches.keys := by
  intro c
  have hreach := reach_run original host transport ops
  have hbest : ∀ b, c.bestFinal = some b → ¬ Class b 6 := by
    intro b hb h6
    rcases C50_kept original host transport ops with ⟨_, hn⟩ | ⟨x, hx, hk⟩
    · have : c.bestFinal = none := hn
      rw [this] at hb; cases hb
    · have hx' : c.bestFinal = some x := hx
      rw [hx'] at hb; cases hb
      obtain ⟨p, hp, e⟩ := List.mem_map.mp (keeps_mem hk)
      exact hno6 p hp (e ▸ h6)
  have hsel := selectBest_2xx (o := c.bestFinal) h2 hbest
  have hcode : 200 ≤ r.code := by have := h2.1; omega
  obtain ⟨o, c', hp, ho, hph, htr, _, _, _, _, _, hbr, hout⟩ := process_final c id r hknown hcode
  have hcond : selectBest c.bestFinal r ∧ (is2xx r ∨ is6xx r) := ⟨hsel, .inl ((is2xx_iff _).mpr h2)⟩
  rw [if_pos hcond] at hbr hout
  have hnext : ∀ b : Branch, b.next r = { b with state := .completed, best := some r } := by
    intro b
    unfold Branch.next
    have hf : isFinal r = true := by simp [isFinal, hcode]
    rw [if_neg (by omega), hf]
    simp
  have hget : ∀ k, c'.branches.get k = ((answered c id r).get k).map
      (fun b => if k ≠ id ∧ b.state.isOpen then { b with state := .cancelled } else b) := by
    intro k; rw [hbr, get_cancelRest]
  have hother : ∀ k, k ≠ id → (answered c id r).get k = c.branches.get k := fun k hk => by
    unfold answered; rw [Tbl.get_update_ne _ _ hk]
  have hkeys : c'.branches.keys = c.branches.keys := by
    rw [hbr, keys_cancelRest]; simp [answered]
  refine ⟨c', ?_, ?_, ?_, ?_, hkeys⟩
  · unfold handleBranchResponse
    have hp' : c.processResponse id r = (some r, c') := by rw [hp, hout]
    rw [hp']
    simp only [(is2xx_iff _).mpr h2, if_true]
    obtain ⟨v1, v2⟩ := validBranchId_via host transport draw hdv hh ht hl
    have htmpl := cancelTemplate_eq original host transport draw rest v1 v2 hroom hrest hvals
    have e1 : c'.original = original := ho.trans hreach.orig
    have e2 : c'.proxyHost = host := hph.trans hreach.host
    have e3 : c'.transport = transport := htr.trans hreach.trans
    rw [e1, e2, e3, htmpl]
    simp only [Option.some.injEq, Prod.mk.injEq, true_and, and_true]
    unfold Ctx.cancels
    have hstate : ∀ e ∈ c'.branches, (e.2.state = .cancelled ∨ e.2.state = .trying ∨ e.2.state = .proceeding) ↔
        e.2.state = .cancelled := by
      intro e he
      have hnd : c'.branches.keys.Nodup := hkeys ▸ hreach.nodup
      have hg := Tbl.get_of_mem _ e.1 e.2 hnd he
      rw [hget] at hg
      by_cases hk : e.1 = id
      · rw [hk] at hg
        unfold answered at hg
        rw [Tbl.get_update_self] at hg
        cases hb : c.branches.get id with
        | none => rw [hb] at hg; cases hg
        | some b =>
          rw [hb] at hg
          simp only [Option.map_some, hnext, ne_eq, not_true_eq_false, false_and, if_false, Option.some.injEq] at hg
          rw [← hg]; simp
      · cases hb : (answered c id r).get e.1 with
        | none => rw [hb] at hg; cases hg
        | some b =>
          rw [hb] at hg
          simp only [Option.map_some, Option.some.injEq, ne_eq, hk, not_false_eq_true, true_and] at hg
          rw [← hg]
          cases hs : b.state <;> simp [BranchState.isOpen, hs]
    have hvk : ∀ e ∈ c'.branches, prepareCancel
        { method := .cancel, uri := original.uri, headers := ⟨⟨"Via".toList, viaValue host transport draw⟩ :: rest⟩, body := [] } e.1 =
        { method := .cancel, uri := original.uri, headers := ⟨⟨"Via".toList, viaValue host transport e.1⟩ :: rest⟩, body := [] } := by
      intro e he
      have hmem : e.1 ∈ c'.branches.keys := List.mem_map.mpr ⟨e, he, rfl⟩
      rw [hkeys] at hmem
      obtain ⟨w1, w2⟩ := validBranchId_via host transport e.1 (hreach.valid _ hmem) hh ht hl
      exact prepareCancel_eq _ host transport draw e.1 rest rfl hh hne ht hd w1 w2
    have go : ∀ l : Tbl Str Branch, (∀ e ∈ l, e ∈ c'.branches) →
        l.filterMap (fun e =>
          if e.2.state = .cancelled ∨ e.2.state = .trying ∨ e.2.state = .proceeding then
            some { prepareCancel { method := .cancel, uri := original.uri, headers := ⟨⟨"Via".toList, viaValue host transport draw⟩ :: rest⟩, body := [] } e.1 with uri := e.2.target }
          else none) =
        (l.filter (fun e => e.2.state = .cancelled)).map (fun e =>
          { method := .cancel, uri := e.2.target,
            headers := ⟨⟨"Via".toList, ViaText host transport e.1⟩ :: rest⟩, body := [] }) := by
      intro l
      induction l with
      | nil => intro _; rfl
      | cons e l ih =>
        intro hl
        have he := hl e (by simp)
        have ih' := ih (fun x hx => hl x (by simp [hx]))
        by_cases hc : e.2.state = .cancelled
        · rw [List.filterMap_cons_some (by rw [if_pos ((hstate e he).mpr hc)]), List.filter_cons_of_pos (by simpa using hc),
            List.map_cons, ih', hvk e he]
          rfl
        · rw [List.filterMap_cons_none (by rw [if_neg (fun h => hc ((hstate e he).mp h))]),
            List.filter_cons_of_neg (by simpa using hc), ih']
    exact go c'.branches (fun e he => he)
  · intro k b hb hk hpend
    rw [hget, hother k hk, hb]
    have : b.state.isOpen = true := by
      cases hs : b.state <;> simp [BranchState.isOpen]
      · exact absurd hs hpend.1
      · exact absurd hs hpend.2
    simp [hk, this]
  · intro k b hb hk hpend
    rw [hget, hother k hk, hb]
    have : b.state.isOpen = false := by
      cases hs : b.state <;> simp [BranchState.isOpen]
      all_goals exact hpend ⟨by rw [hs]; decide, by rw [hs]; decide⟩
    simp [hk, this]
  · obtain ⟨b, hb⟩ := Option.isSome_iff_exists.mp ((Tbl.get_isSome_iff _ _).mpr hknown)
    refine ⟨b, hb, ?_⟩
    rw [hget]
    unfold answered
    rw [Tbl.get_update_self, hb, Option.map_some, Option.map_some, hnext]
    simp

/-- **C51 fails after a 6xx.**  A 2xx that arrives after a 6xx is never forwarded, though its sender has
established a dialog and goes on retransmitting. -/
theorem C51_after_6xx (c : Ctx) (id : Str) (r b : Response) (h2 : Class r 2) (hb : c.bestFinal = some b) (h6 : Class b 6) :
    (c.processResponse id r).1 ≠ some r ∧ ∀ f, (c.processResponse id r).1 = some f → f = b := by
  by_cases hk : id ∈ c.branches.keys
  · have hcode : 200 ≤ r.code := by have := h2.1; omega
    obtain ⟨o, c', hp, _, _, _, _, _, _, _, _, _, hout⟩ := process_final c id r hk hcode
    have e6 := (class_iff _ _).mp h6
    have e2 := (class_iff _ _).mp h2
    have hsel : selectBest c.bestFinal r = false := by
      rw [hb]; simp only [selectBest]; rw [if_neg (by omega), if_pos e6]
    rw [if_neg (by simp [hsel])] at hout
    have hbet : better c.bestFinal r = some b := by unfold better; rw [hsel, hb]; rfl
    have hall : ∀ f, o = some f → f = b := by
      intro f hf
      rw [hout] at hf
      simp only [Ctx.result, hbet] at hf
      split at hf
      · simp only [Option.some.injEq] at hf
        rw [if_neg (by omega)] at hf
        exact hf.symm
      · cases hf
    rw [hp]
    refine ⟨?_, hall⟩
    intro he
    have := hall r he
    rw [this] at e2; omega
  · rw [process_unknown c id r hk]
    simp

/-- **No CANCEL after a 6xx.**  A 6xx cancels the other branches in the table, but no CANCEL is sent to them. -/
theorem C51_6xx_sends_no_cancel (c : Ctx) (id : Str) (r : Response) (draw : Str) (h6 : Class r 6)
    (hk : Knows c id) : ∃ c', handleBranchResponse c id r draw = some (some r, [], c') := by
  have hcode : 200 ≤ r.code := by have := h6.1; omega
  obtain ⟨o, c', hp, _, _, _, _, _, _, _, _, _, hout⟩ := process_final c id r hk hcode
  rw [if_pos ⟨selectBest_6xx _ _ ((is6xx_iff _).mpr h6), .inr ((is6xx_iff _).mpr h6)⟩] at hout
  refine ⟨c', ?_⟩
  unfold handleBranchResponse
  rw [hp, hout]
  have : is2xx r = false := by
    have := h6.1
    simp only [is2xx, Bool.and_eq_false_iff, decide_eq_false_iff_not]; omega
  simp [this]

/-! ## Starting a fork -/

namespace CancelSpec

/-- The requests of a fork: each is the INVITE prepared for one of the targets with the branch token under
which it is filed, and the context remembers the target. -/
def ForkOf (r : Request) (host transport : Str) (rr : Bool) (u : Option SipUri) (ts : List Target) (c : Ctx)
    (out : List (Str × Request)) : Prop :=
  ∀ p ∈ out, ∃ t ∈ ts, prepareForward r t.uri host transport rr u p.1 = .ok p.2 ∧
    c.branches.get p.1 = some { target := t.uri, state := .trying, best := none }

end CancelSpec

theorem forkLoop_spec (r : Request) (host transport : Str) (rr : Bool) (u : Option SipUri) (all : List Target) :
    ∀ (ts : List Target) (draws : List Str) (c c' : Ctx) (out out' : List (Str × Request)),
    (∀ t ∈ ts, t ∈ all) → draws.Nodup → (∀ d ∈ draws, d ∉ out.map Prod.fst) →
    forkLoop r host transport rr u ts draws c out = .ok (c', out') →
    c.terminated = false → c.bestFinal = none → Fresh c (out.map Prod.fst) →
    ForkOf r host transport rr u all c out → (∀ p ∈ out, validBranchId p.1 = true) →
    Fresh c' (out'.map Prod.fst) ∧ ForkOf r host transport rr u all c' out' ∧ (∀ p ∈ out', validBranchId p.1 = true) ∧
      c'.original = c.original ∧ c'.proxyHost = c.proxyHost ∧ c'.transport = c.transport ∧
      (∀ t ∈ ts, (∃ e, decrementMaxForwards r.headers = .error e) ∨ ∃ p ∈ out', ∃ d, p.1 = d ∧
        prepareForward r t.uri host transport rr u d = .ok p.2) ∧ ∃ more, out' = out ++ more := by
  intro ts
  induction ts with
  | nil =>
    intro draws c c' out out' _ _ _ h _ _ hfr hfo hv
    simp only [forkLoop, Res.ok.injEq, Prod.mk.injEq] at h
    obtain ⟨rfl, rfl⟩ := h
    exact ⟨hfr, hfo, hv, rfl, rfl, rfl, by simp, [], by simp⟩
  | cons t ts ih =>
    intro draws c c' out out' hall hnd hdis h hterm hbest hfr hfo hv
    cases draws with
    | nil => simp only [forkLoop] at h; cases h
    | cons b bs =>
      simp only [forkLoop] at h
      rw [List.nodup_cons] at hnd
      have hbs : ∀ d ∈ bs, d ∉ out.map Prod.fst := fun d hd => hdis d (by simp [hd])
      have hall' : ∀ x ∈ ts, x ∈ all := fun x hx => hall x (by simp [hx])
      cases hp : prepareForward r t.uri host transport rr u b with
      | panic => rw [hp] at h; cases h
      | err =>
        rw [hp] at h
        simp only at h
        obtain ⟨e, he⟩ := (C72_refused _ _ _ _ _ _ _).mp hp
        obtain ⟨i1, i2, i3, i4, i5, i6, i7, i8⟩ := ih bs c c' out out' hall' hnd.2 hbs h hterm hbest hfr hfo hv
        refine ⟨i1, i2, i3, i4, i5, i6, ?_, i8⟩
        intro x hx
        exact .inl ⟨e, he⟩
      | ok q =>
        rw [hp] at h
        simp only at h
        by_cases hvb : validBranchId b = true
        · rw [hvb] at h
          simp only [Bool.not_true, Bool.false_eq_true, if_false] at h
          unfold Ctx.addBranch Ctx.insertBranch at h
          rw [if_neg (by rw [hterm]; decide)] at h
          by_cases hlen : c.branches.length ≥ MAX_BRANCHES_PER_CONTEXT
          · rw [if_pos hlen] at h; cases h
          · rw [if_neg hlen] at h
            simp only at h
            have hbout : b ∉ out.map Prod.fst := hdis b (by simp)
            have hbk : b ∉ c.branches.keys := fun hc => hbout (hfr.2.1.mem_iff.mp hc)
            have hins : c.branches.insert b { target := t.uri, state := .trying, best := none } =
                (b, { target := t.uri, state := .trying, best := none }) :: c.branches := by
              unfold Tbl.insert; rw [Tbl.remove_of_not_mem _ _ hbk]
            rw [hins] at h
            have hfr' : Fresh { c with branches := (b, { target := t.uri, state := .trying, best := none }) :: c.branches, outstanding := c.outstanding + 1 } ((out ++ [(b, q)]).map Prod.fst) := by
              refine ⟨?_, ?_, ?_, hbest, hterm⟩
              · rw [List.map_append, List.nodup_append]
                refine ⟨hfr.1, by simp, ?_⟩
                intro x hx y hy
                simp at hy
                subst hy
                rintro rfl
                exact hbout hx
              · rw [List.map_append]
                show (b :: c.branches.keys).Perm _
                refine (List.Perm.cons b hfr.2.1).trans ?_
                exact (List.perm_append_singleton b _).symm
              · simp [hfr.2.2.1]
            have hfo' : ForkOf r host transport rr u all { c with branches := (b, { target := t.uri, state := .trying, best := none }) :: c.branches, outstanding := c.outstanding + 1 } (out ++ [(b, q)]) := by
              intro p hpm
              rcases List.mem_append.mp hpm with hpo | hpm
              · obtain ⟨x, hx, h1, h2⟩ := hfo p hpo
                refine ⟨x, hx, h1, ?_⟩
                simp only [Tbl.get_cons]
                rw [if_neg]
                · exact h2
                · intro e
                  exact hbout (List.mem_map.mpr ⟨p, hpo, e.symm⟩)
              · simp at hpm
                subst hpm
                exact ⟨t, hall t (by simp), hp, by simp [Tbl.get_cons]⟩
            obtain ⟨i1, i2, i3, i4, i5, i6, i7, more, i8⟩ := ih bs _ c' (out ++ [(b, q)]) out' hall' hnd.2 (by
                intro d hd hc
                rw [List.map_append] at hc
                rcases List.mem_append.mp hc with hc | hc
                · exact hbs d hd hc
                · simp at hc
                  subst hc
                  exact hnd.1 hd) h hterm hbest hfr' hfo' (by
                intro p hpm
                rcases List.mem_append.mp hpm with hpm | hpm
                · exact hv p hpm
                · simp at hpm; subst hpm; exact hvb)
            refine ⟨i1, i2, i3, i4, i5, i6, ?_, (b, q) :: more, by rw [i8]; simp⟩
            intro x hx
            rcases List.mem_cons.mp hx with rfl | hx
            · exact .inr ⟨(b, q), by rw [i8]; simp, b, rfl, hp⟩
            · exact i7 x hx
        · rw [if_pos (by simp [hvb])] at h
          cases h

theorem sortBy_head {α : Type} (key : α → Nat) : ∀ l : List α, l ≠ [] → ∃ pre t post, l = pre ++ t :: post ∧
    (∃ rest, sortBy key l = t :: rest) ∧ (∀ x ∈ pre, key t < key x) ∧ ∀ x ∈ post, key t ≤ key x
  | [], h => absurd rfl h
  | x :: xs, _ => by
    by_cases hx : xs = []
    · subst hx
      exact ⟨[], x, [], rfl, ⟨[], rfl⟩, by simp, by simp⟩
    · obtain ⟨pre, t, post, h1, ⟨rest, h2⟩, h3, h4⟩ := sortBy_head key xs hx
      by_cases hk : key x ≤ key t
      · refine ⟨[], x, xs, rfl, ⟨t :: rest, ?_⟩, by simp, ?_⟩
        · rw [sortBy, h2, insertBy, if_pos hk]
        · intro y hy
          rw [h1] at hy
          simp only [List.mem_append, List.mem_cons] at hy
          rcases hy with hy | rfl | hy
          · have := h3 y hy; omega
          · exact hk
          · have := h4 y hy; omega
      · refine ⟨x :: pre, t, post, by rw [h1]; rfl, ⟨insertBy key x rest, ?_⟩, ?_, h4⟩
        · rw [sortBy, h2, insertBy, if_neg hk]
        · intro y hy
          rcases List.mem_cons.1 hy with rfl | hy
          · omega
          · exact h3 y hy

namespace CancelSpec
/-- One target is to be tried before another: lower priority number, or the same and a higher q. -/
def Before (a b : Target) : Prop := a.priority < b.priority ∨ a.priority = b.priority ∧ b.q < a.q
end CancelSpec

/-- **C51.** The targets a fork tries: in parallel mode all of them, without forking the first, and in sequential
mode only the best one (the first of the best); the others are never tried. -/
theorem C51_tried (ts : List Target) (hq : ∀ t ∈ ts, t.q ≤ 0x3F800000) :
    chosenTargets .parallel ts = ts ∧ (∀ t rest, ts = t :: rest → chosenTargets .none ts = [t]) ∧
    (ts ≠ [] → ∃ pre t post, ts = pre ++ t :: post ∧ chosenTargets .sequential ts = [t] ∧
      (∀ x ∈ pre, CancelSpec.Before t x) ∧ ∀ x ∈ post, ¬ CancelSpec.Before x t) := by
  refine ⟨rfl, ?_, ?_⟩
  · rintro t rest rfl; rfl
  · intro hne
    obtain ⟨pre, t, post, h1, ⟨rest, h2⟩, h3, h4⟩ := sortBy_head Target.key ts hne
    refine ⟨pre, t, post, h1, ?_, ?_, ?_⟩
    · simp [chosenTargets, h2]
    · intro x hx
      have := h3 x hx
      have q1 := hq x (by rw [h1]; simp [hx])
      have q2 := hq t (by rw [h1]; simp)
      unfold Target.key Q_ONE at this
      unfold CancelSpec.Before
      omega
    · intro x hx
      have := h4 x hx
      have q1 := hq x (by rw [h1]; simp [hx])
      have q2 := hq t (by rw [h1]; simp)
      unfold Target.key Q_ONE at this
      unfold CancelSpec.Before
      omega

/-- **C51, start of a fork.**  The INVITEs sent are filed in a fresh context, each under the branch token of its
own top Via, together with the target it was sent to; every target to be tried gets one.  (The tokens drawn
are distinct; that is an assumption about the random generator.) -/
theorem C51_fork (r : Request) (targets : List Target) (host transport : Str) (rr : Bool) (u : Option SipUri)
    (mode : ForkMode) (draws : List Str) (c : Ctx) (out : List (Str × Request)) (hnd : draws.Nodup)
    (h : startForking r targets host transport rr u mode draws = .ok (c, out)) :
    Fresh c (out.map Prod.fst) ∧ ForkOf r host transport rr u (chosenTargets mode targets) c out ∧
      (∀ p ∈ out, p.2.headers.inner.head? = some ⟨"Via".toList, ViaText host transport p.1⟩) ∧
      (∀ t ∈ chosenTargets mode targets, (∃ e, decrementMaxForwards r.headers = .error e) ∨
        ∃ p ∈ out, p.2.uri = t.uri) ∧
      out.length ≤ 50 ∧ c.original = r ∧ c.proxyHost = host ∧ c.transport = transport := by
  unfold startForking at h
  split at h
  · cases h
  split at h
  · cases h
  split at h
  · cases h
  split at h
  · cases h
  · cases h
  obtain ⟨i1, i2, i3, i4, i5, i6, i7, _⟩ := forkLoop_spec r host transport rr u (chosenTargets mode targets)
    (chosenTargets mode targets) draws _ c [] out (fun t ht => ht) hnd (by simp) h rfl rfl
    ⟨by simp, by simp [Ctx.new, Tbl.keys], rfl, rfl, rfl⟩ (by intro p hp; simp at hp) (by simp)
  have hlen : ∀ (ts : List Target) (draws : List Str) (c c' : Ctx) (out out' : List (Str × Request)),
      c.branches.length ≤ 50 → forkLoop r host transport rr u ts draws c out = .ok (c', out') → c'.branches.length ≤ 50 := by
    intro ts
    induction ts with
    | nil =>
      intro draws c c' out out' hl h
      simp only [forkLoop, Res.ok.injEq, Prod.mk.injEq] at h
      rw [← h.1]; exact hl
    | cons t ts ih =>
      intro draws c c' out out' hl h
      cases draws with
      | nil => simp only [forkLoop] at h; cases h
      | cons b bs =>
        simp only [forkLoop] at h
        split at h
        · cases h
        · exact ih _ _ _ _ _ hl h
        · split at h
          · cases h
          · split at h
            · cases h
            · rename_i c2 hadd
              refine ih _ _ _ _ _ ?_ h
              unfold Ctx.addBranch Ctx.insertBranch at hadd
              split at hadd
              · cases hadd
              · split at hadd
                · cases hadd
                · rename_i hl2
                  simp only [Prod.mk.injEq, true_and] at hadd
                  rw [← hadd]
                  have := Tbl.length_insert_le c.branches b { target := t.uri, state := .trying, best := none }
                  simp only [MAX_BRANCHES_PER_CONTEXT] at hl2
                  simp only
                  omega
  refine ⟨i1, i2, ?_, ?_, ?_, i4, i5, i6⟩
  · intro p hp
    obtain ⟨t, _, ht, _⟩ := i2 p hp
    obtain ⟨_, _, _, _, _, _, _, _, e⟩ := C72_forwarded _ _ _ _ _ _ _ _ ht
    rw [e]; rfl
  · intro t ht
    rcases i7 t ht with h | ⟨p, hp, d, _, hd⟩
    · exact .inl h
    · exact .inr ⟨p, hp, (C72_forwarded _ _ _ _ _ _ _ _ hd).2.1⟩
  · have h1 := hlen _ _ _ _ _ _ (by simp [Ctx.new]) h
    have h2 := i1.2.1.length_eq
    rw [length_keys] at h2
    simp only [List.length_map] at h2
    omega

/-- **Sequential forking stops at the first target.**  Whatever the targets, at most one request is sent, and
nothing in the service moves on to the next target when that one fails. -/
theorem C51_sequential (r : Request) (targets : List Target) (host transport : Str) (rr : Bool) (u : Option SipUri)
    (draws : List Str) (c : Ctx) (out : List (Str × Request))
    (h : startForking r targets host transport rr u .sequential draws = .ok (c, out)) : out.length ≤ 1 := by
  unfold startForking at h
  split at h
  · cases h
  split at h
  · cases h
  split at h
  · cases h
  split at h
  · cases h
  · cases h
  have go : ∀ (ts : List Target) (draws : List Str) (c c' : Ctx) (out out' : List (Str × Request)),
      forkLoop r host transport rr u ts draws c out = .ok (c', out') → out'.length ≤ out.length + ts.length := by
    intro ts
    induction ts with
    | nil =>
      intro draws c c' out out' h
      simp only [forkLoop, Res.ok.injEq, Prod.mk.injEq] at h
      rw [← h.2]; simp
    | cons t ts ih =>
      intro draws c c' out out' h
      cases draws with
      | nil => simp only [forkLoop] at h; cases h
      | cons b bs =>
        simp only [forkLoop] at h
        split at h
        · cases h
        · have := ih _ _ _ _ _ h
          simp only [List.length_cons]; omega
        · split at h
          · cases h
          · split at h
            · cases h
            · have := ih _ _ _ _ _ h
              simp only [List.length_append, List.length_cons, List.length_nil] at this ⊢; omega
  have := go _ _ _ _ _ _ h
  simp only [chosenTargets, List.length_take, List.length_nil] at this
  omega

/-! ## C56 -/

namespace CancelSpec

/-- The CSeq header has at least two words, and the first is this number. -/
def CSeqNum (r : Request) (n : Nat) : Prop :=
  ∃ v w1 w2 ws, r.headers.get "CSeq".toList = some v ∧ Words v (w1 :: w2 :: ws) ∧ Decimal w1 n ∧ n ≤ 4294967295

/-- The tag parameter of a From value, as found by cutting the value at every `;`. -/
def TagOf (v : Str) (t : Option Str) : Prop :=
  (∃ x pre p post, t = some x ∧ Pieces ';' v (pre ++ p :: post) ∧ Strips isWs p ("tag=".toList ++ x) ∧
    ∀ y ∈ pre, ∀ z, ¬ Strips isWs y ("tag=".toList ++ z)) ∨
  (t = none ∧ ∃ ps, Pieces ';' v ps ∧ ∀ y ∈ ps, ∀ z, ¬ Strips isWs y ("tag=".toList ++ z))

end CancelSpec

theorem extractCseq_iff (r : Request) (n : Nat) : extractCseq r = some n ↔ CSeqNum r n := by
  unfold extractCseq CSeqNum
  cases hg : r.headers.get "CSeq".toList with
  | none => simp
  | some v =>
    simp only
    cases hw : splitWhitespace v with
    | nil =>
      simp only
      constructor
      · intro h; cases h
      · rintro ⟨v', w1, w2, ws, e, h, _⟩
        cases e
        rw [(words_iff _ _).mp h] at hw; cases hw
    | cons a l =>
      cases l with
      | nil =>
        simp only
        constructor
        · intro h; cases h
        · rintro ⟨v', w1, w2, ws, e, h, _⟩
          cases e
          rw [(words_iff _ _).mp h] at hw; cases hw
      | cons b ws =>
        simp only
        rw [parseDec_iff]
        constructor
        · rintro ⟨h1, h2⟩
          exact ⟨v, a, b, ws, rfl, (words_iff _ _).mpr hw, h1, h2⟩
        · rintro ⟨v', w1, w2, ws', e, h, h1, h2⟩
          cases e
          rw [(words_iff _ _).mp h] at hw
          cases hw
          exact ⟨h1, h2⟩

theorem findPrefixed_none (p : Str) : ∀ l : List Str, findPrefixed p l = none ↔ ∀ y ∈ l, ∀ z, trim y ≠ p ++ z
  | [] => by simp [findPrefixed]
  | x :: xs => by
    unfold findPrefixed
    by_cases hp : p.isPrefixOf (trim x) = true
    · rw [if_pos hp]
      obtain ⟨t, ht⟩ := List.isPrefixOf_iff_prefix.mp hp
      constructor
      · intro h; cases h
      · intro h; exact absurd ht.symm (h x (by simp) t)
    · rw [if_neg hp, findPrefixed_none p xs]
      constructor
      · intro h y hy
        rcases List.mem_cons.mp hy with rfl | hy
        · intro z e; exact hp (List.isPrefixOf_iff_prefix.mpr ⟨z, e.symm⟩)
        · exact h y hy
      · intro h y hy; exact h y (by simp [hy])

theorem extractTag_iff (v : Str) (t : Option Str) : extractTag v = t ↔ TagOf v t := by
  unfold extractTag TagOf
  cases t with
  | some x =>
    rw [findPrefixed_iff]
    constructor
    · rintro ⟨pre, p, post, e, h1, h2⟩
      refine .inl ⟨x, pre, p, post, rfl, (pieces_iff _ _ _).mpr e.symm, (strips_trim _ _).mpr h1.symm, ?_⟩
      intro y hy z hz
      exact h2 y hy z ((strips_trim _ _).mp hz).symm
    · rintro (⟨x', pre, p, post, e, h0, h1, h2⟩ | ⟨e, _⟩)
      · cases e
        refine ⟨pre, p, post, ((pieces_iff _ _ _).mp h0).symm, ((strips_trim _ _).mp h1).symm, ?_⟩
        intro y hy z hz
        exact h2 y hy z ((strips_trim _ _).mpr hz.symm)
      · cases e
  | none =>
    rw [findPrefixed_none]
    constructor
    · intro h
      refine .inr ⟨rfl, _, (pieces_iff _ _ _).mpr rfl, ?_⟩
      intro y hy z hz
      exact h y hy z ((strips_trim _ _).mp hz).symm
    · rintro (⟨x', _, _, _, e, _⟩ | ⟨_, ps, h0, h1⟩)
      · cases e
      · rw [← (pieces_iff _ _ _).mp h0]
        intro y hy z hz
        exact h1 y hy z ((strips_trim _ _).mpr hz.symm)

/-- **C56.**  A CANCEL matches an INVITE exactly when both have a CSeq with the same number, the same Call-ID,
the same From tag and the same Request-URI.  Partial: the tag is what `TagOf` finds, which is the tag
parameter of the From header only if it is written `tag=` in lower case and no `;tag=` occurs in the URI or
the display name before it (`C56_tag_in_uri`, `C56_tag_case`). -/
theorem C56_cancel_partial (cancel invite : Request) :
    matchesInvite cancel invite = true ↔
      (∃ n, CSeqNum cancel n ∧ CSeqNum invite n) ∧
      (∃ i, cancel.headers.get "Call-ID".toList = some i ∧ invite.headers.get "Call-ID".toList = some i) ∧
      (∃ f g t, cancel.headers.get "From".toList = some f ∧ invite.headers.get "From".toList = some g ∧
        TagOf f t ∧ TagOf g t) ∧
      cancel.uri = invite.uri := by
  unfold matchesInvite
  constructor
  · intro h
    cases h1 : extractCseq cancel with
    | none => rw [h1] at h; cases h
    | some a =>
      cases h2 : extractCseq invite with
      | none => rw [h1, h2] at h; cases h
      | some b =>
        rw [h1, h2] at h
        simp only at h
        by_cases hab : a = b
        · subst hab
          rw [if_neg (by simp)] at h
          cases h3 : cancel.headers.get "Call-ID".toList with
          | none => rw [h3] at h; cases h
          | some ci =>
            cases h4 : invite.headers.get "Call-ID".toList with
            | none => rw [h3, h4] at h; cases h
            | some ii =>
              rw [h3, h4] at h
              simp only at h
              by_cases hc : ci = ii
              · subst hc
                rw [if_neg (by simp)] at h
                cases h5 : cancel.headers.get "From".toList with
                | none => rw [h5] at h; cases h
                | some f =>
                  cases h6 : invite.headers.get "From".toList with
                  | none => rw [h5, h6] at h; cases h
                  | some g =>
                    rw [h5, h6] at h
                    simp only at h
                    by_cases ht : extractTag f = extractTag g
                    · rw [if_neg (by simpa using ht)] at h
                      by_cases hu : cancel.uri = invite.uri
                      · exact ⟨⟨a, (extractCseq_iff _ _).mp h1, (extractCseq_iff _ _).mp h2⟩, ⟨ci, rfl, rfl⟩,
                          ⟨f, g, extractTag f, rfl, rfl, (extractTag_iff _ _).mp rfl, (extractTag_iff _ _).mp ht.symm⟩, hu⟩
                      · rw [if_pos hu] at h; cases h
                    · rw [if_pos ht] at h; cases h
              · rw [if_pos hc] at h; cases h
        · rw [if_pos hab] at h; cases h
  · rintro ⟨⟨n, h1, h2⟩, ⟨i, h3, h4⟩, ⟨f, g, t, h5, h6, h7, h8⟩, hu⟩
    rw [(extractCseq_iff _ _).mpr h1, (extractCseq_iff _ _).mpr h2, h3, h4, h5, h6]
    simp [hu, (extractTag_iff _ _).mpr h7, (extractTag_iff _ _).mpr h8]

/-! ## C73: challenges -/

theorem mem_addNew (x : Str) : ∀ (vs seen : List Str), x ∈ addNew seen vs ↔ x ∈ seen ∨ x ∈ vs
  | [], seen => by simp [addNew]
  | v :: vs, seen => by
    simp only [addNew]
    rw [mem_addNew x vs]
    by_cases hc : seen.contains v = true
    · rw [if_pos hc]
      rw [List.contains_iff_mem] at hc
      constructor
      · rintro (h | h)
        · exact .inl h
        · exact .inr (by simp [h])
      · rintro (h | h)
        · exact .inl h
        · rcases List.mem_cons.mp h with rfl | h
          · exact .inl hc
          · exact .inr h
    · rw [if_neg hc]
      simp only [List.mem_append, List.mem_cons, List.not_mem_nil, or_false]
      constructor
      · rintro ((h | h) | h)
        · exact .inl h
        · exact .inr (.inl h)
        · exact .inr (.inr h)
      · rintro (h | h | h)
        · exact .inl (.inl h)
        · exact .inl (.inr h)
        · exact .inr h

/-- The list only grows, by values not in it yet. -/
def Grows (a b : List Str) : Prop := ∃ more, b = a ++ more ∧ more.Nodup ∧ ∀ x ∈ more, x ∉ a

theorem Grows.refl (a : List Str) : Grows a a := ⟨[], by simp, by simp, by simp⟩

theorem Grows.trans {a b c : List Str} (h : Grows a b) (h' : Grows b c) : Grows a c := by
  obtain ⟨m, rfl, n1, d1⟩ := h
  obtain ⟨m', rfl, n2, d2⟩ := h'
  refine ⟨m ++ m', by simp, ?_, ?_⟩
  · rw [List.nodup_append]
    refine ⟨n1, n2, ?_⟩
    intro x hx y hy e
    subst e
    exact d2 x hy (by simp [hx])
  · intro x hx hc
    rcases List.mem_append.mp hx with hx | hx
    · exact d1 x hx hc
    · exact d2 x hx (by simp [hc])

theorem grows_addNew : ∀ (vs seen : List Str), Grows seen (addNew seen vs)
  | [], seen => .refl _
  | v :: vs, seen => by
    simp only [addNew]
    refine Grows.trans ?_ (grows_addNew vs _)
    by_cases hc : seen.contains v = true
    · rw [if_pos hc]; exact .refl _
    · rw [if_neg hc]
      refine ⟨[v], rfl, by simp, ?_⟩
      intro x hx
      simp at hx
      subst hx
      intro h
      exact hc (List.contains_iff_mem.mpr h)

theorem grows_collect (n : Str) : ∀ (t : Tbl Str Branch) (seen : List Str), Grows seen (collect n t seen)
  | [], seen => .refl _
  | e :: t, seen => by
    simp only [collect]
    refine Grows.trans ?_ (grows_collect n t _)
    split
    · split
      · exact grows_addNew _ _
      · exact .refl _
    · exact .refl _

/-- The values of one challenge header that a branch contributes. -/
def CancelSpec.Challenge (n : Str) (e : Str × Branch) (v : Str) : Prop :=
  ∃ r, e.2.best = some r ∧ (r.code = 401 ∨ r.code = 407) ∧ ∃ vs, Selects n r.headers.inner vs ∧ v ∈ vs

theorem getAll_selects (hs : Headers) (n : Str) : Selects n hs.inner (hs.getAll n) := C24_getAll hs n

theorem mem_collect (n v : Str) : ∀ (t : Tbl Str Branch) (seen : List Str),
    v ∈ collect n t seen ↔ v ∈ seen ∨ ∃ e ∈ t, Challenge n e v
  | [], seen => by simp [collect]
  | e :: t, seen => by
    simp only [collect]
    rw [mem_collect n v t]
    cases hb : e.2.best with
    | none =>
      simp only
      constructor
      · rintro (h | ⟨x, hx, hc⟩)
        · exact .inl h
        · exact .inr ⟨x, by simp [hx], hc⟩
      · rintro (h | ⟨x, hx, hc⟩)
        · exact .inl h
        · rcases List.mem_cons.mp hx with rfl | hx
          · obtain ⟨r, hr, _⟩ := hc
            rw [hb] at hr; cases hr
          · exact .inr ⟨x, hx, hc⟩
    | some r =>
      simp only
      by_cases hcode : r.code = 401 ∨ r.code = 407
      · rw [if_pos hcode, mem_addNew]
        constructor
        · rintro ((h | h) | ⟨x, hx, hc⟩)
          · exact .inl h
          · exact .inr ⟨e, by simp, r, hb, hcode, _, getAll_selects _ _, h⟩
          · exact .inr ⟨x, by simp [hx], hc⟩
        · rintro (h | ⟨x, hx, hc⟩)
          · exact .inl (.inl h)
          · rcases List.mem_cons.mp hx with rfl | hx
            · obtain ⟨r', hr, _, vs, hs, hv⟩ := hc
              rw [hb] at hr; cases hr
              rw [selects_unique hs (getAll_selects _ _)] at hv
              exact .inl (.inr hv)
            · exact .inr ⟨x, hx, hc⟩
      · rw [if_neg hcode]
        constructor
        · rintro (h | ⟨x, hx, hc⟩)
          · exact .inl h
          · exact .inr ⟨x, by simp [hx], hc⟩
        · rintro (h | ⟨x, hx, hc⟩)
          · exact .inl h
          · rcases List.mem_cons.mp hx with rfl | hx
            · obtain ⟨r', hr, hcd, _⟩ := hc
              rw [hb] at hr; cases hr
              exact absurd hcd hcode
            · exact .inr ⟨x, hx, hc⟩

theorem pushAll_ok (n : Str) (hn : Token n) (hn' : utf8Len n ≤ 128) : ∀ (vs : List Str) (hs : Headers),
    (∀ v ∈ vs, OneLine v ∧ utf8Len v ≤ 8192) → hs.inner.length + vs.length ≤ 200 →
    (pushAll n vs hs).inner = hs.inner ++ vs.map (fun v => ⟨n, v⟩)
  | [], hs, _, _ => by simp [pushAll]
  | w :: vs, hs, hv, hl => by
    simp only [List.length_cons] at hl
    simp only [pushAll]
    rw [C24_push_ok hs n w (by unfold Headers.len; omega) hn hn' (hv w (by simp)).1 (hv w (by simp)).2]
    simp only
    rw [pushAll_ok n hn hn' vs _ (fun x hx => hv x (by simp [hx])) (by simp only [List.length_append, List.length_cons, List.length_nil]; omega)]
    simp

theorem selects_append {n : Str} : ∀ {a b : List Header} {va vb : List Str}, Selects n a va → Selects n b vb →
    Selects n (a ++ b) (va ++ vb) := by
  intro a b va vb ha hb
  induction ha with
  | nil => exact hb
  | take h _ ih => exact .take h ih
  | skip h _ ih => exact .skip h ih

theorem selects_map_same (n : Str) : ∀ vs : List Str, Selects n (vs.map (fun v => (⟨n, v⟩ : Header))) vs
  | [] => .nil
  | _ :: vs => .take (sameName_refl n) (selects_map_same n vs)

theorem selects_map_other {n m : Str} (h : ¬ SameName m n) : ∀ vs : List Str,
    Selects n (vs.map (fun v => (⟨m, v⟩ : Header))) []
  | [] => .nil
  | _ :: vs => .skip h (selects_map_other h vs)

theorem length_addNew : ∀ (vs seen : List Str), (addNew seen vs).length ≤ seen.length + vs.length
  | [], seen => by simp [addNew]
  | v :: vs, seen => by
    simp only [addNew, List.length_cons]
    have := length_addNew vs (if seen.contains v then seen else seen ++ [v])
    split at this <;> split <;> simp_all <;> omega

/-- The number of headers of the response a branch kept. -/
def CancelSpec.headerCount (e : Str × Branch) : Nat :=
  match e.2.best with
  | some r => r.headers.inner.length
  | none => 0

theorem selects_two {n m : Str} (hnm : ∀ x : Header, ¬ (SameName x.name n ∧ SameName x.name m)) :
    ∀ (l : List Header) (a b : List Str), Selects n l a → Selects m l b → a.length + b.length ≤ l.length := by
  intro l
  induction l with
  | nil => intro a b ha hb; cases ha; cases hb; simp
  | cons h l ih =>
    intro a b ha hb
    cases ha with
    | take h1 ha =>
      cases hb with
      | take h2 hb => exact absurd ⟨h1, h2⟩ (hnm h)
      | skip h2 hb => have := ih _ _ ha hb; simp; omega
    | skip h1 ha =>
      cases hb with
      | take h2 hb => have := ih _ _ ha hb; simp; omega
      | skip h2 hb => have := ih _ _ ha hb; simp; omega

theorem length_collect {n m : Str} (hnm : ∀ x : Header, ¬ (SameName x.name n ∧ SameName x.name m)) :
    ∀ (t : Tbl Str Branch) (a b : List Str),
    (collect n t a).length + (collect m t b).length ≤ a.length + b.length + (t.map headerCount).sum
  | [], a, b => by simp [collect]
  | e :: t, a, b => by
    simp only [collect, List.map_cons, List.sum_cons]
    cases hb : e.2.best with
    | none =>
      have := length_collect hnm t a b
      simp only
      omega
    | some r =>
      have hc : headerCount e = r.headers.inner.length := by simp [headerCount, hb]
      simp only
      by_cases hcode : r.code = 401 ∨ r.code = 407
      · rw [if_pos hcode, if_pos hcode]
        have h1 := length_collect hnm t (addNew a (r.headers.getAll n)) (addNew b (r.headers.getAll m))
        have h2 := length_addNew (r.headers.getAll n) a
        have h3 := length_addNew (r.headers.getAll m) b
        have h4 := selects_two hnm r.headers.inner _ _ (getAll_selects r.headers n) (getAll_selects r.headers m)
        omega
      · rw [if_neg hcode, if_neg hcode]
        have := length_collect hnm t a b
        omega

theorem selects_value {n : Str} {l : List Header} {vs : List Str} (h : Selects n l vs) : ∀ v ∈ vs, ∃ x ∈ l, x.value = v := by
  induction h with
  | nil => simp
  | take _ _ ih =>
    intro v hv
    rcases List.mem_cons.mp hv with rfl | hv
    · exact ⟨_, by simp, rfl⟩
    · obtain ⟨x, hx, e⟩ := ih v hv
      exact ⟨x, by simp [hx], e⟩
  | skip _ _ ih =>
    intro v hv
    obtain ⟨x, hx, e⟩ := ih v hv
    exact ⟨x, by simp [hx], e⟩

/-- **C73.**  When a fork ends with a 401 or 407, the response sent upstream is the one kept, with the challenges
of all branches that answered 401 or 407 added to it: every one of their WWW-Authenticate and
Proxy-Authenticate values is there, none is there that no branch sent, and a value already there is not added
again.  (As long as there is room in the header list; values that do not fit are left out silently.) -/
theorem C73_all_challenges (c : Ctx) (best : Response) (h0 : c.outstanding = 0) (hb : c.bestFinal = some best)
    (hcode : best.code = 401 ∨ best.code = 407)
    (hroom : best.headers.inner.length + (c.branches.map headerCount).sum ≤ 200)
    (hvals : ∀ e ∈ c.branches, ∀ r, e.2.best = some r → ∀ h ∈ r.headers.inner, OneLine h.value ∧ utf8Len h.value ≤ 8192) :
    ∃ f, c.result = some f ∧ f.code = best.code ∧ f.body = best.body ∧
      (∃ more, f.headers.inner = best.headers.inner ++ more) ∧
      ∀ n, n = "WWW-Authenticate".toList ∨ n = "Proxy-Authenticate".toList →
        ∃ vs own more, Selects n f.headers.inner vs ∧ Selects n best.headers.inner own ∧ vs = own ++ more ∧
          more.Nodup ∧ (∀ x ∈ more, x ∉ own) ∧ ∀ v, v ∈ vs ↔ v ∈ own ∨ ∃ e ∈ c.branches, Challenge n e v := by
  have hnw : ¬ SameName "Proxy-Authenticate".toList "WWW-Authenticate".toList := by rw [sameName_iff]; decide +kernel
  have hnp : ¬ SameName "WWW-Authenticate".toList "Proxy-Authenticate".toList := by rw [sameName_iff]; decide +kernel
  have htw : Token "WWW-Authenticate".toList ∧ utf8Len "WWW-Authenticate".toList ≤ 128 :=
    (validateHeaderName_ok_iff "WWW-Authenticate".toList).mp (by decide +kernel)
  have htp : Token "Proxy-Authenticate".toList ∧ utf8Len "Proxy-Authenticate".toList ≤ 128 :=
    (validateHeaderName_ok_iff "Proxy-Authenticate".toList).mp (by decide +kernel)
  obtain ⟨mw, ew, nw, dw⟩ := grows_collect "WWW-Authenticate".toList c.branches (best.headers.getAll "WWW-Authenticate".toList)
  obtain ⟨mp, ep, np, dp⟩ := grows_collect "Proxy-Authenticate".toList c.branches (best.headers.getAll "Proxy-Authenticate".toList)
  have hagg : (c.aggregate best).headers.inner =
      best.headers.inner ++ mw.map (fun v => ⟨"WWW-Authenticate".toList, v⟩) ++ mp.map (fun v => ⟨"Proxy-Authenticate".toList, v⟩) := by
    have hll := length_collect (n := "WWW-Authenticate".toList) (m := "Proxy-Authenticate".toList)
      (fun x hx => hnw (sameName_trans (sameName_symm hx.2) hx.1)) c.branches (best.headers.getAll "WWW-Authenticate".toList)
      (best.headers.getAll "Proxy-Authenticate".toList)
    rw [ew, ep] at hll
    simp only [List.length_append] at hll
    have hchal : ∀ n v, (∃ e ∈ c.branches, Challenge n e v) → OneLine v ∧ utf8Len v ≤ 8192 := by
      rintro n v ⟨e, he, r, hr, _, vs, hs, hv⟩
      obtain ⟨x, hx, rfl⟩ := selects_value hs v hv
      exact hvals e he r hr x hx
    have hmw : ∀ v ∈ mw, OneLine v ∧ utf8Len v ≤ 8192 := by
      intro v hv
      rcases (mem_collect "WWW-Authenticate".toList v c.branches (best.headers.getAll "WWW-Authenticate".toList)).mp
        (by rw [ew]; simp [hv]) with h | h
      · exact absurd h (dw v hv)
      · exact hchal _ v h
    have hmp : ∀ v ∈ mp, OneLine v ∧ utf8Len v ≤ 8192 := by
      intro v hv
      rcases (mem_collect "Proxy-Authenticate".toList v c.branches (best.headers.getAll "Proxy-Authenticate".toList)).mp
        (by rw [ep]; simp [hv]) with h | h
      · exact absurd h (dp v hv)
      · exact hchal _ v h
    unfold Ctx.aggregate
    simp only
    rw [ew, ep, List.drop_left, List.drop_left]
    have e1 := pushAll_ok "WWW-Authenticate".toList htw.1 htw.2 mw best.headers
      hmw (by omega)
    rw [pushAll_ok "Proxy-Authenticate".toList htp.1 htp.2 mp _
      hmp (by rw [e1]; simp only [List.length_append, List.length_map]; omega), e1]
  refine ⟨c.aggregate best, ?_, rfl, rfl, ⟨_, by rw [hagg, List.append_assoc]⟩, ?_⟩
  · unfold Ctx.result
    rw [if_pos h0, hb]
    simp only
    rw [if_pos hcode]
  · rintro n (rfl | rfl)
    · refine ⟨best.headers.getAll "WWW-Authenticate".toList ++ mw, _, mw, ?_, getAll_selects _ _, rfl, nw, dw, ?_⟩
      · rw [hagg]
        have := selects_append (selects_append (getAll_selects best.headers "WWW-Authenticate".toList)
          (selects_map_same "WWW-Authenticate".toList mw)) (selects_map_other hnw mp)
        simpa only [List.append_nil] using this
      · intro v; rw [← ew, mem_collect]
    · refine ⟨best.headers.getAll "Proxy-Authenticate".toList ++ mp, _, mp, ?_, getAll_selects _ _, rfl, np, dp, ?_⟩
      · rw [hagg]
        have := selects_append (selects_append (getAll_selects best.headers "Proxy-Authenticate".toList)
          (selects_map_other hnp mw)) (selects_map_same "Proxy-Authenticate".toList mp)
        simpa only [List.append_nil] using this
      · intro v; rw [← ep, mem_collect]

/-! ## Cases -/

open Demo

namespace Demo

/-- The INVITE as a CANCEL sees it. -/
def cancelRest : List Header :=
  [hd "Via" "SIP/2.0/UDP client.example.com;branch=z9hG4bKclient1;rport", hd "Max-Forwards" "70",
    hd "To" "<sip:bob@example.com>", hd "From" "<sip:alice@example.com>;tag=a1", hd "Call-ID" "call-1",
    hd "CSeq" "7 CANCEL"]

/-- A CANCEL from the client. -/
def cancel : Request := { invite with method := .cancel }

/-- A 407 with a challenge. -/
def challenge (v : String) : Response :=
  { code := 407, reason := "x".toList, headers := ⟨[hd "Proxy-Authenticate" v]⟩, body := [] }

end Demo

theorem demo_cancelHeaders : CancelHeaders invite.headers.inner Demo.cancelRest := by
  refine ⟨invite.headers.inner, invite.headers.inner.take 5, hd "CSeq" "7 INVITE", [], "7".toList, "INVITE".toList, ?_, ?_, ?_, ?_, ?_, ?_, ?_⟩
  · have hf := without_filter (fun h => !(h.nameEq "Content-Type".toList) && !(h.nameEq "Content-Length".toList))
      AboutBody (by
        intro h
        unfold AboutBody
        rw [Bool.and_eq_true, Bool.not_eq_true', Bool.not_eq_true', not_or, ← nameEq_iff, ← nameEq_iff,
          Bool.not_eq_true, Bool.not_eq_true]) invite.headers.inner
    have e : invite.headers.inner.filter (fun h => !(h.nameEq "Content-Type".toList) && !(h.nameEq "Content-Length".toList)) =
        invite.headers.inner := by decide +kernel
    rw [e] at hf; exact hf
  · decide +kernel
  · rw [sameName_iff]; decide +kernel
  · intro x hx
    rw [← nameEq_iff]
    have : ∀ x ∈ invite.headers.inner.take 5, x.nameEq "CSeq".toList = false := by decide +kernel
    rw [this x hx]; simp
  · decide +kernel
  · decide +kernel
  · decide +kernel

example : Solid host := by unfold Solid; decide +kernel
example : Knows two idA := by unfold Knows; decide +kernel
/-- Two branches, one succeeds: one CANCEL. -/
example : (match handleBranchResponse two idA (resp 200) "z9hG4bKtmp".toList with
    | some (f, cs, _) => f == some (resp 200) && cs == [Request.mk .cancel "sip:bob@two.example.com".toList
        ⟨⟨"Via".toList, ViaText host udp idB⟩ :: Demo.cancelRest⟩ []]
    | none => false) = true := by decide +kernel
/-- 603, then 200: the 200 goes nowhere. -/
example : codes two [.response idA (resp 603), .response idB (resp 200)] = [603, 603] := by decide +kernel

/-- **6xx after 2xx.**  A 6xx that arrives after a 2xx was forwarded is forwarded as well: the caller gets two
final responses. -/
theorem C51_6xx_after_2xx : codes two [.response idA (resp 200), .response idB (resp 603)] = [200, 603] := by
  decide +kernel

/-- **100 Trying is forwarded upstream**, although it is hop by hop (RFC 3261, section 16.7 step 5). -/
theorem C51_100_forwarded : codes two [.response idA (resp 100)] = [100] := by decide +kernel

/-- **A CSeq with a tab.**  Between number and method any white space is allowed; with a tab the CANCEL keeps
the method INVITE in its CSeq. -/
theorem C51_cseq_tab :
    (match cancelTemplate { invite with headers := ⟨[hd "CSeq" "7\tINVITE"]⟩ } host udp idA with
     | some c => c.headers.get "CSeq".toList
     | none => none) = some "7\tINVITE".toList := by decide +kernel

/-- A fork to three targets, and one to sixty: the limit of 50 makes the whole call fail. -/
example : (match startForking invite [⟨"sip:a@x".toList, 0, 0⟩, ⟨"sip:b@x".toList, 0, 0⟩] host udp false none .parallel [idA, idB] with
    | .ok (c, out) => c.outstanding == 2 && out.map Prod.fst == [idA, idB] && out.map (fun p => p.2.uri) == ["sip:a@x".toList, "sip:b@x".toList]
    | _ => false) = true := by decide +kernel

example : matchesInvite cancel invite = true := by decide +kernel
example : matchesInvite { cancel with uri := "sip:carol@example.com".toList } invite = false := by decide +kernel

/-- **C56 fails if `;tag=` occurs in the URI.**  The From headers have the tags `1` and `2`, yet the CANCEL is taken
to belong to the INVITE. -/
theorem C56_tag_in_uri :
    matchesInvite
      { cancel with headers := ⟨[hd "CSeq" "7 CANCEL", hd "Call-ID" "c", hd "From" "<sip:a@x;tag=u;p>;tag=1"]⟩ }
      { invite with headers := ⟨[hd "CSeq" "7 INVITE", hd "Call-ID" "c", hd "From" "<sip:a@x;tag=u;p>;tag=2"]⟩ } = true := by
  decide +kernel

/-- **C56 fails for `Tag=`.**  Parameter names are case-insensitive, but a tag written `Tag=` is not seen. -/
theorem C56_tag_case :
    matchesInvite
      { cancel with headers := ⟨[hd "CSeq" "7 CANCEL", hd "Call-ID" "c", hd "From" "<sip:a@x>;Tag=1"]⟩ }
      { invite with headers := ⟨[hd "CSeq" "7 INVITE", hd "Call-ID" "c", hd "From" "<sip:a@x>;Tag=2"]⟩ } = true := by
  decide +kernel

/-- Two branches ask for credentials in two realms: the caller learns of both. -/
example : (match (two.run [.response idA (challenge "Digest realm=\"a\""), .response idB (challenge "Digest realm=\"b\"")]).1 with
    | [f] => f.headers.getAll "Proxy-Authenticate".toList == ["Digest realm=\"a\"".toList, "Digest realm=\"b\"".toList]
    | _ => false) = true := by decide +kernel

/-! ## ACK -/

/-- **ACK for a non-2xx** is passed on as it is; what counts is the best response of the context. -/
theorem C73_ack_non2xx (c : Ctx) (ack : Request) (r : Response) (hb : c.bestFinal = some r) (h : ¬ Class r 2) :
    c.forwardAck ack = ack := by
  have : is2xx r = false := by
    cases hx : is2xx r with
    | false => rfl
    | true => exact absurd ((is2xx_iff r).mp hx) h
  simp [Ctx.forwardAck, Ctx.bestIs2xx, hb, this, ackType, prepareAck]

/-- **ACK for a 2xx loses its Request-URI.**  With a Record-Route proxy in the path, the ACK has the callee's
contact as Request-URI and a Route `<...;lr>`; forwarding it replaces the contact by the Route, so the next
element no longer knows whom it is for. -/
theorem C73_ack_loses_target :
    (Ctx.forwardAck { two with bestFinal := some (resp 200) }
      { method := .ack, uri := "sip:bob@10.0.0.7".toList, headers := ⟨[hd "Route" "<sip:p2.example.com;lr>"]⟩, body := [] }) =
      { method := .ack, uri := "sip:p2.example.com;lr".toList, headers := ⟨[]⟩, body := [] } := by decide +kernel

end Siphon.Proxy
