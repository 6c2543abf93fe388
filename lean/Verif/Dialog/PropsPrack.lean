import Verif.Dialog.PrackSpec
import Verif.Dialog.PropsAck
/-!
# C20, C21, C83, C84: reliable provisional responses
-/
set_option linter.unusedSimpArgs false
namespace Siphon.Dlg
open TextSpec HdrSpec Spec

/-! ## Reading an RAck -/

theorem upperFull_ascii {c : Char} (h : c.toNat < 128) : upperFull c = [c.toUpper] := by
  have hne : ∀ x : Char, 128 ≤ x.toNat → c ≠ x := by
    intro x hx e; subst e; omega
  unfold upperFull
  rw [if_neg (hne _ (by decide)), if_neg (hne _ (by decide)), if_neg (hne _ (by decide)), if_neg (hne _ (by decide)),
    if_neg (hne _ (by decide)), if_neg (hne _ (by decide)), if_neg (hne _ (by decide)), if_neg (hne _ (by decide)),
    if_neg (hne _ (by decide)), if_neg (hne _ (by decide))]

theorem flatMap_upper {w : Str} (h : ∀ c ∈ w, c.toNat < 128) : w.flatMap upperFull = upper w := by
  induction w with
  | nil => rfl
  | cons c w ih =>
    rw [List.flatMap_cons, upperFull_ascii (h c List.mem_cons_self), ih (fun x hx => h x (List.mem_cons_of_mem _ hx))]
    rfl

theorem upper_eq_iff (w u : Str) (hu : upper u = u) : upper w = u ↔ SameName w u := by
  rw [sameName_iff]
  unfold eqIgnoreCase
  rw [beq_iff_eq]
  have h1 : ∀ s : Str, lower (upper s) = lower s := by
    intro s; simp [lower, upper, Function.comp_def, toLower_toUpper]
  have h2 : ∀ s : Str, upper (lower s) = upper s := by
    intro s; simp [lower, upper, Function.comp_def, toUpper_toLower]
  constructor
  · intro h; rw [← h, h1]
  · intro h; rw [← h2, h, h2, hu]

theorem ite_step {c : Prop} [Decidable c] {x m : Method} {b : Option Method} (h : (if c then some x else b) = some m) :
    (c ∧ x = m) ∨ b = some m := by
  by_cases hc : c
  · rw [if_pos hc] at h; exact Or.inl ⟨hc, Option.some.inj h⟩
  · rw [if_neg hc] at h; exact Or.inr h

theorem parseMethod_iff {w : Str} (h : ∀ c ∈ w, c.toNat < 128) (m : Method) :
    parseMethod w = some m ↔ Known m ∧ SameName w m.asStr := by
  have hk : ∀ m : Method, Known m → upper m.asStr = m.asStr := by
    intro m hm
    cases m <;> first | rfl | (exact absurd rfl (hm _))
  unfold parseMethod
  rw [flatMap_upper h]
  constructor
  · intro hp
    simp only at hp
    iterate 14
      rcases ite_step hp with ⟨hu, hp⟩ | hp
      · subst hp; exact ⟨by intro t; simp, (upper_eq_iff _ _ rfl).1 hu⟩
    cases hp
  · rintro ⟨hm, hs⟩
    have hu := (upper_eq_iff w m.asStr (hk m hm)).2 hs
    simp only [hu]
    cases m <;> first | decide | (exact absurd rfl (hm _))

theorem words_mem {s : Str} {ws : List Str} (h : Words s ws) : ∀ w ∈ ws, ∀ c ∈ w, c ∈ s := by
  induction h with
  | nil _ => simp
  | cons _ _ _ _ _ ih =>
    intro w hw c hc
    rcases List.mem_cons.1 hw with rfl | hw
    · simp [hc]
    · simp [ih w hw c hc]

/-- **C20.** Reading an RAck (of ASCII text) gives what is written, and every RAck that is written properly is read. -/
theorem C20_read (v : Str) (ha : ∀ c ∈ v, c.toNat < 128) (r : RAck) : RAck.parse v = .ok r ↔ RAckText v r := by
  unfold RAck.parse RAckText
  constructor
  · intro h
    split at h
    · rename_i a b w hw
      have hw' := (words_iff _ _).2 hw
      split at h
      · cases h
      · rename_i n hn
        split at h
        · cases h
        · rename_i k hk
          split at h
          · cases h
          · rename_i m hm
            injection h with h
            subst h
            have hn' := (parseDec_iff _ _ _).1 hn
            have hk' := (parseDec_iff _ _ _).1 hk
            have hm' := (parseMethod_iff (fun c hc => ha c (words_mem hw' w (by simp) c hc)) m).1 hm
            exact ⟨a, b, w, hw', hn'.1, Nat.lt_of_le_of_lt hn'.2 (by decide), hk'.1, Nat.lt_of_le_of_lt hk'.2 (by decide), hm'⟩
    · cases h
  · rintro ⟨a, b, w, hw, h1, h2, h3, h4, h5, h6⟩
    have hm := (parseMethod_iff (fun c hc => ha c (words_mem hw w (by simp) c hc)) r.method).2 ⟨h5, h6⟩
    have e1 : parseDec MAX_U32 a = some r.rseq := parseDec_complete h1 (by unfold MAX_U32; omega)
    have e2 : parseDec MAX_U32 b = some r.cseq := parseDec_complete h3 (by unfold MAX_U32; omega)
    rw [(words_iff _ _).1 hw]
    simp only [e1, e2, hm]

example : RAckText "1776 314159 invite".toList (RAck.mk 1776 314159 .invite) :=
  (C20_read _ (by decide) _).1 (by decide +kernel)

/-! ## At most once -/

/-- Entries with this RSeq, CSeq and method that were not acknowledged. -/
def opens (r : RAck) (l : List Pending) : Nat :=
  l.countP (fun p => decide (RAck.mk p.rseq p.cseq p.method = r) && !p.pracked)

def openOf (t : Tbl Str (List Pending)) (k : Str × RAck) : Nat :=
  match t.get k.1 with
  | none => 0
  | some l => opens k.2 l

theorem opens_sublist (r : RAck) {l l' : List Pending} (h : l'.Sublist l) : opens r l' ≤ opens r l := h.countP_le

theorem openOf_update (t : Tbl Str (List Pending)) (d : Str) (f : List Pending → List Pending)
    (hf : ∀ l, (f l).Sublist l) (k : Str × RAck) : openOf (t.update d f) k ≤ openOf t k := by
  unfold openOf
  by_cases h : k.1 = d
  · rw [h, Tbl.get_update_self]
    cases Tbl.get t d with
    | none => simp
    | some l => exact opens_sublist _ (hf l)
  · rw [Tbl.get_update_ne t f h]
    exact Nat.le_refl _

theorem openOf_remove (t : Tbl Str (List Pending)) (d : Str) (k : Str × RAck) :
    openOf (t.remove d) k ≤ openOf t k := by
  unfold openOf
  by_cases h : k.1 = d
  · rw [h, Tbl.get_remove_self]; exact Nat.zero_le _
  · rw [Tbl.get_remove_ne t h]; exact Nat.le_refl _

theorem openOf_push (t : Tbl Str (List Pending)) (d : Str) (r : RAck) (code now : Nat) (k : Str × RAck) :
    openOf (pushAtom t d (Pending.mk r.rseq r.cseq r.method code false now)) k ≤ openOf t k + [(d, r)].count k := by
  unfold openOf pushAtom
  by_cases h : k.1 = d
  · rw [h, Tbl.get_insert_self]
    obtain ⟨k1, k2⟩ := k
    simp only at h
    subst h
    simp only
    have hone : opens k2 [Pending.mk r.rseq r.cseq r.method code false now] = [(k1, r)].count (k1, k2) := by
      unfold opens
      by_cases hr : r = k2
      · subst hr; simp
      · rw [List.countP_singleton, List.count_singleton]
        rw [if_neg (by simp [hr]), if_neg (by simp [hr])]
    have happ : ∀ l, opens k2 (l ++ [Pending.mk r.rseq r.cseq r.method code false now]) = opens k2 l + [(k1, r)].count (k1, k2) := by
      intro l; rw [← hone]; unfold opens; exact List.countP_append
    rw [happ]
    refine Nat.add_le_add_right ?_ _
    cases Tbl.get t k1 with
    | none => simp [opens, MAX_PENDING_PRACK_PER_DIALOG]
    | some l =>
      simp only
      split
      · exact opens_sublist _ (List.drop_sublist _ _)
      · exact Nat.le_refl _
  · rw [Tbl.get_insert_ne t _ h]; exact Nat.le_add_right _ _

theorem opens_mark (r k : RAck) : ∀ (l : List Pending) (p : Pending), l.find? (fun p => decide (p.rseq = r.rseq)) = some p →
    p.cseq = r.cseq → p.method = r.method → p.pracked = false →
    opens k (markFirst r.rseq l) + (if k = r then 1 else 0) = opens k l := by
  intro l
  induction l with
  | nil => intro p h; cases h
  | cons q l ih =>
    intro p h h1 h2 h3
    unfold markFirst
    by_cases hq : q.rseq = r.rseq
    · rw [if_pos hq]
      rw [List.find?_cons_of_pos (by simpa using hq)] at h
      injection h with h
      subst h
      unfold opens
      rw [List.countP_cons, List.countP_cons]
      have he : RAck.mk q.rseq q.cseq q.method = r := by rw [hq, h1, h2]
      by_cases hk : k = r
      · subst hk; simp [he, h3]
      · have : ¬ r = k := fun e => hk e.symm
        simp [he, h3, hk, this]
    · rw [if_neg hq]
      rw [List.find?_cons_of_neg (by simpa using hq)] at h
      have := ih p h h1 h2 h3
      unfold opens at this ⊢
      rw [List.countP_cons, List.countP_cons]
      omega

theorem check_ok {t : Tbl Str (List Pending)} {d : Str} {r r' : RAck} (h : (checkAtom t d r).1 = .ok r') :
    r' = r ∧ ∃ l p, t.get d = some l ∧ l.find? (fun p => decide (p.rseq = r.rseq)) = some p ∧ p.cseq = r.cseq ∧
      p.method = r.method ∧ p.pracked = false ∧ (checkAtom t d r).2 = t.insert d (markFirst r.rseq l) := by
  unfold checkAtom at h ⊢
  split at h
  · cases h
  · rename_i l hl
    split at h
    · cases h
    · rename_i p hp
      split at h
      · cases h
      · rename_i h1
        split at h
        · cases h
        · rename_i h2
          split at h
          · cases h
          · rename_i h3
            injection h with h
            simp only [ne_eq, Decidable.not_not, Bool.not_eq_true] at h1 h2 h3
            refine ⟨h.symm, l, p, hl, hp, h1, h2, h3, ?_⟩
            simp only [hl, hp, h1, h2, h3]
            simp

theorem check_error {t : Tbl Str (List Pending)} {d : Str} {r : RAck} {e : PErr} (h : (checkAtom t d r).1 = .error e) :
    (checkAtom t d r).2 = t := by
  unfold checkAtom at h ⊢
  cases hl : t.get d with
  | none => rfl
  | some l =>
    simp only [hl] at h ⊢
    cases hp : l.find? (fun p => decide (p.rseq = r.rseq)) with
    | none => rfl
    | some p =>
      simp only [hp] at h ⊢
      by_cases h1 : p.cseq ≠ r.cseq
      · rw [if_pos h1]
      · rw [if_neg h1] at h ⊢
        by_cases h2 : p.method ≠ r.method
        · rw [if_pos h2]
        · rw [if_neg h2] at h ⊢
          by_cases h3 : p.pracked = true
          · rw [if_pos h3]
          · rw [if_neg h3] at h; cases h

theorem openOf_check {t : Tbl Str (List Pending)} {d : Str} {r r' : RAck} (h : (checkAtom t d r).1 = .ok r')
    (k : Str × RAck) : openOf (checkAtom t d r).2 k + [(d, r)].count k ≤ openOf t k := by
  obtain ⟨_, l, p, hl, hp, h1, h2, h3, he⟩ := check_ok h
  rw [he]
  unfold openOf
  obtain ⟨k1, k2⟩ := k
  by_cases hk : k1 = d
  · subst hk
    simp only [Tbl.get_insert_self, hl]
    have := opens_mark r k2 l p hp h1 h2 h3
    by_cases hr : k2 = r
    · subst hr; simp at this ⊢; omega
    · rw [if_neg hr] at this
      have hn : ¬ r = k2 := fun e => hr e.symm
      rw [List.count_singleton, if_neg (by simp [hn])]
      omega
  · simp only
    rw [Tbl.get_insert_ne t _ hk, List.count_singleton, if_neg (by simp; intro e; exact absurd e.symm hk)]
    exact Nat.le_refl _

theorem accepted_open {t : Tbl Str (List Pending)} {as : List Atom} {l : List (Str × RAck)} (h : Accepted t as l)
    (k : Str × RAck) : l.count k ≤ openOf t k + (Pushed as).count k := by
  induction h with
  | nil => simp
  | @take t d r l as h1 _ ih =>
    have := openOf_check h1 k
    rw [List.count_singleton] at this
    rw [List.count_cons]
    simp only [Pushed]
    omega
  | @refuse t d r e l as h1 _ ih =>
    rw [check_error h1] at ih
    exact ih
  | @other t a l as h1 _ ih =>
    cases a with
    | retain d now =>
      exact Nat.le_trans ih (Nat.add_le_add_right (openOf_update _ _ _ (fun _ => List.filter_sublist) _) _)
    | push d now r code =>
      have := openOf_push t d r code now k
      simp only [Atom.run] at ih
      rw [List.count_singleton] at this
      simp only [Pushed, List.count_cons]
      omega
    | check d r => exact absurd rfl (h1 d r)
    | removeDialog d => exact Nat.le_trans ih (Nat.add_le_add_right (openOf_remove _ _ _) _)
    | removePracked d rseq =>
      exact Nat.le_trans ih (Nat.add_le_add_right (openOf_update _ _ _ (fun _ => List.filter_sublist) _) _)

/-- **C20, all interleavings.** Whatever the tasks do at the same time, a PRACK for a given dialog, RSeq, CSeq and method is
accepted at most as often as a reliable response with these was registered. -/
theorem C20_once_interleaved (as : List Atom) (l : List (Str × RAck)) (h : Accepted [] as l) (k : Str × RAck) :
    l.count k ≤ (Pushed as).count k :=
  Nat.le_trans (accepted_open h k) (by simp [openOf, Tbl.get_nil])

theorem openOf_cleanup (s : Validator) (d : Str) (now : Nat) (k : Str × RAck) :
    openOf (s.cleanup d now).pending k ≤ openOf s.pending k := by
  unfold Validator.cleanup
  split
  · exact openOf_update _ _ _ (fun _ => List.filter_sublist) _
  · exact Nat.le_refl _

theorem prack_ok {s s' : Validator} {d : Str} {now : Nat} {hs : Headers} {r : RAck} (h : s.prack d now hs = (.ok r, s')) :
    (∃ v, hs.get "RAck".toList = some v ∧ RAck.parse v = .ok r) ∧ (checkAtom (s.cleanup d now).pending d r).1 = .ok r ∧
      s' = { s.cleanup d now with pending := (checkAtom (s.cleanup d now).pending d r).2 } := by
  unfold Validator.prack at h
  simp only at h
  split at h
  · cases h
  · rename_i v hv
    split at h
    · cases h
    · rename_i q hq
      injection h with h1 h2
      obtain ⟨e, _⟩ := check_ok h1
      subst e
      exact ⟨⟨v, hv, hq⟩, h1, h2.symm⟩

theorem prack_error {s s' : Validator} {d : Str} {now : Nat} {hs : Headers} {e : PErr}
    (h : s.prack d now hs = (.error e, s')) : s' = s.cleanup d now := by
  unfold Validator.prack at h
  simp only at h
  split at h
  · injection h with _ h; exact h.symm
  · split at h
    · injection h with _ h; exact h.symm
    · injection h with h1 h2
      rw [check_error h1] at h2
      exact h2.symm

theorem acks_open {s : Validator} {ops : List POp} {l : List (Str × RAck)} (h : Acks s ops l)
    (k : Str × RAck) : l.count k ≤ openOf s.pending k + (Registered ops).count k := by
  induction h with
  | nil => simp
  | @take s s' d now hs r ops l h1 _ ih =>
    obtain ⟨_, h2, h3⟩ := prack_ok h1
    subst h3
    have hc := openOf_check h2 k
    have hl := openOf_cleanup s d now k
    rw [List.count_singleton] at hc
    rw [List.count_cons]
    simp only [Registered] at ih ⊢
    omega
  | @refuse s s' d now hs e ops l h1 _ ih =>
    have := prack_error h1
    subst this
    exact Nat.le_trans ih (Nat.add_le_add_right (openOf_cleanup s d now k) _)
  | @other s o ops l h1 _ ih =>
    cases o with
    | register d now r c m code =>
      have hp := openOf_push (s.cleanup d now).pending d (RAck.mk r c m) code now k
      have hl := openOf_cleanup s d now k
      rw [List.count_singleton] at hp
      simp only at hp
      simp only [Registered, List.count_cons]
      simp only [Validator.step, Validator.register] at ih
      omega
    | prack d now hs => exact absurd rfl (h1 d now hs)
    | getPending d now => exact Nat.le_trans ih (Nat.add_le_add_right (openOf_cleanup s d now k) _)
    | removeDialog d => exact Nat.le_trans ih (Nat.add_le_add_right (openOf_remove _ _ _) _)
    | removePracked d rseq =>
      exact Nat.le_trans ih (Nat.add_le_add_right (openOf_update _ _ _ (fun _ => List.filter_sublist) _) _)

/-- **C20.** A PRACK is accepted at most as often as a reliable response of this dialog with its RSeq, CSeq and method was
registered: never without one, and once only for each. -/
theorem C20_once (ops : List POp) (l : List (Str × RAck)) (h : Acks Validator.empty ops l) (k : Str × RAck) :
    l.count k ≤ (Registered ops).count k :=
  Nat.le_trans (acks_open h k) (by simp [openOf, Validator.empty, Tbl.get_nil])

/-- The acceptances of a history are determined by it. -/
theorem acks_exist : ∀ (ops : List POp) (s : Validator), ∃ l, Acks s ops l
  | [], s => ⟨[], .nil⟩
  | o :: ops, s => by
    by_cases ho : ∃ d now hs, o = .prack d now hs
    · obtain ⟨d, now, hs, rfl⟩ := ho
      cases hp : s.prack d now hs with
      | mk res s' =>
        obtain ⟨l, hl⟩ := acks_exist ops s'
        cases res with
        | error e => exact ⟨l, .refuse hp hl⟩
        | ok r => exact ⟨_, .take hp hl⟩
    · obtain ⟨l, hl⟩ := acks_exist ops (s.step o)
      exact ⟨l, .other (fun d now hs e => ho ⟨d, now, hs, e⟩) hl⟩

def rackH (v : String) : Headers := { inner := [{ name := "RAck".toList, value := v.toList }] }

/-- One reliable response, three PRACKs for it: the first is accepted. -/
example : Acks Validator.empty [.register "d".toList 0 7 1 .invite 180, .prack "d".toList 1 (rackH "7 1 INVITE"),
    .prack "d".toList 2 (rackH "7 1 INVITE"), .prack "d".toList 3 (rackH "8 1 INVITE")]
    [("d".toList, RAck.mk 7 1 .invite)] :=
  .other (by simp) (.take (r := RAck.mk 7 1 .invite) (s' := _) rfl (.refuse (e := .duplicate) rfl (.refuse (e := .rseqMismatch) rfl .nil)))

/-! ## A proper PRACK is accepted -/

/-- The dialog has no entry with this RSeq. -/
def NoneWith (t : Tbl Str (List Pending)) (d : Str) (rseq : Nat) : Prop :=
  ∀ l, t.get d = some l → ∀ p ∈ l, p.rseq ≠ rseq

/-- At most ten entries for each dialog. -/
def Few (t : Tbl Str (List Pending)) : Prop := ∀ d l, t.get d = some l → l.length ≤ 10

theorem few_update {t : Tbl Str (List Pending)} (h : Few t) (d : Str) (f : List Pending → List Pending)
    (hf : ∀ l, (f l).length ≤ l.length) : Few (t.update d f) := by
  intro d' l hl
  by_cases e : d' = d
  · subst e
    rw [Tbl.get_update_self] at hl
    cases hg : t.get d' with
    | none => rw [hg] at hl; cases hl
    | some l0 =>
      rw [hg] at hl
      simp only [Option.map_some, Option.some.injEq] at hl
      subst hl
      exact Nat.le_trans (hf _) (h _ _ hg)
  · rw [Tbl.get_update_ne t f e] at hl
    exact h _ _ hl

theorem few_insert {t : Tbl Str (List Pending)} (h : Few t) (d : Str) {l : List Pending} (hl : l.length ≤ 10) :
    Few (t.insert d l) := by
  intro d' l' hl'
  by_cases e : d' = d
  · subst e
    rw [Tbl.get_insert_self] at hl'
    injection hl' with hl'
    subst hl'; exact hl
  · rw [Tbl.get_insert_ne t _ e] at hl'
    exact h _ _ hl'

theorem length_markFirst (r : Nat) : ∀ l, (markFirst r l).length = l.length
  | [] => rfl
  | p :: l => by
    unfold markFirst
    split
    · rfl
    · simp [length_markFirst r l]

theorem few_push {t : Tbl Str (List Pending)} (h : Few t) (d : Str) (p : Pending) : Few (pushAtom t d p) := by
  unfold pushAtom
  apply few_insert h
  unfold MAX_PENDING_PRACK_PER_DIALOG
  cases hg : t.get d with
  | none => simp
  | some l =>
    have := h _ _ hg
    simp only
    split <;> simp <;> omega

theorem few_check {t : Tbl Str (List Pending)} (h : Few t) (d : Str) (r : RAck) : Few (checkAtom t d r).2 := by
  cases hc : (checkAtom t d r).1 with
  | error e => rw [check_error hc]; exact h
  | ok r' =>
    obtain ⟨_, l, p, hl, _, _, _, _, he⟩ := check_ok hc
    rw [he]
    exact few_insert h d (by rw [length_markFirst]; exact h _ _ hl)

theorem few_cleanup {s : Validator} (h : Few s.pending) (d : Str) (now : Nat) : Few (s.cleanup d now).pending := by
  unfold Validator.cleanup
  split
  · exact few_update h _ _ (fun _ => List.length_filter_le _ _)
  · exact h

theorem prack_pending (s : Validator) (d : Str) (now : Nat) (hs : Headers) :
    (s.prack d now hs).2.pending = (s.cleanup d now).pending ∨
      ∃ r, (s.prack d now hs).2.pending = (checkAtom (s.cleanup d now).pending d r).2 := by
  unfold Validator.prack
  simp only
  split
  · exact Or.inl rfl
  · split
    · exact Or.inl rfl
    · exact Or.inr ⟨_, rfl⟩

theorem few_step {s : Validator} (h : Few s.pending) (o : POp) : Few (s.step o).pending := by
  cases o with
  | register d now r c m code => exact few_push (few_cleanup h _ _) _ _
  | prack d now hs =>
    simp only [Validator.step]
    rcases prack_pending s d now hs with e | ⟨r, e⟩
    · rw [e]; exact few_cleanup h _ _
    · rw [e]; exact few_check (few_cleanup h _ _) _ _
  | getPending d now => exact few_cleanup h _ _
  | removeDialog d =>
    intro d' l hl
    simp only [Validator.step] at hl
    by_cases e : d' = d
    · subst e; rw [Tbl.get_remove_self] at hl; cases hl
    · rw [Tbl.get_remove_ne _ e] at hl; exact h _ _ hl
  | removePracked d rseq => exact few_update h _ _ (fun _ => List.length_filter_le _ _)

theorem few_run : ∀ (ops : List POp) (s : Validator), Few s.pending → Few (s.run ops).pending
  | [], _, h => h
  | o :: ops, s, h => few_run ops (s.step o) (few_step h o)

/-- **C20.** At most ten provisional responses are pending for a dialog. -/
theorem C20_bounded (ops : List POp) (d : Str) (now : Nat) :
    ((Validator.empty.run ops).getPending d now).1.length ≤ 10 := by
  have h := few_cleanup (few_run ops Validator.empty (by intro d l h; cases h)) d now
  unfold Validator.getPending
  simp only
  split
  · simp
  · rename_i l hl
    rw [List.length_map]
    exact Nat.le_trans (List.length_filter_le _ _) (h _ _ hl)

theorem none_update {t : Tbl Str (List Pending)} {d : Str} {rseq : Nat} (h : NoneWith t d rseq) (d' : Str)
    (f : List Pending → List Pending) (hf : ∀ l, (f l).Sublist l) : NoneWith (t.update d' f) d rseq := by
  intro l hl p hp
  by_cases e : d = d'
  · subst e
    rw [Tbl.get_update_self] at hl
    cases hg : t.get d with
    | none => rw [hg] at hl; cases hl
    | some l0 =>
      rw [hg] at hl
      simp only [Option.map_some, Option.some.injEq] at hl
      subst hl
      exact h _ hg p ((hf l0).subset hp)
  · rw [Tbl.get_update_ne t f e] at hl
    exact h _ hl p hp

theorem none_cleanup {s : Validator} {d : Str} {rseq : Nat} (h : NoneWith s.pending d rseq) (d' : Str) (now : Nat) :
    NoneWith (s.cleanup d' now).pending d rseq := by
  unfold Validator.cleanup
  split
  · exact none_update h _ _ (fun _ => List.filter_sublist)
  · exact h

theorem mem_markFirst {r : Nat} {q : Pending} : ∀ {l : List Pending}, q ∈ markFirst r l → ∃ p ∈ l, p.rseq = q.rseq
  | p :: l, h => by
    unfold markFirst at h
    split at h
    · rcases List.mem_cons.1 h with rfl | h
      · exact ⟨p, List.mem_cons_self, rfl⟩
      · exact ⟨q, List.mem_cons_of_mem _ h, rfl⟩
    · rcases List.mem_cons.1 h with rfl | h
      · exact ⟨q, List.mem_cons_self, rfl⟩
      · obtain ⟨x, hx, he⟩ := mem_markFirst h
        exact ⟨x, List.mem_cons_of_mem _ hx, he⟩

theorem none_check {t : Tbl Str (List Pending)} {d : Str} {rseq : Nat} (h : NoneWith t d rseq) (d' : Str) (r : RAck) :
    NoneWith (checkAtom t d' r).2 d rseq := by
  cases hc : (checkAtom t d' r).1 with
  | error e => rw [check_error hc]; exact h
  | ok r' =>
    obtain ⟨_, l, p, hl, _, _, _, _, he⟩ := check_ok hc
    rw [he]
    intro l' hl' q hq
    by_cases e : d = d'
    · subst e
      rw [Tbl.get_insert_self] at hl'
      injection hl' with hl'
      subst hl'
      obtain ⟨x, hx, hxe⟩ := mem_markFirst hq
      rw [← hxe]
      exact h _ hl x hx
    · rw [Tbl.get_insert_ne t _ e] at hl'
      exact h _ hl' q hq

theorem none_step {s : Validator} {d : Str} {rseq : Nat} (h : NoneWith s.pending d rseq) (o : POp)
    (ho : ∀ now c m code, o ≠ .register d now rseq c m code) : NoneWith (s.step o).pending d rseq := by
  cases o with
  | register d' now r c m code =>
    simp only [Validator.step, Validator.register, pushAtom]
    intro l hl q hq
    have hn := none_cleanup h d' now
    by_cases e : d = d'
    · subst e
      rw [Tbl.get_insert_self] at hl
      injection hl with hl
      subst hl
      rcases List.mem_append.1 hq with hq | hq
      · cases hg : (s.cleanup d now).pending.get d with
        | none =>
          rw [hg] at hq
          simp [MAX_PENDING_PRACK_PER_DIALOG] at hq
        | some l0 =>
          rw [hg] at hq
          simp only at hq
          split at hq
          · exact hn _ hg q (List.mem_of_mem_drop hq)
          · exact hn _ hg q hq
      · simp only [List.mem_singleton] at hq
        subst hq
        intro e
        simp only at e
        subst e
        exact ho _ _ _ _ rfl
    · rw [Tbl.get_insert_ne _ _ e] at hl
      exact hn _ hl q hq
  | prack d' now hs =>
    simp only [Validator.step]
    rcases prack_pending s d' now hs with e | ⟨r, e⟩
    · rw [e]; exact none_cleanup h _ _
    · rw [e]; exact none_check (none_cleanup h _ _) _ _
  | getPending d' now => exact none_cleanup h _ _
  | removeDialog d' =>
    intro l hl
    simp only [Validator.step] at hl
    by_cases e : d = d'
    · subst e; rw [Tbl.get_remove_self] at hl; cases hl
    · rw [Tbl.get_remove_ne _ e] at hl; exact h _ hl
  | removePracked d' rseq' => exact none_update h _ _ (fun _ => List.filter_sublist)

theorem none_run {d : Str} {rseq : Nat} : ∀ (ops : List POp) (s : Validator), NoneWith s.pending d rseq →
    (∀ o ∈ ops, ∀ now c m code, o ≠ .register d now rseq c m code) → NoneWith (s.run ops).pending d rseq
  | [], _, h, _ => h
  | o :: ops, s, h, ho => none_run ops (s.step o) (none_step h o (ho o List.mem_cons_self))
      (fun x hx => ho x (List.mem_cons_of_mem _ hx))

/-- The entry waits: it is not acknowledged, it is the first of its RSeq, and at most `k` entries came after it. -/
def Waits (t : Tbl Str (List Pending)) (d : Str) (p : Pending) (k : Nat) : Prop :=
  ∃ a b, t.get d = some (a ++ p :: b) ∧ (∀ q ∈ a, q.rseq ≠ p.rseq) ∧ b.length ≤ k ∧ (a ++ p :: b).length ≤ 10

theorem waits_update {t : Tbl Str (List Pending)} {d : Str} {p : Pending} {k : Nat} (h : Waits t d p k) (d' : Str)
    (g : Pending → Bool) (hg : g p = true) : Waits (t.update d' (fun l => l.filter g)) d p k := by
  obtain ⟨a, b, h1, h2, h3, h4⟩ := h
  by_cases e : d = d'
  · subst e
    refine ⟨a.filter g, b.filter g, ?_, ?_, ?_, ?_⟩
    · rw [Tbl.get_update_self, h1]
      simp [List.filter_append, List.filter_cons, hg]
    · intro q hq; exact h2 q (List.mem_filter.1 hq).1
    · exact Nat.le_trans (List.length_filter_le _ _) h3
    · have x := List.length_filter_le g a
      have y := List.length_filter_le g b
      simp at h4 ⊢
      omega
  · exact ⟨a, b, by rw [Tbl.get_update_ne t _ e]; exact h1, h2, h3, h4⟩

theorem waits_insert_other {t : Tbl Str (List Pending)} {d : Str} {p : Pending} {k : Nat} (h : Waits t d p k)
    {d' : Str} (e : d ≠ d') (l : List Pending) : Waits (t.insert d' l) d p k := by
  obtain ⟨a, b, h1, h2, h3, h4⟩ := h
  exact ⟨a, b, by rw [Tbl.get_insert_ne t _ e]; exact h1, h2, h3, h4⟩

theorem waits_cleanup {s : Validator} {d : Str} {p : Pending} {k : Nat} (h : Waits s.pending d p k) (hp : p.pracked = false)
    (d' : Str) (now : Nat) (hn : now ≤ p.createdAt + 300 * 10 ^ 9) : Waits (s.cleanup d' now).pending d p k := by
  unfold Validator.cleanup
  split
  · exact waits_update h _ _ (by simp [hp, PRACK_TIMEOUT]; omega)
  · exact h

theorem waits_push {t : Tbl Str (List Pending)} {d : Str} {p : Pending} {k : Nat} (h : Waits t d p k) (hk : k < 9)
    (q : Pending) : Waits (pushAtom t d q) d p (k + 1) := by
  obtain ⟨a, b, h1, h2, h3, h4⟩ := h
  simp only [pushAtom, h1, MAX_PENDING_PRACK_PER_DIALOG]
  by_cases hl : 10 ≤ (a ++ p :: b).length
  · rw [if_pos hl]
    have e : (a ++ p :: b).length + 1 - 10 = 1 := by omega
    rw [e]
    cases a with
    | nil => simp at hl; omega
    | cons x a =>
      refine ⟨a, b ++ [q], by rw [Tbl.get_insert_self]; simp, fun q hq => h2 q (List.mem_cons_of_mem _ hq), by simp; omega, ?_⟩
      simp at h4 ⊢; omega
  · rw [if_neg hl]
    refine ⟨a, b ++ [q], by rw [Tbl.get_insert_self]; simp, h2, by simp; omega, ?_⟩
    simp at hl ⊢; omega

theorem find_waits {a b : List Pending} {p : Pending} (h : ∀ q ∈ a, q.rseq ≠ p.rseq) :
    (a ++ p :: b).find? (fun q => decide (q.rseq = p.rseq)) = some p := by
  rw [List.find?_append, List.find?_eq_none.2 (by simpa using h)]
  simp

theorem markFirst_other {a : List Pending} {p : Pending} {b : List Pending} {r : Nat} (hr : r ≠ p.rseq) :
    ∃ a' b', markFirst r (a ++ p :: b) = a' ++ p :: b' ∧ a'.map Pending.rseq = a.map Pending.rseq ∧ b'.length = b.length := by
  induction a with
  | nil =>
    refine ⟨[], markFirst r b, ?_, rfl, length_markFirst _ _⟩
    simp only [List.nil_append]
    rw [markFirst, if_neg (fun e => hr e.symm)]
  | cons x a ih =>
    simp only [List.cons_append]
    rw [markFirst]
    split
    · exact ⟨{ x with pracked := true } :: a, b, rfl, rfl, rfl⟩
    · obtain ⟨a', b', e, h1, h2⟩ := ih
      exact ⟨x :: a', b', by rw [e]; rfl, by simp [h1], h2⟩

theorem waits_check {t : Tbl Str (List Pending)} {d : Str} {p : Pending} {k : Nat} (h : Waits t d p k) (d' : Str) (r : RAck)
    (hr : ¬ (d' = d ∧ r = RAck.mk p.rseq p.cseq p.method) ) : Waits (checkAtom t d' r).2 d p k := by
  cases hc : (checkAtom t d' r).1 with
  | error e => rw [check_error hc]; exact h
  | ok r' =>
    obtain ⟨_, l, q, hl, hq, h1, h2, h3, he⟩ := check_ok hc
    rw [he]
    by_cases e : d = d'
    · subst e
      obtain ⟨a, b, g1, g2, g3, g4⟩ := h
      rw [g1] at hl
      injection hl with hl
      subst hl
      have hne : r.rseq ≠ p.rseq := by
        intro e
        rw [e, find_waits g2] at hq
        injection hq with hq
        subst hq
        exact hr ⟨rfl, by cases r; simp_all⟩
      obtain ⟨a', b', e1, e2, e3⟩ := markFirst_other (a := a) (b := b) hne
      have ela : a'.length = a.length := by
        have := congrArg List.length e2
        simpa using this
      refine ⟨a', b', by rw [Tbl.get_insert_self, e1], ?_, by omega, ?_⟩
      · intro q hq
        have : q.rseq ∈ a'.map Pending.rseq := List.mem_map_of_mem hq
        rw [e2] at this
        obtain ⟨x, hx, hxe⟩ := List.mem_map.1 this
        rw [← hxe]; exact g2 x hx
      · simp at g4 ⊢; omega
    · exact waits_insert_other h e _

theorem regsOf_cons (d : Str) (o : POp) (ops : List POp) :
    regsOf d (o :: ops) = regsOf d ops + (match o with
      | .register d' _ _ _ _ _ => if d' = d then 1 else 0
      | _ => 0) := by
  unfold regsOf
  cases o with
  | register d' now r c m code =>
    simp only [Registered, List.filter_cons]
    by_cases h : d' = d <;> simp [h]
  | _ => rfl

theorem check_waits {t : Tbl Str (List Pending)} {d : Str} {p : Pending} {k : Nat} (h : Waits t d p k) (hp : p.pracked = false) :
    (checkAtom t d (RAck.mk p.rseq p.cseq p.method)).1 = .ok (RAck.mk p.rseq p.cseq p.method) := by
  obtain ⟨a, b, g1, g2, g3, g4⟩ := h
  unfold checkAtom
  rw [g1]
  simp only [find_waits g2]
  simp [hp]

theorem prack_waits {s : Validator} {d : Str} {p : Pending} {k : Nat} (h : Waits s.pending d p k) (hp : p.pracked = false)
    {now : Nat} (hn : now ≤ p.createdAt + 300 * 10 ^ 9) {hs : Headers} {v : Str} (hv : hs.get "RAck".toList = some v)
    (hr : RAck.parse v = .ok (RAck.mk p.rseq p.cseq p.method)) :
    ∃ s', s.prack d now hs = (.ok (RAck.mk p.rseq p.cseq p.method), s') := by
  unfold Validator.prack
  simp only [hv, hr]
  rw [check_waits (waits_cleanup h hp d now hn) hp]
  exact ⟨_, rfl⟩

theorem waits_acks {d : Str} {p : Pending} (hp : p.pracked = false) : ∀ {s : Validator} {ops : List POp}
    {l : List (Str × RAck)} {k : Nat}, Acks s ops l → Waits s.pending d p k → k + regsOf d ops ≤ 9 →
    (∀ o ∈ ops, Leaves d p.createdAt p.rseq o) → (d, RAck.mk p.rseq p.cseq p.method) ∉ l →
    ∃ k', Waits (s.run ops).pending d p k' := by
  intro s ops l k h
  induction h generalizing k with
  | nil => intro hw _ _ _; exact ⟨k, hw⟩
  | @take s s' d' now hs r ops l h1 h2 ih =>
    intro hw hk hl hn
    obtain ⟨_, h3, h4⟩ := prack_ok h1
    have hnow := hl _ List.mem_cons_self
    simp only [Leaves] at hnow
    have hc := waits_cleanup hw hp d' now hnow
    have hne : ¬ (d' = d ∧ r = RAck.mk p.rseq p.cseq p.method) := by
      rintro ⟨rfl, rfl⟩; exact hn List.mem_cons_self
    have := waits_check hc d' r hne
    rw [regsOf_cons] at hk
    have := ih (k := k) (by rw [h4]; exact this) (by simpa using hk) (fun o ho => hl o (List.mem_cons_of_mem _ ho))
      (fun h => hn (List.mem_cons_of_mem _ h))
    unfold Validator.run at this ⊢
    rw [List.foldl_cons]
    have e : s.step (.prack d' now hs) = s' := by simp [Validator.step, h1]
    rw [e]; exact this
  | @refuse s s' d' now hs er ops l h1 h2 ih =>
    intro hw hk hl hn
    have h4 := prack_error h1
    have hnow := hl _ List.mem_cons_self
    simp only [Leaves] at hnow
    have hc := waits_cleanup hw hp d' now hnow
    rw [regsOf_cons] at hk
    have := ih (k := k) (by rw [h4]; exact hc) (by simpa using hk) (fun o ho => hl o (List.mem_cons_of_mem _ ho)) hn
    unfold Validator.run at this ⊢
    rw [List.foldl_cons]
    have e : s.step (.prack d' now hs) = s' := by simp [Validator.step, h1]
    rw [e]; exact this
  | @other s o ops l h1 h2 ih =>
    intro hw hk hl hn
    have hlo := hl o List.mem_cons_self
    rw [regsOf_cons] at hk
    have go : ∀ k2, Waits (s.step o).pending d p k2 → k2 + regsOf d ops ≤ 9 → ∃ k', Waits (s.run (o :: ops)).pending d p k' := by
      intro k2 hw2 hk2
      exact ih hw2 hk2 (fun o ho => hl o (List.mem_cons_of_mem _ ho)) hn
    cases o with
    | register d' now r c m code =>
      simp only [Leaves] at hlo
      have hc := waits_cleanup hw hp d' now hlo.1
      by_cases e : d' = d
      · subst e
        simp only [if_pos] at hk
        exact go (k + 1) (waits_push hc (by omega) _) (by omega)
      · simp only [if_neg e] at hk
        exact go k (waits_insert_other hc (fun h => e h.symm) _) (by omega)
    | prack d' now hs => exact absurd rfl (h1 d' now hs)
    | getPending d' now =>
      exact go k (waits_cleanup hw hp d' now hlo) (by simpa using hk)
    | removeDialog d' =>
      obtain ⟨a, b, g1, g2, g3, g4⟩ := hw
      exact go k ⟨a, b, by simp only [Validator.step]; rw [Tbl.get_remove_ne _ (fun e => hlo e.symm)]; exact g1, g2, g3, g4⟩
        (by simpa using hk)
    | removePracked d' rseq' =>
      exact go k (waits_update hw _ _ (by simp [hp])) (by simpa using hk)

/-- **C20 (partial).** A PRACK whose RAck names a registered response is accepted if the response was not acknowledged
before, was registered at most 300 s ago, its RSeq was used only once in the dialog, the dialog was not removed and
fewer than ten responses were registered for the dialog since.  Missing: the last condition is not part of the
property, and it is needed (`C20_eleventh`); so is the one about the RSeq (`C20_shadowed`). -/
theorem C20_accepted_partial (pre mid : List POp) (d : Str) (t0 now code : Nat) (r : RAck) (l : List (Str × RAck))
    (hs : Headers) (v : Str)
    (hpre : ∀ o ∈ pre, ∀ now c m code, o ≠ .register d now r.rseq c m code)
    (hacks : Acks ((Validator.empty.run pre).register d t0 r.rseq r.cseq r.method code) mid l) (hnot : (d, r) ∉ l)
    (hmid : ∀ o ∈ mid, Leaves d t0 r.rseq o) (hfew : regsOf d mid < 10)
    (hnow : now ≤ t0 + 300 * 10 ^ 9) (hv : First hs "RAck" v) (ha : ∀ c ∈ v, c.toNat < 128) (hr : RAckText v r) :
    ∃ s', (((Validator.empty.run pre).register d t0 r.rseq r.cseq r.method code).run mid).prack d now hs = (.ok r, s') := by
  have hn : NoneWith (Validator.empty.run pre).pending d r.rseq := none_run pre _ (by intro l h; cases h) hpre
  have hf := few_cleanup (few_run pre Validator.empty (by intro d l h; cases h)) d t0
  have hn' := none_cleanup hn d t0
  have hw : Waits ((Validator.empty.run pre).register d t0 r.rseq r.cseq r.method code).pending d
      (Pending.mk r.rseq r.cseq r.method code false t0) 0 := by
    have hf' := few_push hf d (Pending.mk r.rseq r.cseq r.method code false t0) d
    unfold Validator.register
    simp only
    revert hf'
    unfold pushAtom
    intro hf'
    simp only [Tbl.get_insert_self] at hf'
    refine ⟨_, [], Tbl.get_insert_self _ _ _, ?_, Nat.le_refl _, hf' _ rfl⟩
    intro q hq
    cases hg : ((Validator.empty.run pre).cleanup d t0).pending.get d with
    | none => rw [hg] at hq; simp [MAX_PENDING_PRACK_PER_DIALOG] at hq
    | some l0 =>
      rw [hg] at hq
      simp only at hq
      split at hq
      · exact hn' _ hg q (List.mem_of_mem_drop hq)
      · exact hn' _ hg q hq
  obtain ⟨k', hk⟩ := waits_acks (p := Pending.mk r.rseq r.cseq r.method code false t0) rfl hacks hw (by omega) hmid hnot
  exact prack_waits hk rfl hnow ((first_iff _ _ _).1 hv) ((C20_read v ha r).2 hr)

theorem acks_none : ∀ (ops : List POp) (s : Validator), (∀ o ∈ ops, ∀ d now hs, o ≠ .prack d now hs) → Acks s ops []
  | [], _, _ => .nil
  | o :: ops, _, h => .other (h o List.mem_cons_self) (acks_none ops _ (fun x hx => h x (List.mem_cons_of_mem _ hx)))

def many (n : Nat) : List POp := (List.range n).map (fun i => .register "d".toList i (i + 2) 1 .invite 183)

/-- Nine other responses do not matter. -/
example : ∃ s', ((Validator.empty.register "d".toList 0 1 1 .invite 180).run (many 9)).prack "d".toList 5
    (rackH "1 1 INVITE") = (.ok (RAck.mk 1 1 .invite), s') :=
  C20_accepted_partial [] (many 9) "d".toList 0 5 180 (RAck.mk 1 1 .invite) [] (rackH "1 1 INVITE") "1 1 INVITE".toList
    (by simp) (acks_none _ _ (by unfold many; intro o ho; obtain ⟨i, hi, rfl⟩ := List.mem_map.1 ho; simp))
    (by simp) (by unfold many; intro o ho; obtain ⟨i, hi, rfl⟩ := List.mem_map.1 ho; simp at hi; simp [Leaves]; omega) (by decide)
    (by decide) ((first_iff _ _ _).2 (by decide +kernel)) (by decide) ((C20_read _ (by decide) _).1 (by decide +kernel))

/-- **C20, violated.** With ten more reliable responses, the first one cannot be acknowledged any more. -/
theorem C20_eleventh :
    (((Validator.empty.register "d".toList 0 1 1 .invite 180).run (many 10)).prack "d".toList 5 (rackH "1 1 INVITE")).1 =
      .error .rseqMismatch := by decide +kernel

/-- **C20, violated.** If an RSeq is used for two requests of the dialog, the later response cannot be acknowledged, even
though the earlier one was. -/
theorem C20_shadowed :
    let s := (Validator.empty.register "d".toList 0 1 1 .invite 180).register "d".toList 1 1 2 .invite 180
    (s.prack "d".toList 2 (rackH "1 2 INVITE")).1 = .error .cseqMismatch ∧
    ((s.prack "d".toList 2 (rackH "1 1 INVITE")).2.prack "d".toList 3 (rackH "1 2 INVITE")).1 = .error .cseqMismatch := by
  decide +kernel

/-- **C20, violated.** Words that are not method names are read as some. -/
theorem C20_unicode : RAck.parse "1 2 ınvıte".toList = .ok (RAck.mk 1 2 .invite) ∧
    RAck.parse "1 2 MEßAGE".toList = .ok (RAck.mk 1 2 .message) := by decide +kernel

/-- **C20.** The RAck the caller builds for a reliable response (RSeq header, CSeq of the INVITE) is the one the callee
registered. -/
theorem C20_agree (inv prov : Headers) (cv rv n w : Str) (ws : List Str) (cs rs : Nat) (m : Method) (hc : First inv "CSeq" cv)
    (hw : Words cv (n :: w :: ws)) (hn : Decimal n cs) (hcs : cs < 2 ^ 32) (hm : Known m) (hwm : SameName w m.asStr)
    (hr : First prov "RSeq" rv) (hrd : Decimal rv rs) (hrs : rs < 2 ^ 32) :
    ∃ v, rackFor inv prov = some v ∧ RAckText v (RAck.mk rs cs m) := by
  refine ⟨showNat rs ++ ' ' :: showNat cs ++ ' ' :: w, ?_, ?_⟩
  · unfold rackFor
    simp only [(first_iff _ _ _).1 hc, (words_iff _ _).1 hw, parseDec_complete hn (show cs ≤ MAX_U32 by unfold MAX_U32; omega),
      (first_iff _ _ _).1 hr, parseDec_complete hrd (show rs ≤ MAX_U32 by unfold MAX_U32; omega)]
  · refine ⟨showNat rs, showNat cs, w, ?_, decimal_showNat _, hrs, decimal_showNat _, hcs, hm, hwm⟩
    have hwne : w ≠ [] ∧ ∀ c ∈ w, isWs c = false := by
      cases hw with
      | cons _ _ _ _ h2 => cases h2 with
        | cons _ h3 h4 _ _ => exact ⟨h3, h4⟩
    have e1 : Words (' ' :: w) [w] := by
      have := Words.cons (lead := [' ']) (w := w) (rest := []) (ws := []) (by decide) hwne.1 hwne.2 (by simp) (.nil (by simp))
      simpa using this
    have e2 : Words (' ' :: showNat cs ++ ' ' :: w) [showNat cs, w] := by
      have := Words.cons (lead := [' ']) (w := showNat cs) (rest := ' ' :: w) (by decide) (showNat_ne_nil _)
        (decimal_no_ws (decimal_showNat cs)).2 (by simp; decide) e1
      simpa using this
    have := Words.cons (lead := []) (w := showNat rs) (rest := ' ' :: showNat cs ++ ' ' :: w) (by simp) (showNat_ne_nil _)
      (decimal_no_ws (decimal_showNat rs)).2 (by simp; decide) e2
    simpa using this

end Siphon.Dlg
