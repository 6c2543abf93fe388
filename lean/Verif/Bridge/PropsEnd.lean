import Verif.Bridge.PropsCall
import Verif.Bridge.Alone
import Verif.Uas.ResponseProps
import Verif.Core.RSeq
/-!
# C115: the ACK and the end of a call
-/
namespace Siphon.Bridge
open HdrSpec TextSpec Spec
open Siphon.Dlg (Dialog DialogId Mgr copyHeader first_iff absent_iff)
open Siphon.Dlg.Spec (First Absent TagOf NoTag Names)
open Siphon.Sub.Spec (Target Dotted PortOf)

/-! ## Lemmas -/

theorem lines_putAll {l : List (String × Str)} (hl : l.length ≤ 200) (hg : ∀ p ∈ l, GoodName p.1 ∧ Fits p.2) :
    Lines (putAll l .empty) l := by
  have := putAll_ok l .empty (by simpa [Headers.empty] using hl) hg
  unfold Lines
  rw [this]
  rfl

theorem addAll_fits : ∀ (l : List (String × Str)) (hs hs' : Headers), Dlg.addAll l hs = .done hs' → ∀ p ∈ l, Fits p.2
  | [], _, _, _ => by simp
  | (n, v) :: rest, hs, hs', h => by
    unfold Dlg.addAll at h
    split at h
    · cases h
    · rename_i hs1 h1
      intro p hp
      rcases List.mem_cons.mp hp with rfl | hp
      · unfold Headers.push at h1
        split at h1
        · cases h1
        · cases he : Header.new n.toList v with
          | error e => rw [he] at h1; cases h1
          | ok x =>
            have := storedOk_of_new he
            have hx : x.value = v := by
              unfold Header.new at he
              repeat' split at he
              all_goals first | cases he; done | (cases he; rfl)
            exact ⟨hx ▸ this.1.2, hx ▸ this.2.2⟩
      · exact addAll_fits rest _ _ h p hp

theorem createInvite_fits {ua : Dlg.Ua} {branch callId tag : Str} {target : SipUri} {sdp : Option Str} {r : Request}
    (h : Sub.createInvite ua branch callId tag target sdp = .done r) :
    ∀ p ∈ inviteLines branch callId tag ua.agent ua.localUri ua.contactUri target sdp, Fits p.2 := by
  unfold Sub.createInvite at h
  simp only [Run.bind_eq_done] at h
  obtain ⟨hs, h1, _⟩ := h
  exact addAll_fits _ _ _ h1

/-- the keys are different -/
theorem nodup_step (cfg : Cfg) {s : St} (h : s.legs.keys.Nodup) (e : Ev) : (step cfg s e).1.legs.keys.Nodup := by
  have hu : ∀ (k : Str) (l : Leg), (s.legs.update k (fun _ => l)).keys.Nodup := fun k l => by rw [Tbl.keys_update]; exact h
  cases e with
  | invite q look f n i =>
    show (onInvite cfg s q look f n i).1.legs.keys.Nodup
    unfold onInvite
    simp only
    split
    · exact h
    · split <;> exact h
    · split
      · exact h
      · split
        · exact h
        · exact h
        · exact Tbl.nodup_insert _ _ _ h
  | ack q i br => exact h
  | bye q i f =>
    show (onBye cfg s q i f).1.legs.keys.Nodup
    unfold onBye
    simp only
    split
    · split
      · exact h
      · exact Tbl.nodup_remove _ _ h
    · split
      · exact h
      · split
        · exact h
        · split
          · exact Tbl.nodup_remove _ _ h
          · split <;> exact Tbl.nodup_remove _ _ h
  | cancel q i f =>
    show (onCancel cfg s q i f).1.legs.keys.Nodup
    unfold onCancel
    simp only
    split
    · exact h
    · split
      · exact h
      · split <;> exact h
  | cancelOn k i =>
    show (onCancelOn s k i).1.legs.keys.Nodup
    unfold onCancelOn
    split
    · exact h
    · simp only
      split
      · split
        · exact h
        · exact Tbl.nodup_remove _ _ h
      · split <;> exact h
  | response r =>
    show (onResponse s r).legs.keys.Nodup
    unfold onResponse
    split
    · exact h
    · split <;> exact h
  | relay k =>
    show (onRelay cfg s k).1.legs.keys.Nodup
    unfold onRelay
    split
    · exact h
    · split
      · simp only
        split
        · exact h
        · split
          · exact hu _ _
          · exact Tbl.nodup_remove _ _ h
          · split
            · exact hu _ _
            · split
              · exact hu _ _
              · exact Tbl.nodup_remove _ _ (hu _ _)
      · exact h
  | sweep n => exact h.sublist (List.filter_sublist.map _)

theorem nodup_run (cfg : Cfg) : ∀ (es : List Ev) (s : St), s.legs.keys.Nodup → (run cfg s es).1.legs.keys.Nodup
  | [], _, h => h
  | e :: es, s, h => by
    rw [run_cons]
    exact nodup_run cfg es _ (nodup_step cfg h e)

theorem byIncoming_none {s : St} {i : Nat} {a : Str} (h : ∀ e ∈ s.legs, e.2.inId ≠ a) : byIncoming s i a = none := by
  cases hb : byIncoming s i a with
  | none => rfl
  | some l =>
    obtain ⟨⟨k, hk⟩, hi⟩ := byIncoming_some hb
    exact absurd hi (h _ hk)

/-- the leg found by the Call-ID of the caller -/
theorem byIncoming_only {s : St} {a b : Str} {l : Leg} (hn : s.legs.keys.Nodup) (ha : Alone a b s) (hg : s.legs.get b = some l)
    (hl : l.inId = a) (i : Nat) : byIncoming s i a = some l := by
  have hm : l ∈ (s.legs.map (·.2)).filter (fun l => l.inId == a) := by
    refine List.mem_filter.mpr ⟨List.mem_map.mpr ⟨_, get_mem _ hg, rfl⟩, by simpa using hl⟩
  have hlen : 0 < ((s.legs.map (·.2)).filter (fun l => l.inId == a)).length := List.length_pos_of_mem hm
  cases hb : byIncoming s i a with
  | none =>
    unfold byIncoming choose at hb
    rw [List.getElem?_eq_none_iff] at hb
    have := Nat.mod_lt i hlen
    omega
  | some l' =>
    obtain ⟨⟨k, hk⟩, hi⟩ := byIncoming_some hb
    have hkb := (ha _ hk).1 hi
    simp only at hkb
    subst hkb
    rw [Tbl.get_of_mem _ _ _ hn hk] at hg
    exact hg

/-- the first header of a written list -/
theorem get_lines {hs : Headers} {l : List (String × Str)} (h : Lines hs l) (n : Str) : hs.get n = Headers.get ⟨mk l⟩ n := by
  have : hs = ⟨mk l⟩ := by
    cases hs with
    | mk inner => exact congrArg Headers.mk h
  rw [this]

theorem accepted_uac {cfg : Cfg} {lg l : Leg} {r : Response} {d : Dialog} (h : accepted cfg lg r l) (hn : lg.uac = none) (hd : l.uac = some d) :
    ∃ cid ft, Names r.headers cid ft d.id.remoteTag := by
  obtain ⟨m, h⟩ := h
  have key : ∀ m frm tag hs, (establish cfg lg m frm tag hs r).2.1.uac = some d → ∃ cid ft, Names r.headers cid ft d.id.remoteTag := by
    intro m frm tag hs he
    unfold establish at he
    simp only at he
    split at he
    · rw [hn] at he; cases he
    · rename_i od hu
      have : od = some d := by
        cases od with
        | none =>
          simp only at he
          split at he
          all_goals (simp only [hn] at he; cases he)
        | some d' =>
          simp only at he
          split at he
          all_goals (simp only at he; exact he)
      subst this
      unfold uacDialog at hu
      split at hu
      · exact ⟨_, _, Dlg.C19_uac_named _ _ _ _ _ hu⟩
      · cases hu
  unfold transform at h
  split at h
  · simp only at h
    split at h
    · simp only at h; subst h; rw [hn] at hd; cases hd
    · split at h
      · split at h
        · rename_i e
          simp only at h
          subst h
          exact key _ _ _ _ (Eq.mpr (congrArg (fun x => x.2.1.uac = some d) e) hd)
        · rename_i e
          simp only at h
          subst h
          exact key _ _ _ _ (Eq.mpr (congrArg (fun x => x.2.1.uac = some d) e) hd)
      · simp only at h; subst h; rw [hn] at hd; cases hd
  · simp only at h; subst h; rw [hn] at hd; cases hd

/-- what the leg of an accepted call is -/
structure Holds (x : Story) (a : Str) (addr : Sub.Addr × Nat) (inv : Request) (r : Response) (tg : Str) (l : Leg) (frm to : Str) : Prop where
  get : (run x.cfg init x.events).1.legs.get x.f.callId = some l
  mine : ∀ i, byIncoming (run x.cfg init x.events).1 i a = some l
  notOut : ∀ i, byIncoming (run x.cfg init x.events).1 i x.f.callId = none
  outId : l.outId = x.f.callId
  inId : l.inId = a
  caller : l.caller = x.rq
  invite : l.invite = inv
  callee : l.callee.raw = inv.uri
  addr : socketOf l.callee = some addr
  tag : l.tag = some tg
  from_ : First inv.headers "From" frm
  to_ : First inv.headers "To" to
  fitFrom : Fits frm
  fitTo : Fits to
  fitId : Fits x.f.callId
  cseq : inv.headers.get "CSeq".toList = some "1 INVITE".toList
  dialog : ∀ d, l.uac = some d → ∃ cid ft, Names r.headers cid ft d.id.remoteTag

theorem nodup_init : init.legs.keys.Nodup := List.nodup_nil

theorem holds {x : Story} {t : Nat} {r0 : Response} {addr : Sub.Addr × Nat} {inv : Request} {a : Str} {r : Response} {tg : Str}
    (h : x.Calls t r0 addr inv a) (hr : x.Answered t r) (h3 : r.code < 300) (htag : CalleeTag r tg) : ∃ l frm to, Holds x a addr inv r tg l frm to := by
  obtain ⟨lg, hp, hi, hs, hl, _⟩ := story_answered h hr
  obtain ⟨l, hget, hacc⟩ := hl h3
  have hst : Static lg l := by
    obtain ⟨m, hm⟩ := hacc
    rw [← hm]
    exact transform_static _ _ _ _
  obtain ⟨s1, s2, s3, s4, s5, s6, s7⟩ := hst
  obtain ⟨l1, l2, l3, l4, l5⟩ := placed_leg hp
  obtain ⟨target, c, rest, caller, me, sdp, p1, p2, p3, p4, p5, p6, p7, p8, p9, p10⟩ := placed_parts hp
  obtain ⟨i1, i2, i3, i4, i5⟩ := createInvite_inner p7
  have h200 : 200 ≤ r.code := by
    obtain ⟨_, _, _, _, _, _, h200, _⟩ := hr
    exact h200
  have hal := story_alone h
  have hnd := nodup_run x.cfg x.events init nodup_init
  have hin : l.inId = a := s3.trans (l3 a h.id)
  have hfits := createInvite_fits p7
  subst hi
  refine ⟨l, Dlg.bareAddr caller x.f.tag, Dlg.angle lg.callee, hget, byIncoming_only hnd hal hget hin, fun i => byIncoming_none (fun e he => (hal e he).2),
    s1.trans l1, hin, s4.trans l4, s5, ?_, by rw [s6]; exact hs, ?_, ?_, ?_, ?_, ?_, ?_, ?_, ?_⟩
  · rw [s6, i2]
  · refine accepted_tag hacc ⟨h200, h3⟩ ?_ ?_ ?_ ?_ htag
    · rw [l4]; exact ⟨_, h.id⟩
    · rw [l4]; obtain ⟨v, hv, _⟩ := h.ok.from_; exact ⟨v, hv⟩
    · rw [l4]; obtain ⟨v, hv, _⟩ := h.ok.to; exact ⟨v, hv⟩
    · rw [l4]; exact h.ok.cseq
  · rw [first_iff, get_lines i5]
    unfold inviteLines
    simp only [List.cons_append, List.nil_append, get_mk_cons]
    rfl
  · rw [first_iff, get_lines i5]
    unfold inviteLines
    simp only [List.cons_append, List.nil_append, get_mk_cons]
    rfl
  · exact hfits ("From", Dlg.bareAddr caller x.f.tag) (by simp [inviteLines])
  · exact hfits ("To", Dlg.angle lg.callee) (by simp [inviteLines])
  · exact hfits ("Call-ID", x.f.callId) (by simp [inviteLines])
  · rw [get_lines i5]
    unfold inviteLines
    simp only [List.cons_append, List.nil_append, get_mk_cons]
    rfl
  · intro d hd
    exact accepted_uac hacc p9 hd

/-! ## The properties -/

/-- **C115.** The caller's ACK of an accepted call goes on to the callee, once: it has the Call-ID, the tags and the number of the
INVITE to the callee, and the caller's body. -/
theorem C115_ack {x : Story} {t : Nat} {r0 : Response} {addr : Sub.Addr × Nat} {inv : Request} {a : Str} {r : Response} {tg : Str}
    (h : x.Calls t r0 addr inv a) (hr : x.Answered t r) (h3 : r.code < 300) (htag : CalleeTag r tg)
    {q : Request} (hq : First q.headers "Call-ID" a) (hclean : ∀ y ∈ q.headers.inner, Fits y.value) (hsize : q.body.length ≤ 10485760)
    {br : Str} (hbr : Fits ("SIP/2.0/TCP placeholder;branch=".toList ++ br))
    (hto : ∀ to, First inv.headers "To" to → Fits (to ++ ";tag=".toList ++ tg)) (i : Nat) :
    ∃ out frm to rest, (step x.cfg (run x.cfg init x.events).1 (.ack q i br)).2 = [.tcp addr out] ∧
      out.method = .ack ∧ out.uri = inv.uri ∧ out.body = q.body ∧
      First inv.headers "From" frm ∧ First inv.headers "To" to ∧ BodyLines q rest ∧
      Lines out.headers ([("Via", "SIP/2.0/TCP placeholder;branch=".toList ++ br), ("From", frm), ("To", to ++ ";tag=".toList ++ tg),
        ("Call-ID", x.f.callId), ("CSeq", "1 ACK".toList), ("Max-Forwards", "70".toList)] ++ rest) := by
  obtain ⟨l, frm, to, H⟩ := holds h hr h3 htag
  have hf := (first_iff _ _ _).mp H.from_
  have ht := (first_iff _ _ _).mp H.to_
  rw [first_iff] at hq
  have hc : cseqBefore inv.headers = some "1".toList := by
    unfold cseqBefore
    rw [H.cseq]
    decide +kernel
  have hcf : copyHeader inv.headers "From" = [("From", frm)] := by
    unfold copyHeader
    rw [hf]
  refine ⟨bridgedAck l br q, frm, to, (if q.body.isEmpty then [("Content-Length", "0".toList)]
     else copyHeader q.headers "Content-Type" ++ [("Content-Length", showNat q.body.length)]), ?_, rfl, H.callee, rfl, H.from_, H.to_, ?_, ?_⟩
  · show onAck _ _ _ _ = _
    unfold onAck
    rw [hq]
    simp only
    rw [H.mine i]
    simp only
    unfold sendTcp
    rw [H.addr]
  · cases hb : q.body with
    | nil => exact .inl ⟨hb, rfl⟩
    | cons y ys =>
      refine .inr ⟨by rw [hb]; simp, copyHeader q.headers "Content-Type", ?_, ?_⟩
      · rw [copies_iff]; simp
      · rw [hb]; rfl
  · have hct := copyHeader_ok hclean goodName_ctype
    unfold bridgedAck
    simp only
    rw [H.invite, hcf, ht, H.tag, hc, H.outId]
    have e1 : "1".toList ++ " ACK".toList = "1 ACK".toList := by decide
    simp only [e1, List.cons_append, List.nil_append]
    apply lines_putAll
    · split
      · simp
      · simp only [List.length_cons, List.length_append, List.length_nil]
        omega
    · intro p hp
      simp only [List.mem_cons] at hp
      rcases hp with rfl | rfl | rfl | rfl | rfl | rfl | hp
      · exact ⟨goodName_via, hbr⟩
      · exact ⟨goodName_from, H.fitFrom⟩
      · exact ⟨goodName_to, hto to H.to_⟩
      · exact ⟨goodName_callId, H.fitId⟩
      · exact ⟨goodName_cseq, ⟨by unfold OneLine; decide, by decide⟩⟩
      · exact ⟨goodName_mf, fits_mf⟩
      · split at hp
        · simp only [List.mem_singleton] at hp
          subst hp
          exact ⟨goodName_clen, fits_zero⟩
        · rcases List.mem_append.mp hp with hp | hp
          · exact (hct.2 p hp).2
          · simp only [List.mem_singleton] at hp
            subst hp
            exact ⟨goodName_clen, fits_show _ hsize⟩

theorem reply_ok {q : Request} {tg : Str} (h : Repliable q tg) :
    ∃ r, Uas.createResponse q.headers 200 "OK".toList tg = .done r ∧ Replies q 200 r := by
  cases hc : Uas.createResponse q.headers 200 "OK".toList tg with
  | panic =>
    have := (Uas.C86_create_iff q.headers 200 "OK".toList tg h.stored (by omega) (by unfold Uas.ReasonOk; decide) h.line).mp hc
    have hl := Uas.copies_le q.headers
    have hf := h.few
    rcases this with h1 | ⟨_, v, hv, _, h1⟩
    · omega
    · have := h.to v hv
      omega
  | done r =>
    refine ⟨r, rfl, ?_⟩
    have hb : Uas.build ⟨[], false, none, [], none, [], []⟩ q.headers tg (.plain 200 "OK".toList) = .done (some r) := by
      show (do let r ← Uas.createResponse q.headers 200 "OK".toList tg; Run.done (some r)) = _
      rw [hc]
      rfl
    obtain ⟨h1, h2, h3⟩ := Uas.C85_belongs _ _ _ _ _ hb
    exact ⟨h1, h2, h3 (by simp)⟩

theorem noScheme_trim (v : Str) : NoScheme v (trimSip v) := by
  fun_induction trimSip v with
  | case1 s ih => exact .more ih
  | case2 s h =>
    refine .done ?_
    intro x e
    exact h x e

theorem noScheme_unique {v w : Str} (h : NoScheme v w) : trimSip v = w := by
  induction h with
  | more _ ih => exact ih
  | done h =>
    unfold trimSip
    split
    · rename_i s
      exact absurd rfl (h s)
    · rfl

theorem noSemis_trim (v : Str) : NoSemis v (trimEndSemi v) := by
  unfold trimEndSemi NoSemis
  have h := List.takeWhile_append_dropWhile (p := (· == ';')) (l := v.reverse)
  have hr : v.reverse.takeWhile (· == ';') = List.replicate (v.reverse.takeWhile (· == ';')).length ';' := by
    rw [List.eq_replicate_iff]
    refine ⟨rfl, ?_⟩
    intro b hb
    have := List.all_takeWhile (p := (· == ';')) (l := v.reverse)
    rw [List.all_eq_true] at this
    simpa using this b hb
  refine ⟨(v.reverse.takeWhile (· == ';')).length, ?_, ?_⟩
  · have h2 := congrArg List.reverse h
    rw [List.reverse_append, List.reverse_reverse] at h2
    conv => lhs; rw [← h2]
    congr 1
    conv => lhs; rw [hr]
    rw [List.reverse_replicate]
  · intro x e
    have e2 := congrArg List.reverse e
    rw [List.reverse_reverse, List.reverse_append] at e2
    simp only [List.reverse_singleton, List.singleton_append] at e2
    have := List.head?_dropWhile_not (p := (· == ';')) (l := v.reverse)
    rw [e2] at this
    simp at this

theorem noSemis_unique {v w : Str} (h : NoSemis v w) : trimEndSemi v = w := by
  obtain ⟨n, rfl, hw⟩ := h
  unfold trimEndSemi
  rw [List.reverse_append, List.reverse_replicate]
  have h1 : ∀ n (l : Str), (List.replicate n ';' ++ l).dropWhile (· == ';') = l.dropWhile (· == ';') := by
    intro n l
    induction n with
    | zero => rfl
    | succ n ih => rw [List.replicate_succ, List.cons_append, List.dropWhile_cons_of_pos (by rfl), ih]
  rw [h1]
  have h2 : w.reverse.dropWhile (· == ';') = w.reverse := by
    cases hr : w.reverse with
    | nil => rfl
    | cons c l =>
      rw [List.dropWhile_cons_of_neg]
      intro hc
      have hc : c = ';' := by simpa using hc
      subst hc
      refine hw l.reverse ?_
      have := congrArg List.reverse hr
      rw [List.reverse_reverse, List.reverse_cons] at this
      exact this
  rw [h2, List.reverse_reverse]

/-- a leg that is gone -/
theorem gone {s s' : St} {a b : Str} (ha : Alone a b s) (hl : s'.legs = s.legs.remove b) (i : Nat) :
    byIncoming s' i a = none ∧ byIncoming s' i b = none ∧ s'.legs.get b = none ∧ ∀ v, (v ∉ s.legs.keys) → s'.legs.get v = none := by
  refine ⟨byIncoming_none ?_, byIncoming_none ?_, by rw [hl, Tbl.get_remove_self], ?_⟩
  · intro e he
    rw [hl] at he
    intro hi
    have := (ha e (mem_remove he)).1 hi
    have h2 : e.1 ∈ Tbl.keys (s.legs.remove b) := List.mem_map.mpr ⟨e, he, rfl⟩
    rw [this] at h2
    exact Tbl.not_mem_keys_remove _ _ h2
  · intro e he
    rw [hl] at he
    exact (ha e (mem_remove he)).2
  · intro v hv
    rw [hl, Tbl.get_eq_none_iff, Tbl.keys_remove]
    intro hm
    exact hv (List.mem_filter.mp hm).1

theorem unknown_bye {cfg : Cfg} {s : St} {q : Request} {v : Str} (hq : First q.headers "Call-ID" v) {i : Nat} (f : Fresh)
    (h1 : byIncoming s i v = none) (h2 : s.legs.get v = none) :
    (step cfg s (.bye q i f)).2 = [.reply s.next (noSuchCall q)] := by
  show (onBye cfg s q i f).2 = _
  unfold onBye
  rw [callIdOf_first hq]
  have : byIncoming { s with next := s.next + 1 } i v = none := h1
  simp only [this, h2]

/-- where the legs come from -/
def FromOld (s : St) (e : Ev) (x : Str × Leg) : Prop :=
  (∃ y ∈ s.legs, y.1 = x.1 ∧ y.2.inId = x.2.inId) ∨
    ∃ q look f n i, e = .invite q look f n i ∧ x.1 = f.callId ∧ ∀ v, First q.headers "Call-ID" v → x.2.inId = v

theorem old_update {s : St} {e : Ev} {k : Str} {l l' : Leg} (hg : s.legs.get k = some l) (hl : Static l l') :
    ∀ x ∈ s.legs.update k (fun _ => l'), FromOld s e x := by
  intro x hx
  rcases mem_update hx with ⟨hx, _⟩ | ⟨v, _, rfl⟩
  · exact .inl ⟨x, hx, rfl, rfl⟩
  · exact .inl ⟨_, get_mem _ hg, rfl, hl.2.2.1.symm⟩

theorem legs_step (cfg : Cfg) (s : St) (e : Ev) : ∀ x ∈ (step cfg s e).1.legs, FromOld s e x := by
  have same : ∀ x ∈ s.legs, FromOld s e x := fun x hx => .inl ⟨x, hx, rfl, rfl⟩
  have rem : ∀ k, ∀ x ∈ s.legs.remove k, FromOld s e x := fun k x hx => same x (mem_remove hx)
  cases e with
  | invite q look f n i =>
    show ∀ x ∈ (onInvite cfg s q look f n i).1.legs, _
    unfold onInvite
    simp only
    split
    · exact same
    · split <;> exact same
    · split
      · exact same
      · split
        · exact same
        · exact same
        · rename_i leg hp
          intro x hx
          rcases mem_insert hx with rfl | hx
          · exact .inr ⟨q, look, f, n, i, rfl, (placed_leg hp).1, (placed_leg hp).2.2.1⟩
          · exact same x hx
  | ack q i br => exact same
  | bye q i f =>
    show ∀ x ∈ (onBye cfg s q i f).1.legs, _
    unfold onBye
    simp only
    split
    · split
      · exact same
      · exact rem _
    · split
      · exact same
      · split
        · exact same
        · split
          · exact rem _
          · split <;> exact rem _
  | cancel q i f =>
    show ∀ x ∈ (onCancel cfg s q i f).1.legs, _
    unfold onCancel
    simp only
    split
    · exact same
    · split
      · exact same
      · split <;> exact same
  | cancelOn k i =>
    show ∀ x ∈ (onCancelOn s k i).1.legs, _
    unfold onCancelOn
    split
    · exact same
    · simp only
      split
      · split
        · exact same
        · exact rem _
      · split <;> exact same
  | response r =>
    show ∀ x ∈ (onResponse s r).legs, _
    unfold onResponse
    split
    · exact same
    · split <;> exact same
  | relay k =>
    show ∀ x ∈ (onRelay cfg s k).1.legs, _
    unfold onRelay
    split
    · exact same
    · split
      · simp only
        split
        · exact same
        · rename_i c _ r rest _ _ _ leg hg
          have hst := transform_static cfg leg s.mgr r
          split
          · rename_i e
            exact old_update hg (Eq.mp (congrArg (fun z => Static leg z.2.1) e) hst)
          · exact rem _
          · rename_i e
            have hu := old_update (e := .relay k) hg (Eq.mp (congrArg (fun z => Static leg z.2.1) e) hst)
            split
            · exact hu
            · split
              · exact hu
              · exact fun x hx => hu x (mem_remove hx)
      · exact same
  | sweep n => exact fun x hx => same x (List.mem_filter.mp hx).1

/-- no leg has the Call-ID on its side to the callee -/
theorem keys_run (cfg : Cfg) (v : Str) : ∀ (es : List Ev) (s : St), (∀ q look f n i, Ev.invite q look f n i ∈ es → f.callId ≠ v) →
    (∀ x ∈ s.legs, x.1 ≠ v) → ∀ x ∈ (run cfg s es).1.legs, x.1 ≠ v
  | [], _, _, h => h
  | e :: es, s, he, h => by
    rw [run_cons]
    refine keys_run cfg v es _ (fun q look f n i hm => he q look f n i (by simp [hm])) ?_
    intro x hx
    rcases legs_step cfg s e x hx with ⟨y, hy, h1, _⟩ | ⟨q, look, f, n, i, rfl, h1, _⟩
    · rw [← h1]; exact h y hy
    · rw [h1]; exact he q look f n i (by simp)

theorem unknown_run (cfg : Cfg) (v : Str) : ∀ (es : List Ev) (s : St), (∀ e ∈ es, NotOf v e) →
    (∀ x ∈ s.legs, x.1 ≠ v ∧ x.2.inId ≠ v) → ∀ x ∈ (run cfg s es).1.legs, x.1 ≠ v ∧ x.2.inId ≠ v
  | [], _, _, h => h
  | e :: es, s, he, h => by
    rw [run_cons]
    refine unknown_run cfg v es _ (fun e' hm => he e' (by simp [hm])) ?_
    intro x hx
    rcases legs_step cfg s e x hx with ⟨y, hy, h1, h2⟩ | ⟨q, look, f, n, i, rfl, h1, h2⟩
    · rw [← h1, ← h2]; exact h y hy
    · obtain ⟨⟨c, hc, hcv⟩, hf⟩ := he _ (by simp : Ev.invite q look f n i ∈ _)
      exact ⟨by rw [h1]; exact hf, by rw [h2 c hc]; exact hcv⟩

theorem get_none_of {t : Tbl Str Leg} {v : Str} (h : ∀ x ∈ t, x.1 ≠ v) : t.get v = none := by
  rw [Tbl.get_eq_none_iff]
  intro hm
  obtain ⟨x, hx, e⟩ := List.mem_map.mp hm
  exact h x hx e

theorem noSuchCall_code (q : Request) : (noSuchCall q).code = 481 := rfl

theorem calleeTag_of {x : Story} {a : Str} {addr : Sub.Addr × Nat} {inv : Request} {r : Response} {tg frm to : Str} {l : Leg}
    (H : Holds x a addr inv r tg l frm to) (hsame : ∀ v t', First r.headers "To" v → TagOf v t' → t' = tg) : calleeTag l = some tg := by
  unfold calleeTag
  cases hd : l.uac with
  | none => exact H.tag
  | some d =>
    obtain ⟨_, _, _, _, v, hv, ht⟩ := H.dialog d hd
    simp only
    rw [hsame v _ hv ht]

/-- the numbers of a BYE -/
theorem byeCSeq_inv {inv : Request} (h : inv.headers.get "CSeq".toList = some "1 INVITE".toList) :
    byeCSeq inv.headers = [("CSeq", "2 BYE".toList)] := by
  have hc : cseqBefore inv.headers = some "1".toList := by
    unfold cseqBefore
    rw [h]
    decide +kernel
  unfold byeCSeq
  rw [hc]
  decide +kernel

/-- **C115.** The caller's BYE of an accepted call is answered 200 and goes on to the callee, once: a BYE with the Call-ID and the tags of
the call to the callee and the number after that of the INVITE.  The call is then gone: any further BYE is answered 481. -/
theorem C115_bye_caller {x : Story} {t : Nat} {r0 : Response} {addr : Sub.Addr × Nat} {inv : Request} {a : Str} {r : Response} {tg : Str}
    (h : x.Calls t r0 addr inv a) (hr : x.Answered t r) (h3 : r.code < 300) (htag : CalleeTag r tg)
    (hsame : ∀ v t', First r.headers "To" v → TagOf v t' → t' = tg)
    (hgiven : ∀ q look f n i, Ev.invite q look f n i ∈ x.pre ++ x.post → f.callId ≠ a)
    {q : Request} (hq : First q.headers "Call-ID" a) {f : Fresh} (hrep : Repliable q f.reply)
    (hvia : ∀ w, NoScheme x.cfg.localUri w → Fits ("SIP/2.0/TCP ".toList ++ w ++ ";branch=".toList ++ f.branch))
    (hto : ∀ to, First inv.headers "To" to → Fits (to ++ ";tag=".toList ++ tg)) (i : Nat) :
    ∃ t' ok out w frm to s', step x.cfg (run x.cfg init x.events).1 (.bye q i f) = (s', [.reply t' ok, .tcp addr out]) ∧
      Replies q 200 ok ∧ out.method = .bye ∧ out.uri = inv.uri ∧ out.body = [] ∧ NoScheme x.cfg.localUri w ∧
      First inv.headers "From" frm ∧ First inv.headers "To" to ∧
      Lines out.headers [("Via", "SIP/2.0/TCP ".toList ++ w ++ ";branch=".toList ++ f.branch), ("From", frm), ("To", to ++ ";tag=".toList ++ tg),
        ("Call-ID", x.f.callId), ("CSeq", "2 BYE".toList), ("Max-Forwards", "70".toList), ("Content-Length", "0".toList)] ∧
      ∀ q2 i2 f2, First q2.headers "Call-ID" a ∨ First q2.headers "Call-ID" x.f.callId →
        ∃ t2 no, (step x.cfg s' (.bye q2 i2 f2)).2 = [.reply t2 no] ∧ no.code = 481 := by
  obtain ⟨l, frm, to, H⟩ := holds h hr h3 htag
  obtain ⟨ok, hok, hrok⟩ := reply_ok hrep
  have hal := story_alone h
  have hkeys : ∀ y ∈ (run x.cfg init x.events).1.legs, y.1 ≠ a := by
    refine keys_run x.cfg a x.events init ?_ (fun y hy => by cases hy)
    intro q look f n i hm
    unfold Story.events at hm
    simp only [List.mem_append, List.mem_cons] at hm
    rcases hm with hm | hm | hm
    · exact hgiven q look f n i (by simp [hm])
    · cases hm; exact h.differ.symm
    · exact hgiven q look f n i (by simp [hm])
  have hf := (first_iff _ _ _).mp H.from_
  have ht := (first_iff _ _ _).mp H.to_
  have hcf : copyHeader inv.headers "From" = [("From", frm)] := by
    unfold copyHeader
    rw [hf]
  generalize hs : (run x.cfg init x.events).1 = s at *
  have hby : byIncoming { s with next := s.next + 1 } i a = some l := by
    have := H.mine i
    rw [hs] at this
    exact this
  have hstep : step x.cfg s (.bye q i f) = ({ s with next := s.next + 1, legs := s.legs.remove x.f.callId },
      [.reply s.next ok, .tcp addr (byeToCallee x.cfg l f.branch)]) := by
    show onBye x.cfg s q i f = _
    unfold onBye
    rw [callIdOf_first hq]
    simp only [hby, hok]
    unfold sendTcp
    rw [H.addr, H.outId]
  refine ⟨s.next, ok, byeToCallee x.cfg l f.branch, trimSip x.cfg.localUri, frm, to, _, hstep, hrok, rfl, H.callee, rfl, noScheme_trim _, H.from_, H.to_, ?_, ?_⟩
  · unfold byeToCallee
    simp only
    rw [H.invite, hcf, ht, calleeTag_of H hsame, H.outId, byeCSeq_inv H.cseq]
    simp only [List.cons_append, List.nil_append]
    apply lines_putAll
    · simp
    · intro p hp
      simp only [List.mem_cons, List.not_mem_nil, or_false] at hp
      rcases hp with rfl | rfl | rfl | rfl | rfl | rfl | rfl
      · exact ⟨goodName_via, hvia _ (noScheme_trim _)⟩
      · exact ⟨goodName_from, H.fitFrom⟩
      · exact ⟨goodName_to, hto to H.to_⟩
      · exact ⟨goodName_callId, H.fitId⟩
      · exact ⟨goodName_cseq, ⟨by unfold OneLine; decide, by decide⟩⟩
      · exact ⟨goodName_mf, fits_mf⟩
      · exact ⟨goodName_clen, fits_zero⟩
  · intro q2 i2 f2 hq2
    obtain ⟨g1, g2, g3, g4⟩ := gone (s' := { s with next := s.next + 1, legs := s.legs.remove x.f.callId }) hal rfl i2
    rcases hq2 with hq2 | hq2
    · exact ⟨_, _, unknown_bye hq2 f2 g1 (get_none_of (fun y hy => hkeys y (mem_remove hy))), rfl⟩
    · exact ⟨_, _, unknown_bye hq2 f2 g2 g3, rfl⟩

/-- **C115.** A BYE with a Call-ID that no call has is answered 481, and nothing is sent. -/
theorem C115_unknown {cfg : Cfg} {es : List Ev} {v : Str} (h : ∀ e ∈ es, NotOf v e) {q : Request} (hq : First q.headers "Call-ID" v) (i : Nat) (f : Fresh) :
    ∃ t no, (step cfg (run cfg init es).1 (.bye q i f)).2 = [.reply t no] ∧ no.code = 481 := by
  have hk := unknown_run cfg v es init h (fun y hy => by cases hy)
  exact ⟨_, _, unknown_bye hq f (byIncoming_none (fun e he => (hk e he).2)) (get_none_of (fun e he => (hk e he).1)), rfl⟩

/-- **C115.** An ACK with a Call-ID that no call has goes nowhere. -/
theorem C115_unknown_ack {cfg : Cfg} {es : List Ev} {v : Str} (h : ∀ e ∈ es, NotOf v e) {q : Request} (hq : First q.headers "Call-ID" v) (i : Nat)
    (br : Str) : (step cfg (run cfg init es).1 (.ack q i br)).2 = [] := by
  have hk := unknown_run cfg v es init h (fun y hy => by cases hy)
  show onAck _ _ _ _ = _
  unfold onAck
  rw [(first_iff _ _ _).mp hq]
  simp only
  rw [byIncoming_none (fun e he => (hk e he).2)]

theorem byIncoming_gone {s : St} {a b : Str} (hal : Alone a b s) (hg : s.legs.get b = none) (i : Nat) : byIncoming s i a = none := by
  refine byIncoming_none ?_
  intro e he hi
  have := (hal e he).1 hi
  have := mem_get _ (show (e.1, e.2) ∈ s.legs from he)
  rw [(hal e he).1 hi] at this
  exact this hg

/-- **C115 (violated).** A refusal of the callee is never acknowledged: the caller's ACK ends at the bridge, and the bridge sends none
of its own, so the callee repeats its refusal until it gives up. -/
theorem C115_refusal_not_acked {x : Story} {t : Nat} {r0 : Response} {addr : Sub.Addr × Nat} {inv : Request} {a : Str} {r : Response}
    (h : x.Calls t r0 addr inv a) (hr : x.Answered t r) (h3 : 300 ≤ r.code) {q : Request} (hq : First q.headers "Call-ID" a) (i : Nat) (br : Str) :
    (step x.cfg (run x.cfg init x.events).1 (.ack q i br)).2 = [] := by
  obtain ⟨lg, _, _, _, _, hl⟩ := story_answered h hr
  show onAck _ _ _ _ = _
  unfold onAck
  rw [(first_iff _ _ _).mp hq]
  simp only
  rw [byIncoming_gone (story_alone h) (hl h3) i]

theorem uri_sip {v : Str} {u : SipUri} (h : Uri.parse v = some (.sip u)) : SipUri.parse v = some u := by
  unfold Uri.parse at h
  split at h
  · cases h
  · split at h
    · cases ht : TelUri.parse v with
      | none => rw [ht] at h; cases h
      | some y => rw [ht] at h; cases h
    · split at h
      · cases ht : SipUri.parse v with
        | none => rw [ht] at h; cases h
        | some y => rw [ht] at h; cases h; rfl
      · cases ht : parseAbsolute v with
        | none => rw [ht] at h; cases h
        | some y => rw [ht] at h; cases h

theorem contactIn_bracket {p u rest : Str} (h1 : '<' ∉ p) (h2 : '>' ∉ u) : contactIn (p ++ '<' :: u ++ '>' :: rest) = u := by
  unfold contactIn
  rw [List.append_assoc, List.cons_append, splitOnce_append _ _ _ h1]
  simp only
  rw [splitOnce_append _ _ _ h2]

theorem byeCSeq_next {hs : Headers} {d rest : Str} {n : Nat} (h : hs.get "CSeq".toList = some (d ++ ' ' :: rest)) (hd : ' ' ∉ d) (hn : Decimal d n)
    (hm : n < 4294967295) : byeCSeq hs = [("CSeq", showNat (n + 1) ++ " BYE".toList)] := by
  have hc : cseqBefore hs = some d := by
    unfold cseqBefore
    rw [h]
    simp only
    rw [splitOnce_append _ _ _ hd]
    rfl
  unfold byeCSeq
  rw [hc]
  have hp : parseDec MAX_U32 d = some n := (parseDec_iff _ _ _).mpr ⟨hn, by unfold MAX_U32; omega⟩
  simp only [Option.bind_some, hp]
  rw [if_pos (by unfold MAX_U32; exact hm)]

/-- **C115.** The callee's BYE of an accepted call is answered 200 and goes on to the caller's Contact, once: a BYE from the called party of
the caller's dialog to the caller, with the tags the caller knows and the number after that of the caller's INVITE.  The call is then
gone: any further BYE is answered 481. -/
theorem C115_bye_callee {x : Story} {t : Nat} {r0 : Response} {addr : Sub.Addr × Nat} {inv : Request} {a : Str} {r : Response} {tg : Str}
    (h : x.Calls t r0 addr inv a) (hr : x.Answered t r) (h3 : r.code < 300) (htag : CalleeTag r tg)
    (hgiven : ∀ q look f n i, Ev.invite q look f n i ∈ x.pre ++ x.post → f.callId ≠ a)
    {q : Request} (hq : First q.headers "Call-ID" x.f.callId) {f : Fresh} (hrep : Repliable q f.reply)
    {p u rest to frm d more w : Str} {target : SipUri} {n x1 x2 x3 x4 port : Nat}
    (hcontact : First x.rq.headers "Contact" (p ++ '<' :: u ++ '>' :: rest)) (hp : '<' ∉ p) (hu : '>' ∉ u)
    (hparse : Uri.parse u = some (.sip target)) (hhost : Dotted target.host x1 x2 x3 x4) (hport : PortOf target port)
    (hto : First x.rq.headers "To" to) (hsemi : NoSemis to w) (hfrom : First x.rq.headers "From" frm)
    (hcseq : First x.rq.headers "CSeq" (d ++ ' ' :: more)) (hd : ' ' ∉ d) (hn : Decimal d n) (hmax : n < 4294967295)
    (hvia : ∀ v, NoScheme x.cfg.localUri v → Fits ("SIP/2.0/UDP ".toList ++ v ++ ";branch=".toList ++ f.branch))
    (hfit : Fits (w ++ ";tag=".toList ++ tg)) (i : Nat) :
    ∃ t' ok out v s', step x.cfg (run x.cfg init x.events).1 (.bye q i f) = (s', [.reply t' ok, .udp (.v4 x1 x2 x3 x4, port) out]) ∧
      Replies q 200 ok ∧ out.method = .bye ∧ out.uri = u ∧ out.body = [] ∧ NoScheme x.cfg.localUri v ∧
      Lines out.headers [("Via", "SIP/2.0/UDP ".toList ++ v ++ ";branch=".toList ++ f.branch), ("From", w ++ ";tag=".toList ++ tg), ("To", frm),
        ("Call-ID", a), ("CSeq", showNat (n + 1) ++ " BYE".toList), ("Max-Forwards", "70".toList), ("Content-Length", "0".toList)] ∧
      ∀ q2 i2 f2, First q2.headers "Call-ID" a ∨ First q2.headers "Call-ID" x.f.callId →
        ∃ t2 no, (step x.cfg s' (.bye q2 i2 f2)).2 = [.reply t2 no] ∧ no.code = 481 := by
  obtain ⟨l, frm', to', H⟩ := holds h hr h3 htag
  obtain ⟨ok, hok, hrok⟩ := reply_ok hrep
  have hal := story_alone h
  have hkeys : ∀ y ∈ (run x.cfg init x.events).1.legs, y.1 ≠ a := by
    refine keys_run x.cfg a x.events init ?_ (fun y hy => by cases hy)
    intro q look f n i hm
    unfold Story.events at hm
    simp only [List.mem_append, List.mem_cons] at hm
    rcases hm with hm | hm | hm
    · exact hgiven q look f n i (by simp [hm])
    · cases hm; exact h.differ.symm
    · exact hgiven q look f n i (by simp [hm])
  have gc := (first_iff _ _ _).mp hcontact
  have gt := (first_iff _ _ _).mp hto
  have gf := (first_iff _ _ _).mp hfrom
  have gq := (first_iff _ _ _).mp hcseq
  have hw : trimEndSemi to = w := noSemis_unique hsemi
  have hsp := uri_sip hparse
  have htg : callerTarget l = some target := by
    unfold callerTarget
    rw [H.caller, gc]
    simp only
    rw [contactIn_bracket hp hu, hparse]
  have hsock : socketOf target = some (.v4 x1 x2 x3 x4, port) := (socketOf_iff hsp _ _).mpr ⟨_, _, _, _, hhost, rfl, hport⟩
  generalize hs : (run x.cfg init x.events).1 = s at *
  have hby : byIncoming { s with next := s.next + 1 } i x.f.callId = none := by
    have := H.notOut i
    rw [hs] at this
    exact this
  have hg : s.legs.get x.f.callId = some l := by
    have := H.get
    rw [hs] at this
    exact this
  have hstep : step x.cfg s (.bye q i f) = ({ s with next := s.next + 1, legs := s.legs.remove x.f.callId },
      [.reply s.next ok, .udp (.v4 x1 x2 x3 x4, port) (byeToCaller x.cfg l f.branch target)]) := by
    show onBye x.cfg s q i f = _
    unfold onBye
    rw [callIdOf_first hq]
    simp only [hby, hok, hg, htg, hsock, H.outId]
  refine ⟨s.next, ok, byeToCaller x.cfg l f.branch target, trimSip x.cfg.localUri, _, hstep, hrok, rfl, (UriP.parse_sound hsp).2, rfl, noScheme_trim _, ?_, ?_⟩
  · unfold byeToCaller
    simp only
    rw [H.caller, gt, gf, H.tag, H.inId, byeCSeq_next gq hd hn hmax]
    simp only [hw, List.cons_append, List.nil_append]
    apply lines_putAll
    · simp
    · intro p hp
      simp only [List.mem_cons, List.not_mem_nil, or_false] at hp
      rcases hp with rfl | rfl | rfl | rfl | rfl | rfl | rfl
      · exact ⟨goodName_via, hvia _ (noScheme_trim _)⟩
      · exact ⟨goodName_from, hfit⟩
      · exact ⟨goodName_to, get_fits h.ok.clean gf⟩
      · exact ⟨goodName_callId, get_fits h.ok.clean ((first_iff _ _ _).mp h.id)⟩
      · exact ⟨goodName_cseq, Cases.fits_app ⟨(Uas.showNat_short (n + 1) (by omega)).1, by have := RSeq.showNat_utf8 (n + 1) (by omega); omega⟩
          ⟨by unfold OneLine; decide, by decide⟩⟩
      · exact ⟨goodName_mf, fits_mf⟩
      · exact ⟨goodName_clen, fits_zero⟩
  · intro q2 i2 f2 hq2
    obtain ⟨g1, g2, g3, g4⟩ := gone (s' := { s with next := s.next + 1, legs := s.legs.remove x.f.callId }) hal rfl i2
    rcases hq2 with hq2 | hq2
    · exact ⟨_, _, unknown_bye hq2 f2 g1 (get_none_of (fun y hy => hkeys y (mem_remove hy))), rfl⟩
    · exact ⟨_, _, unknown_bye hq2 f2 g2 g3, rfl⟩

theorem keys_not {x : Story} {t : Nat} {r0 : Response} {addr : Sub.Addr × Nat} {inv : Request} {a : Str} (h : x.Calls t r0 addr inv a)
    (hgiven : ∀ q look f n i, Ev.invite q look f n i ∈ x.pre ++ x.post → f.callId ≠ a) :
    ∀ y ∈ (run x.cfg init x.events).1.legs, y.1 ≠ a := by
  refine keys_run x.cfg a x.events init ?_ (fun y hy => by cases hy)
  intro q look f n i hm
  unfold Story.events at hm
  simp only [List.mem_append, List.mem_cons] at hm
  rcases hm with hm | hm | hm
  · exact hgiven q look f n i (by simp [hm])
  · cases hm; exact h.differ.symm
  · exact hgiven q look f n i (by simp [hm])

/-- **C115 (violated).** A call ends for the bridge five minutes after it began: after the next clean-up the BYE of either party is answered
481 and the other party is not told, and neither an ACK goes on. -/
theorem C115_five_minutes {x : Story} {t : Nat} {r0 : Response} {addr : Sub.Addr × Nat} {inv : Request} {a : Str} (h : x.Calls t r0 addr inv a)
    (hgiven : ∀ q look f n i, Ev.invite q look f n i ∈ x.pre ++ x.post → f.callId ≠ a) {n : Nat} (hn : x.now + 300 ≤ n)
    {q : Request} (hq : First q.headers "Call-ID" a ∨ First q.headers "Call-ID" x.f.callId) (i : Nat) (f : Fresh) (br : Str) :
    (∃ t' no, (step x.cfg (run x.cfg init (x.events ++ [.sweep n])).1 (.bye q i f)).2 = [.reply t' no] ∧ no.code = 481) ∧
    (step x.cfg (run x.cfg init (x.events ++ [.sweep n])).1 (.ack q i br)).2 = [] := by
  have hs := story_shape h
  have hal := story_alone h
  have hk := keys_not h hgiven
  rw [run_append]
  generalize (run x.cfg init x.events).1 = s at hs hal hk
  have e : (run x.cfg s [.sweep n]).1 = onSweep s n := rfl
  simp only [e]
  have hno : ∀ y ∈ (onSweep s n).legs, y.1 ≠ x.f.callId := by
    intro y hy e
    obtain ⟨h1, h2⟩ := List.mem_filter.mp hy
    have := (hs y h1).2 e
    have hb := this.2.2.2.2
    rw [hb] at h2
    have : n - x.now < 300 := of_decide_eq_true h2
    omega
  have hi : ∀ y ∈ (onSweep s n).legs, y.2.inId ≠ a ∧ y.2.inId ≠ x.f.callId := by
    intro y hy
    obtain ⟨h1, h2⟩ := hal y (List.mem_filter.mp hy).1
    exact ⟨fun e => hno y hy (h1 e), h2⟩
  have ha : ∀ y ∈ (onSweep s n).legs, y.1 ≠ a := fun y hy => hk y (List.mem_filter.mp hy).1
  constructor
  · rcases hq with hq | hq
    · exact ⟨_, _, unknown_bye hq f (byIncoming_none (fun y hy => (hi y hy).1)) (get_none_of ha), rfl⟩
    · exact ⟨_, _, unknown_bye hq f (byIncoming_none (fun y hy => (hi y hy).2)) (get_none_of hno), rfl⟩
  · show onAck _ _ _ _ = _
    unfold onAck
    rcases hq with hq | hq
    · rw [(first_iff _ _ _).mp hq]
      simp only
      rw [byIncoming_none (fun y hy => (hi y hy).1)]
    · rw [(first_iff _ _ _).mp hq]
      simp only
      rw [byIncoming_none (fun y hy => (hi y hy).2)]

namespace Cases

theorem ok_tag : CalleeTag ok "C".toList :=
  ⟨_, (first_iff _ _ _).mpr (by decide +kernel : ok.headers.get "To".toList = some "<sip:bob@10.0.0.2:5080>;tag=C".toList), (toTag_some _ _).mp (by decide +kernel)⟩

/-- a call that rang and was accepted -/
def answered : Story := ⟨me, [], inv, look, fr, 0, 0, later ++ List.replicate 3 (.relay 0)⟩

theorem answered_calls : ∃ r0 out, answered.Calls 0 r0 (.v4 10 0 0 2, 5080) out "in1".toList := by
  obtain ⟨r0, addr, out, hc⟩ := call_placed
  have ha : addr = (.v4 10 0 0 2, 5080) := by
    have : (match (step me (run me init []).1 call).2 with | [.reply 0 _, .tcp x _] => decide (x = (.v4 10 0 0 2, 5080)) | _ => false) = true := by
      decide +kernel
    rw [hc] at this
    simpa using this
  subst ha
  refine ⟨r0, out, ⟨by unfold OneLine; decide, by decide⟩, inv_answerable, (first_iff _ _ _).mpr (by decide +kernel), by decide +kernel, hc, ?_, ?_⟩
  · intro e he
    rcases List.mem_append.mp (show e ∈ later ++ List.replicate 3 (.relay 0) from he) with he | he
    · exact leaves_later e he
    · rw [(List.mem_replicate.mp he).2]; trivial
  · intro e he
    have : e ∈ later ++ List.replicate 3 (.relay 0) := he
    simp only [later, List.cons_append, List.nil_append, List.replicate, List.mem_cons, List.not_mem_nil, or_false] at this
    rcases this with rfl | rfl | rfl | rfl | rfl | rfl | rfl <;> trivial

theorem answered_ok : answered.Answered 0 ok := by
  obtain ⟨r0, addr, out, hc⟩ := call_placed
  obtain ⟨rs', h1, h2⟩ := C113_delivered (cfg := me) (pre := []) (post := later) (a := "in1".toList) (n := 3)
    (arr := [ringing, ok, busy]) (upto := [ringing, ok])
    ⟨by unfold OneLine; decide, by decide⟩ inv_answerable
    ((first_iff _ _ _).mpr (by decide +kernel)) hc leaves_later
    ((arrived_iff _ _ _).mpr (by decide +kernel)) (.more (by decide) (.final (by decide))) (by decide) ((answers_iff _ _ _).mpr rfl)
  refine ⟨[ringing, ok, busy], [ringing], r0, rs', (arrived_iff _ _ _).mpr (by decide +kernel), .more (by decide) (.final (by decide)), by decide, ?_, ?_⟩
  · rw [← h1, answers_iff]
    rfl
  · exact (each_length h2).symm

theorem answered_to {r0 : Response} {out : Request} (h : answered.Calls 0 r0 (.v4 10 0 0 2, 5080) out "in1".toList) :
    ∀ to, First out.headers "To" to → Fits (to ++ ";tag=".toList ++ "C".toList) := by
  have h1 : (step me (run me init []).1 call).2 = [.reply 0 r0, .tcp (.v4 10 0 0 2, 5080) out] := h.call
  have h2 : (match (step me (run me init []).1 call).2 with
    | [.reply 0 _, .tcp _ x] => decide (x.headers.get "To".toList = some "<sip:bob@10.0.0.2:5080>".toList) | _ => false) = true := by
    decide +kernel
  rw [h1] at h2
  have h3 := of_decide_eq_true h2
  intro to ht
  rw [first_iff, h3] at ht
  cases ht
  exact ⟨by unfold OneLine; decide, by decide⟩

theorem answered_tag : ∀ v t', First ok.headers "To" v → TagOf v t' → t' = "C".toList := by
  intro v t' hv ht
  rw [first_iff] at hv
  have : ok.headers.get "To".toList = some "<sip:bob@10.0.0.2:5080>;tag=C".toList := by decide +kernel
  rw [this] at hv
  cases hv
  exact Dlg.tagOf_unique ht (Dlg.extractTag_some (by decide +kernel))

theorem answered_given : ∀ q look f n i, Ev.invite q look f n i ∈ answered.pre ++ answered.post → f.callId ≠ "in1".toList := by
  intro q look f n i h
  have : Ev.invite q look f n i ∈ later ++ List.replicate 3 (.relay 0) := h
  simp [later] at this

theorem scheme_me : ∀ w, NoScheme me.localUri w → w = "pbx@10.0.0.9:5060".toList := by
  intro w h
  rw [← noScheme_unique h]
  decide +kernel

theorem bye_repliable {cid cseq : String} (h : HInv (within .bye cid "<sip:alice@10.0.0.1>;tag=A" "<sip:bob@example.org>;tag=C" cseq).headers) :
    Repliable (within .bye cid "<sip:alice@10.0.0.1>;tag=A" "<sip:bob@example.org>;tag=C" cseq) fr.reply := by
  refine ⟨h, by simp [within, hd], by unfold OneLine; decide, ?_⟩
  intro v hv
  rw [first_iff] at hv
  have : (within .bye cid "<sip:alice@10.0.0.1>;tag=A" "<sip:bob@example.org>;tag=C" cseq).headers.get "To".toList =
      some "<sip:bob@example.org>;tag=C".toList := rfl
  rw [this] at hv
  cases hv
  decide

-- the caller acknowledges and hangs up, or the callee hangs up
example : ∃ out addr, ∃ inv : Request, (step me (run me init answered.events).1 (.ack (within .ack "in1" "<sip:alice@10.0.0.1>;tag=A" "<sip:bob@example.org>;tag=C" "7 ACK") 0 "z9hG4bKy".toList)).2 =
    [.tcp addr out] ∧ out.method = .ack ∧ out.uri = inv.uri := by
  obtain ⟨r0, inv, hc⟩ := answered_calls
  obtain ⟨out, frm, to, rest, h1, h2, h3, _⟩ := C115_ack hc answered_ok (by decide) ok_tag
    (q := within .ack "in1" "<sip:alice@10.0.0.1>;tag=A" "<sip:bob@example.org>;tag=C" "7 ACK") ((first_iff _ _ _).mpr (by decide +kernel))
    (by unfold Fits OneLine; decide) (by decide) (br := "z9hG4bKy".toList) ⟨by unfold OneLine; decide, by decide⟩ (answered_to hc) 0
  exact ⟨out, _, inv, h1, h2, h3⟩

example : ∃ t' ok' out s', step me (run me init answered.events).1 (.bye (within .bye "in1" "<sip:alice@10.0.0.1>;tag=A" "<sip:bob@example.org>;tag=C" "8 BYE") 0 fr) =
    (s', [.reply t' ok', .tcp (.v4 10 0 0 2, 5080) out]) := by
  obtain ⟨r0, inv, hc⟩ := answered_calls
  obtain ⟨t', ok', out, w, frm, to, s', h1, _⟩ := C115_bye_caller hc answered_ok (by decide) ok_tag answered_tag answered_given
    (q := within .bye "in1" "<sip:alice@10.0.0.1>;tag=A" "<sip:bob@example.org>;tag=C" "8 BYE") ((first_iff _ _ _).mpr (by decide +kernel))
    (bye_repliable (Priv.hinv_of (by decide) (by decide +kernel)))
    (fun w hw => by rw [scheme_me w hw]; exact ⟨by unfold OneLine; decide +kernel, by decide +kernel⟩) (answered_to hc) 0
  exact ⟨t', ok', out, s', h1⟩

example : ∃ t' ok' out s', step me (run me init answered.events).1 (.bye (within .bye "out1" "<sip:alice@10.0.0.1>;tag=A" "<sip:bob@example.org>;tag=C" "1 BYE") 0 fr) =
    (s', [.reply t' ok', .udp (.v4 10 0 0 1, 5070) out]) := by
  obtain ⟨r0, inv', hc⟩ := answered_calls
  obtain ⟨t', ok', out, v, s', h1, _⟩ := C115_bye_callee hc answered_ok (by decide) ok_tag answered_given
    (q := within .bye "out1" "<sip:alice@10.0.0.1>;tag=A" "<sip:bob@example.org>;tag=C" "1 BYE") ((first_iff _ _ _).mpr (by decide +kernel))
    (bye_repliable (Priv.hinv_of (by decide) (by decide +kernel)))
    (p := []) (u := "sip:alice@10.0.0.1:5070".toList) (rest := []) (d := "7".toList) (x1 := 10) (x2 := 0) (x3 := 0) (x4 := 1) (port := 5070) (more := "INVITE".toList) (n := 7) (w := "<sip:bob@example.org>".toList)
    (target := ⟨"sip:alice@10.0.0.1:5070".toList, false, some "alice".toList, "10.0.0.1".toList, some 5070, [], []⟩)
    ((first_iff _ _ _).mpr (by decide +kernel)) (by decide) (by decide) (by decide +kernel)
    ⟨by omega, by omega, by omega, by omega, by decide +kernel⟩ (.inl rfl)
    (to := "<sip:bob@example.org>".toList) ((first_iff _ _ _).mpr (by decide +kernel))
    ⟨0, by decide, fun x e => by
      have := congrArg List.getLast? e
      rw [List.getLast?_append] at this
      simp at this⟩
    (frm := "<sip:alice@10.0.0.1>;tag=A".toList) ((first_iff _ _ _).mpr (by decide +kernel)) ((first_iff _ _ _).mpr (by decide +kernel)) (by decide)
    ((parseDec_iff 100 _ _).mp (by decide +kernel)).1 (by decide)
    (fun w hw => by rw [scheme_me w hw]; exact ⟨by unfold OneLine; decide +kernel, by decide +kernel⟩) ⟨by unfold OneLine; decide, by decide⟩ 0
  exact ⟨t', ok', out, s', h1⟩

/-- **C115 (violated).** A BYE ends the call by its Call-ID alone: one with the tags of some other
dialog ends it too. -/
theorem C115_any_tags :
    sent (run me init (answered.events ++ [.bye (within .bye "in1" "<sip:eve@10.6.6.6>;tag=E" "<sip:bob@example.org>;tag=F" "1 BYE") 0 fr])).2 =
      [(.invite, 5080), (.bye, 5080)] ∧
    codes 1 (run me init (answered.events ++ [.bye (within .bye "in1" "<sip:eve@10.6.6.6>;tag=E" "<sip:bob@example.org>;tag=F" "1 BYE") 0 fr])).2 = [200] := by
  decide +kernel

/-- **C115 (violated).** A BYE of the caller before the callee answers: the BYE to the callee has no To at all, so the callee cannot take it,
goes on ringing, and its later answer is lost. -/
theorem C115_early_bye :
    (run me init [call, .response ringing, .relay 0, .bye (within .bye "in1" "<sip:alice@10.0.0.1>;tag=A" "<sip:bob@example.org>;tag=C" "8 BYE") 0 fr,
      .response ok, .relay 0]).2.filterMap (fun o => match o with | .tcp _ q => some (q.method, q.headers.get "To".toList) | _ => none) =
      [(.invite, some "<sip:bob@10.0.0.2:5080>".toList), (.bye, none)] ∧
    codes 0 (run me init [call, .response ringing, .relay 0, .bye (within .bye "in1" "<sip:alice@10.0.0.1>;tag=A" "<sip:bob@example.org>;tag=C" "8 BYE") 0 fr,
      .response ok, .relay 0]).2 = [100, 180] := by
  decide +kernel

/-- **C115 (violated).** Without a Contact in the caller's INVITE, or with one that has a host name, the callee's BYE is answered 200 and
the caller is not told. -/
theorem C115_caller_not_told :
    let go (c : List (String × String)) := (run me init [.invite { inv with headers := hd ([("Via", "SIP/2.0/UDP 10.0.0.1;branch=z9hG4bK1"),
      ("From", "<sip:alice@10.0.0.1>;tag=A"), ("To", "<sip:bob@example.org>"), ("Call-ID", "in1"), ("CSeq", "7 INVITE")] ++ c) } look fr 0 0,
      .response ok, .relay 0, .bye (within .bye "out1" "<sip:bob@10.0.0.2:5080>;tag=C" "<sip:alice@10.0.0.1>;tag=B" "1 BYE") 0 fr]).2
    (sent (go []) = [(.invite, 5080)] ∧ codes 1 (go []) = [200]) ∧
    (sent (go [("Contact", "<sip:alice@phone.example.org>")]) = [(.invite, 5080)] ∧ codes 1 (go [("Contact", "<sip:alice@phone.example.org>")]) = [200]) ∧
    sent (go [("Contact", "<sip:alice@10.0.0.1:5070>")]) = [(.invite, 5080), (.bye, 5070)] := by
  decide +kernel

-- no such call
example (i : Nat) (f : Fresh) : ∃ t no, (step me (run me init [call]).1 (.bye (within .bye "other" "<sip:a@h>;tag=1" "<sip:b@h>;tag=2" "1 BYE") i f)).2 =
    [.reply t no] ∧ no.code = 481 :=
  C115_unknown (v := "other".toList) (fun e he => by
    rw [List.mem_singleton.mp he]
    exact ⟨⟨"in1".toList, (first_iff _ _ _).mpr (by decide +kernel), by decide⟩, by decide⟩) ((first_iff _ _ _).mpr (by decide +kernel)) i f

-- a call that was accepted, after five minutes
example : ∃ t' no, (step me (run me init (answered.events ++ [.sweep 300])).1
    (.bye (within .bye "in1" "<sip:alice@10.0.0.1>;tag=A" "<sip:bob@example.org>;tag=C" "8 BYE") 0 fr)).2 = [.reply t' no] ∧ no.code = 481 := by
  obtain ⟨r0, inv, hc⟩ := answered_calls
  exact (C115_five_minutes hc answered_given (n := 300) (by decide) (.inl ((first_iff _ _ _).mpr (by decide +kernel))) 0 fr []).1

/-- a call that is refused -/
def refused : Story := ⟨me, [], inv, look, fr, 0, 0, [.response busy] ++ List.replicate 1 (.relay 0)⟩

-- its ACK goes nowhere
example : (step me (run me init refused.events).1
    (.ack (within .ack "in1" "<sip:alice@10.0.0.1>;tag=A" "<sip:bob@example.org>;tag=C" "7 ACK") 0 [])).2 = [] := by
  obtain ⟨r0, addr, out, hc⟩ := call_placed
  have hl : ∀ e ∈ [] ++ [Ev.response busy], Leaves inv "in1".toList fr.callId 0 e := by
    intro e he
    rw [List.mem_singleton.mp (show e ∈ [Ev.response busy] from he)]
    exact fun _ => resp_passable 486 (by decide)
  have hcalls : refused.Calls 0 r0 addr out "in1".toList := by
    refine ⟨⟨by unfold OneLine; decide, by decide⟩, inv_answerable, (first_iff _ _ _).mpr (by decide +kernel), by decide +kernel, hc, ?_, ?_⟩
    · intro e he
      rcases List.mem_append.mp (show e ∈ [.response busy] ++ List.replicate 1 (.relay 0) from he) with he | he
      · exact hl e he
      · rw [(List.mem_replicate.mp he).2]; trivial
    · intro e he
      have : e ∈ [.response busy] ++ List.replicate 1 (.relay 0) := he
      simp only [List.cons_append, List.nil_append, List.replicate, List.mem_cons, List.not_mem_nil, or_false] at this
      rcases this with rfl | rfl <;> trivial
  obtain ⟨rs', h1, h2⟩ := C113_delivered (cfg := me) (pre := []) (post := [.response busy]) (a := "in1".toList) (n := 1)
    (arr := [busy]) (upto := [busy])
    ⟨by unfold OneLine; decide, by decide⟩ inv_answerable
    ((first_iff _ _ _).mpr (by decide +kernel)) hc hl
    ((arrived_iff _ _ _).mpr (by decide +kernel)) (.final (by decide)) (by decide) ((answers_iff _ _ _).mpr rfl)
  refine C115_refusal_not_acked hcalls (r := busy) ⟨[busy], [], r0, rs', (arrived_iff _ _ _).mpr (by decide +kernel), .final (by decide), by decide, ?_, ?_⟩
    (by decide) ((first_iff _ _ _).mpr (by decide +kernel)) 0 []
  · rw [← h1, answers_iff]
    rfl
  · exact (each_length h2).symm

end Cases
end Siphon.Bridge
