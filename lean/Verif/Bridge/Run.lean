import Verif.Bridge.Lemmas
/-! Lemmas about the relay of one response, and about histories. -/
namespace Siphon.Bridge
open HdrSpec TextSpec Spec
open Siphon.Dlg (Dialog DialogId Mgr copyHeader first_iff absent_iff)
open Siphon.Dlg.Spec (First Absent)

/-! ## One response -/

theorem lowTag_ascii {v t : Str} (h : LowTag v t) (ha : Ascii v) : Ascii t := by
  obtain ⟨pre, p, post, h0, h1, _⟩ := h
  intro c hc
  apply ha
  have hp : c ∈ p := by
    obtain ⟨a, b, e, _⟩ := h1
    rw [e]
    simp [hc]
  rw [h0.2.1]
  exact Dlg.mem_join (by simp) hp

theorem headerTag_safe {hs : Headers} {n : String} (h : ∀ v, First hs n v → Ascii v) : Dlg.headerTag hs n.toList ≠ .panic := by
  unfold Dlg.headerTag
  split
  · simp
  · rename_i v hv
    exact Dlg.extractTag_ascii (h v ((first_iff _ _ _).mpr hv))

theorem newUac_safe {req : Request} {resp : Response} {l r : SipUri} (hf : ∀ v, First resp.headers "From" v → Ascii v)
    (ht : ∀ v, First resp.headers "To" v → Ascii v) : Dialog.newUac req resp l r ≠ .panic := by
  have h1 := headerTag_safe hf
  have h2 := headerTag_safe ht
  unfold Dialog.newUac DialogId.fromResponseUac DialogId.fromRequest
  intro hp
  split at hp
  · rename_i hp'
    split at hp'
    · cases hp'
    · split at hp'
      · rename_i e; exact h1 e
      · cases hp'
      · split at hp'
        · rename_i e; exact h2 e
        · cases hp'
        · cases hp'
  · cases hp
  · split at hp <;> cases hp

theorem newUas_safe {req : Request} {resp : Response} {l r : SipUri} (hf : ∀ v, First resp.headers "From" v → Ascii v)
    (ht : ∀ v, First resp.headers "To" v → Ascii v) : Dialog.newUas req resp l r ≠ .panic := by
  have h1 := headerTag_safe hf
  have h2 := headerTag_safe ht
  unfold Dialog.newUas DialogId.fromResponseUas
  intro hp
  split at hp
  · rename_i hp'
    split at hp'
    · cases hp'
    · split at hp'
      · rename_i e; exact h2 e
      · cases hp'
      · split at hp'
        · rename_i e; exact h1 e
        · cases hp'
        · cases hp'
  · cases hp
  · split at hp <;> cases hp

theorem get_mk_cons (n : String) (v : Str) (l : List (String × Str)) (k : Str) :
    Headers.get ⟨mk ((n, v) :: l)⟩ k = if eqIgnoreCase n.toList k then some v else Headers.get ⟨mk l⟩ k := by
  show Headers.get ⟨⟨n.toList, v⟩ :: mk l⟩ k = _
  unfold Headers.get Headers.getHeader
  simp only [List.find?_cons, Header.nameEq]
  cases eqIgnoreCase n.toList k <;> rfl

theorem get_mk_skip : ∀ (a l : List (String × Str)) (k : Str), (∀ p ∈ a, eqIgnoreCase p.1.toList k = false) →
    Headers.get ⟨mk (a ++ l)⟩ k = Headers.get ⟨mk l⟩ k
  | [], _, _, _ => rfl
  | (n, v) :: a, l, k, h => by
    rw [List.cons_append, get_mk_cons, h (n, v) (by simp), get_mk_skip a l k (fun q hq => h q (by simp [hq]))]
    rfl

/-- what stays the same in a leg -/
def Static (l l' : Leg) : Prop :=
  l'.outId = l.outId ∧ l'.chan = l.chan ∧ l'.inId = l.inId ∧ l'.caller = l.caller ∧ l'.invite = l.invite ∧
    l'.callee = l.callee ∧ l'.born = l.born

theorem static_refl (l : Leg) : Static l l := ⟨rfl, rfl, rfl, rfl, rfl, rfl, rfl⟩

theorem static_trans {a b c : Leg} (h : Static a b) (h' : Static b c) : Static a c := by
  obtain ⟨h1, h2, h3, h4, h5, h6, h7⟩ := h
  obtain ⟨g1, g2, g3, g4, g5, g6, g7⟩ := h'
  exact ⟨g1.trans h1, g2.trans h2, g3.trans h3, g4.trans h4, g5.trans h5, g6.trans h6, g7.trans h7⟩

theorem establish_static (cfg : Cfg) (leg : Leg) (m : Mgr) (frm tag : Str) (hs : Headers) (r : Response) :
    Static leg (establish cfg leg m frm tag hs r).2.1 := by
  unfold establish
  simp only
  split
  · exact ⟨rfl, rfl, rfl, rfl, rfl, rfl, rfl⟩
  · rename_i d _
    cases d with
    | none =>
      simp only
      split
      · exact ⟨rfl, rfl, rfl, rfl, rfl, rfl, rfl⟩
      · exact ⟨rfl, rfl, rfl, rfl, rfl, rfl, rfl⟩
      · exact ⟨rfl, rfl, rfl, rfl, rfl, rfl, rfl⟩
    | some d =>
      simp only
      split
      · exact ⟨rfl, rfl, rfl, rfl, rfl, rfl, rfl⟩
      · exact ⟨rfl, rfl, rfl, rfl, rfl, rfl, rfl⟩
      · exact ⟨rfl, rfl, rfl, rfl, rfl, rfl, rfl⟩

theorem transform_static (cfg : Cfg) (leg : Leg) (m : Mgr) (r : Response) : Static leg (transform cfg leg m r).2.1 := by
  unfold transform
  split
  · simp only
    split
    · exact static_refl leg
    · split
      · split
        · rename_i e; exact Eq.mp (congrArg (fun x => Static leg x.2.1) e) (establish_static _ _ _ _ _ _ _)
        · rename_i e; exact Eq.mp (congrArg (fun x => Static leg x.2.1) e) (establish_static _ _ _ _ _ _ _)
      · exact static_refl leg
  · exact static_refl leg

theorem establish_lives {cfg : Cfg} {leg : Leg} {m : Mgr} {frm tag : Str} {hs : Headers} {r : Response}
    (h1 : ∀ v, First r.headers "From" v → Ascii v) (h2 : ∀ v, First r.headers "To" v → Ascii v)
    (h3 : ∀ v, First hs "From" v → Ascii v) (h4 : ∀ v, First hs "To" v → Ascii v) :
    (establish cfg leg m frm tag hs r).1 = true := by
  unfold establish
  simp only
  split
  · rename_i e
    exfalso
    unfold uacDialog at e
    split at e
    · exact newUac_safe h1 h2 e
    · cases e
  · rename_i d _
    have key : ∀ leg' : Leg, uasDialog cfg leg' frm hs r ≠ .panic := by
      intro leg' e
      unfold uasDialog at e
      split at e
      · exact newUas_safe (resp := ⟨200, "OK".toList, hs, r.body⟩) h3 h4 e
      · cases e
    cases d with
    | none =>
      simp only
      split
      · rename_i e; exact absurd e (key _)
      · rfl
      · rfl
    | some d =>
      simp only
      split
      · rename_i e; exact absurd e (key _)
      · rfl
      · rfl

theorem idHeaders_get {rq : Request} {cid frm to cseq : Str} {tag : Option Str} (hl : rq.headers.inner.length ≤ 180)
    (hg : ∀ p ∈ idHeaders rq.headers cid frm to cseq tag, GoodName p.1 ∧ Fits p.2)
    (hlen : (idHeaders rq.headers cid frm to cseq tag).length ≤ rq.headers.inner.length + 4) :
    putAll (idHeaders rq.headers cid frm to cseq tag) .empty = ⟨mk (idHeaders rq.headers cid frm to cseq tag)⟩ ∧
    Headers.get ⟨mk (idHeaders rq.headers cid frm to cseq tag)⟩ "Call-ID".toList = some cid ∧
    Headers.get ⟨mk (idHeaders rq.headers cid frm to cseq tag)⟩ "From".toList = some frm ∧
    Headers.get ⟨mk (idHeaders rq.headers cid frm to cseq tag)⟩ "To".toList = some (toValue to tag) := by
  have e := putAll_ok (idHeaders rq.headers cid frm to cseq tag) Headers.empty
    (by simp only [Headers.empty, List.length_nil]; omega) hg
  have skip (k : Str) (hk : eqIgnoreCase "Via".toList k = false) :
      Headers.get ⟨mk (idHeaders rq.headers cid frm to cseq tag)⟩ k =
      Headers.get ⟨mk [("Call-ID", cid), ("From", frm), ("CSeq", cseq), ("To", toValue to tag)]⟩ k := by
    unfold idHeaders
    rw [get_mk_skip]
    · rfl
    · intro p hp
      obtain ⟨v, _, rfl⟩ := List.mem_map.mp hp
      exact hk
  refine ⟨?_, ?_, ?_, ?_⟩
  · cases h : putAll (idHeaders rq.headers cid frm to cseq tag) .empty
    rw [h] at e
    simp only at e
    rw [e]
    rfl
  · rw [skip _ (by decide), get_mk_cons, if_pos (by decide)]
  · rw [skip _ (by decide), get_mk_cons, if_neg (by decide), get_mk_cons, if_pos (by decide)]
  · rw [skip _ (by decide), get_mk_cons, if_neg (by decide), get_mk_cons, if_neg (by decide), get_mk_cons, if_neg (by decide),
      get_mk_cons, if_pos (by decide)]

theorem to_fits {rq : Request} {r : Response} (ha : Answerable rq) (hr : Passable rq r) {to : Str}
    (h3 : rq.headers.get "To".toList = some to) : Fits (toValue to ((r.headers.get "To".toList).bind toTag)) := by
  unfold toValue
  split
  · rename_i t ht
    exact hr.to to ((first_iff _ _ _).mpr h3) t ((calleeTag_some r t).mp ht)
  · exact get_fits ha.clean h3

/-- A response that can be passed on is. -/
theorem transform_passes {cfg : Cfg} {leg : Leg} {m : Mgr} {r : Response} (ha : Answerable leg.caller) (hr : Passable leg.caller r)
    (hm : Fits (bracket cfg.localUri)) :
    ∃ r' leg' m', transform cfg leg m r = (.response r', leg', m') ∧ Relayed cfg.localUri leg.caller r r' := by
  obtain ⟨cid, h1⟩ := ha.callId
  obtain ⟨frm, h2, a2⟩ := ha.from_
  obtain ⟨to, h3, a3⟩ := ha.to
  obtain ⟨cseq, h4⟩ := ha.cseq
  rw [first_iff] at h1 h2 h3 h4
  have hrel := forCaller_relayed ha hr hm h1 h2 h3 h4
  have hid := idHeaders_ok (rq := leg.caller) (cid := cid) (frm := frm) (to := to) (cseq := cseq)
    (tag := (r.headers.get "To".toList).bind toTag) ha.clean (get_fits ha.clean h1) (get_fits ha.clean h2) (to_fits ha hr h3)
    (get_fits ha.clean h4)
  obtain ⟨e0, e1, e2, e3⟩ := idHeaders_get ha.few hid.2 hid.1
  unfold transform
  rw [h1, h2, h3, h4]
  simp only
  split
  · exact ⟨_, _, _, rfl, hrel⟩
  · rename_i t ht
    split
    · have hl := establish_lives (cfg := cfg) (leg := leg) (m := m) (frm := frm) (tag := t)
        (hs := putAll (idHeaders leg.caller.headers cid frm to cseq ((r.headers.get "To".toList).bind toTag)) .empty) (r := r)
        (fun v hv => hr.ascii v (.inl hv)) (fun v hv => hr.ascii v (.inr hv))
        (by
          intro v hv
          rw [first_iff, e0, e2] at hv
          cases hv
          exact a2)
        (by
          intro v hv
          rw [first_iff, e0, e3] at hv
          cases hv
          rw [ht]
          obtain ⟨w, hw, hlt⟩ := (calleeTag_some r t).mp ht
          have hat := lowTag_ascii hlt (hr.ascii w (.inr hw))
          intro c hc
          simp only [toValue, List.mem_append] at hc
          rcases hc with (hc | hc) | hc
          · exact a3 c hc
          · revert c; decide
          · exact hat c hc)
      split
      · exact ⟨_, _, _, rfl, hrel⟩
      · rename_i e
        rw [e] at hl
        cases hl
    · exact ⟨_, _, _, rfl, hrel⟩

/-! ## Answers -/

/-- the answers to a transaction -/
def ans (t : Nat) : List Out → List Response
  | [] => []
  | .reply t' r :: os => if t' = t then r :: ans t os else ans t os
  | _ :: os => ans t os

theorem answers_iff (t : Nat) : ∀ (os : List Out) (rs : List Response), Answers t os rs ↔ rs = ans t os
  | [], rs => ⟨fun h => by cases h; rfl, fun h => by subst h; exact .nil⟩
  | o :: os, rs => by
    constructor
    · intro h
      cases h with
      | mine h =>
        rw [(answers_iff t os _).mp h]
        simp [ans]
      | other ho h =>
        rw [(answers_iff t os _).mp h]
        cases o with
        | reply t' r =>
          have : t' ≠ t := fun e => ho r (by rw [e])
          simp [ans, this]
        | tcp _ _ => rfl
        | udp _ _ => rfl
    · intro h
      cases o with
      | reply t' r =>
        by_cases e : t' = t
        · subst e
          rw [h]
          simp only [ans, if_true]
          exact .mine ((answers_iff _ os _).mpr rfl)
        · refine .other ?_ ?_
          · intro r' e'; cases e'; exact e rfl
          · rw [h]
            simp only [ans, if_neg e]
            exact (answers_iff _ os _).mpr rfl
      | tcp _ _ => exact .other (fun _ e => by cases e) ((answers_iff t os _).mpr h)
      | udp _ _ => exact .other (fun _ e => by cases e) ((answers_iff t os _).mpr h)

theorem ans_append (t : Nat) : ∀ (a b : List Out), ans t (a ++ b) = ans t a ++ ans t b
  | [], _ => rfl
  | o :: a, b => by
    cases o with
    | reply t' r =>
      simp only [List.cons_append, ans, ans_append t a b]
      split <;> rfl
    | tcp _ _ => exact ans_append t a b
    | udp _ _ => exact ans_append t a b

theorem ans_reply (t : Nat) (r : Response) (os : List Out) : ans t (.reply t r :: os) = r :: ans t os := by simp [ans]

theorem ans_reply_ne {t t' : Nat} (h : t' ≠ t) (r : Response) (os : List Out) : ans t (.reply t' r :: os) = ans t os := by
  simp [ans, h]

theorem ans_sendTcp (t : Nat) (a : Option (Sub.Addr × Nat)) (rq : Request) : ans t (sendTcp a rq) = [] := by
  unfold sendTcp
  split <;> rfl

theorem run_cons (cfg : Cfg) (s : St) (e : Ev) (es : List Ev) :
    run cfg s (e :: es) = ((run cfg (step cfg s e).1 es).1, (step cfg s e).2 ++ (run cfg (step cfg s e).1 es).2) := rfl

theorem run_append (cfg : Cfg) : ∀ (a b : List Ev) (s : St),
    run cfg s (a ++ b) = ((run cfg (run cfg s a).1 b).1, (run cfg s a).2 ++ (run cfg (run cfg s a).1 b).2)
  | [], _, _ => by simp [run]
  | e :: a, b, s => by
    rw [List.cons_append, run_cons, run_append cfg a b, run_cons]
    simp

/-! ## At most one final answer -/

/-- a relay task that goes on -/
def Alive (s : St) (t : Nat) : Prop := ∃ c, s.chans.get t = some c ∧ c.live = true

/-- what holds of a transaction and its answers so far -/
def Fine (s : St) (os : List Out) (t : Nat) : Prop :=
  (s.next ≤ t → ans t os = [] ∧ s.chans.get t = none) ∧ (Alive s t → ∀ r ∈ ans t os, r.code < 200) ∧ OneFinal (ans t os)

/-- a step that answers nothing to `t` -/
theorem fine_silent {s s' : St} {os o : List Out} {t : Nat} (h : Fine s os t) (ho : ans t o = []) (hn : s.next ≤ s'.next)
    (hc : s.chans.get t = none → s'.chans.get t = none) (ha : Alive s' t → Alive s t) : Fine s' (os ++ o) t := by
  obtain ⟨h1, h2, h3⟩ := h
  unfold Fine
  rw [ans_append, ho, List.append_nil]
  exact ⟨fun hl => ⟨(h1 (by omega)).1, hc (h1 (by omega)).2⟩, fun h => h2 (ha h), h3⟩

/-- a request that is new -/
theorem fine_new {s s' : St} {os o : List Out} (h : Fine s os s.next) (hn : s'.next = s.next + 1)
    (ha : Alive s' s.next → ∀ r ∈ ans s.next o, r.code < 200) (ho : OneFinal (ans s.next o)) : Fine s' (os ++ o) s.next := by
  obtain ⟨h1, _, _⟩ := h
  unfold Fine
  rw [ans_append, (h1 (Nat.le_refl _)).1, List.nil_append]
  exact ⟨fun hl => by omega, ha, ho⟩

theorem oneFinal_nil : OneFinal [] := ⟨[], [], rfl, by simp, by simp⟩
theorem oneFinal_one (r : Response) : OneFinal [r] := ⟨[], [r], rfl, by simp, by simp⟩
theorem oneFinal_two {r r' : Response} (h : r.code < 200) : OneFinal [r, r'] := ⟨[r], [r'], rfl, by simpa using h, by simp⟩
theorem oneFinal_snoc {rs : List Response} (h : ∀ r ∈ rs, r.code < 200) (r : Response) : OneFinal (rs ++ [r]) :=
  ⟨rs, [r], rfl, h, by simp⟩

theorem alive_update {s : St} {t k : Nat} {f : Chan → Chan} (hf : ∀ c, (f c).live = true → c.live = true)
    (h : Alive { s with chans := s.chans.update k f } t) : Alive s t := by
  obtain ⟨c, hc, hl⟩ := h
  simp only at hc
  by_cases e : t = k
  · subst e
    rw [Tbl.get_update_self] at hc
    cases hg : s.chans.get t with
    | none => rw [hg] at hc; cases hc
    | some c' =>
      rw [hg] at hc
      cases hc
      exact ⟨c', hg, hf c' hl⟩
  · rw [Tbl.get_update_ne _ _ e] at hc
    exact ⟨c, hc, hl⟩

theorem none_update {s : St} {t k : Nat} {f : Chan → Chan} (h : s.chans.get t = none) : (s.chans.update k f).get t = none := by
  by_cases e : t = k
  · subst e
    rw [Tbl.get_update_self, h]
    rfl
  · rw [Tbl.get_update_ne _ _ e, h]

theorem create_code {hs : Headers} {c : Nat} {s tag : Str} {r : Response} (h : Uas.createResponse hs c s tag = .done r) : r.code = c :=
  (Uas.framed_create h).2.1

/-- a request that is refused or answered at once, which starts no relay task -/
theorem fine_request {s s' : St} {os o : List Out} (h : ∀ t, Fine s os t) (hn : s'.next = s.next + 1)
    (hch : s'.chans = s.chans) (ho : ∀ t, t ≠ s.next → ans t o = []) (h1 : OneFinal (ans s.next o)) :
    ∀ t, Fine s' (os ++ o) t := by
  intro t
  by_cases e : t = s.next
  · subst e
    refine fine_new (h _) hn ?_ h1
    rintro ⟨c, hc, _⟩
    rw [hch, ((h s.next).1 (Nat.le_refl _)).2] at hc
    cases hc
  · refine fine_silent (h t) (ho t e) (by omega) (by rw [hch]; exact id) ?_
    rintro ⟨c, hc, hl⟩
    exact ⟨c, by rw [← hch]; exact hc, hl⟩

theorem ans_one {t k : Nat} (h : t ≠ k) (r : Response) : ans t [.reply k r] = [] := by
  rw [ans_reply_ne (Ne.symm h)]
  rfl

theorem reinvite_ans (cfg : Cfg) (s : St) (i k : Nat) (branch : Str) (d : Dialog) (rq : Request) :
    (∀ t, t ≠ k → ans t (reinvite cfg s i k branch d rq) = []) ∧ (ans k (reinvite cfg s i k branch d rq)).length ≤ 1 := by
  unfold reinvite
  simp only
  split
  · split
    · refine ⟨fun t ht => ?_, ?_⟩
      · rw [show ∀ a rq os, ans t (.tcp a rq :: os) = ans t os from fun _ _ _ => rfl, ans_one ht]
      · rw [show ∀ a rq os, ans k (.tcp a rq :: os) = ans k os from fun _ _ _ => rfl, ans_reply]
        simp [ans]
    · exact ⟨fun _ _ => rfl, by simp [ans]⟩
  · exact ⟨fun _ _ => rfl, by simp [ans]⟩

theorem answer_ans (k : Nat) (hs : Headers) (c : Nat) (r tag : Str) :
    (∀ t, t ≠ k → ans t (answer k hs c r tag) = []) ∧ (ans k (answer k hs c r tag)).length ≤ 1 := by
  unfold answer
  split
  · exact ⟨fun t ht => ans_one ht _, by rw [ans_reply]; simp [ans]⟩
  · exact ⟨fun _ _ => rfl, by simp [ans]⟩

theorem oneFinal_short {rs : List Response} (h : rs.length ≤ 1) : OneFinal rs := ⟨[], rs, rfl, by simp, h⟩

theorem fine_invite {cfg : Cfg} {s : St} {os : List Out} (h : ∀ t, Fine s os t) (rq : Request) (look : Lookup) (f : Fresh) (now i : Nat) :
    ∀ t, Fine (onInvite cfg s rq look f now i).1 (os ++ (onInvite cfg s rq look f now i).2) t := by
  unfold onInvite
  simp only
  split
  · exact fine_request h rfl rfl (fun _ _ => rfl) oneFinal_nil
  · rename_i d _
    split
    · exact fine_request h rfl rfl (fun _ _ => rfl) oneFinal_nil
    · rename_i r hr
      have hre := reinvite_ans cfg { s with next := s.next + 1 } i s.next f.branch d rq
      refine fine_request h rfl rfl ?_ ?_
      · intro t ht
        simp only
        rw [ans_reply_ne (Ne.symm ht), hre.1 t ht]
      · simp only
        rw [ans_reply]
        exact ⟨[r], _, rfl, by simp [create_code hr], hre.2⟩
  · split
    · exact fine_request h rfl rfl (fun _ _ => rfl) oneFinal_nil
    · rename_i r hr
      split
      · refine fine_request h rfl rfl (fun t ht => ans_one ht _) ?_
        rw [ans_reply]
        exact oneFinal_one _
      · refine fine_request h rfl rfl ?_ ?_
        · intro t ht
          rw [ans_reply_ne (Ne.symm ht), ans_one ht]
        · rw [ans_reply, ans_reply]
          exact oneFinal_two (by rw [create_code hr]; decide)
      · rename_i leg _
        intro t
        by_cases e : t = s.next
        · subst e
          have ho : ans s.next (.reply s.next r :: sendTcp (socketOf leg.callee) leg.invite) = [r] := by
            rw [ans_reply, ans_sendTcp]
          refine fine_new (h _) rfl ?_ ?_
          · intro _
            rw [ho]
            simp [create_code hr]
          · rw [ho]
            exact oneFinal_one _
        · refine fine_silent (h t) ?_ (Nat.le_succ _) ?_ ?_
          · rw [ans_reply_ne (Ne.symm e), ans_sendTcp]
          · intro hn
            simp only
            rw [Tbl.get_insert_ne _ _ e, hn]
          · rintro ⟨c, hc, hl⟩
            simp only at hc
            rw [Tbl.get_insert_ne _ _ e] at hc
            exact ⟨c, hc, hl⟩

theorem fine_bye {cfg : Cfg} {s : St} {os : List Out} (h : ∀ t, Fine s os t) (rq : Request) (i : Nat) (f : Fresh) :
    ∀ t, Fine (onBye cfg s rq i f).1 (os ++ (onBye cfg s rq i f).2) t := by
  unfold onBye
  simp only
  split
  · rename_i leg _
    split
    · exact fine_request h rfl rfl (fun _ _ => rfl) oneFinal_nil
    · refine fine_request h rfl rfl ?_ ?_
      · intro t ht
        rw [ans_reply_ne (Ne.symm ht), ans_sendTcp]
      · rw [ans_reply, ans_sendTcp]
        exact oneFinal_one _
  · split
    · refine fine_request h rfl rfl (fun t ht => ans_one ht _) ?_
      rw [ans_reply]
      exact oneFinal_one _
    · split
      · exact fine_request h rfl rfl (fun _ _ => rfl) oneFinal_nil
      · split
        · refine fine_request h rfl rfl (fun t ht => ans_one ht _) ?_
          rw [ans_reply]
          exact oneFinal_one _
        · split
          · refine fine_request h rfl rfl (fun t ht => ans_one ht _) ?_
            rw [ans_reply]
            exact oneFinal_one _
          · refine fine_request h rfl rfl ?_ ?_
            · intro t ht
              rw [ans_reply_ne (Ne.symm ht)]
              rfl
            · rw [ans_reply]
              exact oneFinal_one _

theorem enqueue_alive {s : St} {k t : Nat} {r : Response} (h : Alive (enqueue s k r) t) : Alive s t := by
  refine alive_update (f := fun c => if c.live then { c with queue := c.queue ++ [r] } else c) ?_ h
  intro c hc
  split at hc
  · assumption
  · assumption

theorem enqueue_none {s : St} {k t : Nat} {r : Response} (h : s.chans.get t = none) : (enqueue s k r).chans.get t = none := by
  have e : (enqueue s k r).chans = s.chans.update k (fun c => if c.live then { c with queue := c.queue ++ [r] } else c) := rfl
  rw [e]
  exact none_update h

theorem fine_cancel {cfg : Cfg} {s : St} {os : List Out} (h : ∀ t, Fine s os t) (rq : Request) (i : Nat) (f : Fresh) :
    ∀ t, Fine (onCancel cfg s rq i f).1 (os ++ (onCancel cfg s rq i f).2) t := by
  unfold onCancel
  simp only
  split
  · have := answer_ans s.next rq.headers 500 "Server Error".toList f.reply
    exact fine_request h rfl rfl this.1 (oneFinal_short this.2)
  · split
    · exact fine_request h rfl rfl (fun _ _ => rfl) oneFinal_nil
    · split
      · refine fine_request h rfl rfl (fun t ht => ans_one ht _) ?_
        rw [ans_reply]
        exact oneFinal_one _
      · rename_i leg _
        intro t
        by_cases e : t = s.next
        · subst e
          refine fine_new (h _) rfl ?_ ?_
          · intro ha
            have ha := enqueue_alive (s := { s with next := s.next + 1 }) (k := leg.chan) (r := terminated leg.caller) ha
            obtain ⟨c, hc, _⟩ := ha
            have := ((h s.next).1 (Nat.le_refl _)).2
            simp only at hc
            rw [this] at hc
            cases hc
          · rw [ans_reply]
            exact oneFinal_one _
        · refine fine_silent (h t) (ans_one e _) (Nat.le_succ _) ?_ ?_
          · intro hn
            exact enqueue_none (s := { s with next := s.next + 1 }) hn
          · intro ha
            exact enqueue_alive (s := { s with next := s.next + 1 }) (k := leg.chan) (r := terminated leg.caller) ha

theorem fine_cancelOn {s : St} {os : List Out} (h : ∀ t, Fine s os t) (k i : Nat) :
    ∀ t, Fine (onCancelOn s k i).1 (os ++ (onCancelOn s k i).2) t := by
  intro t
  unfold onCancelOn
  split
  · exact fine_silent (h t) rfl (Nat.le_refl _) id id
  · simp only
    split
    · split <;> exact fine_silent (h t) rfl (Nat.le_refl _) id id
    · split
      · exact fine_silent (h t) rfl (Nat.le_refl _) id id
      · exact fine_silent (h t) (ans_sendTcp _ _ _) (Nat.le_refl _) id id

theorem fine_response {s : St} {os : List Out} (h : ∀ t, Fine s os t) (r : Response) :
    ∀ t, Fine (onResponse s r) (os ++ []) t := by
  intro t
  unfold onResponse
  split
  · exact fine_silent (h t) rfl (Nat.le_refl _) id id
  · split
    · exact fine_silent (h t) rfl (Nat.le_refl _) id id
    · exact fine_silent (h t) rfl (Nat.le_refl _) enqueue_none enqueue_alive

/-- a turn of a relay task: the state changes only as far as its own channel goes on or ends -/
theorem fine_turn {s s' : St} {os o : List Out} {k : Nat} {c : Chan} {rest : List Response} {live : Bool} (h : ∀ t, Fine s os t)
    (hk : s.chans.get k = some c) (hl : c.live = true) (hn : s'.next = s.next)
    (hch : s'.chans = s.chans.update k (fun c => { c with queue := rest, live := live }))
    (ho : o = [] ∨ ∃ r, o = [.reply k r] ∧ (live = true → r.code < 200)) : ∀ t, Fine s' (os ++ o) t := by
  intro t
  by_cases e : t = k
  · subst e
    obtain ⟨h1, h2, h3⟩ := h t
    have hlt : ¬ s.next ≤ t := fun hle => by rw [(h1 hle).2] at hk; cases hk
    have hall := h2 ⟨c, hk, hl⟩
    refine ⟨fun hle => absurd (by omega) hlt, ?_, ?_⟩
    · rintro ⟨c', hc', hl'⟩
      rw [hch, Tbl.get_update_self, hk] at hc'
      cases hc'
      simp only at hl'
      rw [ans_append]
      rcases ho with rfl | ⟨r, rfl, hr⟩
      · simpa [ans] using hall
      · intro r' hr'
        rw [ans_reply] at hr'
        rcases List.mem_append.mp hr' with hr' | hr'
        · exact hall r' hr'
        · simp only [ans, List.mem_singleton] at hr'
          subst hr'
          exact hr hl'
    · rw [ans_append]
      rcases ho with rfl | ⟨r, rfl, _⟩
      · simpa [ans] using h3
      · rw [ans_reply]
        exact oneFinal_snoc hall r
  · refine fine_silent (h t) ?_ (by omega) ?_ ?_
    · rcases ho with rfl | ⟨r, rfl, _⟩
      · rfl
      · exact ans_one e r
    · intro hnone
      rw [hch]
      exact none_update hnone
    · rintro ⟨c', hc', hl'⟩
      rw [hch, Tbl.get_update_ne _ _ e] at hc'
      exact ⟨c', hc', hl'⟩

theorem fine_relay {cfg : Cfg} {s : St} {os : List Out} (h : ∀ t, Fine s os t) (k : Nat) :
    ∀ t, Fine (onRelay cfg s k).1 (os ++ (onRelay cfg s k).2) t := by
  unfold onRelay
  split
  · exact fun t => fine_silent (h t) rfl (Nat.le_refl _) id id
  · rename_i c hc
    split
    · rename_i r rest hl hq
      simp only
      split
      · exact fine_turn h hc hl rfl rfl (.inl rfl)
      · split
        · exact fine_turn h hc hl rfl rfl (.inl rfl)
        · exact fine_turn h hc hl rfl rfl (.inl rfl)
        · rename_i r' _ _ _
          split
          · rename_i hcode
            exact fine_turn h hc hl rfl rfl (.inr ⟨r', rfl, fun _ => hcode.2⟩)
          · split
            · exact fine_turn h hc hl rfl rfl (.inr ⟨r', rfl, fun e => by cases e⟩)
            · exact fine_turn h hc hl rfl rfl (.inr ⟨r', rfl, fun e => by cases e⟩)
    · exact fun t => fine_silent (h t) rfl (Nat.le_refl _) id id

theorem fine_step {cfg : Cfg} {s : St} {os : List Out} (h : ∀ t, Fine s os t) (e : Ev) :
    ∀ t, Fine (step cfg s e).1 (os ++ (step cfg s e).2) t := by
  cases e with
  | invite rq look f now i => exact fine_invite h rq look f now i
  | ack rq i branch =>
    intro t
    refine fine_silent (h t) ?_ (Nat.le_refl _) id id
    show ans t (onAck s rq i branch) = []
    unfold onAck
    split
    · rfl
    · split
      · rfl
      · exact ans_sendTcp _ _ _
  | bye rq i f => exact fine_bye h rq i f
  | cancel rq i f => exact fine_cancel h rq i f
  | cancelOn k i => exact fine_cancelOn h k i
  | response r => exact fine_response h r
  | relay t => exact fine_relay h t
  | sweep now => exact fun t => fine_silent (h t) rfl (Nat.le_refl _) id id

theorem fine_run (cfg : Cfg) : ∀ (es : List Ev) (s : St) (os : List Out), (∀ t, Fine s os t) →
    ∀ t, Fine (run cfg s es).1 (os ++ (run cfg s es).2) t
  | [], s, os, h, t => by simpa [run] using h t
  | e :: es, s, os, h, t => by
    have := fine_run cfg es _ _ (fine_step (cfg := cfg) h e) t
    rw [run_cons, ← List.append_assoc]
    exact this

theorem fine_init : ∀ t, Fine init [] t := by
  intro t
  refine ⟨fun _ => ⟨rfl, rfl⟩, ?_, oneFinal_nil⟩
  rintro ⟨c, hc, _⟩
  cases hc

end Siphon.Bridge
