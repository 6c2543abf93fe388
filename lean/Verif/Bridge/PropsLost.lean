import Verif.Bridge.Props
/-!
# C113: what the caller is not answered

Three ways in which a call is left without its final answer, or gets another one.
-/
namespace Siphon.Bridge
open HdrSpec TextSpec Spec
open Siphon.Dlg (Dialog DialogId Mgr copyHeader first_iff absent_iff)
open Siphon.Dlg.Spec (First Absent)

/-! ## A relay task that ended -/

/-- the relay task of the transaction ended, or there is none -/
def Over (s : St) (t : Nat) : Prop := t < s.next ∧ ∀ c, s.chans.get t = some c → c.live = false

theorem over_tick {s : St} {t : Nat} (h : Over s t) : Over { s with next := s.next + 1 } t := ⟨Nat.lt_succ_of_lt h.1, h.2⟩

theorem over_enqueue {s : St} {t k : Nat} {r : Response} (h : Over s t) : Over (enqueue s k r) t := by
  obtain ⟨h1, h2⟩ := h
  refine ⟨h1, ?_⟩
  have e : (enqueue s k r).chans = s.chans.update k (fun c => if c.live then { c with queue := c.queue ++ [r] } else c) := rfl
  rw [e]
  by_cases ek : t = k
  · subst ek
    rw [Tbl.get_update_self]
    intro c hc
    cases hg : s.chans.get t with
    | none => rw [hg] at hc; cases hc
    | some c' =>
      rw [hg] at hc
      cases hc
      simp [h2 c' hg]
  · rw [Tbl.get_update_ne _ _ ek]
    exact h2

theorem over_turn {s s' : St} {t k : Nat} {q : List Response} {live : Bool} (h : Over s t) (hk : t ≠ k)
    (hn : s'.next = s.next) (hch : s'.chans = s.chans.update k (fun c => { c with queue := q, live := live })) : Over s' t := by
  obtain ⟨h1, h2⟩ := h
  refine ⟨by omega, ?_⟩
  rw [hch, Tbl.get_update_ne _ _ hk]
  exact h2

theorem over_step {cfg : Cfg} {s : St} {t : Nat} (h : Over s t) (e : Ev) : Over (step cfg s e).1 t ∧ ans t (step cfg s e).2 = [] := by
  have hne' : t ≠ s.next := Nat.ne_of_lt h.1
  have hne : s.next ≠ t := Ne.symm hne'
  cases e with
  | invite q look f n i =>
    show Over (onInvite cfg s q look f n i).1 t ∧ ans t (onInvite cfg s q look f n i).2 = []
    unfold onInvite
    simp only
    split
    · exact ⟨over_tick h, rfl⟩
    · split
      · exact ⟨over_tick h, rfl⟩
      · exact ⟨over_tick h, by rw [ans_reply_ne hne, (reinvite_ans cfg _ i s.next f.branch _ q).1 t hne']⟩
    · split
      · exact ⟨over_tick h, rfl⟩
      · split
        · exact ⟨over_tick h, ans_one hne' _⟩
        · exact ⟨over_tick h, by rw [ans_reply_ne hne, ans_one hne']⟩
        · refine ⟨⟨Nat.lt_succ_of_lt h.1, ?_⟩, by rw [ans_reply_ne hne, ans_sendTcp]⟩
          simp only
          rw [Tbl.get_insert_ne _ _ hne']
          exact h.2
  | ack q i br =>
    refine ⟨h, ?_⟩
    show ans t (onAck s q i br) = []
    unfold onAck
    split
    · rfl
    · split
      · rfl
      · exact ans_sendTcp _ _ _
  | bye q i f =>
    show Over (onBye cfg s q i f).1 t ∧ ans t (onBye cfg s q i f).2 = []
    unfold onBye
    simp only
    split
    · split
      · exact ⟨over_tick h, rfl⟩
      · exact ⟨over_tick h, by rw [ans_reply_ne hne, ans_sendTcp]⟩
    · split
      · exact ⟨over_tick h, ans_one hne' _⟩
      · split
        · exact ⟨over_tick h, rfl⟩
        · split
          · exact ⟨over_tick h, ans_one hne' _⟩
          · split
            · exact ⟨over_tick h, ans_one hne' _⟩
            · exact ⟨over_tick h, by rw [ans_reply_ne hne]; rfl⟩
  | cancel q i f =>
    show Over (onCancel cfg s q i f).1 t ∧ ans t (onCancel cfg s q i f).2 = []
    unfold onCancel
    simp only
    split
    · exact ⟨over_tick h, (answer_ans s.next q.headers 500 "Server Error".toList f.reply).1 t hne'⟩
    · split
      · exact ⟨over_tick h, rfl⟩
      · split
        · exact ⟨over_tick h, ans_one hne' _⟩
        · rename_i leg _
          have := over_enqueue (k := leg.chan) (r := terminated leg.caller) (over_tick h)
          exact ⟨⟨this.1, this.2⟩, ans_one hne' _⟩
  | cancelOn k i =>
    show Over (onCancelOn s k i).1 t ∧ ans t (onCancelOn s k i).2 = []
    unfold onCancelOn
    split
    · exact ⟨h, rfl⟩
    · simp only
      split
      · split
        · exact ⟨h, rfl⟩
        · exact ⟨h, rfl⟩
      · split
        · exact ⟨h, rfl⟩
        · exact ⟨h, ans_sendTcp _ _ _⟩
  | response r =>
    refine ⟨?_, rfl⟩
    show Over (onResponse s r) t
    unfold onResponse
    split
    · exact h
    · split
      · exact h
      · exact over_enqueue h
  | relay k =>
    show Over (onRelay cfg s k).1 t ∧ ans t (onRelay cfg s k).2 = []
    unfold onRelay
    split
    · exact ⟨h, rfl⟩
    · rename_i c hc
      split
      · rename_i hl hq
        have hk : t ≠ k := by
          rintro rfl
          have hl' := h.2 c hc
          rw [hl] at hl'
          cases hl'
        simp only
        split
        · exact ⟨over_turn h hk rfl rfl, rfl⟩
        · split
          · exact ⟨over_turn h hk rfl rfl, rfl⟩
          · exact ⟨over_turn h hk rfl rfl, rfl⟩
          · split
            · exact ⟨over_turn h hk rfl rfl, ans_one hk _⟩
            · split
              · exact ⟨over_turn h hk rfl rfl, ans_one hk _⟩
              · exact ⟨over_turn h hk rfl rfl, ans_one hk _⟩
      · exact ⟨h, rfl⟩
  | sweep n => exact ⟨h, rfl⟩

theorem over_run {cfg : Cfg} {t : Nat} : ∀ (es : List Ev) (s : St), Over s t → ans t (run cfg s es).2 = []
  | [], _, _ => rfl
  | e :: es, s, h => by
    have := over_step (cfg := cfg) h e
    rw [run_cons, ans_append, this.2, over_run es _ this.1]
    rfl

namespace Cases

/-- the callee's display name is not ASCII -/
def zoe : Response := resp 200 "1 INVITE" "\"Zoé\" <sip:bob@10.0.0.2:5080>;tag=C"

/-- **C113 (violated).** A callee accepts a call with a To whose display name is not ASCII.  Making the dialog panics, the relay task
of the call ends, and whatever happens later the caller's INVITE gets no final answer. -/
theorem C113_panic_loses_final : ∀ es, ∃ r0, r0.code = 100 ∧
    Answers 0 (run me init (call :: .response zoe :: .relay 0 :: es)).2 [r0] := by
  intro es
  have h1 : codes 0 (run me init [call, .response zoe, .relay 0]).2 = [100] := by decide +kernel
  have h2 : ((run me init [call, .response zoe, .relay 0]).1.next = 1 ∧
      ((run me init [call, .response zoe, .relay 0]).1.chans.get 0).map (·.live) = some false) := by decide +kernel
  have key : ∀ os, codes 0 os = (ans 0 os).map (·.code) := by
    intro os
    induction os with
    | nil => rfl
    | cons o os ih =>
      cases o with
      | reply t r =>
        simp only [codes, ans]
        split
        · rw [List.map_cons, ih]
        · exact ih
      | tcp _ _ => exact ih
      | udp _ _ => exact ih
  rw [key] at h1
  have ho : Over (run me init [call, .response zoe, .relay 0]).1 0 := by
    refine ⟨by omega, ?_⟩
    cases hc : (run me init [call, .response zoe, .relay 0]).1.chans.get 0 with
    | none => rw [hc] at h2; cases h2.2
    | some c =>
      rw [hc] at h2
      intro c' hc'
      cases hc'
      simpa using h2.2
  cases ha : ans 0 (run me init [call, .response zoe, .relay 0]).2 with
  | nil => rw [ha] at h1; cases h1
  | cons r0 rs =>
    rw [ha] at h1
    simp only [List.map_cons, List.cons.injEq, List.map_eq_nil_iff] at h1
    refine ⟨r0, h1.1, ?_⟩
    rw [answers_iff, show call :: .response zoe :: .relay 0 :: es = [call, .response zoe, .relay 0] ++ es from rfl, run_append,
      ans_append, over_run es _ ho, ha, h1.2]
    rfl

/-- **C113 (violated).** The callee is registered with a host name, which is not looked up.  No INVITE is sent, and the caller gets
100 and, as long as nothing else happens to the call, nothing more. -/
theorem C113_host_name_no_final (post : List Ev) (h : ∀ e ∈ post, Leaves inv "in1".toList "out1".toList 0 e)
    (hr : Arrived "out1".toList post []) :
    sent (step me init (.invite inv named fr 0 0)).2 = [] ∧
    ∃ r0, r0.code = 100 ∧ Answers 0 (run me init (.invite inv named fr 0 0 :: post)).2 [r0] := by
  refine ⟨by decide +kernel, ?_⟩
  have hp : ∃ leg, placeCall me named fr 0 0 inv = .stored leg ∧ (step me init (.invite inv named fr 0 0)).1 =
      { init with next := 1, legs := init.legs.insert leg.outId leg, chans := init.chans.insert 0 ⟨leg.outId, [], true⟩ } := by
    cases hp : placeCall me named fr 0 0 inv with
    | refused r =>
      have : (match placeCall me named fr 0 0 inv with | .stored _ => true | _ => false) = true := by decide +kernel
      rw [hp] at this
      cases this
    | failed =>
      have : (match placeCall me named fr 0 0 inv with | .stored _ => true | _ => false) = true := by decide +kernel
      rw [hp] at this
      cases this
    | stored leg =>
      refine ⟨leg, rfl, ?_⟩
      show (onInvite me init inv named fr 0 0).1 = _
      have hf : init.mgr.findByRequest inv.headers = .done none := by decide +kernel
      unfold onInvite
      simp only [hf]
      cases hc : Uas.createResponse inv.headers 100 "Trying".toList fr.reply with
      | panic =>
        have : (match Uas.createResponse inv.headers 100 "Trying".toList fr.reply with | .done _ => true | _ => false) = true := by
          decide +kernel
        rw [hc] at this
        cases this
      | done r =>
        have hp' : placeCall me named fr 0 init.next inv = .stored leg := hp
        simp only [hp']
        rfl
  obtain ⟨leg, hp, hst⟩ := hp
  have hc : ∃ r0, r0.code = 100 ∧ ans 0 (step me init (.invite inv named fr 0 0)).2 = [r0] := by
    have : (match ans 0 (step me init (.invite inv named fr 0 0)).2 with | [r] => r.code == 100 | _ => false) = true := by decide +kernel
    split at this
    · rename_i r e
      exact ⟨r, by simpa using this, e⟩
    · cases this
  obtain ⟨r0, hr0, hc⟩ := hc
  obtain ⟨rs, h1, h2⟩ := called_of (cfg := me) (pre := []) (post := post) (rq := inv) (look := named) (f := fr) (now := 0) (i := 0)
    (r0 := r0) (leg := leg) (a := "in1".toList) ⟨by unfold OneLine; decide, by decide⟩ inv_answerable
    ((first_iff _ _ _).mpr (by decide +kernel)) hp hst hc h
  refine ⟨r0, hr0, ?_⟩
  rw [answers_iff]
  have e : rs = [] := by
    rw [arrived_iff] at hr
    have hr' : post.flatMap (arrives fr.callId) = [] := hr.symm
    rw [hr'] at h2
    cases h2 with
    | going q done _ _ h3 _ h5 _ =>
      have := (List.append_eq_nil_iff.mp h3.symm).1
      subst this
      cases h5
      rfl
    | ended q done r rest _ h3 _ _ _ _ =>
      have := congrArg List.length h3
      simp at this
  subst e
  exact h1.symm

-- without a response the call just rests, also with turns of the relay task and requests of other calls
example : ∀ e ∈ [Ev.relay 0, .ack (within .ack "in1" "a" "b" "7 ACK") 0 [], .sweep 299], Leaves inv "in1".toList "out1".toList 0 e := by
  intro e he
  simp only [List.mem_cons, List.not_mem_nil, or_false] at he
  rcases he with rfl | rfl | rfl
  · trivial
  · trivial
  · show 299 < 0 + 300
    decide

/-- **C113 (violated).** A response is given to the caller for its Call-ID alone: the answer to another request, here to an OPTIONS,
with the branch of nobody, is the final answer of the INVITE. -/
theorem C113_any_response_answers :
    codes 0 (run me init [call, .response ⟨200, "OK".toList, hd [("Via", "SIP/2.0/UDP 10.0.0.77;branch=z9hG4bKno"), ("From", "<sip:x@h>"),
      ("To", "<sip:y@h>"), ("Call-ID", "out1"), ("CSeq", "9 OPTIONS")], []⟩, .relay 0, .response busy, .relay 0]).2 = [100, 200] := by
  decide +kernel

end Cases
end Siphon.Bridge
