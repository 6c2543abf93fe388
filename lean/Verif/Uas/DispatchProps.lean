import Verif.Uas.ResponseProps
import Verif.Dialog.PropsMatch
import Verif.Uas.RportProps
set_option linter.unusedSimpArgs false
/-!
# Accepting calls and dispatching requests: C87, C89
-/
namespace Siphon.Uas
open Siphon.Dlg (Dialog DialogId DState Mgr MOp addAll copyHeader angle addAll_inner addAll_ok selects_iff)
open Siphon.Dlg.Spec HdrSpec TextSpec Spec

/-! ## C87: the dialog of an accepted call -/

theorem openDialog_some {s s' : Server} {rq : Request} {r0 r : Response} {d : Dialog}
    (h : openDialog s rq r0 = .done (.accepted r d, s')) :
    r0 = r ∧ s' = { s with dialogs := (s.dialogs.insert d).2 } ∧ ∃ u, Dialog.newUas rq r s.localUri u = .done (some d) := by
  unfold openDialog at h
  split at h
  · cases h
  · split at h
    · cases h
    · cases h
    · rename_i d' hd
      simp only [Run.done.injEq, Prod.mk.injEq, Outcome.accepted.injEq] at h
      obtain ⟨⟨rfl, rfl⟩, rfl⟩ := h
      exact ⟨rfl, rfl, _, hd⟩

theorem newUas_fields {rq : Request} {r : Response} {l u : SipUri} {d : Dialog} (h : Dialog.newUas rq r l u = .done (some d)) :
    Dlg.stateOf r.code = some d.state ∧ d.localCSeq = 0 ∧ Dlg.cseqNumber rq.headers = some d.remoteCSeq ∧ d.isUac = false := by
  unfold Dialog.newUas at h
  split at h
  · cases h
  · cases h
  · split at h
    · cases h
    · rename_i st hst
      simp only [Run.done.injEq] at h
      unfold Dlg.assemble at h
      repeat' split at h
      all_goals first
        | (cases h; done)
        | skip
      all_goals
        simp only [Option.some.injEq] at h
        subst h
        simp_all

theorem accept_inv {s s' : Server} {policy : Option Dlg.TimerPolicy} {authed : Bool} {rq : Request} {body : Option Str} {tag : Str}
    {r : Response} {d : Dialog} (h : acceptInvite s policy authed rq body tag = .done (.accepted r d, s')) :
    rq.method.asStr = "INVITE".toList ∧ authed = true ∧ validInvite rq = .done true ∧
    build s.contactUri rq.headers tag (inviteAnswer policy rq.headers body) = .done (some r) ∧
    (∀ m, inviteAnswer policy rq.headers body ≠ .tooSmall m) ∧ openDialog s rq r = .done (.accepted r d, s') := by
  unfold acceptInvite at h
  split at h
  · cases h
  · rename_i hm
    split at h
    · cases h
    · cases h
    · rename_i hv
      split at h
      · cases h
      · rename_i ha
        split at h
        · cases h
        · cases h
        · rename_i r0 hb
          split at h
          · cases h
          · rename_i hn
            have := (openDialog_some h).1
            subst this
            exact ⟨Classical.not_not.mp hm, by simpa using ha, hv, hb, hn, h⟩

theorem inviteAnswer_kind (policy : Option Dlg.TimerPolicy) (rq : Headers) (body : Option Str) :
    (∃ m, inviteAnswer policy rq body = .tooSmall m) ∨ inviteAnswer policy rq body = .ok body ∨
    ∃ v, inviteAnswer policy rq body = .timed body v := by
  unfold inviteAnswer
  split
  · simp
  · split <;> simp

/-- C87: when a call is accepted, the answer is a 200 that belongs to the INVITE and carries the session description;
the dialog that is opened has the Call-ID of the INVITE, the tag of its From as the peer's, and as its own the tag that
the answer carries: the one already in the To of the INVITE, or else the generated one.  The dialog is confirmed and
remembers the number of the INVITE. -/
theorem C87_accept (s s' : Server) (policy : Option Dlg.TimerPolicy) (authed : Bool) (rq : Request) (body : Option Str) (tag : Str)
    (r : Response) (d : Dialog) (h : acceptInvite s policy authed rq body tag = .done (.accepted r d, s')) :
    r.code = 200 ∧ Belongs rq.headers r.headers ∧ r.body = bytes body ∧
    Names r.headers d.id.callId d.id.remoteTag d.id.localTag ∧
    First rq.headers "Call-ID" d.id.callId ∧ (∃ v, First rq.headers "From" v ∧ TagOf v d.id.remoteTag) ∧
    (∃ v, First rq.headers "To" v ∧ (∀ t, TagOf v t → d.id.localTag = t) ∧ (NoTag v → TagText tag → d.id.localTag = tag)) ∧
    d.state = .confirmed ∧ d.localCSeq = 0 ∧ CSeqOf rq.headers d.remoteCSeq := by
  obtain ⟨_, _, _, hb, hn, ho⟩ := accept_inv h
  obtain ⟨_, _, u, hd⟩ := openDialog_some ho
  have hN := Dlg.C19_uas_named _ _ _ _ _ hd
  obtain ⟨f1, f2, f3, _⟩ := newUas_fields hd
  have hB := C85_belongs _ _ _ _ _ hb
  obtain ⟨fr, hcode, hbody⟩ := framed_build hb
  have hc200 : r.code = 200 := by
    rw [hcode]
    rcases inviteAnswer_kind policy rq.headers body with ⟨m, e⟩ | e | ⟨v, e⟩
    · exact absurd e (hn m)
    · rw [e]; rfl
    · rw [e]; rfl
  have hbod : r.body = bytes body := by
    rw [hbody]
    rcases inviteAnswer_kind policy rq.headers body with ⟨m, e⟩ | e | ⟨v, e⟩
    · exact absurd e (hn m)
    · rw [e]; cases body <;> rfl
    · rw [e]; cases body <;> rfl
  have hcode100 : (inviteAnswer policy rq.headers body).code ≠ 100 := by
    rw [← hcode, hc200]; decide
  have hrel : ∀ c s n t b, inviteAnswer policy rq.headers body ≠ .reliable c s n t b := by
    intro c s n t b e
    rcases inviteAnswer_kind policy rq.headers body with ⟨m, e'⟩ | e' | ⟨v, e'⟩ <;> rw [e'] at e <;> cases e
  obtain ⟨hci, ⟨fv, hfv, hft⟩, ⟨tv, htv, htt⟩⟩ := hN
  have hbel := hB.2.1
  -- From and Call-ID come from the request
  have back : ∀ n v, Copied rq.headers r.headers n → First r.headers n v → First rq.headers n v := by
    intro n v hcp hf
    cases hg : rq.headers.get n.toList with
    | none =>
      have habs : Absent rq.headers n := (get_none_iff rq.headers n.toList).mp hg
      have := hcp.2 habs
      obtain ⟨more, hm⟩ := hf
      have := selects_unique this hm
      cases this
    | some w =>
      have hw : First rq.headers n w := (get_iff rq.headers n.toList w).mp hg
      obtain ⟨more, hm⟩ := hf
      have := selects_unique (hcp.1 w hw) hm
      simp only [List.cons.injEq] at this
      rw [← this.1]
      exact hw
  refine ⟨hc200, hbel, hbod, ⟨hci, ⟨fv, hfv, hft⟩, ⟨tv, htv, htt⟩⟩, back _ _ hbel.callId hci, ⟨fv, back _ _ hbel.from hfv, hft⟩, ?_, ?_, f2, ?_⟩
  · cases hg : rq.headers.get "To".toList with
    | none =>
      have habs : Absent rq.headers "To" := (get_none_iff rq.headers "To".toList).mp hg
      exfalso
      obtain ⟨_, _, _, _, h5, _⟩ := framed_base fr (extra_others _ _)
      have e : tos rq.headers tag (inviteAnswer policy rq.headers body) = none := by
        rcases inviteAnswer_kind policy rq.headers body with ⟨m, e⟩ | e | ⟨v, e⟩
        · exact absurd e (hn m)
        · rw [e]; show toOf _ _ _ = none; unfold toOf; split <;> simp only [hg, Option.map_none]
        · rw [e]; show toOf _ _ _ = none; unfold toOf; split <;> simp only [hg, Option.map_none]
      rw [e] at h5
      obtain ⟨more, hm⟩ := htv
      rw [selects_iff, h5] at hm
      cases hm
    | some v =>
      have hw : First rq.headers "To" v := (get_iff rq.headers "To".toList v).mp hg
      obtain ⟨w, h1, h2⟩ := C85_to _ _ _ _ _ _ hb hrel hcode100 hw
      have : tv = w := by
        obtain ⟨more, hm⟩ := htv
        have := selects_unique h1 hm
        simp only [List.cons.injEq] at this
        exact this.1.symm
      subst this
      exact ⟨v, hw, fun t ht => Dlg.tagOf_unique htt (h2.same t ht), fun hnt htag => Dlg.tagOf_unique htt (h2.new hnt htag)⟩
  · have : Dlg.stateOf 200 = some DState.confirmed := rfl
    rw [hc200, this] at f1
    exact (Option.some.inj f1).symm
  · exact (Dlg.cseqNumber_iff _ _).mp f3

/-- C87: if the dialog table has room the dialog is stored, and a later request of the call whose headers are ASCII is
handed to it. -/
theorem C87_then_found (ops : List MOp) (s s' : Server) (policy : Option Dlg.TimerPolicy) (authed : Bool) (rq : Request)
    (body : Option Str) (tag : Str) (r : Response) (d : Dialog) (hs : s.dialogs = Mgr.run ops)
    (h : acceptInvite s policy authed rq body tag = .done (.accepted r d, s')) (hroom : s.dialogs.dialogs.length < 10000) :
    s'.dialogs.get d.id = some d ∧ (∀ i, i ≠ d.id → s'.dialogs.get i = s.dialogs.get i) ∧
    ∀ hs2, AsciiHeaders hs2 → Names hs2 d.id.callId d.id.remoteTag d.id.localTag → s'.dialogs.findByRequest hs2 = .done (some d) := by
  have hst := (C87_accept _ _ _ _ _ _ _ _ _ h).2.2.2.2.2.2.2.1
  obtain ⟨_, _, _, _, _, ho⟩ := accept_inv h
  obtain ⟨_, rfl, _⟩ := openDialog_some ho
  obtain ⟨h1, h2, h3⟩ := Dlg.C18_insert_works s.dialogs d hroom (by rw [hst]; intro hx; cases hx)
  refine ⟨h2, h3, fun hs2 ha hn => ?_⟩
  have e : (s.dialogs.insert d).2 = Mgr.run (ops ++ [.insert d]) := by
    rw [hs]; simp [Mgr.run, Mgr.step]
  have h2' : (Mgr.run (ops ++ [.insert d])).get d.id = some d := by rw [← e]; exact h2
  have := Dlg.C19_delivered (ops ++ [.insert d]) hs2 d ha h2' hn
  rw [← e] at this
  exact this

/-- C87 fails in full: with a full dialog table the call is accepted all the same, with nothing stored (the error is
dropped), so requests inside the call find no dialog. -/
theorem C87_full (s s' : Server) (policy : Option Dlg.TimerPolicy) (authed : Bool) (rq : Request)
    (body : Option Str) (tag : Str) (r : Response) (d : Dialog)
    (h : acceptInvite s policy authed rq body tag = .done (.accepted r d, s')) (hfull : 10000 ≤ s.dialogs.dialogs.length) :
    s' = s := by
  obtain ⟨_, _, _, _, _, ho⟩ := accept_inv h
  obtain ⟨_, rfl, _⟩ := openDialog_some ho
  have e : (s.dialogs.insert d).2 = s.dialogs := by
    unfold Mgr.insert
    rw [if_pos (by unfold Dlg.MAX_CONFIRMED_DIALOGS; omega)]
  rw [e]

/-- C87 fails in full: accepting a second INVITE inside a call puts a fresh dialog, counting its own requests from 0
again, in the place of the one that is there. -/
theorem C87_again_resets (ops : List MOp) (s s' : Server) (policy : Option Dlg.TimerPolicy) (authed : Bool) (rq : Request)
    (body : Option Str) (tag : Str) (r : Response) (d old : Dialog) (hs : s.dialogs = Mgr.run ops)
    (h : acceptInvite s policy authed rq body tag = .done (.accepted r d, s')) (hroom : s.dialogs.dialogs.length < 10000)
    (hold : s.dialogs.get old.id = some old) (hn : Names rq.headers old.id.callId old.id.remoteTag old.id.localTag) :
    d.id = old.id ∧ s'.dialogs.get old.id = some d ∧ d.localCSeq = 0 := by
  obtain ⟨_, _, _, _, h1, ⟨f, hf, hft⟩, ⟨t, ht, htt, _⟩, _, h3, _⟩ := C87_accept _ _ _ _ _ _ _ _ _ h
  obtain ⟨n1, ⟨f', hf', n2⟩, ⟨t', ht', n3⟩⟩ := hn
  have e1 : d.id.callId = old.id.callId := Dlg.first_unique h1 n1
  have e2 : d.id.remoteTag = old.id.remoteTag := by
    have := Dlg.first_unique hf hf'
    subst this
    exact Dlg.tagOf_unique hft n2
  have e3 : d.id.localTag = old.id.localTag := by
    have := Dlg.first_unique ht ht'
    subst this
    exact htt _ n3
  have e : d.id = old.id := by
    cases hx : d.id; cases hy : old.id
    rw [hx, hy] at e1 e2 e3
    simp only at e1 e2 e3
    rw [e1, e2, e3]
  refine ⟨e, ?_, h3⟩
  rw [← e]
  exact (C87_then_found ops s s' policy authed rq body tag r d hs h hroom).1

/-! ## C89: what the dispatcher does -/

/-- The request gets past authentication. -/
def Passed (c : Settings) (authed : Option Bool) : Prop := c.requireAuth = false ∨ authed = some true

theorem addMissing_keeps {r r' : Response} {n : String} {v : Str} (h : addMissing r n v = .done r') :
    r'.code = r.code ∧ r'.reason = r.reason ∧ r'.body = r.body ∧
    (r' = r ∨ (r.headers.get n.toList = none ∧ r'.headers.inner = r.headers.inner ++ [⟨n.toList, v⟩])) := by
  unfold addMissing at h
  split at h
  · rename_i hn
    rw [pushU_some h]
    exact ⟨rfl, rfl, rfl, Or.inr ⟨by simpa using hn, rfl⟩⟩
  · simp only [Run.done.injEq] at h
    subst h
    exact ⟨rfl, rfl, rfl, Or.inl rfl⟩

theorem autoFill_code {c : Settings} {f : From} {r r' : Response} (h : autoFill c f r = .done r') :
    r'.code = r.code ∧ r'.reason = r.reason ∧ r'.body = r.body := by
  simp only [autoFill, Run.bind_eq_done] at h
  obtain ⟨r1, h1, h2⟩ := h
  obtain ⟨a1, a2, a3, _⟩ := addMissing_keeps h1
  obtain ⟨b1, b2, b3, _⟩ := addMissing_keeps h2
  exact ⟨by rw [b1, a1], by rw [b2, a2], by rw [b3, a3]⟩

theorem reply_inv {c : Settings} {f : From} {rq : Request} {tag : Str} {code : Nat} {reason : String} {acts : List Act}
    (h : reply c f rq tag code reason = .done acts) :
    ∃ r0 r, acts = [.final r] ∧ r.code = code ∧ createResponse rq.headers code reason.toList tag = .done r0 ∧ autoFill c f r0 = .done r := by
  simp only [reply, Run.bind_eq_done] at h
  obtain ⟨r0, h0, r, h1, h2⟩ := h
  simp only [Run.done.injEq] at h2
  obtain ⟨_, hc, _⟩ := framed_create h0
  exact ⟨r0, r, h2.symm, by rw [(autoFill_code h1).1, hc], h0, h1⟩

theorem passed_route {c : Settings} {s : Server} {f : From} {rq : Request} {tag : Str} {authed : Option Bool}
    {challenge : Option Response} {handled : Bool} (hp : Passed c authed ∨ rq.method = .ack) :
    dispatch c s f rq tag authed challenge handled = route c s f rq tag handled := by
  unfold dispatch
  rcases hp with (hp | hp) | hp
  · simp [hp]
  · split
    · simp only [hp]
    · rfl
  · simp [hp]

/-- C89: a request that only makes sense inside a call (BYE, REFER, UPDATE, PRACK, INFO) reaches the application
exactly when the server has the dialog it names, together with that dialog; otherwise it is answered 481. -/
theorem C89_in_dialog (ops : List MOp) (c : Settings) (s : Server) (f : From) (rq : Request) (tag : Str) (authed : Option Bool)
    (challenge : Option Response) (handled : Bool) (acts : List Act) (m : String) (hs : s.dialogs = Mgr.run ops)
    (hm : m ∈ ["BYE", "REFER", "UPDATE", "PRACK", "INFO"]) (hq : rq.method.asStr = m.toList) (hp : Passed c authed)
    (h : dispatch c s f rq tag authed challenge handled = .done acts) :
    (∃ d, acts = [.app m.toList (some d)] ∧ s.dialogs.get d.id = some d ∧ Names rq.headers d.id.callId d.id.remoteTag d.id.localTag) ∨
    ((∀ i d, s.dialogs.get i = some d → ¬ Names rq.headers i.callId i.remoteTag i.localTag) ∧ ∃ r, acts = [.final r] ∧ r.code = 481) := by
  rw [passed_route (Or.inl hp)] at h
  have e : route c s f rq tag handled = inDialog c s f rq tag := by
    unfold route
    rw [hq]
    simp only [List.mem_cons, List.not_mem_nil, or_false] at hm
    rcases hm with rfl | rfl | rfl | rfl | rfl <;> rfl
  rw [e] at h
  unfold inDialog at h
  split at h
  · cases h
  · rename_i d hd
    simp only [Run.done.injEq] at h
    rw [hs] at hd
    obtain ⟨h1, h2⟩ := Dlg.C19_found ops _ _ hd
    rw [hq] at h
    left
    exact ⟨d, h.symm, by rw [hs]; exact h2, h1⟩
  · rename_i hd
    obtain ⟨_, r, h1, h2, _⟩ := reply_inv h
    exact Or.inr ⟨Dlg.C19_not_found _ _ hd, r, h1, h2⟩

/-- C89: an ACK is never answered, not even to ask for credentials; it reaches the application if and only if its
dialog is there. -/
theorem C89_ack (ops : List MOp) (c : Settings) (s : Server) (f : From) (rq : Request) (tag : Str) (authed : Option Bool)
    (challenge : Option Response) (handled : Bool) (acts : List Act) (hs : s.dialogs = Mgr.run ops) (hq : rq.method = .ack)
    (h : dispatch c s f rq tag authed challenge handled = .done acts) :
    (∃ d, acts = [.app "ACK".toList (some d)] ∧ s.dialogs.get d.id = some d ∧ Names rq.headers d.id.callId d.id.remoteTag d.id.localTag) ∨
    ((∀ i d, s.dialogs.get i = some d → ¬ Names rq.headers i.callId i.remoteTag i.localTag) ∧ acts = []) := by
  rw [passed_route (Or.inr hq)] at h
  have e : route c s f rq tag handled = onAck s rq := by
    unfold route
    rw [hq]
    rfl
  rw [e] at h
  unfold onAck at h
  split at h
  · cases h
  · rename_i d hd
    simp only [Run.done.injEq] at h
    rw [hs] at hd
    obtain ⟨h1, h2⟩ := Dlg.C19_found ops _ _ hd
    rw [hq] at h
    exact Or.inl ⟨d, h.symm, by rw [hs]; exact h2, h1⟩
  · rename_i hd
    simp only [Run.done.injEq] at h
    exact Or.inr ⟨Dlg.C19_not_found _ _ hd, h.symm⟩

/-- The headers an INVITE must have: Via, From with a tag, To, Call-ID and CSeq. -/
def Complete (hs : Headers) : Prop :=
  (∃ v, First hs "Via" v) ∧ (∃ v t, First hs "From" v ∧ TagOf v t) ∧ (∃ v, First hs "To" v) ∧ (∃ v, First hs "Call-ID" v) ∧ ∃ v, First hs "CSeq" v

theorem validInvite_iff {rq : Request} {b : Bool} (hm : rq.method.asStr = "INVITE".toList) (h : validInvite rq = .done b) :
    b = true ↔ Complete rq.headers := by
  unfold validInvite at h
  rw [if_neg (by simp [hm])] at h
  have ex : ∀ n : String, (∃ v, First rq.headers n v) ↔ (rq.headers.get n.toList).isNone = false := by
    intro n
    constructor
    · rintro ⟨v, hv⟩
      rw [(get_iff rq.headers n.toList v).mpr hv]; rfl
    · intro hv
      cases hg : rq.headers.get n.toList with
      | none => rw [hg] at hv; cases hv
      | some v => exact ⟨v, (get_iff rq.headers n.toList v).mp hg⟩
  split at h
  · rename_i ha
    simp only [Run.done.injEq] at h
    subst h
    simp only [Bool.false_eq_true, false_iff]
    rintro ⟨h1, ⟨v, _, h2, _⟩, h3, h4, h5⟩
    rw [List.any_eq_true] at ha
    obtain ⟨n, hn, hx⟩ := ha
    simp only [List.mem_cons, List.not_mem_nil, or_false] at hn
    rcases hn with rfl | rfl | rfl | rfl | rfl
    · rw [(ex _).mp h1] at hx; cases hx
    · rw [(ex _).mp ⟨v, h2⟩] at hx; cases hx
    · rw [(ex _).mp h3] at hx; cases hx
    · rw [(ex _).mp h4] at hx; cases hx
    · rw [(ex _).mp h5] at hx; cases hx
  · rename_i ha
    rw [List.any_eq_true] at ha
    have all : ∀ n ∈ ["Via", "From", "To", "Call-ID", "CSeq"], ∃ v, First rq.headers n v := by
      intro n hn
      rw [ex]
      cases hx : (rq.headers.get n.toList).isNone with
      | false => rfl
      | true => exact absurd ⟨n, hn, hx⟩ ha
    split at h
    · rename_i hf
      obtain ⟨v, hv⟩ := all "From" (by simp)
      rw [(get_iff rq.headers "From".toList v).mpr hv] at hf
      cases hf
    · rename_i v hf
      have hfv : First rq.headers "From" v := (get_iff rq.headers "From".toList v).mp hf
      split at h
      · cases h
      · rename_i t ht
        simp only [Run.done.injEq] at h
        subst h
        cases t with
        | none =>
          simp only [Option.isSome_none, Bool.false_eq_true, false_iff]
          rintro ⟨_, ⟨w, t, h2, h3⟩, _⟩
          have := Dlg.first_unique h2 hfv
          subst this
          exact Dlg.noTag_not (Dlg.extractTag_none ht) h3
        | some t =>
          simp only [Option.isSome_some, true_iff]
          exact ⟨all _ (by simp), ⟨v, t, hfv, Dlg.extractTag_some ht⟩, all _ (by simp), all _ (by simp), all _ (by simp)⟩

/-- C89: an INVITE without the required headers is answered 400 and nothing else happens; any other reaches the
application, with the dialog it names if there is one, after a 100 if so configured. -/
theorem C89_invite (ops : List MOp) (c : Settings) (s : Server) (f : From) (rq : Request) (tag : Str) (authed : Option Bool)
    (challenge : Option Response) (handled : Bool) (acts : List Act) (hs : s.dialogs = Mgr.run ops)
    (hq : rq.method.asStr = "INVITE".toList) (hp : Passed c authed)
    (h : dispatch c s f rq tag authed challenge handled = .done acts) :
    (¬ Complete rq.headers ∧ ∃ r, acts = [.final r] ∧ r.code = 400) ∨
    (Complete rq.headers ∧ ∃ d pre, acts = pre ++ [.app "INVITE".toList d] ∧
      (if c.sendTrying then ∃ r, pre = [.provisional r] ∧ r.code = 100 else pre = []) ∧
      (∀ e, d = some e → s.dialogs.get e.id = some e ∧ Names rq.headers e.id.callId e.id.remoteTag e.id.localTag) ∧
      (d = none → ∀ i e, s.dialogs.get i = some e → ¬ Names rq.headers i.callId i.remoteTag i.localTag)) := by
  rw [passed_route (Or.inl hp), route, if_pos hq] at h
  unfold onInvite at h
  split at h
  · cases h
  · rename_i hv
    obtain ⟨_, r, h1, h2, _⟩ := reply_inv h
    left
    exact ⟨fun hc => Bool.false_ne_true ((validInvite_iff hq hv).mpr hc), r, h1, h2⟩
  · rename_i hv
    right
    refine ⟨(validInvite_iff hq hv).mp rfl, ?_⟩
    split at h
    · cases h
    · rename_i d hd
      have hdd : (∀ e, d = some e → s.dialogs.get e.id = some e ∧ Names rq.headers e.id.callId e.id.remoteTag e.id.localTag) ∧
          (d = none → ∀ i e, s.dialogs.get i = some e → ¬ Names rq.headers i.callId i.remoteTag i.localTag) := by
        constructor
        · rintro e rfl
          rw [hs] at hd
          obtain ⟨h1, h2⟩ := Dlg.C19_found ops _ _ hd
          exact ⟨by rw [hs]; exact h2, h1⟩
        · rintro rfl
          exact Dlg.C19_not_found _ _ hd
      split at h
      · rename_i ht
        simp only [Run.bind_eq_done] at h
        obtain ⟨r0, h0, r, h1, h2⟩ := h
        simp only [Run.done.injEq] at h2
        obtain ⟨_, hc, _⟩ := framed_create h0
        exact ⟨d, [.provisional r], by rw [← h2, hq]; rfl, by rw [if_pos ht]; exact ⟨r, rfl, by rw [(autoFill_code h1).1, hc]⟩, hdd⟩
      · rename_i ht
        simp only [Run.done.injEq] at h
        exact ⟨d, [], by rw [← h, hq]; rfl, by rw [if_neg ht], hdd⟩

/-- The methods the server has a handler for, and OPTIONS, which it answers itself. -/
def known : List String := ["INVITE", "ACK", "CANCEL", "OPTIONS", "REGISTER", "SUBSCRIBE", "NOTIFY", "BYE", "REFER", "UPDATE", "PRACK", "INFO"]

/-- C89: any other method is answered 501. -/
theorem C89_unknown (c : Settings) (s : Server) (f : From) (rq : Request) (tag : Str) (authed : Option Bool)
    (challenge : Option Response) (handled : Bool) (acts : List Act) (hq : ∀ m ∈ known, rq.method.asStr ≠ m.toList) (hp : Passed c authed)
    (h : dispatch c s f rq tag authed challenge handled = .done acts) : ∃ r, acts = [.final r] ∧ r.code = 501 := by
  rw [passed_route (Or.inl hp), route, if_neg (hq "INVITE" (by decide)), if_neg (hq "ACK" (by decide)), if_neg (hq "CANCEL" (by decide)),
    if_neg (hq "OPTIONS" (by decide)), if_neg, if_neg] at h
  · obtain ⟨_, r, h1, h2, _⟩ := reply_inv h
    exact ⟨r, h1, h2⟩
  · simp only [List.any_eq_true, decide_eq_true_eq, not_exists, not_and]
    intro m hm
    refine hq m ?_
    revert hm; revert m; decide
  · simp only [List.any_eq_true, decide_eq_true_eq, not_exists, not_and]
    intro m hm
    refine hq m ?_
    revert hm; revert m; decide

/-- C89: a request that is not authenticated, when that is required, does not reach the application: all that happens
is that the challenge is sent.  This holds for every method but ACK. -/
theorem C89_unauthenticated (c : Settings) (s : Server) (f : From) (rq : Request) (tag : Str) (authed : Option Bool)
    (challenge : Option Response) (handled : Bool) (acts : List Act) (hc : c.requireAuth = true) (ha : authed ≠ some true)
    (hq : rq.method ≠ .ack) (h : dispatch c s f rq tag authed challenge handled = .done acts) :
    acts = [] ∨ ∃ r0 r, challenge = some r0 ∧ acts = [.final r] ∧ r.code = r0.code := by
  unfold dispatch at h
  simp only [hc, Bool.true_and, bne_iff_ne, ne_eq, hq, not_false_eq_true, if_true] at h
  match authed, challenge, h, ha with
  | none, _, h, _ => left; simpa using h.symm
  | some true, _, _, ha => exact absurd rfl ha
  | some false, none, h, _ => left; simpa using h.symm
  | some false, some r0, h, _ =>
    simp only [Run.bind_eq_done] at h
    obtain ⟨r, h1, h2⟩ := h
    simp only [Run.done.injEq] at h2
    exact Or.inr ⟨r0, r, rfl, h2.symm, (autoFill_code h1).1⟩

/-- the final responses in the transaction of the request -/
def finals : List Act → Nat
  | [] => 0
  | .final _ :: l => finals l + 1
  | _ :: l => finals l

/-- the calls of the application -/
def calls : List Act → Nat
  | [] => 0
  | .app _ _ :: l => calls l + 1
  | _ :: l => calls l

/-- C89: a request is either handed to the application, once, or answered by the dispatcher, once, never both, so the
application's own answer is the only final one. -/
theorem C89_one_final (c : Settings) (s : Server) (f : From) (rq : Request) (tag : Str) (authed : Option Bool)
    (challenge : Option Response) (handled : Bool) (acts : List Act)
    (h : dispatch c s f rq tag authed challenge handled = .done acts) :
    finals acts + calls acts ≤ 1 ∧ (Passed c authed → rq.method ≠ .ack → finals acts + calls acts = 1 ∨ rq.method.asStr = "ACK".toList) := by
  by_cases hp : Passed c authed ∨ rq.method = .ack
  · rw [passed_route hp, route] at h
    have fin : ∀ {code reason}, reply c f rq tag code reason = .done acts → finals acts + calls acts = 1 := by
      intro code reason hr
      obtain ⟨_, r, h1, _⟩ := reply_inv hr
      subst h1
      rfl
    split at h
    · have : finals acts + calls acts = 1 := by
        unfold onInvite at h
        split at h
        · cases h
        · exact fin h
        · split at h
          · cases h
          · split at h
            · simp only [Run.bind_eq_done] at h
              obtain ⟨r0, h0, r, h1, h2⟩ := h
              simp only [Run.done.injEq] at h2
              subst h2; rfl
            · simp only [Run.done.injEq] at h
              subst h; rfl
      exact ⟨by omega, fun _ _ => Or.inl this⟩
    · split at h
      · rename_i hack
        refine ⟨?_, fun _ _ => Or.inr hack⟩
        unfold onAck at h
        split at h
        · cases h
        · simp only [Run.done.injEq] at h
          subst h; simp [finals, calls]
        · simp only [Run.done.injEq] at h
          subst h; simp [finals, calls]
      · have : finals acts + calls acts = 1 := by
          split at h
          · unfold onCancel at h
            split at h
            · simp only [Run.done.injEq] at h
              subst h; rfl
            · split at h
              · simp only [Run.done.injEq] at h
                subst h; rfl
              · split at h
                · cases h
                · simp only [Run.done.injEq] at h
                  subst h; rfl
                · simp only [Run.bind_eq_done] at h
                  obtain ⟨r, h1, h2⟩ := h
                  simp only [Run.done.injEq] at h2
                  subst h2; rfl
          · split at h
            · unfold onOptions at h
              split at h
              · cases h
              · rename_i hb
                simp only [build, Run.bind_eq_done] at hb
                obtain ⟨_, _, _, _, _, _, h3⟩ := hb
                cases h3
              · simp only [Run.bind_eq_done] at h
                obtain ⟨r1, h1, r2, h2, h3⟩ := h
                simp only [Run.done.injEq] at h3
                subst h3; rfl
            · split at h
              · simp only [Run.done.injEq] at h
                subst h; rfl
              · split at h
                · unfold inDialog at h
                  split at h
                  · cases h
                  · simp only [Run.done.injEq] at h
                    subst h; rfl
                  · exact fin h
                · exact fin h
        exact ⟨by omega, fun _ _ => Or.inl this⟩
  · simp only [Passed, not_or] at hp
    obtain ⟨⟨h1, h2⟩, h3⟩ := hp
    rcases C89_unauthenticated c s f rq tag authed challenge handled acts (by simpa using h1) h2 h3 h with rfl | ⟨_, r, _, rfl, _⟩
    · exact ⟨by simp [finals, calls], fun hp => by exact absurd hp (not_or.mpr ⟨h1, h2⟩)⟩
    · exact ⟨by simp [finals, calls], fun hp => by exact absurd hp (not_or.mpr ⟨h1, h2⟩)⟩

/-- C89: a CANCEL the application has handled ends the INVITE of the same branch with 487; nothing else is sent in any
other transaction, for any other method. -/
theorem C89_cancel (c : Settings) (s : Server) (f : From) (rq : Request) (tag : Str) (authed : Option Bool)
    (challenge : Option Response) (handled : Bool) (acts : List Act) (b : Str) (r : Response)
    (h : dispatch c s f rq tag authed challenge handled = .done acts) (ha : Act.inviteFinal b r ∈ acts) :
    rq.method.asStr = "CANCEL".toList ∧ handled = true ∧ r.code = 487 ∧ (rq.headers.get "Via".toList).bind Manager.branchFromVia = some b := by
  by_cases hp : Passed c authed ∨ rq.method = .ack
  · rw [passed_route hp, route] at h
    have fin : ∀ {code reason}, reply c f rq tag code reason = .done acts → False := by
      intro code reason hr
      obtain ⟨_, r, h1, _⟩ := reply_inv hr
      subst h1
      simp at ha
    split at h
    · exfalso
      unfold onInvite at h
      split at h
      · cases h
      · exact fin h
      · split at h
        · cases h
        · split at h
          · simp only [Run.bind_eq_done] at h
            obtain ⟨r0, h0, r, h1, h2⟩ := h
            simp only [Run.done.injEq] at h2
            subst h2; simp at ha
          · simp only [Run.done.injEq] at h
            subst h; simp at ha
    · split at h
      · exfalso
        unfold onAck at h
        split at h
        · cases h
        · simp only [Run.done.injEq] at h
          subst h; simp at ha
        · simp only [Run.done.injEq] at h
          subst h; simp at ha
      · split at h
        · rename_i hm
          unfold onCancel at h
          split at h
          · simp only [Run.done.injEq] at h
            subst h; simp at ha
          · rename_i hh
            split at h
            · simp only [Run.done.injEq] at h
              subst h; simp at ha
            · rename_i b' hb
              split at h
              · cases h
              · simp only [Run.done.injEq] at h
                subst h; simp at ha
              · rename_i r0 hr0
                simp only [Run.bind_eq_done] at h
                obtain ⟨r1, h1, h2⟩ := h
                simp only [Run.done.injEq] at h2
                subst h2
                simp only [List.mem_cons, reduceCtorEq, Act.inviteFinal.injEq, List.not_mem_nil, or_false, false_or] at ha
                obtain ⟨rfl, rfl⟩ := ha
                refine ⟨hm, by simpa using hh, ?_, hb⟩
                rw [(autoFill_code h1).1]
                exact (framed_build hr0).2.1
        · exfalso
          split at h
          · unfold onOptions at h
            split at h
            · cases h
            · simp only [Run.done.injEq] at h
              subst h; simp at ha
            · simp only [Run.bind_eq_done] at h
              obtain ⟨r1, h1, r2, h2, h3⟩ := h
              simp only [Run.done.injEq] at h3
              subst h3; simp at ha
          · split at h
            · simp only [Run.done.injEq] at h
              subst h; simp at ha
            · split at h
              · unfold inDialog at h
                split at h
                · cases h
                · simp only [Run.done.injEq] at h
                  subst h; simp at ha
                · exact fin h
              · exact fin h
  · exfalso
    simp only [Passed, not_or] at hp
    obtain ⟨⟨h1, h2⟩, h3⟩ := hp
    rcases C89_unauthenticated c s f rq tag authed challenge handled acts (by simpa using h1) h2 h3 h with rfl | ⟨_, r, _, rfl, _⟩
    · simp at ha
    · simp at ha

/-! ## C89: what is filled in -/

theorem getAll_append (l m : List Header) (n : Str) : Headers.getAll ⟨l ++ m⟩ n = Headers.getAll ⟨l⟩ n ++ Headers.getAll ⟨m⟩ n := by
  simp [Headers.getAll]

theorem getAll_one (h : Header) (l : List Header) (n : Str) :
    Headers.getAll ⟨h :: l⟩ n = (if h.nameEq n then [h.value] else []) ++ Headers.getAll ⟨l⟩ n := by
  simp only [Headers.getAll, List.filter_cons]
  split <;> simp

theorem getAll_skip (l : List Header) (n : Str) (h : ∀ x ∈ l, ¬ SameName x.name n) : Headers.getAll ⟨l⟩ n = [] := by
  simp only [Headers.getAll, List.map_eq_nil_iff, List.filter_eq_nil_iff]
  intro x hx hc
  exact h x hx ((nameEq_iff _ _).mp hc)

theorem getAll_setOrPush {hs hs' : Headers} {n v : Str} (h : hs.setOrPush n v = .ok hs') :
    (∀ m, ¬ SameName m n → hs'.getAll m = hs.getAll m) ∧ hs'.getAll n = v :: (hs.getAll n).tail := by
  cases hs with | mk l => cases hs' with | mk l' =>
  have key : ∀ (x : Header) m, ¬ SameName m n → SameName x.name n → x.nameEq m = false := by
    intro x m hm hx
    rw [Bool.eq_false_iff]
    intro hc
    exact hm (sameName_trans (sameName_symm ((nameEq_iff _ _).mp hc)) hx)
  rcases setOrPush_ok_inner h with h1 | ⟨h1, h2⟩
  · rcases overwriteFirst_spec n v l with ⟨e, _⟩ | ⟨pre, x, post, e1, e2, e3, e4⟩
    · simp only at h1
      rw [e] at h1; cases h1
    · simp only at h1
      rw [e4] at h1
      simp only [Option.some.injEq] at h1
      subst h1 e1
      constructor
      · intro m hm
        rw [getAll_append, getAll_append, getAll_one, getAll_one, key x m hm e2]
        have : Header.nameEq ⟨x.name, v⟩ m = false := key ⟨x.name, v⟩ m hm e2
        rw [this]
        simp
      · rw [getAll_append, getAll_append, getAll_one, getAll_one, getAll_skip pre n e3, (nameEq_iff x n).mpr e2]
        have : Header.nameEq ⟨x.name, v⟩ n = true := (nameEq_iff _ n).mpr e2
        rw [this]
        simp
  · simp only at h1 h2
    subst h2
    have hno : ∀ x ∈ l, ¬ SameName x.name n := by
      rcases overwriteFirst_spec n v l with ⟨_, e⟩ | ⟨pre, x, post, _, _, _, e4⟩
      · exact e
      · rw [h1] at e4; cases e4
    constructor
    · intro m hm
      rw [getAll_append, getAll_one]
      have : Header.nameEq ⟨n, v⟩ m = false := key ⟨n, v⟩ m hm (sameName_refl n)
      rw [this]
      simp [Headers.getAll]
    · rw [getAll_append, getAll_one, getAll_skip l n hno]
      have : Header.nameEq ⟨n, v⟩ n = true := (nameEq_iff _ n).mpr (sameName_refl n)
      rw [this]
      simp [Headers.getAll]

theorem applyRport_getAll (hs : Headers) (ip : Str) (port : Nat) :
    (∀ m, ¬ SameName m "Via".toList → (applyRport hs ip port).getAll m = hs.getAll m) ∧
    ((applyRport hs ip port).getAll "Via".toList).tail = (hs.getAll "Via".toList).tail ∧
    ((applyRport hs ip port).getAll "Via".toList = [] ↔ hs.getAll "Via".toList = []) := by
  unfold applyRport
  split
  · exact ⟨fun _ _ => rfl, rfl, Iff.rfl⟩
  · rename_i top ht
    split
    · exact ⟨fun _ _ => rfl, rfl, Iff.rfl⟩
    · simp only []
      split
      · split
        · rename_i hs' hh
          obtain ⟨h1, h2⟩ := getAll_setOrPush hh
          refine ⟨h1, by rw [h2]; rfl, ?_⟩
          rw [h2]
          simp only [reduceCtorEq, false_iff]
          obtain ⟨more, hm⟩ := (get_iff hs "Via".toList top).mp ht
          rw [selects_iff] at hm
          rw [← hm]
          simp
        · exact ⟨fun _ _ => rfl, rfl, Iff.rfl⟩
      · exact ⟨fun _ _ => rfl, rfl, Iff.rfl⟩

theorem fillContact_getAll (c : Settings) (f : From) (hs : Headers) :
    ∀ m, ¬ SameName m "Contact".toList → (fillContact c f hs).getAll m = hs.getAll m := by
  intro m hm
  unfold fillContact
  split
  · split
    · rename_i hs' hh
      exact (getAll_setOrPush hh).1 m hm
    · rfl
  · rfl

theorem addMissing_getAll {r r' : Response} {n : String} {v : Str} (h : addMissing r n v = .done r') :
    (∀ m, ¬ SameName m n.toList → r'.headers.getAll m = r.headers.getAll m) ∧
    r'.headers.getAll n.toList = (match r.headers.getAll n.toList with | [] => [v] | l => l) := by
  have hget : r.headers.get n.toList = none ↔ r.headers.getAll n.toList = [] := by
    rw [get_none_iff, selects_iff]
    exact eq_comm
  unfold addMissing at h
  split at h
  · rename_i hn
    have hn' := hget.mp (by simpa using hn)
    rw [pushU_some h, hn']
    have e : Headers.getAll ⟨r.headers.inner ++ [⟨n.toList, v⟩]⟩ = fun m => r.headers.getAll m ++ (if (⟨n.toList, v⟩ : Header).nameEq m then [v] else []) := by
      funext m
      rw [getAll_append, getAll_one]
      simp [Headers.getAll]
    simp only [e]
    constructor
    · intro m hm
      rw [if_neg]
      · simp
      · intro hc
        exact hm (sameName_symm ((nameEq_iff _ _).mp hc))
    · rw [hn', if_pos ((nameEq_iff _ _).mpr (sameName_refl _))]
      rfl
  · rename_i hn
    simp only [Run.done.injEq] at h
    subst h
    refine ⟨fun _ _ => rfl, ?_⟩
    cases hg : r.headers.getAll n.toList with
    | nil => exact absurd (hget.mpr hg) (by simpa using hn)
    | cons a l => rfl

/-- C89: before it is sent a response gets the source address in its top Via, the Contact of the listener, and Allow and
Server if it has none; status, body and every other header stay, and so do the Vias below the top one. -/
theorem C89_filled (c : Settings) (f : From) (r r' : Response) (h : autoFill c f r = .done r') :
    (r'.code = r.code ∧ r'.reason = r.reason ∧ r'.body = r.body) ∧
    (∀ n vs, (∀ m ∈ ["Via", "Contact", "Allow", "Server"], ¬ SameName n m.toList) → (Selects n r'.headers.inner vs ↔ Selects n r.headers.inner vs)) ∧
    (∀ v vs, Selects "Via".toList r.headers.inner (v :: vs) →
      ∃ v', Selects "Via".toList r'.headers.inner (v' :: vs) ∧ (c.fillVia = false → v' = v) ∧
        (c.fillVia = true → Selects "Via".toList (applyRport r.headers f.ip f.port).inner (v' :: vs))) ∧
    (∀ n v, (n, v) ∈ [("Allow", c.allow), ("Server", c.agent)] →
      (∀ w ws, Selects n.toList r.headers.inner (w :: ws) → Selects n.toList r'.headers.inner (w :: ws)) ∧
      (Absent r.headers n → Selects n.toList r'.headers.inner [v])) := by
  refine ⟨autoFill_code h, ?_⟩
  simp only [autoFill, Run.bind_eq_done] at h
  obtain ⟨r1, h1, h2⟩ := h
  obtain ⟨a1, a2⟩ := addMissing_getAll h1
  obtain ⟨b1, b2⟩ := addMissing_getAll h2
  simp only at a1 a2
  have step : ∀ m : Str, ¬ SameName m "Via".toList → ¬ SameName m "Contact".toList →
      (fillContact c f (if c.fillVia then applyRport r.headers f.ip f.port else r.headers)).getAll m = r.headers.getAll m := by
    intro m hm1 hm2
    rw [fillContact_getAll c f _ m hm2]
    split
    · exact (applyRport_getAll _ _ _).1 m hm1
    · rfl
  have via : r'.headers.getAll "Via".toList =
      (if c.fillVia then applyRport r.headers f.ip f.port else r.headers).getAll "Via".toList := by
    rw [b1 _ (by rw [sameName_iff]; decide), a1 _ (by rw [sameName_iff]; decide), fillContact_getAll _ _ _ _ (by rw [sameName_iff]; decide)]
  refine ⟨?_, ?_, ?_⟩
  · intro n vs hn
    rw [selects_iff, selects_iff, b1 n (hn "Server" (by simp)), a1 n (hn "Allow" (by simp)), step n (hn "Via" (by simp)) (hn "Contact" (by simp))]
  · intro v vs hv
    rw [selects_iff] at hv
    by_cases hf : c.fillVia = true
    · rw [if_pos hf] at via
      obtain ⟨_, t1, t2⟩ := applyRport_getAll r.headers f.ip f.port
      cases hg : (applyRport r.headers f.ip f.port).getAll "Via".toList with
      | nil => rw [t2, ← hv] at hg; cases hg
      | cons v' vs' =>
        rw [hg, ← hv] at t1
        simp only [List.tail_cons] at t1
        subst t1
        exact ⟨v', (selects_iff _ _ _).mpr (by rw [via, hg]), by simp [hf], fun _ => (selects_iff _ _ _).mpr hg.symm⟩
    · rw [if_neg hf] at via
      exact ⟨v, (selects_iff _ _ _).mpr (by rw [via, hv]), fun _ => rfl, fun hx => absurd hx hf⟩
  · intro n v hn
    simp only [List.mem_cons, Prod.mk.injEq, List.not_mem_nil, or_false] at hn
    have all : r'.headers.getAll n.toList = (match r.headers.getAll n.toList with | [] => [v] | l => l) := by
      rcases hn with ⟨rfl, rfl⟩ | ⟨rfl, rfl⟩
      · rw [b1 _ (by rw [sameName_iff]; decide), a2, step _ (by rw [sameName_iff]; decide) (by rw [sameName_iff]; decide)]
      · rw [b2, a1 _ (by rw [sameName_iff]; decide), step _ (by rw [sameName_iff]; decide) (by rw [sameName_iff]; decide)]
    constructor
    · intro w ws hw
      rw [selects_iff] at hw ⊢
      rw [all, ← hw]
    · intro hw
      have hw' := (selects_iff _ _ _).mp hw
      rw [selects_iff, all, ← hw']

/-- C89: the Contact put in is the one of the listener, in place of any there was. -/
theorem C89_contact (c : Settings) (f : From) (r r' : Response) (h : autoFill c f r = .done r') (hc : c.fillContact = true)
    (h1 : OneLine (contactValue c f)) (h2 : utf8Len (contactValue c f) ≤ 8192)
    (hroom : r.headers.inner.length < 200 ∨ ∃ v, First r.headers "Contact" v) :
    First r'.headers "Contact" (contactValue c f) := by
  simp only [autoFill, Run.bind_eq_done] at h
  obtain ⟨r1, h3, h4⟩ := h
  obtain ⟨a1, _⟩ := addMissing_getAll h3
  obtain ⟨b1, _⟩ := addMissing_getAll h4
  simp only at a1
  have e : r'.headers.getAll "Contact".toList =
      (fillContact c f (if c.fillVia then applyRport r.headers f.ip f.port else r.headers)).getAll "Contact".toList := by
    rw [b1 _ (by rw [sameName_iff]; decide), a1 _ (by rw [sameName_iff]; decide)]
  have hlen : ∀ hs : Headers, (applyRport hs f.ip f.port).inner.length = hs.inner.length := by
    intro hs
    unfold applyRport
    split
    · rfl
    · rename_i top ht
      split
      · rfl
      · simp only []
        split
        · split
          · rename_i hs' hh
            obtain ⟨more, hm⟩ := (get_iff hs "Via".toList top).mp ht
            rcases setOrPush_ok_inner hh with x | ⟨x, _⟩
            · rcases overwriteFirst_spec "Via".toList _ hs.inner with ⟨y, _⟩ | ⟨pre, z, post, e1, _, _, e4⟩
              · rw [y] at x; cases x
              · rw [e4] at x
                simp only [Option.some.injEq] at x
                rw [← x, e1]
                simp
            · exfalso
              rcases overwriteFirst_spec "Via".toList _ hs.inner with ⟨_, y⟩ | ⟨_, _, _, _, _, _, e4⟩
              · rw [selects_iff, getAll_skip hs.inner _ y] at hm
                cases hm
              · rw [x] at e4; cases e4
          · rfl
        · rfl
  generalize hg : (if c.fillVia then applyRport r.headers f.ip f.port else r.headers) = hs at e
  have hroom' : hs.inner.length < 200 ∨ ∃ v, First hs "Contact" v := by
    rw [← hg]
    split
    · rcases hroom with hr | ⟨v, more, hr⟩
      · left; rw [hlen]; exact hr
      · right
        refine ⟨v, more, ?_⟩
        rw [selects_iff] at hr ⊢
        rw [hr, (applyRport_getAll r.headers f.ip f.port).1 _ (by rw [sameName_iff]; decide)]
    · exact hroom
  have tok : Token "Contact".toList := ⟨by decide, by unfold TokenChar; decide⟩
  have ok : ∃ hs', hs.setOrPush "Contact".toList (contactValue c f) = .ok hs' := by
    rcases C24_setOrPush hs "Contact".toList (contactValue c f) tok (by decide) h1 h2 with ⟨_, _, x⟩ | ⟨no, full, _⟩ | ⟨_, _, _, _, _, _, x⟩
    · exact ⟨_, x⟩
    · exfalso
      rcases hroom' with hr | ⟨v, more, hr⟩
      · unfold Headers.len at full; omega
      · rw [selects_iff, getAll_skip hs.inner _ no] at hr
        cases hr
    · exact ⟨_, x⟩
  obtain ⟨hs', hx⟩ := ok
  refine ⟨(hs.getAll "Contact".toList).tail, ?_⟩
  rw [selects_iff, e, fillContact, if_pos hc, hx]
  exact (getAll_setOrPush hx).2.symm

/-! ## Examples and counterexamples -/

def plainSettings : Settings := ⟨true, true, true, false, "bob".toList, "192.0.2.1".toList, 5060, "INVITE, ACK".toList, "siphon".toList⟩
def peer : From := ⟨"198.51.100.7".toList, 5062, some 5060, "udp".toList⟩
def server : Server := ⟨me, me, Mgr.new⟩

/-- what the dispatcher did: `app METHOD`, or a status and where it goes -/
def did (x : Run (List Act)) : Option (List String) :=
  match x with
  | .panic => none
  | .done l => some (l.map (fun
    | .app m d => "app " ++ String.ofList m ++ (if d.isSome then " in dialog" else "")
    | .provisional r => "provisional " ++ toString r.code
    | .final r => "final " ++ toString r.code
    | .inviteFinal b r => "INVITE " ++ String.ofList b ++ " " ++ toString r.code))

def request (m : Method) (l : List (String × String)) : Request := ⟨m, "sip:b@h".toList, hdrs l, []⟩
def usualHeaders (m : String) : List (String × String) :=
  [("Via", "SIP/2.0/UDP client;branch=z9hG4bK1;rport"), ("From", "<sip:a@h>;tag=1"), ("To", "<sip:b@h>"), ("Call-ID", "c1"), ("CSeq", "7 " ++ m)]

example : did (dispatch plainSettings server peer (request .invite (usualHeaders "INVITE")) "t1".toList none none true) =
    some ["provisional 100", "app INVITE"] := by decide +kernel
example : did (dispatch plainSettings server peer (request .bye (usualHeaders "BYE")) "t1".toList none none true) = some ["final 481"] := by
  decide +kernel
example : did (dispatch plainSettings server peer (request .ack (usualHeaders "ACK")) "t1".toList none none true) = some [] := by decide +kernel
example : did (dispatch plainSettings server peer (request .message (usualHeaders "MESSAGE")) "t1".toList none none true) = some ["final 501"] := by
  decide +kernel
example : did (dispatch plainSettings server peer (request .options (usualHeaders "OPTIONS")) "t1".toList none none true) = some ["final 200"] := by
  decide +kernel
example : did (dispatch plainSettings server peer (request .invite [("Via", "SIP/2.0/UDP c;branch=z9hG4bK1")]) "t1".toList none none true) =
    some ["final 400"] := by decide +kernel
example : did (dispatch plainSettings server peer (request .cancel (usualHeaders "CANCEL")) "t1".toList none none true) =
    some ["app CANCEL", "INVITE z9hG4bK1 487"] := by decide +kernel

/-- the server after accepting the call -/
def accepted : Option (Nat × Str × Str × Server) :=
  match acceptInvite server none true (request .invite (usualHeaders "INVITE")) (some "v=0".toList) "t1".toList with
  | .done (.accepted r d, s) => some (r.code, d.id.localTag, d.id.remoteTag, s)
  | _ => none
example : accepted.map (fun x => (x.1, x.2.1, x.2.2.1)) = some (200, "t1".toList, "1".toList) := by decide +kernel
-- the BYE of the accepted call is found
example : accepted.map (fun x => did (dispatch plainSettings x.2.2.2 peer (request .bye
      [("Via", "SIP/2.0/UDP client;branch=z9hG4bK2"), ("From", "<sip:a@h>;tag=1"), ("To", "<sip:b@h>;tag=t1"), ("Call-ID", "c1"), ("CSeq", "8 BYE")])
      "t2".toList none none true)) = some (some ["app BYE in dialog"]) := by decide +kernel

/-- C89 fails in full: a CANCEL is challenged like any other request, though the client may not resubmit one
(RFC 3261 22.1), so with authentication on no call can be cancelled. -/
theorem C89_cancel_challenged : did (dispatch { plainSettings with requireAuth := true } server peer (request .cancel (usualHeaders "CANCEL"))
    "t1".toList (some false) (some ⟨401, "Unauthorized".toList, .empty, []⟩) true) = some ["final 401"] := by decide +kernel

/-- C89 fails in full: an INVITE inside a call the server does not know (its To has a tag) is not answered 481 but
handed to the application as a new call. -/
theorem C89_unknown_call : did (dispatch plainSettings server peer (request .invite
    [("Via", "SIP/2.0/UDP client;branch=z9hG4bK1;rport"), ("From", "<sip:a@h>;tag=1"), ("To", "<sip:b@h>;tag=gone"), ("Call-ID", "c1"), ("CSeq", "7 INVITE")])
    "t1".toList none none true) = some ["provisional 100", "app INVITE"] := by decide +kernel

/-- C89 fails in full: with an IPv6 address the Contact filled in has no brackets, and cannot be read as a URI
(by this library either). -/
theorem C89_ipv6 : contactValue { plainSettings with advertised := "2001:db8::1".toList } peer =
    "<sip:bob@2001:db8::1:5060;transport=udp>".toList ∧
    (SipUri.parse "sip:bob@2001:db8::1:5060;transport=udp".toList).map (fun u => (u.host, u.port)) = none := by decide +kernel

end Siphon.Uas
