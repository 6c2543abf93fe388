import Verif.Bridge.PropsEnd
import Verif.Bridge.SpecReinvite
import Verif.Dialog.PropsCreate
/-!
# C117: re-INVITEs through the bridge
-/
namespace Siphon.Bridge
open HdrSpec TextSpec Spec
open Siphon.Dlg (Dialog DialogId Mgr copyHeader first_iff absent_iff)
open Siphon.Dlg.Spec (First Absent TagOf NoTag Names TargetOf CSeqOf)
open Siphon.Sub.Spec (Target Dotted PortOf)
open Siphon.Sub (pushQuiet)

/-! ## Lemmas: what the legs hold -/

theorem pushQuiet_inner (hs : Headers) (n : String) (v : Str) :
    (pushQuiet hs n v).inner = hs.inner ∨ (pushQuiet hs n v).inner = hs.inner ++ [⟨n.toList, v⟩] := by
  unfold pushQuiet
  split
  · rename_i hs' h
    exact .inr (C24_push _ _ _ _ h)
  · exact .inl rfl

theorem putAll_mem : ∀ (l : List (String × Str)) (hs : Headers), ∀ x ∈ (putAll l hs).inner, x ∈ hs.inner ∨ ∃ p ∈ l, x = ⟨p.1.toList, p.2⟩
  | [], _, x, hx => .inl hx
  | (n, v) :: l, hs, x, hx => by
    rcases putAll_mem l _ x hx with h | ⟨p, hp, e⟩
    · rcases pushQuiet_inner hs n v with e | e
      · exact .inl (e ▸ h)
      · rw [e] at h
        rcases List.mem_append.mp h with h | h
        · exact .inl h
        · exact .inr ⟨(n, v), by simp, by simpa using h⟩
    · exact .inr ⟨p, by simp [hp], e⟩

theorem get_mem_inner {hs : Headers} {n v : Str} (h : hs.get n = some v) : ∃ x ∈ hs.inner, x.nameEq n = true ∧ x.value = v := by
  unfold Headers.get Headers.getHeader at h
  cases hf : hs.inner.find? (·.nameEq n) with
  | none => rw [hf] at h; cases h
  | some x =>
    rw [hf] at h
    cases h
    exact ⟨x, List.mem_of_find?_eq_some hf, by simpa using List.find?_some hf, rfl⟩

/-- a header of a list that was put together -/
theorem get_putAll {l : List (String × Str)} {n v : Str} (h : (putAll l .empty).get n = some v) :
    ∃ p ∈ l, eqIgnoreCase p.1.toList n = true ∧ p.2 = v := by
  obtain ⟨x, hx, hn, hv⟩ := get_mem_inner h
  rcases putAll_mem _ _ x hx with hx | ⟨p, hp, rfl⟩
  · cases hx
  · exact ⟨p, hp, hn, hv⟩

theorem id_get {hs : Headers} {cid frm to cseq : Str} {tag : Option Str} {n v : Str}
    (h : (putAll (idHeaders hs cid frm to cseq tag) .empty).get n = some v) (hn : eqIgnoreCase "Via".toList n = false) :
    ∃ p ∈ [("Call-ID", cid), ("From", frm), ("CSeq", cseq), ("To", match tag with | some t => to ++ ";tag=".toList ++ t | none => to)],
      eqIgnoreCase p.1.toList n = true ∧ p.2 = v := by
  obtain ⟨p, hp, h1, h2⟩ := get_putAll h
  unfold idHeaders at hp
  rcases List.mem_append.mp hp with hp | hp
  · obtain ⟨x, _, rfl⟩ := List.mem_map.mp hp
    rw [hn] at h1
    cases h1
  · exact ⟨p, hp, h1, h2⟩

/-- what the history says about a leg -/
structure LegOk (seen : List Ev) (l : Leg) : Prop where
  placed : ∃ look f now i, Ev.invite l.caller look f now i ∈ seen ∧ f.callId = l.outId
  cseq : l.invite.headers.get "CSeq".toList = some "1 INVITE".toList
  uac : ∀ d, l.uac = some d → d.localCSeq = 1 ∧
    WithCallee seen l.outId d.id.callId d.id.localTag d.id.remoteTag d.remoteUri d.remoteTarget ∧ ∃ t, SipUri.parse t = some d.remoteTarget
  uas : ∀ d, l.uas = some d → d.localCSeq = 0 ∧
    WithCaller seen l.caller l.outId d.id.callId d.id.localTag d.id.remoteTag d.remoteUri d.remoteTarget ∧ ∃ t, SipUri.parse t = some d.remoteTarget

/-- what the history says about the state -/
structure Hist (seen : List Ev) (s : St) : Prop where
  legs : ∀ e ∈ s.legs, e.1 = e.2.outId ∧ e.2.chan < s.next ∧ LegOk seen e.2 ∧ ∀ c, s.chans.get e.2.chan = some c → c.outId = e.1
  chans : ∀ k c, s.chans.get k = some c → k < s.next ∧ ∀ r ∈ c.queue, r.code = 487 ∨ (Ev.response r ∈ seen ∧ First r.headers "Call-ID" c.outId)

theorem accepted_more {a b : List Ev} (h : ∀ e ∈ a, e ∈ b) {i : Str} {r : Response} (ha : Accepted a i r) : Accepted b i r :=
  ⟨h _ ha.1, ha.2⟩

theorem legOk_more {a b : List Ev} (h : ∀ e ∈ a, e ∈ b) {l : Leg} (hl : LegOk a l) : LegOk b l := by
  refine ⟨?_, hl.cseq, ?_, ?_⟩
  · obtain ⟨look, f, now, i, h1, h2⟩ := hl.placed
    exact ⟨look, f, now, i, h _ h1, h2⟩
  · intro d hd
    obtain ⟨h1, ⟨r, v, h2, h3⟩, h4⟩ := hl.uac d hd
    exact ⟨h1, ⟨r, v, accepted_more h h2, h3⟩, h4⟩
  · intro d hd
    obtain ⟨h1, ⟨r, t, v, to, h2, h3⟩, h4⟩ := hl.uas d hd
    exact ⟨h1, ⟨r, t, v, to, accepted_more h h2, h3⟩, h4⟩

theorem hist_more {a b : List Ev} (h : ∀ e ∈ a, e ∈ b) {s : St} (hs : Hist a s) : Hist b s := by
  refine ⟨?_, ?_⟩
  · intro e he
    obtain ⟨h1, h2, h3, h4⟩ := hs.legs e he
    exact ⟨h1, h2, legOk_more h h3, h4⟩
  · intro k c hk
    obtain ⟨h1, h2⟩ := hs.chans k c hk
    refine ⟨h1, fun r hr => ?_⟩
    rcases h2 r hr with h3 | ⟨h3, h4⟩
    · exact .inl h3
    · exact .inr ⟨h _ h3, h4⟩

theorem target_parsed {hs : Headers} {other u : SipUri} {t : Str} (ho : SipUri.parse t = some other) (h : TargetOf hs other u) :
    ∃ t, SipUri.parse t = some u := by
  rcases h with ⟨v, _, ha⟩ | ⟨_, rfl⟩
  · rw [Dlg.addrUri_iff] at ha
    unfold Dlg.parseUriFromHeader at ha
    split at ha
    · split at ha
      · cases ha
      · exact ⟨_, ha⟩
    · split at ha
      · cases ha
      · exact ⟨_, ha⟩
  · exact ⟨t, ho⟩

theorem uac_ok {seen : List Ev} {l : Leg} (hl : LegOk seen l) {r : Response} (hr : Accepted seen l.outId r) {tg : Str} {d : Dialog}
    (h : uacDialog { l with tag := some tg } r = .done (some d)) :
    d.localCSeq = 1 ∧ WithCallee seen l.outId d.id.callId d.id.localTag d.id.remoteTag d.remoteUri d.remoteTarget ∧
      ∃ t, SipUri.parse t = some d.remoteTarget := by
  unfold uacDialog at h
  split at h
  · rename_i lo c h1 h2
    obtain ⟨n1, n2, _, n4, _⟩ := (Dlg.C90_uac _ _ _ _ d (by rw [h]; simp)).mp h
    have hc1 : CSeqOf l.invite.headers 1 := by
      rw [← Dlg.cseqNumber_iff]
      unfold Dlg.cseqNumber
      rw [hl.cseq]
      decide +kernel
    cases hv : r.headers.get "Contact".toList with
    | none => rw [hv] at h2; cases h2
    | some v =>
      rw [hv] at h2
      refine ⟨Dlg.cseqOf_unique n4 hc1, ⟨r, v, hr, n1, (first_iff _ _ _).mpr hv, ?_, ?_⟩, ?_⟩
      · rw [n2.remoteUri]; exact (uriOf_iff _ _).mp h2
      · rw [n2.remoteUri]; exact n2.target
      · exact target_parsed (t := uriIn v) h2 n2.target
  · cases h

theorem uas_ok {seen : List Ev} {cfg : Cfg} {l l' : Leg} (he : l'.caller = l.caller) {r : Response} (hr : Accepted seen l.outId r) {t : Str} (ht : CalleeTag r t)
    {cid frm to cseq : Str} (h1 : l.caller.headers.get "Call-ID".toList = some cid) (h2 : l.caller.headers.get "From".toList = some frm)
    (h3 : l.caller.headers.get "To".toList = some to) {d : Dialog}
    (h : uasDialog cfg l' frm (putAll (idHeaders l.caller.headers cid frm to cseq (some t)) .empty) r = .done (some d)) :
    d.localCSeq = 0 ∧ WithCaller seen l.caller l.outId d.id.callId d.id.localTag d.id.remoteTag d.remoteUri d.remoteTarget ∧
      ∃ t, SipUri.parse t = some d.remoteTarget := by
  unfold uasDialog at h
  split at h
  · rename_i c b e1 e2
    obtain ⟨⟨n1, ⟨v, n2, n2'⟩, w, n3, n3'⟩, n4, _, _, _, _, n5, _⟩ := (Dlg.C90_uas _ _ _ _ d (by rw [h]; simp)).mp h
    rw [first_iff] at n1 n2 n3
    have m1 : d.id.callId = cid := by
      obtain ⟨p, hp, q1, q2⟩ := id_get n1 (by decide)
      simp only [List.mem_cons, List.not_mem_nil, or_false] at hp
      rcases hp with rfl | rfl | rfl | rfl
      · exact q2.symm
      all_goals exact absurd q1 (by simp only; decide)
    have m2 : v = frm := by
      obtain ⟨p, hp, q1, q2⟩ := id_get n2 (by decide)
      simp only [List.mem_cons, List.not_mem_nil, or_false] at hp
      rcases hp with rfl | rfl | rfl | rfl
      · exact absurd q1 (by simp only; decide)
      · exact q2.symm
      all_goals exact absurd q1 (by simp only; decide)
    have m3 : w = to ++ ";tag=".toList ++ t := by
      obtain ⟨p, hp, q1, q2⟩ := id_get n3 (by decide)
      simp only [List.mem_cons, List.not_mem_nil, or_false] at hp
      rcases hp with rfl | rfl | rfl | rfl
      · exact absurd q1 (by simp only; decide)
      · exact absurd q1 (by simp only; decide)
      · exact absurd q1 (by simp only; decide)
      · exact q2.symm
    subst m2 m3
    have tg := n4.target
    rw [he] at tg
    refine ⟨n5, ⟨r, t, v, to, hr, ht, ?_, (first_iff _ _ _).mpr h2, n2', ?_, (first_iff _ _ _).mpr h3, n3', ?_⟩, ?_⟩
    · rw [m1]; exact (first_iff _ _ _).mpr h1
    · rw [n4.remoteUri]; exact (uriOf_iff _ _).mp e1
    · rw [n4.remoteUri]; exact tg
    · exact target_parsed (t := uriIn v) e1 n4.target
  · cases h

theorem transform_legOk {seen : List Ev} {cfg : Cfg} {l : Leg} (hl : LegOk seen l) (m : Mgr) {r : Response}
    (hr : r.code = 487 ∨ (Ev.response r ∈ seen ∧ First r.headers "Call-ID" l.outId)) : LegOk seen (transform cfg l m r).2.1 := by
  obtain ⟨s1, s2, s3, s4, s5, s6, s7⟩ := transform_static cfg l m r
  have key : ∀ d, ((transform cfg l m r).2.1.uac = some d → l.uac = some d ∨ d.localCSeq = 1 ∧
        WithCallee seen l.outId d.id.callId d.id.localTag d.id.remoteTag d.remoteUri d.remoteTarget ∧ ∃ t, SipUri.parse t = some d.remoteTarget) ∧
      ((transform cfg l m r).2.1.uas = some d → l.uas = some d ∨ d.localCSeq = 0 ∧
        WithCaller seen l.caller l.outId d.id.callId d.id.localTag d.id.remoteTag d.remoteUri d.remoteTarget ∧
        ∃ t, SipUri.parse t = some d.remoteTarget) := by
    intro d
    unfold transform
    split
    · rename_i cid frm to cseq h1 h2 h3 h4
      simp only
      split
      · exact ⟨.inl, .inl⟩
      · rename_i t ht
        split
        · rename_i hc
          have hacc : Accepted seen l.outId r := by
            rcases hr with hr | ⟨hr, hr'⟩
            · omega
            · exact ⟨hr, hr', hc⟩
          have htag := (calleeTag_some r t).mp ht
          have est : ((establish cfg l m frm t (putAll (idHeaders l.caller.headers cid frm to cseq (some t)) .empty) r).2.1.uac = some d →
                l.uac = some d ∨ d.localCSeq = 1 ∧
                WithCallee seen l.outId d.id.callId d.id.localTag d.id.remoteTag d.remoteUri d.remoteTarget ∧ ∃ t, SipUri.parse t = some d.remoteTarget) ∧
              ((establish cfg l m frm t (putAll (idHeaders l.caller.headers cid frm to cseq (some t)) .empty) r).2.1.uas = some d →
                l.uas = some d ∨ d.localCSeq = 0 ∧
                WithCaller seen l.caller l.outId d.id.callId d.id.localTag d.id.remoteTag d.remoteUri d.remoteTarget ∧
                ∃ t, SipUri.parse t = some d.remoteTarget) := by
            unfold establish
            simp only
            split
            · exact ⟨.inl, .inl⟩
            · rename_i od hu
              cases od with
              | none =>
                simp only
                split
                · exact ⟨.inl, .inl⟩
                · rename_i d' hd'
                  refine ⟨.inl, ?_⟩
                  intro e
                  cases e
                  exact .inr (uas_ok (l := l) rfl hacc htag h1 h2 h3 hd')
                · exact ⟨.inl, .inl⟩
              | some d0 =>
                simp only
                have hu' := uac_ok hl hacc hu
                split
                · refine ⟨?_, .inl⟩
                  intro e; cases e; exact .inr hu'
                · rename_i d' hd'
                  refine ⟨?_, ?_⟩
                  · intro e; cases e; exact .inr hu'
                  · intro e
                    cases e
                    exact .inr (uas_ok (l := l) rfl hacc htag h1 h2 h3 hd')
                · refine ⟨?_, .inl⟩
                  intro e; cases e; exact .inr hu'
          rw [ht] at *
          split
          · rename_i e; rw [e] at est; exact est
          · rename_i e; rw [e] at est; exact est
        · exact ⟨.inl, .inl⟩
    · exact ⟨.inl, .inl⟩
  refine ⟨?_, by rw [s5]; exact hl.cseq, ?_, ?_⟩
  · rw [s4, s1]; exact hl.placed
  · intro d hd
    rw [s1]
    rcases (key d).1 hd with h | h
    · exact hl.uac d h
    · exact h
  · intro d hd
    rw [s1, s4]
    rcases (key d).2 hd with h | h
    · exact hl.uas d h
    · exact h

/-! ## Lemmas: the invariant -/

theorem hist_tick {seen : List Ev} {s : St} (h : Hist seen s) : Hist seen { s with next := s.next + 1 } := by
  refine ⟨?_, ?_⟩
  · intro e he
    obtain ⟨h1, h2, h3⟩ := h.legs e he
    exact ⟨h1, Nat.lt_succ_of_lt h2, h3⟩
  · intro k c hk
    obtain ⟨h1, h2⟩ := h.chans k c hk
    exact ⟨Nat.lt_succ_of_lt h1, h2⟩

theorem hist_fewer {seen : List Ev} {s : St} (h : Hist seen s) {l : Tbl Str Leg} (hl : ∀ e ∈ l, e ∈ s.legs) : Hist seen { s with legs := l } :=
  ⟨fun e he => h.legs e (hl e he), h.chans⟩

theorem hist_enqueue {seen : List Ev} {s : St} (h : Hist seen s) {k : Nat} {r : Response}
    (hr : ∀ c, s.chans.get k = some c → r.code = 487 ∨ (Ev.response r ∈ seen ∧ First r.headers "Call-ID" c.outId)) : Hist seen (enqueue s k r) := by
  refine ⟨?_, ?_⟩
  · intro e he
    obtain ⟨h1, h2, h3, h4⟩ := h.legs e he
    refine ⟨h1, h2, h3, ?_⟩
    intro c hc
    have hc : (s.chans.update k (fun c => if c.live then { c with queue := c.queue ++ [r] } else c)).get _ = some c := hc
    rcases get_update_cases hc with ⟨_, hc⟩ | ⟨ek, w, hw, rfl⟩
    · exact h4 c hc
    · have := h4 w (by rw [ek]; exact hw)
      split <;> exact this
  · intro k' c hc
    have hc : (s.chans.update k (fun c => if c.live then { c with queue := c.queue ++ [r] } else c)).get _ = some c := hc
    rcases get_update_cases hc with ⟨_, hc⟩ | ⟨ek, w, hw, rfl⟩
    · exact h.chans k' c hc
    · obtain ⟨g1, g2⟩ := h.chans k w hw
      refine ⟨ek ▸ g1, ?_⟩
      split
      · intro x hx
        rcases List.mem_append.mp hx with hx | hx
        · exact g2 x hx
        · rw [List.mem_singleton] at hx
          subst hx
          exact hr w hw
      · exact g2

/-- one turn of a relay task -/
theorem hist_turn {seen : List Ev} {s : St} (h : Hist seen s) {k : Nat} {c : Chan} (hk : s.chans.get k = some c) {rest : List Response}
    (hq : ∀ r ∈ rest, r ∈ c.queue) (live : Bool) :
    Hist seen { s with chans := s.chans.update k (fun c => { c with queue := rest, live := live }) } := by
  refine ⟨?_, ?_⟩
  · intro e he
    obtain ⟨h1, h2, h3, h4⟩ := h.legs e he
    refine ⟨h1, h2, h3, ?_⟩
    intro c' hc
    simp only at hc
    rcases get_update_cases hc with ⟨_, hc⟩ | ⟨ek, w, hw, rfl⟩
    · exact h4 c' hc
    · exact h4 w (by rw [ek]; exact hw)
  · intro k' c' hc
    simp only at hc
    rcases get_update_cases hc with ⟨_, hc⟩ | ⟨ek, w, hw, rfl⟩
    · exact h.chans k' c' hc
    · rw [hk] at hw
      cases hw
      obtain ⟨g1, g2⟩ := h.chans k c hk
      exact ⟨ek ▸ g1, fun r hr => g2 r (hq r hr)⟩

theorem hist_leg {seen : List Ev} {s : St} (h : Hist seen s) {k : Str} {l l' : Leg} (hg : s.legs.get k = some l) (hst : Static l l')
    (hok : LegOk seen l') (m : Mgr) : Hist seen { s with legs := s.legs.update k (fun _ => l'), mgr := m } := by
  refine ⟨?_, h.chans⟩
  intro e he
  simp only at he
  rcases mem_update he with ⟨he, _⟩ | ⟨v, hv, rfl⟩
  · exact h.legs e he
  · obtain ⟨h1, h2, h3, h4⟩ := h.legs _ (get_mem _ hg)
    obtain ⟨s1, s2, _⟩ := hst
    simp only at h1 h2 h3 h4 ⊢
    exact ⟨h1.trans s1.symm, by rw [s2]; exact h2, hok, by rw [s2]; exact h4⟩

theorem hist_step (cfg : Cfg) {seen : List Ev} {s : St} (h : Hist seen s) (e : Ev) : Hist (seen ++ [e]) (step cfg s e).1 := by
  have hm : ∀ x ∈ seen, x ∈ seen ++ [e] := fun x hx => by simp [hx]
  have h := hist_more hm h
  have he : e ∈ seen ++ [e] := by simp
  revert h he
  generalize seen ++ [e] = seen
  intro h he
  cases e with
  | invite q look f n i =>
    show Hist seen (onInvite cfg s q look f n i).1
    unfold onInvite
    simp only
    split
    · exact hist_tick h
    · split <;> exact hist_tick h
    · split
      · exact hist_tick h
      · split
        · exact hist_tick h
        · exact hist_tick h
        · rename_i leg hp
          obtain ⟨l1, l2, l3, l4, l5⟩ := placed_leg hp
          obtain ⟨_, _, _, _, _, _, _, _, _, _, _, _, p7, _, p9, p10⟩ := placed_parts hp
          obtain ⟨_, _, _, _, i5⟩ := createInvite_inner p7
          refine ⟨?_, ?_⟩
          · intro x hx
            rcases mem_insert hx with rfl | hx
            · refine ⟨rfl, by simp only; omega, ⟨⟨look, f, n, i, by rw [l4]; exact he, l1.symm⟩, ?_, ?_, ?_⟩, ?_⟩
              · rw [get_lines i5]
                unfold inviteLines
                simp only [List.cons_append, List.nil_append, get_mk_cons]
                rfl
              · intro d hd; simp only [p9] at hd; cases hd
              · intro d hd; simp only [p10] at hd; cases hd
              · intro c hc
                simp only [l2] at hc
                rw [Tbl.get_insert_self] at hc
                cases hc
                rfl
            · obtain ⟨h1, h2, h3, h4⟩ := h.legs x hx
              refine ⟨h1, by simp only; omega, h3, ?_⟩
              intro c hc
              simp only at hc
              rw [Tbl.get_insert_ne _ _ (by omega)] at hc
              exact h4 c hc
          · intro k c hc
            simp only at hc
            by_cases ek : k = s.next
            · subst ek
              rw [Tbl.get_insert_self] at hc
              cases hc
              exact ⟨by simp only; omega, fun r hr => by cases hr⟩
            · rw [Tbl.get_insert_ne _ _ ek] at hc
              obtain ⟨g1, g2⟩ := h.chans k c hc
              exact ⟨by simp only; omega, g2⟩
  | ack q i br => exact h
  | bye q i f =>
    show Hist seen (onBye cfg s q i f).1
    unfold onBye
    simp only
    split
    · split
      · exact hist_tick h
      · exact hist_fewer (hist_tick h) (fun _ hx => mem_remove hx)
    · split
      · exact hist_tick h
      · split
        · exact hist_tick h
        · split
          · exact hist_fewer (hist_tick h) (fun _ hx => mem_remove hx)
          · split <;> exact hist_fewer (hist_tick h) (fun _ hx => mem_remove hx)
  | cancel q i f =>
    show Hist seen (onCancel cfg s q i f).1
    unfold onCancel
    simp only
    split
    · exact hist_tick h
    · split
      · exact hist_tick h
      · split
        · exact hist_tick h
        · rename_i leg _
          have := hist_enqueue (hist_tick h) (k := leg.chan) (r := terminated leg.caller) (fun _ _ => .inl rfl)
          exact ⟨this.legs, this.chans⟩
  | cancelOn k i =>
    show Hist seen (onCancelOn s k i).1
    unfold onCancelOn
    split
    · exact h
    · simp only
      split
      · split
        · exact ⟨h.legs, h.chans⟩
        · exact ⟨fun x hx => h.legs x (mem_remove hx), h.chans⟩
      · split <;> exact ⟨h.legs, h.chans⟩
  | response r =>
    show Hist seen (onResponse s r)
    unfold onResponse
    split
    · exact h
    · rename_i cid hcid
      split
      · exact h
      · rename_i leg hg
        refine hist_enqueue h ?_
        intro c hc
        obtain ⟨h1, _, _, h4⟩ := h.legs _ (get_mem _ hg)
        have := h4 c hc
        simp only at this
        rw [this]
        exact .inr ⟨he, (first_iff _ _ _).mpr hcid⟩
  | relay k =>
    show Hist seen (onRelay cfg s k).1
    unfold onRelay
    split
    · exact h
    · rename_i c hc
      split
      · rename_i r rest _ hq
        have hmem : ∀ x ∈ rest, x ∈ c.queue := fun x hx => by rw [hq]; simp [hx]
        simp only
        split
        · exact hist_turn h hc hmem false
        · rename_i leg hg
          have hr := (h.chans k c hc).2 r (by rw [hq]; simp)
          obtain ⟨h1, _, h3, _⟩ := h.legs _ (get_mem _ hg)
          simp only at h1
          rw [h1] at hr
          have hok := transform_legOk (cfg := cfg) h3 s.mgr hr
          have hst := transform_static cfg leg s.mgr r
          have hlg : ∀ (l : Leg) (m : Mgr) (live : Bool), Static leg l → LegOk seen l →
              Hist seen { s with chans := s.chans.update k (fun c => { c with queue := rest, live := live }), legs := s.legs.update c.outId (fun _ => l), mgr := m } :=
            fun l m live h1 h2 => hist_turn (hist_leg h hg h1 h2 m) hc hmem live
          split
          · rename_i leg' m e
            rw [e] at hok hst
            exact hlg leg' m false hst hok
          · exact hist_fewer (hist_turn h hc hmem false) (fun _ hx => mem_remove hx)
          · rename_i r' leg' m e
            rw [e] at hok hst
            split
            · exact hlg leg' m true hst hok
            · split
              · exact hlg leg' m false hst hok
              · exact hist_fewer (hlg leg' m false hst hok) (fun _ hx => mem_remove hx)
      · exact h
  | sweep n => exact hist_fewer h (fun _ hx => (List.mem_filter.mp hx).1)

theorem hist_run (cfg : Cfg) : ∀ (es seen : List Ev) (s : St), Hist seen s → Hist (seen ++ es) (run cfg s es).1
  | [], seen, s, h => by rw [List.append_nil]; exact h
  | e :: es, seen, s, h => by
    rw [run_cons]
    have := hist_run cfg es (seen ++ [e]) _ (hist_step cfg h e)
    rw [List.append_assoc] at this
    exact this

theorem hist (cfg : Cfg) (es : List Ev) : Hist es (run cfg init es).1 :=
  hist_run cfg es [] init ⟨fun e he => (by cases he), fun k c hc => (by cases hc)⟩

/-- what is put out in a history is put out at one event -/
theorem run_out (cfg : Cfg) : ∀ (es : List Ev) (s : St) (o : Out), o ∈ (run cfg s es).2 →
    ∃ pre e post, es = pre ++ e :: post ∧ o ∈ (step cfg (run cfg s pre).1 e).2
  | [], _, _, h => by cases h
  | e :: es, s, o, h => by
    rw [run_cons] at h
    rcases List.mem_append.mp h with h | h
    · exact ⟨[], e, es, rfl, h⟩
    · obtain ⟨pre, e', post, h1, h2⟩ := run_out cfg es _ o h
      exact ⟨e :: pre, e', post, by rw [h1]; rfl, by rw [run_cons]; exact h2⟩

/-! ## Lemmas: the re-INVITE -/

/-- the headers of the immediate answer -/
def okLines (cfg : Cfg) (rq : Request) : List (String × Str) :=
  copyHeader rq.headers "Via" ++ copyHeader rq.headers "From" ++ copyHeader rq.headers "To" ++
    copyHeader rq.headers "Call-ID" ++ copyHeader rq.headers "CSeq" ++ [("Contact", bracket cfg.localUri)] ++
    (if rq.body.isEmpty then [("Content-Length", "0".toList)]
     else copyHeader rq.headers "Content-Type" ++ [("Content-Length", showNat rq.body.length)])

theorem byDialog_some {s : St} {i : Nat} {get : Leg → Option Dialog} {id : DialogId} {l : Leg} (h : byDialog s i get id = some l) :
    (∃ k, (k, l) ∈ s.legs) ∧ ∃ d, get l = some d ∧ d.id = id := by
  have := choose_mem h
  obtain ⟨h1, h2⟩ := List.mem_filter.mp this
  obtain ⟨e, he, rfl⟩ := List.mem_map.mp h1
  refine ⟨⟨e.1, he⟩, ?_⟩
  split at h2
  · rename_i d hd
    exact ⟨d, hd, by simpa using h2⟩
  · cases h2

/-- an INVITE that is accepted at once -/
theorem reinvited {cfg : Cfg} {s : St} {q : Request} {look : Lookup} {f : Fresh} {now i t : Nat} {ok : Response}
    (h : Out.reply t ok ∈ (step cfg s (.invite q look f now i)).2) (hc : 200 ≤ ok.code ∧ ok.code < 300) :
    ∃ d l o me sdp out a t0, s.mgr.findByRequest q.headers = .done (some d) ∧ t0.code = 100 ∧ t = s.next ∧
      ((byDialog s i (·.uac) d.id = some l ∧ l.uas = some o) ∨
       (byDialog s i (·.uac) d.id = none ∧ byDialog s i (·.uas) d.id = some l ∧ l.uac = some o)) ∧
      SipUri.parse cfg.localUri = some me ∧ sdp = (if q.body.isEmpty then none else utf8Decode q.body) ∧
      Dlg.create ⟨me, me, none, cfg.agent⟩ f.branch o (.reinvite sdp) = .done out ∧ socketOf o.remoteTarget = some a ∧
      ok = ⟨200, "OK".toList, putAll (okLines cfg q) .empty, q.body⟩ ∧
      (step cfg s (.invite q look f now i)).2 = [.reply t t0, .tcp a out, .reply t ok] := by
  have hst : (step cfg s (.invite q look f now i)).2 = (onInvite cfg s q look f now i).2 := rfl
  rw [hst] at h ⊢
  unfold onInvite at h ⊢
  simp only at h ⊢
  cases hf : s.mgr.findByRequest q.headers with
  | panic => rw [hf] at h; cases h
  | done od =>
    rw [hf] at h
    cases od with
    | none =>
      simp only at h
      cases hcr : Uas.createResponse q.headers 100 "Trying".toList f.reply with
      | panic => rw [hcr] at h; cases h
      | done t0 =>
        have h0 := create_code hcr
        rw [hcr] at h
        simp only at h
        split at h
        · simp only [List.mem_singleton, Out.reply.injEq] at h
          rw [h.2] at hc
          omega
        · rename_i r hr
          simp only [List.mem_cons, List.not_mem_nil, or_false, Out.reply.injEq] at h
          rcases h with ⟨_, h⟩ | ⟨_, h⟩
          · rw [h] at hc; omega
          · have : r.code = 404 := by
              unfold placeCall at hr
              split at hr
              · cases hr
              · split at hr
                · cases hr; rfl
                · split at hr
                  · split at hr <;> cases hr
                  · cases hr
            rw [h] at hc
            omega
        · rename_i leg hr
          rcases List.mem_cons.mp h with h | h
          · simp only [Out.reply.injEq] at h
            rw [h.2] at hc
            omega
          · unfold sendTcp at h
            split at h
            · simp at h
            · cases h
    | some d =>
      simp only at h ⊢
      cases hcr : Uas.createResponse q.headers 100 "Trying".toList f.reply with
      | panic => rw [hcr] at h; cases h
      | done t0 =>
        have h0 := create_code hcr
        rw [hcr] at h
        simp only at h ⊢
        rcases List.mem_cons.mp h with h | h
        · simp only [Out.reply.injEq] at h
          rw [h.2] at hc
          omega
        · generalize hre : reinvite cfg { legs := s.legs, chans := s.chans, mgr := s.mgr, next := s.next + 1, cancels := s.cancels } i s.next f.branch d q = re at h ⊢
          unfold reinvite at hre
          simp only at hre
          have hb : ∀ get id, byDialog { legs := s.legs, chans := s.chans, mgr := s.mgr, next := s.next + 1, cancels := s.cancels } i get id =
            byDialog s i get id := fun _ _ => rfl
          rw [hb, hb] at hre
          split at hre
          · rename_i o me ho hme
            split at hre
            · rename_i out a hout ha
              subst hre
              simp only [List.mem_cons, List.not_mem_nil, or_false, reduceCtorEq, false_or, Out.reply.injEq] at h
              obtain ⟨rfl, rfl⟩ := h
              have hl : ∃ l, (byDialog s i (·.uac) d.id = some l ∧ l.uas = some o) ∨
                  (byDialog s i (·.uac) d.id = none ∧ byDialog s i (·.uas) d.id = some l ∧ l.uac = some o) := by
                split at ho
                · rename_i l hl
                  exact ⟨l, .inl ⟨hl, ho⟩⟩
                · rename_i hn
                  cases hl : byDialog s i (·.uas) d.id with
                  | none => rw [hl] at ho; cases ho
                  | some l => rw [hl] at ho; exact ⟨l, .inr ⟨hn, rfl, ho⟩⟩
              obtain ⟨l, hl⟩ := hl
              exact ⟨d, l, o, me, _, out, a, t0, rfl, h0, rfl, hl, hme, rfl, hout, ha, rfl, rfl⟩
            · subst hre; cases h
          · subst hre; cases h

theorem found_names {m : Mgr} {hs : Headers} {d : Dialog} (h : m.findByRequest hs = .done (some d)) (hk : ∀ e ∈ m.dialogs, e.1 = e.2.id) :
    Names hs d.id.callId d.id.remoteTag d.id.localTag := by
  unfold Mgr.findByRequest at h
  split at h
  · cases h
  · cases h
  · rename_i id hid
    have hn := Dlg.fromRequest_some hid
    simp only [Run.done.injEq] at h
    have := hk _ (get_mem _ h)
    simp only at this
    rw [← this]
    exact hn

/-- the dialogs only change when one is stored -/
theorem mgr_transform (P : Mgr → Prop) (hP : ∀ m d, P m → P (keepDialog m d)) (cfg : Cfg) (l : Leg) {m : Mgr} (h : P m) (r : Response) :
    P (transform cfg l m r).2.2 := by
  have est : ∀ frm t hs, P (establish cfg l m frm t hs r).2.2 := by
    intro frm t hs
    unfold establish
    simp only
    split
    · exact h
    · rename_i od _
      cases od with
      | none =>
        simp only
        split
        · exact h
        · exact hP _ _ h
        · exact h
      | some d =>
        simp only
        split
        · exact hP _ _ h
        · exact hP _ _ (hP _ _ h)
        · exact hP _ _ h
  unfold transform
  split
  · simp only
    split
    · exact h
    · split
      · split
        · rename_i e; exact Eq.mp (congrArg (fun x => P x.2.2) e) (est _ _ _)
        · rename_i e; exact Eq.mp (congrArg (fun x => P x.2.2) e) (est _ _ _)
      · exact h
  · exact h

theorem mgr_step (P : Mgr → Prop) (hP : ∀ m d, P m → P (keepDialog m d)) (cfg : Cfg) {s : St} (h : P s.mgr) (e : Ev) :
    P (step cfg s e).1.mgr := by
  cases e with
  | invite q look f n i =>
    show P (onInvite cfg s q look f n i).1.mgr
    unfold onInvite
    simp only
    split
    · exact h
    · split <;> exact h
    · split
      · exact h
      · split <;> exact h
  | ack q i br => exact h
  | bye q i f =>
    show P (onBye cfg s q i f).1.mgr
    unfold onBye
    simp only
    split
    · split <;> exact h
    · split
      · exact h
      · split
        · exact h
        · split
          · exact h
          · split <;> exact h
  | cancel q i f =>
    show P (onCancel cfg s q i f).1.mgr
    unfold onCancel
    simp only
    split
    · exact h
    · split
      · exact h
      · split <;> exact h
  | cancelOn k i =>
    show P (onCancelOn s k i).1.mgr
    unfold onCancelOn
    split
    · exact h
    · simp only
      split
      · split <;> exact h
      · split <;> exact h
  | response r =>
    show P (onResponse s r).mgr
    unfold onResponse
    split
    · exact h
    · split <;> exact h
  | relay k =>
    show P (onRelay cfg s k).1.mgr
    unfold onRelay
    split
    · exact h
    · split
      · rename_i r _ _ _
        simp only
        split
        · exact h
        · rename_i leg _
          have ht := mgr_transform P hP cfg leg h r
          split
          · rename_i e; rw [e] at ht; exact ht
          · exact h
          · rename_i e
            rw [e] at ht
            split
            · exact ht
            · split <;> exact ht
      · exact h
  | sweep n => exact h

theorem mgr_run (P : Mgr → Prop) (hP : ∀ m d, P m → P (keepDialog m d)) (cfg : Cfg) : ∀ (es : List Ev) (s : St), P s.mgr → P (run cfg s es).1.mgr
  | [], _, h => h
  | e :: es, s, h => by
    rw [run_cons]
    exact mgr_run P hP cfg es _ (mgr_step P hP cfg h e)

theorem keepDialog_cases (m : Mgr) (d : Dialog) : keepDialog m d = m ∨ m.dialogs.length < 10000 ∧ keepDialog m d = ⟨m.dialogs.insert d.id d⟩ := by
  unfold keepDialog Mgr.insert
  split
  · exact .inl rfl
  · split
    · exact .inl rfl
    · rename_i h _
      exact .inr ⟨by unfold Dlg.MAX_CONFIRMED_DIALOGS at h; omega, rfl⟩

theorem keyed (cfg : Cfg) (es : List Ev) : ∀ e ∈ (run cfg init es).1.mgr.dialogs, e.1 = e.2.id := by
  refine mgr_run (fun m => ∀ e ∈ m.dialogs, e.1 = e.2.id) ?_ cfg es init (fun e he => by cases he)
  intro m d h
  rcases keepDialog_cases m d with e | ⟨_, e⟩
  · rw [e]; exact h
  · rw [e]
    intro x hx
    rcases mem_insert hx with rfl | hx
    · rfl
    · exact h x hx

/-! ## The properties -/

/-- **C117 (partial).** Whenever an INVITE within a call is accepted, at any point of any history, the other party of the same call has
just been sent an INVITE: it names the dialog with that party, goes to its address and has the sender's body.  Missing: that the
sender's answer is the other party's (`C117_echo`), that the number grows (`C117_no_third`), and calls whose dialogs were not stored. -/
theorem C117_passed_partial {cfg : Cfg} {es : List Ev} {q : Request} {look : Lookup} {f : Fresh} {now i t : Nat} {ok : Response}
    (h : Out.reply t ok ∈ (step cfg (run cfg init es).1 (.invite q look f now i)).2) (hc : 200 ≤ ok.code ∧ ok.code < 300) :
    ∃ t0 a out c own peer uri target n x y z w p rest,
      (step cfg (run cfg init es).1 (.invite q look f now i)).2 = [.reply t t0, .tcp a out, .reply t ok] ∧ t0.code = 100 ∧
      OtherSide es q c own peer uri target n ∧
      Dotted target.host x y z w ∧ PortOf target p ∧ a = (.v4 x y z w, p) ∧
      out.method = .invite ∧ out.uri = target.raw ∧ TextBody q.body out.body rest ∧
      Lines out.headers ([("Via", "SIP/2.0/UDP placeholder;branch=".toList ++ f.branch),
        ("From", '<' :: cfg.localUri ++ ">;tag=".toList ++ own), ("To", '<' :: uri.raw ++ ">;tag=".toList ++ peer), ("Call-ID", c),
        ("CSeq", showNat n ++ " INVITE".toList), ("Contact", '<' :: cfg.localUri ++ ">".toList), ("Max-Forwards", "70".toList),
        ("User-Agent", cfg.agent)] ++ rest) := by
  obtain ⟨d, l, o, me, sdp, out, ⟨aa, ap⟩, t0, hd, h0, _, hl, hme, hsdp, hout, ha, _, hall⟩ := reinvited h hc
  have H := hist cfg es
  have hn := found_names hd (keyed cfg es)
  have hmeraw := (UriP.parse_sound hme).2
  have hside : ∃ n, OtherSide es q o.id.callId o.id.localTag o.id.remoteTag o.remoteUri o.remoteTarget n ∧ o.localCSeq + 1 = n ∧
      ∃ t, SipUri.parse t = some o.remoteTarget := by
    rcases hl with ⟨h1, h2⟩ | ⟨_, h1, h2⟩
    · obtain ⟨⟨k, hk⟩, d', hd', he⟩ := byDialog_some h1
      obtain ⟨_, _, hok, _⟩ := H.legs _ hk
      obtain ⟨look', f', now', i', hp, hid⟩ := hok.placed
      obtain ⟨u1, u2, _⟩ := hok.uac d' hd'
      obtain ⟨v1, v2, v3⟩ := hok.uas o h2
      rw [he] at u2
      simp only at *
      rw [← hid] at u2 v2
      exact ⟨1, ⟨l.caller, look', f', now', i', _, _, _, _, _, hp, hn, .inr ⟨u2, v2, rfl⟩⟩, by rw [v1], v3⟩
    · obtain ⟨⟨k, hk⟩, d', hd', he⟩ := byDialog_some h1
      obtain ⟨_, _, hok, _⟩ := H.legs _ hk
      obtain ⟨look', f', now', i', hp, hid⟩ := hok.placed
      obtain ⟨u1, u2, _⟩ := hok.uas d' hd'
      obtain ⟨v1, v2, v3⟩ := hok.uac o h2
      rw [he] at u2
      simp only at *
      rw [← hid] at u2 v2
      exact ⟨2, ⟨l.caller, look', f', now', i', _, _, _, _, _, hp, hn, .inl ⟨u2, v2, rfl⟩⟩, by rw [v1], v3⟩
  obtain ⟨n, hside, hnum, tt, htt⟩ := hside
  obtain ⟨x, y, z, w, d1, d2, d3⟩ := (socketOf_iff htt _ _).mp ha
  obtain ⟨c1, c2, c3, c4⟩ := Dlg.create_inner hout
  have hn2 : n = 1 ∨ n = 2 := by
    obtain ⟨_, _, _, _, _, _, _, _, _, _, _, _, hh⟩ := hside
    rcases hh with ⟨_, _, e⟩ | ⟨_, _, e⟩
    · exact .inr e
    · exact .inl e
  have hcs : o.nextLocalCSeq.1 = n := by
    show (if o.localCSeq < MAX_U32 then o.localCSeq + 1 else o.localCSeq) = n
    have : o.localCSeq < MAX_U32 := by unfold MAX_U32; omega
    rw [if_pos this]
    exact hnum
  refine ⟨t0, (aa, ap), out, o.id.callId, o.id.localTag, o.id.remoteTag, o.remoteUri, o.remoteTarget, n, x, y, z, w, ap, Dlg.sdpHeaders sdp,
    hall, h0, hside, d1, d3, by rw [d2], c1, c2, ?_, ?_⟩
  · rw [c3, hsdp]
    cases hb : q.body with
    | nil => exact .inl ⟨⟨[], rfl⟩, rfl, .inl ⟨rfl, rfl⟩⟩
    | cons b bs =>
      simp only [List.isEmpty_cons, Bool.false_eq_true, if_false]
      cases hu : utf8Decode (b :: bs) with
      | none =>
        refine .inr ⟨?_, rfl, rfl⟩
        rintro ⟨v, hv⟩
        rw [(Ident.utf8Decode_iff _ _).mpr hv] at hu
        cases hu
      | some v =>
        have hv := (Ident.utf8Decode_iff _ _).mp hu
        refine .inl ⟨⟨v, hv⟩, hv.symm, .inr ⟨by simp, ?_⟩⟩
        unfold Dlg.sdpHeaders
        simp only
        rw [hv, length_utf8]
  · unfold Lines
    rw [c4, hcs]
    unfold Dlg.Kind.from Dlg.Kind.tail Dlg.ownAddr Dlg.bareAddr Dlg.angle Dlg.cseqValue
    simp only [hmeraw]
    rfl

/-- **C117.** Counterexample to the answer of the other party, in any state: the sender of an INVITE within a call is always given at
once 200 with its own body. -/
theorem C117_echo {cfg : Cfg} {s : St} {q : Request} {look : Lookup} {f : Fresh} {now i t : Nat} {ok : Response}
    (hme : Fits ('<' :: cfg.localUri ++ ">".toList)) (hclean : ∀ y ∈ q.headers.inner, Fits y.value) (hsize : q.body.length ≤ 10485760)
    (h : Out.reply t ok ∈ (step cfg s (.invite q look f now i)).2) (hc : 200 ≤ ok.code ∧ ok.code < 300) :
    ok.code = 200 ∧ ok.body = q.body ∧ ∃ ids rest, Copies q.headers ["Via", "From", "To", "Call-ID", "CSeq"] ids ∧ BodyLines q rest ∧
      Lines ok.headers (ids ++ [("Contact", '<' :: cfg.localUri ++ ">".toList)] ++ rest) := by
  obtain ⟨d, l, o, me, sdp, out, a, t0, _, _, _, _, _, _, _, _, rfl, _⟩ := reinvited h hc
  refine ⟨rfl, rfl, copyHeader q.headers "Via" ++ copyHeader q.headers "From" ++ copyHeader q.headers "To" ++
    copyHeader q.headers "Call-ID" ++ copyHeader q.headers "CSeq", (if q.body.isEmpty then [("Content-Length", "0".toList)]
     else copyHeader q.headers "Content-Type" ++ [("Content-Length", showNat q.body.length)]), ?_, ?_, ?_⟩
  · rw [copies_iff]
    simp
  · cases hb : q.body with
    | nil => exact .inl ⟨hb, rfl⟩
    | cons y ys =>
      refine .inr ⟨by rw [hb]; simp, copyHeader q.headers "Content-Type", ?_, ?_⟩
      · rw [copies_iff]; simp
      · rw [hb]; rfl
  · have h1 := copyHeader_ok hclean goodName_via
    have h2 := copyHeader_ok hclean goodName_from
    have h3 := copyHeader_ok hclean goodName_to
    have h4 := copyHeader_ok hclean goodName_callId
    have h5 := copyHeader_ok hclean goodName_cseq
    have h6 := copyHeader_ok hclean goodName_ctype
    have hlen : (okLines cfg q).length ≤ 200 := by
      unfold okLines
      have := h1.1; have := h2.1; have := h3.1; have := h4.1; have := h5.1; have := h6.1
      split
      all_goals simp only [List.length_append, List.length_cons, List.length_nil]; omega
    refine lines_putAll (l := okLines cfg q) hlen ?_
    intro p hp
    unfold okLines at hp
    simp only [List.mem_append, List.mem_singleton] at hp
    rcases hp with (((((hp | hp) | hp) | hp) | hp) | rfl) | hp
    · exact (h1.2 p hp).2
    · exact (h2.2 p hp).2
    · exact (h3.2 p hp).2
    · exact (h4.2 p hp).2
    · exact (h5.2 p hp).2
    · exact ⟨goodName_contact, hme⟩
    · split at hp
      · simp only [List.mem_singleton] at hp
        subst hp
        exact ⟨goodName_clen, fits_zero⟩
      · rcases List.mem_append.mp hp with hp | hp
        · exact (h6.2 p hp).2
        · simp only [List.mem_singleton] at hp
          subst hp
          exact ⟨goodName_clen, fits_show _ hsize⟩

theorem C117_number {cfg : Cfg} {es : List Ev} {out : Request} (h : PassedOn cfg es out) : CSeqOf out.headers 1 ∨ CSeqOf out.headers 2 := by
  obtain ⟨q, look, f, now, i, t, t0, a, ok, h1, h2, h3⟩ := h
  obtain ⟨t0', a', out', c, own, peer, uri, target, n, x, y, z, w, p, rest, g1, _, g3, _, _, _, _, _, _, g4⟩ :=
    C117_passed_partial (ok := ok) (t := t) (h := by rw [h3]; simp) ⟨h1, h2⟩
  rw [h3] at g1
  simp only [List.cons.injEq, Out.tcp.injEq] at g1
  obtain ⟨_, ⟨_, rfl⟩, _⟩ := g1
  have hget : out.headers.get "CSeq".toList = some (showNat n ++ " INVITE".toList) := by
    rw [get_lines g4]
    simp only [List.cons_append, List.nil_append, get_mk_cons]
    rfl
  have hn : n = 1 ∨ n = 2 := by
    obtain ⟨_, _, _, _, _, _, _, _, _, _, _, _, hh⟩ := g3
    rcases hh with ⟨_, _, e⟩ | ⟨_, _, e⟩
    · exact .inr e
    · exact .inl e
  rcases hn with rfl | rfl
  · left
    rw [← Dlg.cseqNumber_iff]
    unfold Dlg.cseqNumber
    rw [hget]
    decide +kernel
  · right
    rw [← Dlg.cseqNumber_iff]
    unfold Dlg.cseqNumber
    rw [hget]
    decide +kernel

/-- **C117.** Counterexample to growing numbers: among any three INVITEs passed on within calls, at any points of any histories, the
numbers do not grow, so that a third in one direction can only be refused. -/
theorem C117_no_third {cfg : Cfg} {e1 e2 e3 : List Ev} {o1 o2 o3 : Request} {n1 n2 n3 : Nat} (h1 : PassedOn cfg e1 o1)
    (h2 : PassedOn cfg e2 o2) (h3 : PassedOn cfg e3 o3) (c1 : CSeqOf o1.headers n1) (c2 : CSeqOf o2.headers n2) (c3 : CSeqOf o3.headers n3) :
    ¬ (n1 < n2 ∧ n2 < n3) := by
  have key : ∀ {e o n}, PassedOn cfg e o → CSeqOf o.headers n → n = 1 ∨ n = 2 := by
    intro e o n h c
    rcases C117_number h with h | h
    · exact .inl (Dlg.cseqOf_unique c h)
    · exact .inr (Dlg.cseqOf_unique c h)
  have := key h1 c1
  have := key h2 c2
  have := key h3 c3
  omega

theorem pushQuiet_length (hs : Headers) (n : String) (v : Str) : (pushQuiet hs n v).inner.length ≤ hs.inner.length + 1 := by
  rcases pushQuiet_inner hs n v with e | e <;> rw [e] <;> simp

theorem get_more {hs hs' : Headers} {x : List Header} (h : hs'.inner = hs.inner ++ x) {n v : Str} (hg : hs.get n = some v) : hs'.get n = some v := by
  unfold Headers.get Headers.getHeader at hg ⊢
  rw [h, List.find?_append]
  cases hf : hs.inner.find? (·.nameEq n) with
  | none => rw [hf] at hg; cases hg
  | some y => rw [hf] at hg; exact hg

theorem putAll_keeps : ∀ (l : List (String × Str)) (hs : Headers) {n v : Str}, hs.get n = some v → (putAll l hs).get n = some v
  | [], _, _, _, h => h
  | (m, w) :: l, hs, n, v, h => by
    refine putAll_keeps l _ ?_
    rcases pushQuiet_inner hs m w with e | e
    · exact get_more (x := []) (by rw [e, List.append_nil]) h
    · exact get_more e h

/-- a header that fits is there, whatever happened to those before -/
theorem putAll_get {n : String} {v : Str} (hn : GoodName n) (hv : Fits v) (b : List (String × Str)) : ∀ (a : List (String × Str)) (hs : Headers),
    hs.inner.length + a.length < 200 → hs.get n.toList = none → (∀ p ∈ a, eqIgnoreCase p.1.toList n.toList = false) →
    (putAll (a ++ (n, v) :: b) hs).get n.toList = some v
  | [], hs, hl, hg, _ => by
    refine putAll_keeps b _ ?_
    have := pushQuiet_ok (hs := hs) (by simpa using hl) hn hv
    unfold Headers.get Headers.getHeader at hg ⊢
    rw [this, List.find?_append]
    cases hf : hs.inner.find? (·.nameEq n.toList) with
    | some y => rw [hf] at hg; cases hg
    | none =>
      have : (Header.mk n.toList v).nameEq n.toList = true := by
        unfold Header.nameEq
        simp [eqIgnoreCase]
      simp [this]
  | (m, w) :: a, hs, hl, hg, ha => by
    have h1 := pushQuiet_length hs m w
    simp only [List.length_cons] at hl
    refine putAll_get hn hv b a _ (by omega) ?_ (fun p hp => ha p (by simp [hp]))
    rcases pushQuiet_inner hs m w with e | e
    · unfold Headers.get Headers.getHeader at hg ⊢
      rw [e]
      exact hg
    · unfold Headers.get Headers.getHeader at hg ⊢
      rw [e, List.find?_append]
      cases hf : hs.inner.find? (·.nameEq n.toList) with
      | some y => rw [hf] at hg; cases hg
      | none =>
        have : (Header.mk m.toList w).nameEq n.toList = false := ha (m, w) (by simp)
        simp [this]

theorem invited_method {ua : Dlg.Ua} {br : Str} {d : Dialog} {sdp : Option Str} {out : Request} (h : Dlg.create ua br d (.reinvite sdp) = .done out) :
    out.method = .invite := (Dlg.create_inner h).1

theorem ack_cseq {seen : List Ev} {l : Leg} (hl : LegOk seen l) (br : Str) (q : Request) : CSeqOf (bridgedAck l br q).headers 1 := by
  have hc : cseqBefore l.invite.headers = some "1".toList := by
    unfold cseqBefore
    rw [hl.cseq]
    decide +kernel
  have e1 : "1".toList ++ " ACK".toList = "1 ACK".toList := by decide
  rw [← Dlg.cseqNumber_iff]
  unfold Dlg.cseqNumber
  have : (bridgedAck l br q).headers.get "CSeq".toList = some "1 ACK".toList := by
    unfold bridgedAck
    simp only [hc, e1]
    rw [List.append_assoc, List.append_assoc, List.singleton_append]
    refine putAll_get goodName_cseq ⟨by unfold OneLine; decide, by decide⟩ _ _ _ ?_ rfl ?_
    · have : (copyHeader l.invite.headers "From").length ≤ 1 := by unfold copyHeader; split <;> simp
      split <;> simp only [Headers.empty, List.length_append, List.length_cons, List.length_nil] <;> omega
    · intro p hp
      simp only [List.mem_append, List.mem_cons, List.not_mem_nil, or_false] at hp
      rcases hp with ((rfl | hp) | hp) | rfl
      · simp only; decide
      · unfold copyHeader at hp
        split at hp
        · simp only [List.mem_singleton] at hp; subst hp; simp only; decide
        · cases hp
      · split at hp
        · cases hp
        · simp only [List.mem_singleton] at hp; subst hp; simp only; decide
      · simp only; decide
  rw [this]
  decide +kernel

/-- **C117.** Counterexample to the acknowledgement: every ACK the bridge ever sends has the number 1, so that no INVITE within a call
that it sent to a callee, which has the number 2, is ever acknowledged. -/
theorem C117_no_ack {cfg : Cfg} {es : List Ev} {a : Sub.Addr × Nat} {out : Request}
    (h : Out.tcp a out ∈ (run cfg init es).2 ∨ Out.udp a out ∈ (run cfg init es).2) (hm : out.method = .ack) : CSeqOf out.headers 1 := by
  have key : ∀ o, o ∈ (run cfg init es).2 → (o = .tcp a out ∨ o = .udp a out) → CSeqOf out.headers 1 := by
    intro o ho hor
    obtain ⟨pre, e, post, _, ho⟩ := run_out cfg es init o ho
    have H := hist cfg pre
    generalize (run cfg init pre).1 = s at ho H
    cases e with
    | invite q look f n i =>
      exfalso
      have ho : o ∈ (onInvite cfg s q look f n i).2 := ho
      unfold onInvite at ho
      simp only at ho
      split at ho
      · cases ho
      · split at ho
        · cases ho
        · rcases List.mem_cons.mp ho with rfl | ho
          · rcases hor with h | h <;> cases h
          · unfold reinvite at ho
            simp only at ho
            split at ho
            · split at ho
              · rename_i o' a' hout _
                have := invited_method hout
                simp only [List.mem_cons, List.not_mem_nil, or_false] at ho
                rcases ho with rfl | rfl
                · rcases hor with h | h
                  · cases h; rw [hm] at this; cases this
                  · cases h
                · rcases hor with h | h <;> cases h
              · cases ho
            · cases ho
      · split at ho
        · cases ho
        · split at ho
          · simp only [List.mem_singleton] at ho
            subst ho
            rcases hor with h | h <;> cases h
          · simp only [List.mem_cons, List.not_mem_nil, or_false] at ho
            rcases ho with rfl | rfl <;> rcases hor with h | h <;> cases h
          · rename_i leg hp
            obtain ⟨_, _, _, _, _, _, _, _, _, _, _, _, p7, _⟩ := placed_parts hp
            have hi := (createInvite_inner p7).1
            rcases List.mem_cons.mp ho with rfl | ho
            · rcases hor with h | h <;> cases h
            · unfold sendTcp at ho
              split at ho
              · simp only [List.mem_singleton] at ho
                subst ho
                rcases hor with h | h
                · cases h; rw [hm] at hi; cases hi
                · cases h
              · cases ho
    | ack q i br =>
      have ho : o ∈ onAck s q i br := ho
      unfold onAck at ho
      split at ho
      · cases ho
      · split at ho
        · cases ho
        · rename_i leg hb
          obtain ⟨⟨k, hk⟩, _⟩ := byIncoming_some hb
          obtain ⟨_, _, hok, _⟩ := H.legs _ hk
          unfold sendTcp at ho
          split at ho
          · simp only [List.mem_singleton] at ho
            subst ho
            rcases hor with h | h
            · cases h; exact ack_cseq hok br q
            · cases h
          · cases ho
    | bye q i f =>
      exfalso
      have ho : o ∈ (onBye cfg s q i f).2 := ho
      unfold onBye at ho
      simp only at ho
      split at ho
      · split at ho
        · cases ho
        · rcases List.mem_cons.mp ho with rfl | ho
          · rcases hor with h | h <;> cases h
          · unfold sendTcp at ho
            split at ho
            · simp only [List.mem_singleton] at ho
              subst ho
              rcases hor with h | h
              · cases h; cases hm
              · cases h
            · cases ho
      · split at ho
        · simp only [List.mem_singleton] at ho
          subst ho
          rcases hor with h | h <;> cases h
        · split at ho
          · cases ho
          · split at ho
            · simp only [List.mem_singleton] at ho
              subst ho
              rcases hor with h | h <;> cases h
            · split at ho
              · simp only [List.mem_singleton] at ho
                subst ho
                rcases hor with h | h <;> cases h
              · simp only [List.mem_cons, List.not_mem_nil, or_false] at ho
                rcases ho with rfl | rfl
                · rcases hor with h | h <;> cases h
                · rcases hor with h | h
                  · cases h
                  · cases h; cases hm
    | cancel q i f =>
      exfalso
      have ho : o ∈ (onCancel cfg s q i f).2 := ho
      unfold onCancel at ho
      simp only at ho
      split at ho
      · unfold answer at ho
        split at ho
        · simp only [List.mem_singleton] at ho
          subst ho
          rcases hor with h | h <;> cases h
        · cases ho
      · split at ho
        · cases ho
        · split at ho
          all_goals
            simp only [List.mem_singleton] at ho
            subst ho
            rcases hor with h | h <;> cases h
    | cancelOn k i =>
      exfalso
      have ho : o ∈ (onCancelOn s k i).2 := ho
      unfold onCancelOn at ho
      split at ho
      · cases ho
      · simp only at ho
        split at ho
        · split at ho <;> cases ho
        · split at ho
          · cases ho
          · unfold sendTcp at ho
            split at ho
            · simp only [List.mem_singleton] at ho
              subst ho
              rcases hor with h | h
              · cases h; cases hm
              · cases h
            · cases ho
    | response r => cases ho
    | relay k =>
      exfalso
      have ho : o ∈ (onRelay cfg s k).2 := ho
      unfold onRelay at ho
      split at ho
      · cases ho
      · split at ho
        · simp only at ho
          split at ho
          · cases ho
          · split at ho
            · cases ho
            · cases ho
            · split at ho
              · simp only [List.mem_singleton] at ho
                subst ho
                rcases hor with h | h <;> cases h
              · split at ho
                all_goals
                  simp only [List.mem_singleton] at ho
                  subst ho
                  rcases hor with h | h <;> cases h
        · cases ho
    | sweep n => cases ho
  rcases h with h | h
  · exact key _ h (.inl rfl)
  · exact key _ h (.inr rfl)

/-- **C117.** Counterexample to the end of a dialog: a dialog, once stored, is there in every later state, also after the call. -/
theorem C117_kept {cfg : Cfg} {es es' : List Ev} {id : DialogId} (h : (run cfg init es).1.mgr.get id ≠ none) :
    (run cfg init (es ++ es')).1.mgr.get id ≠ none := by
  rw [run_append]
  refine mgr_run (fun m => m.get id ≠ none) ?_ cfg es' _ h
  intro m d hm
  rcases keepDialog_cases m d with e | ⟨_, e⟩
  · rw [e]; exact hm
  · rw [e]
    show Tbl.get (m.dialogs.insert d.id d) id ≠ none
    by_cases ei : id = d.id
    · rw [ei, Tbl.get_insert_self]; simp
    · rw [Tbl.get_insert_ne _ _ ei]; exact hm

/-- **C117.** So the dialogs fill up for good: once there are 10000, no call has its dialogs stored any more. -/
theorem C117_full {cfg : Cfg} {es es' : List Ev} (h : 10000 ≤ (run cfg init es).1.mgr.dialogs.length) :
    (run cfg init (es ++ es')).1.mgr = (run cfg init es).1.mgr := by
  rw [run_append]
  generalize hm : (run cfg init es).1.mgr = m0 at h
  refine mgr_run (fun m => m = m0) ?_ cfg es' _ hm
  intro m d e
  subst e
  rcases keepDialog_cases m d with e | ⟨hl, e⟩
  · exact e
  · omega

/-! ## The hypotheses can be met -/

namespace Cases

/-- an INVITE within the call, from the caller or the callee -/
def fromCaller : Request := within .invite "in1" "<sip:alice@10.0.0.1>;tag=A" "<sip:bob@example.org>;tag=C" "8 INVITE"
def fromCallee : Request := within .invite "out1" "<sip:bob@10.0.0.2:5080>;tag=C" "<sip:alice@10.0.0.1>;tag=B" "1 INVITE"
def again (q : Request) : Ev := .invite q look fr 5 1

theorem passedOn_of {es : List Ev} {q : Request} (h : (match (step me (run me init es).1 (again q)).2 with
    | [.reply t _, .tcp _ _, .reply t' ok] => decide (ok.code = 200 ∧ t = t') | _ => false) = true) : ∃ out, PassedOn me es out := by
  split at h
  · rename_i t t0 a out t' ok hs
    obtain ⟨hc, rfl⟩ : ok.code = 200 ∧ t = t' := by simpa using h
    exact ⟨out, q, look, fr, 5, 1, t, t0, a, ok, by omega, by omega, hs⟩
  · cases h

-- an INVITE of each side is passed on (C117_passed_partial, C117_echo, C117_number, C117_no_third)
example : (∃ out, PassedOn me answered.events out) ∧ ∃ out, PassedOn me (answered.events ++ [again fromCaller]) out :=
  ⟨passedOn_of (q := fromCaller) (by decide +kernel), passedOn_of (q := fromCallee) (by decide +kernel)⟩

-- the caller's goes to the callee, the callee's to the caller; the answers are sent before anybody answers
example : sent (run me init (answered.events ++ [again fromCaller, again fromCallee])).2 = [(.invite, 5080), (.invite, 5080), (.invite, 5070)] ∧
    codes 1 (run me init (answered.events ++ [again fromCaller])).2 = [100, 200] := by decide +kernel

/-- the second INVITE the caller sends within the call repeats the number of the first -/
theorem C117_repeated :
    (run me init (answered.events ++ [again fromCaller, again fromCaller])).2.filterMap (fun o => match o with
      | .tcp _ q => q.headers.get "CSeq".toList | _ => none) = ["1 INVITE".toList, "2 INVITE".toList, "2 INVITE".toList] := by decide +kernel

-- both dialogs are stored (C117_kept)
example : (run me init answered.events).1.mgr.get ⟨"in1".toList, "C".toList, "A".toList⟩ ≠ none ∧
    (run me init answered.events).1.mgr.get ⟨"out1".toList, "B".toList, "C".toList⟩ ≠ none := by decide +kernel

-- an ACK is sent (C117_no_ack)
example : sent (run me init (answered.events ++ [.ack (within .ack "in1" "<sip:alice@10.0.0.1>;tag=A" "<sip:bob@example.org>;tag=C" "7 ACK") 0 "z9hG4bKy".toList])).2 =
    [(.invite, 5080), (.ack, 5080)] := by decide +kernel

/-- **C117 (violated).** After the BYE, and in a call older than 300 s once the calls are swept, an INVITE within the call is given 100
and never a final answer. -/
theorem C117_after :
    codes 2 (run me init (answered.events ++ [.bye (within .bye "in1" "<sip:alice@10.0.0.1>;tag=A" "<sip:bob@example.org>;tag=C" "8 BYE") 2 fr,
      again fromCaller])).2 = [100] ∧
    codes 1 (run me init (answered.events ++ [.sweep 301, again fromCaller])).2 = [100] ∧
    sent (run me init (answered.events ++ [.sweep 301, again fromCaller])).2 = [(.invite, 5080)] := by decide +kernel

end Cases

end Siphon.Bridge
