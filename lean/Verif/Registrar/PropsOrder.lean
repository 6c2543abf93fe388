import Verif.Registrar.PropsOwner
set_option linter.unusedSimpArgs false
/-! C43, the other direction: what a refusal for the order of CSeq numbers says. -/
namespace Siphon.Registrar
open Spec HdrSpec TextSpec Auth.Spec

/-- the reason phrase of such a refusal -/
def outOfOrderReason : Str := "Bad Request - CSeq out of order".toList

theorem buildError_reason {req : Request} {d : Draw} {code : Nat} {reason : Str} {r : Response}
    (e : buildError req d code reason = some r) : r.reason = reason := by
  unfold buildError at e
  simp only at e
  split at e
  · cases e
  · split at e
    · cases e
    · split at e
      · cases e
      · rename_i hr
        simp only [Option.some.injEq] at e
        subst e
        rw [responseNew_code hr]

theorem refuse_reason {req : Request} {d : Draw} {code : Nat} {reason : Str} {r : Response}
    (e : refuse req d code reason = .response r) : r.reason = reason := by
  unfold refuse at e
  split at e
  · rename_i h
    simp only [Outcome.response.injEq] at e
    subst e
    exact buildError_reason h
  · cases e

theorem refuseBare_reason {req : Request} {d : Draw} {reason bare : Str} {r : Response}
    (e : refuseBare req d reason bare = .response r) : r.reason = reason ∨ r.reason = bare := by
  unfold refuseBare at e
  split at e
  · rename_i h
    simp only [Outcome.response.injEq] at e
    subst e
    exact Or.inl (buildError_reason h)
  · simp only [Outcome.response.injEq] at e; rw [← e]; exact Or.inr rfl

theorem no_reason {req : Request} {d : Draw} {code : Nat} {reason : Str} {r : Response}
    (e : refuse req d code reason = .response r) (h : reason ≠ outOfOrderReason) : r.reason ≠ outOfOrderReason := by
  rw [refuse_reason e]; exact h

theorem readContact_reason {w : World} {r : Reg} {req : Request} {d : Draw} {v : Str} {resp : Response}
    (h : r.readContact w req d v = .error (.response resp)) (h4 : resp.code = 400) : resp.reason ≠ outOfOrderReason := by
  unfold Reg.readContact at h
  split at h
  · simp only [Except.error.injEq] at h; exact no_reason h (by decide)
  · split at h
    · split at h
      · simp only [Except.error.injEq] at h
        have := refuseBrief_code h
        omega
      · simp only [Except.error.injEq] at h; exact no_reason h (by decide)
      · simp only [Except.error.injEq] at h; exact no_reason h (by decide)
      · split at h
        · simp only [Except.error.injEq] at h; exact no_reason h (by decide)
        · split at h
          · simp only [Except.error.injEq] at h; exact no_reason h (by decide)
          · split at h
            · simp only [Except.error.injEq] at h; exact no_reason h (by decide)
            · cases h
    · simp only [Except.error.injEq] at h; exact no_reason h (by decide)

theorem applyContact_reason {w : World} {r : Reg} {req : Request} {d : Draw} {c : Ctx} {v : Str} {s : Store} {resp : Response}
    (h : r.applyContact w req d c v s = .error (.response resp)) (h4 : resp.code = 400)
    (hr : resp.reason = outOfOrderReason) : ∃ x ∈ c.existing, About v x.contact ∧ x.callId = c.callId ∧ c.cseq ≤ x.cseq := by
  unfold Reg.applyContact at h
  split at h
  · rename_i o ho
    simp only [Except.error.injEq] at h
    subst h
    exact absurd hr (readContact_reason ho h4)
  · rename_i a ha
    split at h
    · rename_i hout
      unfold outOfOrder at hout
      split at hout
      · rename_i b hb
        have hm := List.mem_of_find?_eq_some hb
        have hc := List.find?_some hb
        simp only [Bool.and_eq_true, beq_iff_eq, decide_eq_true_eq] at hout hc
        refine ⟨b, by simpa using hm, ?_, hout.1, hout.2⟩
        rw [hc]
        exact (readAs_about (readContact_ok ha) _).mpr rfl
      · cases hout
    · split at h
      · cases h
      · split at h
        · cases h
        · split at h <;> cases h

theorem applyContacts_reason {w : World} {r : Reg} {req : Request} {d : Draw} {c : Ctx} {resp : Response} :
    ∀ (vs : List Str) (s s' : Store), r.applyContacts w req d c vs s = (some (.response resp), s') → resp.code = 400 →
      resp.reason = outOfOrderReason → ∃ v ∈ vs, ∃ x ∈ c.existing, About v x.contact ∧ x.callId = c.callId ∧ c.cseq ≤ x.cseq
  | [], _, _, h, _, _ => by simp [Reg.applyContacts] at h
  | v :: vs, s, s', h, h4, hr => by
    simp only [Reg.applyContacts] at h
    split at h
    · rename_i o ho
      simp only [Prod.mk.injEq, Option.some.injEq] at h
      rw [h.1] at ho
      exact ⟨v, by simp, applyContact_reason ho h4 hr⟩
    · obtain ⟨v', hv', hx⟩ := applyContacts_reason vs _ _ h h4 hr
      exact ⟨v', by simp [hv'], hx⟩

theorem missing_reason {req : Request} {reason : Str} (h : missingHeader req = some reason) : reason ≠ outOfOrderReason := by
  unfold missingHeader at h
  repeat' split at h
  all_goals simp only [Option.some.injEq, reduceCtorEq] at h
  all_goals rw [← h]; decide

/-- C43: a REGISTER is refused for the order of its CSeq only if the address-of-record has a binding for one of the
contacts in the request, made under the same Call-ID with a CSeq that is not smaller: bindings made by another
device or call never stand in the way. -/
theorem C43_refused_only (w : World) (r : Reg) (req : Request) (d : Draw) (resp : Response) (vs : List Str)
    (hvs : Contacts req.headers vs)
    (h : (r.handle w req d).1 = .response resp) (h4 : resp.code = 400)
    (hr : resp.reason = "Bad Request - CSeq out of order".toList) :
    ∃ aor, ToNames req.headers aor ∧ ∃ v ∈ vs, ∃ x ∈ (r.store.lookup aor d.now d.now).1, About v x.contact ∧
      (∃ more, Selects "Call-ID".toList req.headers.inner (x.callId :: more)) ∧
      ∃ t more n, Selects "CSeq".toList req.headers.inner (t :: more) ∧ CSeqOf t n ∧ n ≤ x.cseq := by
  change resp.reason = outOfOrderReason at hr
  rw [contacts_iff] at hvs
  subst hvs
  unfold Reg.handle at h
  split at h
  · rename_i o a hg
    simp only at h
    exfalso
    subst h
    unfold Reg.gate at hg
    split at hg
    · rename_i hm
      simp only [Prod.mk.injEq, Option.some.injEq] at hg
      rcases refuseBare_reason hg.1 with e | e <;> exact missing_reason hm (e ▸ hr)
    · split at hg
      · simp only [Prod.mk.injEq, Option.some.injEq] at hg
        exact no_reason hg.1 (by decide) hr
      · split at hg
        · simp at hg
        · split at hg
          · simp at hg
          · simp only at hg
            split at hg
            · rename_i hch
              simp only [Prod.mk.injEq, Option.some.injEq, Outcome.response.injEq] at hg
              obtain ⟨rfl, _⟩ := hg
              rcases challenge_code hch with e | e <;> omega
            · simp at hg
            · simp at hg
  · rename_i a hg
    have hmiss := (gate_none hg).1
    simp only at h
    split at h
    · rename_i reason ha
      exfalso
      refine no_reason h ?_ hr
      unfold requestAor at ha
      repeat' split at ha
      all_goals simp only [Except.error.injEq, reduceCtorEq] at ha
      all_goals rw [← ha]; decide
    · rename_i aor ha
      refine ⟨aor, toNames_of ha, ?_⟩
      split at h
      · exact absurd hr (no_reason h (by decide))
      · simp only [update_auth] at h
        unfold Reg.update at h
        split at h
        · exfalso
          rcases refuseBare_reason h with e | e <;> rw [hr] at e <;> split at e <;> revert e <;> decide
        · rename_i cseq hcs
          simp only at h
          split at h
          · exact absurd hr (no_reason h (by decide))
          · split at h
            · exact absurd hr (no_reason h (by decide))
            · split at h
              · split at h
                · exact absurd hr (no_reason h (by decide))
                · have := okResponse_code h; omega
                · exact absurd hr (no_reason h (by decide))
              · split at h
                · exact absurd hr (no_reason h (by decide))
                · rename_i path hp
                  generalize hcdef : (Ctx.mk aor _ cseq _ path _) = c at h
                  have hctx : CtxOf r req d aor c := by
                    subst hcdef
                    refine ⟨rfl, hcs, ?_, rfl, ?_, rfl⟩
                    · intro v hv; simp only; rw [hv]
                    · simp only
                      split at hp
                      · rename_i hcon
                        left
                        refine ⟨hcon, ?_⟩
                        cases hpp : parsePath req.headers with
                        | none => rw [hpp] at hp; cases hp
                        | some p => rw [hpp] at hp; simp at hp; exact ⟨p, rfl, hp.symm⟩
                      · rename_i hcon
                        right
                        simp only [Option.some.injEq] at hp
                        exact ⟨by simpa using hcon, hp.symm⟩
                  split at h
                  · rename_i o s' he
                    simp only at h
                    subst h
                    obtain ⟨v, hv, x, hx, h1, h2, h3⟩ := applyContacts_reason _ _ _ he h4 hr
                    refine ⟨v, hv, x, by rw [← hctx.existing]; exact hx, h1, ?_, ?_⟩
                    · rw [h2]; exact ctx_callId hctx hmiss
                    · obtain ⟨t, more, k1, k2, _⟩ := (parseCseq_iff req _).mp hctx.cseq
                      exact ⟨t, more, _, k1, k2, h3⟩
                  · have := okResponse_code h; omega

-- a replay is refused for that reason; the same request under another Call-ID is not
example : let r := Demo.reg.run Demo.world [.register (Demo.register "c" 5 [("Contact", "<sip:bob@1>;expires=100")]) (Demo.at_ 0)]
    (match (r.handle Demo.world (Demo.register "c" 5 [("Contact", "<sip:bob@1>;expires=0")]) (Demo.at_ 9)).1 with
      | .response x => x.code == 400 && x.reason == outOfOrderReason
      | _ => false) = true ∧
    Demo.code (r.handle Demo.world (Demo.register "d" 1 [("Contact", "<sip:bob@1>;expires=100")]) (Demo.at_ 9)).1 = 200 := by
  decide +kernel

end Siphon.Registrar
