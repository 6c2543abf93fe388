import Verif.Registrar.LemmasText
set_option linter.unusedSimpArgs false
/-! Effect of one REGISTER on the store. -/
namespace Siphon.Registrar
open Spec HdrSpec TextSpec Auth.Spec

/-! ## Response codes -/

theorem responseNew_code {code : Nat} {reason : Str} {h : Headers} {b : Bytes} {r : Response}
    (e : Response.new code reason h b = .ok r) : r = { code := code, reason := reason, headers := h, body := b } := by
  unfold Response.new at e
  split at e
  · cases e
  · split at e
    · cases e
    · split at e
      · cases e
      · simp only [Except.ok.injEq] at e; exact e.symm

theorem buildError_code {req : Request} {d : Draw} {code : Nat} {reason : Str} {r : Response}
    (e : buildError req d code reason = some r) : r.code = code := by
  unfold buildError at e
  simp only at e
  split at e
  · cases e
  · split at e
    · cases e
    · split at e
      · cases e
      · rename_i hr
        simp only [Option.some.injEq] at e
        subst e
        rw [responseNew_code hr]

theorem copyHeader_names {src : Headers} {name : Str} {f : Str → Str} {dst : Except HeaderError Headers} {r : Headers}
    (h : Auth.copyHeader src name f dst = .ok r) :
    ∃ d, dst = .ok d ∧ ∀ x ∈ r.inner, x.name = name ∨ x ∈ d.inner := by
  unfold Auth.copyHeader at h
  split at h
  · cases h
  · rename_i d
    refine ⟨d, rfl, ?_⟩
    split at h
    · simp only [Except.ok.injEq] at h; subst h; intro x hx; exact Or.inr hx
    · have := C24_push _ _ _ _ h
      intro x hx
      rw [this] at hx
      rcases List.mem_append.mp hx with hx | hx
      · exact Or.inr hx
      · rw [List.mem_singleton.mp hx]; exact Or.inl rfl

/-- the names of the headers copied from the request -/
def copiedNames : List Str := ["Via".toList, "From".toList, "To".toList, "Call-ID".toList, "CSeq".toList]

theorem copied_names {req : Request} {d : Draw} {h : Headers} (e : copiedHeaders req d = .ok h) :
    ∀ x ∈ h.inner, x.name ∈ copiedNames := by
  unfold copiedHeaders at e
  obtain ⟨d1, e1, n1⟩ := copyHeader_names e
  obtain ⟨d2, e2, n2⟩ := copyHeader_names e1
  obtain ⟨d3, e3, n3⟩ := copyHeader_names e2
  obtain ⟨d4, e4, n4⟩ := copyHeader_names e3
  obtain ⟨d5, e5, n5⟩ := copyHeader_names e4
  simp only [Except.ok.injEq] at e5
  subst e5
  intro x hx
  unfold copiedNames
  rcases n1 x hx with h | hx
  · rw [h]; simp
  · rcases n2 x hx with h | hx
    · rw [h]; simp
    · rcases n3 x hx with h | hx
      · rw [h]; simp
      · rcases n4 x hx with h | hx
        · rw [h]; simp
        · rcases n5 x hx with h | hx
          · rw [h]; simp
          · simp [Headers.empty] at hx

theorem buildError_names {req : Request} {d : Draw} {code : Nat} {reason : Str} {r : Response}
    (e : buildError req d code reason = some r) :
    ∀ x ∈ r.headers.inner, x.name ∈ ["Via".toList, "From".toList, "To".toList, "Call-ID".toList, "CSeq".toList, "Content-Length".toList] := by
  unfold buildError at e
  simp only at e
  split at e
  · cases e
  · rename_i h hh
    split at e
    · cases e
    · rename_i h2 hp
      split at e
      · cases e
      · rename_i hr
        simp only [Option.some.injEq] at e
        subst e
        rw [responseNew_code hr]
        have hin := C24_push _ _ _ _ hp
        intro x hx
        simp only at hx
        rw [hin] at hx
        rcases List.mem_append.mp hx with hx | hx
        · have := copied_names (d := d) hh x hx
          unfold copiedNames at this
          simp only [List.mem_cons, List.not_mem_nil, or_false] at this ⊢
          rcases this with h | h | h | h | h <;> simp [h]
        · rw [List.mem_singleton.mp hx]; simp

theorem refuse_code {req : Request} {d : Draw} {code : Nat} {reason : Str} {r : Response}
    (e : refuse req d code reason = .response r) : r.code = code := by
  unfold refuse at e
  split at e
  · rename_i h
    simp only [Outcome.response.injEq] at e
    subst e
    exact buildError_code h
  · cases e

theorem refuseBare_code {req : Request} {d : Draw} {reason bare : Str} {r : Response}
    (e : refuseBare req d reason bare = .response r) : r.code = 400 := by
  unfold refuseBare at e
  split at e
  · rename_i h
    simp only [Outcome.response.injEq] at e
    subst e
    exact buildError_code h
  · simp only [Outcome.response.injEq] at e; rw [← e]

theorem refuseBrief_code {req : Request} {d : Draw} {min : Nat} {r : Response}
    (e : refuseBrief req d min = .response r) : r.code = 423 := by
  unfold refuseBrief at e
  split at e
  · cases e
  · rename_i h
    split at e
    · cases e
    · simp only [Outcome.response.injEq] at e
      rw [← e]; simpa using buildError_code h

theorem okResponse_code {h : Except HeaderError Headers} {r : Response} (e : okResponse h = .response r) :
    r.code = 200 := by
  unfold okResponse at e
  split at e
  · cases e
  · split at e
    · rename_i hr
      simp only [Outcome.response.injEq] at e
      subst e
      rw [responseNew_code hr]
    · cases e

theorem challenge_code {s s' : Auth.Server} {order : List Str → List Str} {req : Request} {stale : Bool}
    {nonce tag : Str} {now : Nat} {r : Response}
    (e : s.challenge order req stale nonce tag now = (.ok r, s')) : r.code = 401 ∨ r.code = 407 := by
  unfold Auth.Server.challenge at e
  simp only at e
  split at e
  · simp at e
  · split at e
    · simp at e
    · split at e
      · simp at e
      · rename_i hr
        simp only [Prod.mk.injEq, Except.ok.injEq] at e
        rw [← e.1, responseNew_code hr]
        simp only
        split <;> simp

/-! ## Reading a contact -/

/-- what a successfully read Contact value says -/
structure ReadAs (w : World) (r : Reg) (req : Request) (v : Str) (a : Ask) : Prop where
  asks : Asks req.headers (r.defaultExpires / SEC) v a.uri a.expires
  policy : a.expires = 0 ∨ (r.minExpires / SEC ≤ a.expires ∧ a.expires ≤ r.maxExpires / SEC)
  q : ∃ sec, ContactOf v a.uri sec ∧
    ((NoParam sec "q".toList ∧ a.q = ['1']) ∨ ∃ t, Param sec "q".toList t ∧ w.qText t = some a.q)
  inst : ∃ sec, ContactOf v a.uri sec ∧
    ((NoParam sec "+sip.instance".toList ∧ a.instanceId = none) ∨
      ∃ t, Param sec "+sip.instance".toList t ∧ a.instanceId = some t)
  regId : ∃ sec, ContactOf v a.uri sec ∧
    ((NoParam sec "reg-id".toList ∧ a.regId = none) ∨
      ∃ t n, Param sec "reg-id".toList t ∧ Decimal t n ∧ a.regId = some n)

theorem readContact_ok {w : World} {r : Reg} {req : Request} {d : Draw} {v : Str} {a : Ask}
    (h : r.readContact w req d v = .ok a) : ReadAs w r req v a := by
  unfold Reg.readContact at h
  split at h
  · cases h
  · rename_i uri hu
    obtain ⟨sec, hc⟩ := extract_contactOf hu
    split at h
    · split at h
      · cases h
      · cases h
      · cases h
      · rename_i expires he
        split at h
        · cases h
        · rename_i q hq
          split at h
          · cases h
          · rename_i inst hi
            split at h
            · cases h
            · rename_i regId hr
              simp only [Except.ok.injEq] at h
              subst h
              obtain ⟨hw, hp⟩ := parseExpires_wanted hc he
              refine ⟨⟨sec, hc, hw⟩, hp, ⟨sec, hc, ?_⟩, ⟨sec, hc, ?_⟩, ⟨sec, hc, ?_⟩⟩
              · unfold parseQ at hq
                rw [contactOf_param hc _ (by decide)] at hq
                split at hq
                · cases hq
                · rename_i hf
                  simp only [Option.some.injEq] at hq
                  exact Or.inl ⟨(noParam_iff _ _ (by decide)).mpr hf, hq.symm⟩
                · rename_i t hf
                  exact Or.inr ⟨t, (param_iff _ _ _ (by decide)).mpr hf, hq⟩
              · unfold parseInstance at hi
                rw [contactOf_param hc _ (by decide)] at hi
                split at hi
                · cases hi
                · rename_i t hf
                  simp only [Option.some.injEq] at hi
                  subst hi
                  cases t with
                  | none => exact Or.inl ⟨(noParam_iff _ _ (by decide)).mpr hf, rfl⟩
                  | some t => exact Or.inr ⟨t, (param_iff _ _ _ (by decide)).mpr hf, rfl⟩
              · unfold parseRegId at hr
                rw [contactOf_param hc _ (by decide)] at hr
                split at hr
                · cases hr
                · rename_i hf
                  simp only [Option.some.injEq] at hr
                  exact Or.inl ⟨(noParam_iff _ _ (by decide)).mpr hf, hr.symm⟩
                · rename_i t hf
                  split at hr
                  · rename_i n hn
                    simp only [Option.some.injEq] at hr
                    exact Or.inr ⟨t, n, (param_iff _ _ _ (by decide)).mpr hf, parseDec_some hn, hr.symm⟩
                  · cases hr
    · cases h

theorem readAs_about {w : World} {r : Reg} {req : Request} {v : Str} {a : Ask} (h : ReadAs w r req v a) (u : Str) :
    About v u ↔ a.uri = u := by
  obtain ⟨sec, hc, _⟩ := h.asks
  constructor
  · rintro ⟨s', h'⟩; exact (contactOf_fun hc h').1
  · rintro rfl; exact ⟨sec, hc⟩

theorem makeBinding_some {c : Ctx} {a : Ask} {b : Binding} (h : makeBinding c a = some b) :
    b = { aor := c.aor, contact := a.uri, expires := a.expires * SEC, callId := c.callId, cseq := c.cseq, q := a.q,
          userAgent := c.userAgent, path := c.path, flowToken := none, instanceId := a.instanceId, regId := a.regId } ∧
      60 ≤ a.expires ∧ a.expires ≤ 86400 := by
  unfold makeBinding at h
  split at h
  · cases h
  · rename_i b1 h1
    unfold Binding.new at h1
    split at h1
    · rename_i hv
      simp only [Option.some.injEq] at h1
      subst h1
      split at h
      · cases h
      · rename_i b2 h2
        unfold Binding.withCallId at h2
        split at h2
        · simp only [Option.some.injEq] at h2
          subst h2
          split at h
          · cases h
          · rename_i b3 h3
            unfold Binding.withCseq at h3
            split at h3
            · simp only [Option.some.injEq] at h3
              subst h3
              simp only at h
              have hb : 60 ≤ a.expires ∧ a.expires ≤ 86400 := by
                simp only [Bool.and_eq_true, validExpires, decide_eq_true_eq] at hv
                have : a.expires * SEC / SEC = a.expires := Nat.mul_div_cancel _ (by decide)
                rw [this] at hv
                exact hv.2
              cases hu : c.userAgent with
              | none =>
                rw [hu] at h
                simp only [Option.some.injEq] at h
                exact ⟨h.symm, hb⟩
              | some u =>
                rw [hu] at h
                simp only [Binding.withUserAgent] at h
                by_cases hvu : validField MAX_USER_AGENT_LENGTH u = true
                · rw [if_pos hvu] at h
                  simp only [Option.some.injEq] at h
                  exact ⟨h.symm, hb⟩
                · rw [if_neg hvu] at h
                  cases h
            · cases h3
        · cases h2
    · cases h1

/-! ## Effect of the loop -/

/-- the value `v` grants `y` -/
def Grants (w : World) (r : Reg) (req : Request) (d : Draw) (c : Ctx) (v : Str) (y : Stored) : Prop :=
  ∃ a b, r.readContact w req d v = .ok a ∧ a.expires ≠ 0 ∧ makeBinding c a = some b ∧ y = b.stored d.now

/-- Contact value `v` was processed without complaint -/
def Fine (w : World) (r : Reg) (req : Request) (d : Draw) (c : Ctx) (v : Str) : Prop :=
  ∃ a, r.readContact w req d v = .ok a ∧ outOfOrder c a.uri = false ∧ (a.expires = 0 ∨ ∃ b, makeBinding c a = some b)

/-- the operation that processing `v` performs -/
def OpFor (w : World) (r : Reg) (req : Request) (d : Draw) (c : Ctx) (v : Str) (op : StoreOp) : Prop :=
  ∃ a, r.readContact w req d v = .ok a ∧
    ((a.expires = 0 ∧ op = .remove c.aor a.uri d.now) ∨
     (a.expires ≠ 0 ∧ ∃ b, makeBinding c a = some b ∧ op = .upsert b d.now))

theorem applyContact_ok {w : World} {r : Reg} {req : Request} {d : Draw} {c : Ctx} {v : Str} {s s' : Store}
    (h : r.applyContact w req d c v s = .ok s') :
    Fine w r req d c v ∧
    (∃ op, OpFor w r req d c v op ∧ s' = s.step op ∧ succeeds s op = true) ∧
    (∀ k y, y ∈ s'.at k ↔ (k ≠ c.aor ∧ y ∈ s.at k) ∨ (k = c.aor ∧ ¬ About v y.contact ∧ y ∈ s.at k) ∨
      (k = c.aor ∧ About v y.contact ∧ Grants w r req d c v y)) := by
  unfold Reg.applyContact at h
  split at h
  · cases h
  · rename_i a ha
    have hab := readAs_about (readContact_ok ha)
    split at h
    · cases h
    · rename_i ho
      have ho : outOfOrder c a.uri = false := by simpa using ho
      split at h
      · rename_i h0
        simp only [Except.ok.injEq] at h
        subst h
        refine ⟨⟨a, ha, ho, Or.inl h0⟩, ⟨_, ⟨a, ha, Or.inl ⟨h0, rfl⟩⟩, rfl, rfl⟩, ?_⟩
        intro k y
        rw [at_removeContact, hab]
        by_cases hk : k = c.aor
        · simp only [hk, if_true, List.mem_filter, bne_iff_ne, ne_eq, not_true, false_and, true_and, false_or]
          constructor
          · rintro ⟨h1, h2⟩; exact Or.inl ⟨fun e => h2 e.symm, h1⟩
          · rintro (⟨h1, h2⟩ | ⟨h1, a', b', h2, h3, _⟩)
            · exact ⟨h2, fun e => h1 e.symm⟩
            · rw [ha] at h2; simp only [Except.ok.injEq] at h2; subst h2; exact absurd h0 h3
        · simp [hk]
      · rename_i h0
        split at h
        · cases h
        · rename_i b hb
          have hbb := (makeBinding_some hb).1
          split at h
          · cases h
          · rename_i s1 hs1
            simp only [Except.ok.injEq] at h
            subst h
            refine ⟨⟨a, ha, ho, Or.inr ⟨b, hb⟩⟩, ⟨_, ⟨a, ha, Or.inr ⟨h0, b, hb, rfl⟩⟩, ?_, ?_⟩, ?_⟩
            · show s1 = (s.upsert b d.now).2
              rw [hs1]
            · show (s.upsert b d.now).1.isOk = true
              rw [hs1]; rfl
            · intro k y
              have := at_upsert s b d.now k
              rw [hs1] at this
              simp only at this
              rw [this, hab]
              have e1 : b.aor = c.aor := by rw [hbb]
              have e2 : b.contact = a.uri := by rw [hbb]
              by_cases hk : k = c.aor
              · rw [if_pos ⟨rfl, by rw [hk, e1]⟩, e2]
                simp only [hk, List.mem_append, List.mem_filter, bne_iff_ne, ne_eq, not_true, false_and, true_and,
                  false_or, List.mem_singleton]
                constructor
                · rintro (⟨h1, h2⟩ | h1)
                  · exact Or.inl ⟨fun e => h2 e.symm, h1⟩
                  · exact Or.inr ⟨by rw [h1]; exact e2.symm, a, b, ha, h0, hb, h1⟩
                · rintro (⟨h1, h2⟩ | ⟨h1, a', b', h2, _, h4, h5⟩)
                  · exact Or.inl ⟨h2, fun e => h1 e.symm⟩
                  · rw [ha] at h2; simp only [Except.ok.injEq] at h2; subst h2
                    rw [hb] at h4; simp only [Option.some.injEq] at h4; subst h4
                    exact Or.inr h5
              · rw [if_neg (by rw [e1]; simp [hk])]
                simp [hk]

/-- values and the operations they led to -/
inductive Paired (P : Str → StoreOp → Prop) : List Str → List StoreOp → Prop
  | nil : Paired P [] []
  | cons {v op vs ops} : P v op → Paired P vs ops → Paired P (v :: vs) (op :: ops)

theorem readContact_code {w : World} {r : Reg} {req : Request} {d : Draw} {v : Str} {resp : Response}
    (h : r.readContact w req d v = .error (.response resp)) : resp.code = 400 ∨ resp.code = 423 := by
  unfold Reg.readContact at h
  split at h
  · simp only [Except.error.injEq] at h; exact Or.inl (refuse_code h)
  · split at h
    · split at h
      · simp only [Except.error.injEq] at h; exact Or.inr (refuseBrief_code h)
      · simp only [Except.error.injEq] at h; exact Or.inl (refuse_code h)
      · simp only [Except.error.injEq] at h; exact Or.inl (refuse_code h)
      · split at h
        · simp only [Except.error.injEq] at h; exact Or.inl (refuse_code h)
        · split at h
          · simp only [Except.error.injEq] at h; exact Or.inl (refuse_code h)
          · split at h
            · simp only [Except.error.injEq] at h; exact Or.inl (refuse_code h)
            · cases h
    · simp only [Except.error.injEq] at h; exact Or.inl (refuse_code h)

theorem applyContact_code {w : World} {r : Reg} {req : Request} {d : Draw} {c : Ctx} {v : Str} {s : Store} {resp : Response}
    (h : r.applyContact w req d c v s = .error (.response resp)) : resp.code = 400 ∨ resp.code = 423 := by
  unfold Reg.applyContact at h
  split at h
  · rename_i o hr
    simp only [Except.error.injEq] at h
    subst h
    exact readContact_code hr
  · split at h
    · simp only [Except.error.injEq] at h; exact Or.inl (refuse_code h)
    · split at h
      · cases h
      · split at h
        · cases h
        · split at h <;> cases h

/-- effect of processing the Contact values `vs`, in order -/
def Effect (w : World) (r : Reg) (req : Request) (d : Draw) (c : Ctx) (vs : List Str) (s s' : Store) : Prop :=
  (∀ k, k ≠ c.aor → ∀ y, y ∈ s'.at k ↔ y ∈ s.at k) ∧
  (∀ y, y ∈ s'.at c.aor ↔ (y ∈ s.at c.aor ∧ ∀ v ∈ vs, ¬ About v y.contact) ∨
    ∃ pre v post, vs = pre ++ v :: post ∧ About v y.contact ∧ (∀ v' ∈ post, ¬ About v' y.contact) ∧
      Grants w r req d c v y)

theorem applyContacts_effect {w : World} {r : Reg} {req : Request} {d : Draw} {c : Ctx} : ∀ (vs : List Str) (s : Store),
    ∃ done rest, vs = done ++ rest ∧ (∀ v ∈ done, Fine w r req d c v) ∧
      Effect w r req d c done s (r.applyContacts w req d c vs s).2 ∧
      ((r.applyContacts w req d c vs s).1 = none → rest = []) ∧
      (∀ o, (r.applyContacts w req d c vs s).1 = some o →
        ∃ v more s1, rest = v :: more ∧ r.applyContact w req d c v s1 = .error o) ∧
      ∃ ops, Paired (OpFor w r req d c) done ops ∧ (r.applyContacts w req d c vs s).2 = s.run ops
  | [], s => ⟨[], [], rfl, by simp, ⟨fun k _ y => Iff.rfl, fun y => by simp [Reg.applyContacts]⟩, fun _ => rfl,
      fun o h => by simp [Reg.applyContacts] at h, [], .nil, rfl⟩
  | v :: vs, s => by
    cases h1 : r.applyContact w req d c v s with
    | error o =>
      have e : r.applyContacts w req d c (v :: vs) s = (some o, s) := by simp only [Reg.applyContacts, h1]
      rw [e]
      refine ⟨[], v :: vs, rfl, by simp, ⟨fun k _ y => Iff.rfl, fun y => by simp⟩, (fun h => by cases h), ?_, [], .nil, rfl⟩
      intro o' ho
      simp only [Option.some.injEq] at ho
      exact ⟨v, vs, s, rfl, by rw [h1, ho]⟩
    | ok s1 =>
      have e : r.applyContacts w req d c (v :: vs) s = r.applyContacts w req d c vs s1 := by
        simp only [Reg.applyContacts, h1]
      rw [e]
      obtain ⟨done, rest, e1, hf, heff, hn, ho, ops, hops, hrun⟩ := applyContacts_effect (c := c) vs s1
      obtain ⟨f1, ⟨op, hop, hs1, _⟩, f3⟩ := applyContact_ok h1
      refine ⟨v :: done, rest, by rw [e1]; rfl, ?_, ?_, hn, ho, op :: ops, .cons hop hops, ?_⟩
      · intro x hx
        rcases List.mem_cons.mp hx with rfl | hx
        · exact f1
        · exact hf x hx
      · refine ⟨fun k hk y => ?_, fun y => ?_⟩
        · rw [heff.1 k hk, f3]; simp [hk]
        · rw [heff.2, f3]
          simp only [ne_eq, not_true, false_and, true_and, false_or, List.mem_cons, forall_eq_or_imp]
          constructor
          · rintro (⟨h2 | h2, h3⟩ | ⟨pre, x, post, h2, h3, h4, h5⟩)
            · exact Or.inl ⟨h2.2, h2.1, h3⟩
            · exact Or.inr ⟨[], v, done, rfl, h2.1, h3, h2.2⟩
            · exact Or.inr ⟨v :: pre, x, post, by rw [h2]; rfl, h3, h4, h5⟩
          · rintro (⟨h2, h3, h4⟩ | ⟨pre, x, post, h2, h3, h4, h5⟩)
            · exact Or.inl ⟨Or.inl ⟨h3, h2⟩, h4⟩
            · cases pre with
              | nil =>
                simp only [List.nil_append, List.cons.injEq] at h2
                obtain ⟨rfl, rfl⟩ := h2
                exact Or.inl ⟨Or.inr ⟨h3, h5⟩, h4⟩
              | cons p pre =>
                simp only [List.cons_append, List.cons.injEq] at h2
                exact Or.inr ⟨pre, x, post, h2.2, h3, h4, h5⟩
      · rw [hrun, hs1]; rfl

/-! ## The handler -/

/-- Context in which contacts are processed. -/
structure CtxOf (r : Reg) (req : Request) (d : Draw) (aor : Str) (c : Ctx) : Prop where
  aorEq : c.aor = aor
  cseq : parseCseq req = some c.cseq
  callId : ∀ v, req.headers.get "Call-ID".toList = some v → c.callId = v
  userAgent : c.userAgent = req.headers.get "User-Agent".toList
  path : (req.headers.contains "Path".toList = true ∧ ∃ p, parsePath req.headers = some p ∧ c.path = some p) ∨
    (req.headers.contains "Path".toList = false ∧ c.path = none)
  existing : c.existing = (r.store.lookup aor d.now d.now).1

/-- The ways a request can go once it is known who sent it and for which address. -/
inductive Way (w : World) (r : Reg) (req : Request) (d : Draw) (aor : Str) : Outcome → Store → Prop
  | refused (o : Outcome) (h : ∀ resp, o = .response resp → resp.code = 400) : Way w r req d aor o r.store
  | wildcard (v : Str) (hc : contactHeaders req.headers = [v]) (hv : trim v = ['*'])
      (n : Nat) (hn : parseCseq req = some n)
      (hx : parseOpt U64_MAX (req.headers.get "Expires".toList) = .ok (some 0)) :
      Way w r req d aor (wildcardResponse req d) (r.store.removeAll aor)
  | stopped (c : Ctx) (hc : CtxOf r req d aor c) (done rest : List Str) (v : Str) (o : Outcome) (s' s1 : Store)
      (h1 : contactHeaders req.headers = done ++ v :: rest) (h2 : ∀ v ∈ contactHeaders req.headers, trim v ≠ ['*'])
      (h3 : ∀ v ∈ done, Fine w r req d c v) (h4 : Effect w r req d c done (r.store.lookup aor d.now d.now).2 s')
      (h5 : r.applyContact w req d c v s1 = .error o)
      (h6 : ∃ ops, Paired (OpFor w r req d c) done ops ∧ s' = (r.store.lookup aor d.now d.now).2.run ops) :
      Way w r req d aor o s'
  | done (c : Ctx) (hc : CtxOf r req d aor c) (s' : Store) (h2 : ∀ v ∈ contactHeaders req.headers, trim v ≠ ['*'])
      (h0 : contactHeaders req.headers ≠ [])
      (h3 : ∀ v ∈ contactHeaders req.headers, Fine w r req d c v)
      (h4 : Effect w r req d c (contactHeaders req.headers) (r.store.lookup aor d.now d.now).2 s')
      (h6 : ∃ ops, Paired (OpFor w r req d c) (contactHeaders req.headers) ops ∧
        s' = (r.store.lookup aor d.now d.now).2.run ops) :
      Way w r req d aor (r.listResponse req d (s'.lookup aor d.now d.now).1) (s'.lookup aor d.now d.now).2

theorem update_way (w : World) (r : Reg) (req : Request) (d : Draw) (aor : Str) :
    Way w r req d aor (r.update w req d aor).1 (r.update w req d aor).2 := by
  unfold Reg.update
  split
  · exact .refused _ (fun _ h => refuseBare_code h)
  · rename_i cseq hcs
    simp only
    split
    · exact .refused _ (fun _ h => refuse_code h)
    · rename_i hne
      split
      · exact .refused _ (fun _ h => refuse_code h)
      · rename_i hw
        split
        · rename_i hstar
          have hlen : (contactHeaders req.headers).length = 1 := by
            rw [hstar] at hw; simpa using hw
          split
          · exact .refused _ (fun _ h => refuse_code h)
          · rename_i hx
            cases hl : contactHeaders req.headers with
            | nil => rw [hl] at hlen; cases hlen
            | cons v vs =>
              cases vs with
              | cons _ _ => rw [hl] at hlen; simp at hlen
              | nil =>
                rw [hl] at hstar
                simp only [List.any_cons, List.any_nil, Bool.or_false, beq_iff_eq] at hstar
                exact .wildcard v hl hstar cseq hcs hx
          · exact .refused _ (fun _ h => refuse_code h)
        · rename_i hnostar
          have hns : ∀ v ∈ contactHeaders req.headers, trim v ≠ ['*'] := by
            intro v hv e
            exact hnostar (List.any_eq_true.mpr ⟨v, hv, by simpa using e⟩)
          split
          · exact .refused _ (fun _ h => refuse_code h)
          · rename_i path hp
            generalize hcdef : (Ctx.mk aor _ cseq _ path _) = c
            have hctx : CtxOf r req d aor c := by
              subst hcdef
              refine ⟨rfl, hcs, ?_, rfl, ?_, rfl⟩
              · intro v hv; simp only; rw [hv]
              · simp only
                split at hp
                · rename_i hcon
                  left
                  refine ⟨hcon, ?_⟩
                  cases hpp : parsePath req.headers with
                  | none => rw [hpp] at hp; cases hp
                  | some p => rw [hpp] at hp; simp at hp; exact ⟨p, rfl, hp.symm⟩
                · rename_i hcon
                  right
                  simp only [Option.some.injEq] at hp
                  exact ⟨by simpa using hcon, hp.symm⟩
            obtain ⟨done, rest, e1, hf, heff, hn, ho, hops⟩ :=
              applyContacts_effect (w := w) (r := r) (req := req) (d := d) (c := c) (contactHeaders req.headers)
                (r.store.lookup aor d.now d.now).2
            cases hres : r.applyContacts w req d c (contactHeaders req.headers) (r.store.lookup aor d.now d.now).2 with
            | mk o s' =>
              rw [hres] at heff hn ho hops
              cases o with
              | some o =>
                obtain ⟨v, more, s1, rfl, he⟩ := ho o rfl
                exact .stopped c hctx done more v o s' s1 e1 hns hf heff he hops
              | none =>
                have hr := hn rfl
                subst hr
                rw [List.append_nil] at e1
                subst e1
                exact .done c hctx s' hns (by simpa using hne) hf heff hops

theorem applyContacts_auth (w : World) (r : Reg) (req : Request) (d : Draw) (c : Ctx) (a : Option Auth.Server) :
    ∀ (vs : List Str) (s : Store), Reg.applyContacts w { r with auth := a } req d c vs s = Reg.applyContacts w r req d c vs s
  | [], _ => rfl
  | v :: vs, s => by
    simp only [Reg.applyContacts]
    have e : Reg.applyContact w { r with auth := a } req d c v s = Reg.applyContact w r req d c v s := rfl
    rw [e]
    split
    · rfl
    · exact applyContacts_auth w r req d c a vs _

theorem update_auth (w : World) (r : Reg) (req : Request) (d : Draw) (aor : Str) (a : Option Auth.Server) :
    Reg.update w { r with auth := a } req d aor = Reg.update w r req d aor := by
  unfold Reg.update
  simp only [applyContacts_auth]
  rfl

theorem gate_some {w : World} {r : Reg} {req : Request} {d : Draw} {o : Outcome} {a : Option Auth.Server}
    (h : r.gate w req d = (some o, a)) (resp : Response) (e : o = .response resp) :
    resp.code = 400 ∨ resp.code = 401 ∨ resp.code = 407 ∨ resp.code = 503 := by
  subst e
  unfold Reg.gate at h
  split at h
  · simp only [Prod.mk.injEq, Option.some.injEq] at h
    exact Or.inl (refuseBare_code h.1)
  · split at h
    · simp only [Prod.mk.injEq, Option.some.injEq] at h
      exact Or.inr (Or.inr (Or.inr (refuse_code h.1)))
    · split at h
      · simp at h
      · split at h
        · simp at h
        · simp only at h
          split at h
          · rename_i hch
            simp only [Prod.mk.injEq, Option.some.injEq, Outcome.response.injEq] at h
            obtain ⟨rfl, _⟩ := h
            rcases challenge_code hch with h | h <;> simp [h]
          · simp at h
          · simp at h

theorem gate_none {w : World} {r : Reg} {req : Request} {d : Draw} {a : Option Auth.Server}
    (h : r.gate w req d = (none, a)) :
    missingHeader req = none ∧ d.admitted = true ∧ (r.auth = none ∧ a = none ∨
      ∃ s s', r.auth = some s ∧ s.verify w.hash req req.headers d.now = (.ok true, s') ∧ a = some s') := by
  unfold Reg.gate at h
  split at h
  · simp at h
  · rename_i hm
    split at h
    · simp at h
    · rename_i hadm
      refine ⟨hm, by simpa using hadm, ?_⟩
      split at h
      · rename_i hau
        simp only [Prod.mk.injEq, true_and] at h
        exact Or.inl ⟨hau, h.symm⟩
      · rename_i s hau
        split at h
        · rename_i s' hv
          simp only [Prod.mk.injEq, true_and] at h
          exact Or.inr ⟨s, s', hau, hv, h.symm⟩
        · simp only at h
          split at h <;> simp at h

theorem requestAor_ok {req : Request} {aor : Str} (h : requestAor req = .ok aor) :
    ∃ to n, req.headers.get "To".toList = some to ∧ parseNameAddr to = some n ∧ normalizeAor n.uri = some aor := by
  unfold requestAor at h
  split at h
  · cases h
  · rename_i to ht
    split at h
    · cases h
    · rename_i n hn
      split at h
      · cases h
      · rename_i a ha
        simp only [Except.ok.injEq] at h
        exact ⟨to, n, ht, hn, by rw [ha, h]⟩

/-- Either nothing happened to the store and the answer is a refusal, or the request went through every check. -/
theorem handle_cases (w : World) (r : Reg) (req : Request) (d : Draw) :
    ((r.handle w req d).2.store = r.store ∧
      ∀ resp, (r.handle w req d).1 = .response resp → resp.code = 400 ∨ resp.code = 401 ∨ resp.code = 403 ∨
        resp.code = 407 ∨ resp.code = 503) ∨
    ∃ aor a, r.gate w req d = (none, a) ∧ requestAor req = .ok aor ∧ (r.auth.isSome = true → authorized w req aor = true) ∧
      Way w r req d aor (r.handle w req d).1 (r.handle w req d).2.store := by
  unfold Reg.handle
  split
  · rename_i o a hg
    left
    refine ⟨rfl, fun resp e => ?_⟩
    rcases gate_some hg resp e with h | h | h | h <;> simp [h]
  · rename_i a hg
    simp only
    split
    · left
      exact ⟨rfl, fun resp e => Or.inl (refuse_code e)⟩
    · rename_i aor ha
      split
      · left
        exact ⟨rfl, fun resp e => by rw [refuse_code e]; simp⟩
      · rename_i hau
        right
        refine ⟨aor, a, hg, ha, ?_, ?_⟩
        · intro hs
          have : a.isSome = true := by
            rcases (gate_none hg).2.2 with ⟨h1, _⟩ | ⟨s, s', h1, _, h3⟩
            · rw [h1] at hs; cases hs
            · rw [h3]; rfl
          simpa [this] using hau
        · have h1 := update_way w r req d aor
          rw [update_auth]
          exact h1

end Siphon.Registrar
