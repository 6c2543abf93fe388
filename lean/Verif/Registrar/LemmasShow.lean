import Verif.Registrar.Lemmas
set_option linter.unusedSimpArgs false
/-! What lookups show after a REGISTER. -/
namespace Siphon.Registrar
open Spec HdrSpec TextSpec Auth.Spec

/-! ## What a lookup shows -/

theorem mem_lookup (s : Store) (aor : Str) (t₁ t₂ : Nat) (h : t₁ ≤ t₂) (x : Binding) :
    x ∈ (s.lookup aor t₁ t₂).1 ↔ ∃ y ∈ s.at aor, t₂ < y.expiresAt ∧ x = y.binding aor t₂ := by
  rw [lookup_fst_le _ _ _ _ h, List.mem_map]
  constructor
  · rintro ⟨y, hy, rfl⟩
    obtain ⟨h1, h2⟩ := List.mem_filter.mp hy
    exact ⟨y, h1, by simpa using h2, rfl⟩
  · rintro ⟨y, h1, h2, rfl⟩
    exact ⟨y, List.mem_filter.mpr ⟨h1, by simpa using h2⟩, rfl⟩

theorem at_lookup (s : Store) (aor k : Str) (t₁ t₂ : Nat) :
    (s.lookup aor t₁ t₂).2.at k = if k = aor then (s.at k).filter (fun x => x.expiresAt > t₁) else s.at k := by
  show (s.purge aor t₁).at k = _
  exact at_purge s aor k t₁

/-- looking does not change what later looks show -/
theorem lookup_lookup (s : Store) (aor : Str) (t a t₁ t₂ : Nat) (h : t ≤ t₁) (h2 : t₁ ≤ t₂) (k : Str) :
    ((s.lookup aor t a).2.lookup k t₁ t₂).1 = (s.lookup k t₁ t₂).1 := by
  rw [lookup_fst_le _ _ _ _ h2, lookup_fst_le _ _ _ _ h2, at_lookup]
  split
  · rw [List.filter_filter]
    congr 1
    apply List.filter_congr
    intro x _
    simp only [gt_iff_lt, Bool.decide_and, Bool.and_eq_left_iff_imp, decide_eq_true_eq]
    omega
  · rfl

theorem same_of_mem {s s' : Store} {k : Str} (hm : ∀ y, y ∈ s'.at k ↔ y ∈ s.at k) (x : Binding) (t₁ t₂ : Nat) (h : t₁ ≤ t₂) :
    x ∈ (s'.lookup k t₁ t₂).1 ↔ x ∈ (s.lookup k t₁ t₂).1 := by
  rw [mem_lookup _ _ _ _ h, mem_lookup _ _ _ _ h]
  constructor
  · rintro ⟨y, h1, h2⟩; exact ⟨y, (hm y).mp h1, h2⟩
  · rintro ⟨y, h1, h2⟩; exact ⟨y, (hm y).mpr h1, h2⟩

theorem ctx_callId {r : Reg} {req : Request} {d : Draw} {aor : Str} {c : Ctx} (hc : CtxOf r req d aor c)
    (hm : missingHeader req = none) : ∃ more, Selects "Call-ID".toList req.headers.inner (c.callId :: more) := by
  cases hg : req.headers.get "Call-ID".toList with
  | none =>
    unfold missingHeader at hm
    rw [hg] at hm
    split at hm
    · cases hm
    · split at hm
      · cases hm
      · simp at hm
  | some v =>
    rw [hc.callId v hg]
    exact Auth.selects_of_get hg

theorem grants_asked {w : World} {r : Reg} {req : Request} {d : Draw} {aor : Str} {c : Ctx} (hc : CtxOf r req d aor c)
    (hm : missingHeader req = none) {v : Str} {y : Stored} (hg : Grants w r req d c v y) (t : Nat) :
    ∃ n, AsAsked w req.headers (r.defaultExpires / SEC) v n (y.binding aor t) ∧ 0 < n ∧
      y.expiresAt = d.now + n * SEC ∧ r.minExpires / SEC ≤ n ∧ n ≤ r.maxExpires / SEC ∧ 60 ≤ n ∧ n ≤ 86400 := by
  obtain ⟨a, b, h1, h2, h3, rfl⟩ := hg
  have hr := readContact_ok h1
  obtain ⟨hb, hlo, hhi⟩ := makeBinding_some h3
  obtain ⟨more, hcall⟩ := ctx_callId hc hm
  refine ⟨a.expires, ?_, by omega, by rw [hb]; rfl, ?_, ?_, hlo, hhi⟩
  · subst hb
    refine ⟨hr.asks, ⟨more, hcall⟩, ?_, hr.q, hr.inst, hr.regId, ?_, ?_, rfl⟩
    · obtain ⟨t, more, h4, h5, _⟩ := (parseCseq_iff req _).mp hc.cseq
      exact ⟨t, more, h4, h5⟩
    · show (_ ∧ c.userAgent = none) ∨ _
      rw [hc.userAgent]
      cases hu : req.headers.get "User-Agent".toList with
      | none => exact Or.inl ⟨(selects_nil_iff _ _).mpr hu, rfl⟩
      | some u =>
        obtain ⟨more, h4⟩ := Auth.selects_of_get hu
        exact Or.inr ⟨u, more, h4, rfl⟩
    · have hcon : req.headers.contains "Path".toList = true ↔ req.headers.get "Path".toList ≠ none := by
        rw [C24_contains, ne_eq, C24_get_none]
        simp
      rcases hc.path with ⟨h4, p, h5, h6⟩ | ⟨h4, h5⟩
      · right
        refine ⟨?_, p, h5, h6⟩
        cases hg : req.headers.get "Path".toList with
        | none => exact absurd hg (hcon.mp h4)
        | some t => obtain ⟨more, h7⟩ := Auth.selects_of_get hg; exact ⟨t, more, h7⟩
      · left
        refine ⟨(selects_nil_iff _ _).mpr ?_, h5⟩
        cases hg : req.headers.get "Path".toList with
        | none => rfl
        | some t => rw [hcon.mpr (by rw [hg]; simp)] at h4; cases h4
  · rcases hr.policy with h4 | h4
    · exact absurd h4 h2
    · exact h4.1
  · rcases hr.policy with h4 | h4
    · exact absurd h4 h2
    · exact h4.2

theorem words_fun {s : Str} {a b : List Str} (ha : Words s a) (hb : Words s b) : a = b := by
  rw [← (words_iff _ _).mp ha, (words_iff _ _).mp hb]

theorem cseqOf_fun {t : Str} {a b : Nat} (ha : CSeqOf t a) (hb : CSeqOf t b) : a = b := by
  obtain ⟨n, m, r, h1, h2, _⟩ := ha
  obtain ⟨n', m', r', k1, k2, _⟩ := hb
  have := words_fun h1 k1
  simp only [List.cons.injEq] at this
  obtain ⟨rfl, _⟩ := this
  exact decimal_fun h2 k2

/-- what is asked for is determined by the request -/
theorem asAsked_fun {w : World} {hs : Headers} {dflt : Nat} {v : Str} {n n' : Nat} {x x' : Binding}
    (h : AsAsked w hs dflt v n x) (h' : AsAsked w hs dflt v n' x') :
    n = n' ∧ x = { x' with aor := x.aor, expires := x.expires } := by
  obtain ⟨e1, e2⟩ := asks_fun h.uri h'.uri
  have par : ∀ {γ : Type} (name : Str) (hn : name ≠ []) (P : Str → γ → Prop) (z : γ) (f g : γ)
      (_ : ∀ t a b, P t a → P t b → a = b),
      (∃ sec, ContactOf v x.contact sec ∧ ((NoParam sec name ∧ f = z) ∨ ∃ t, Param sec name t ∧ P t f)) →
      (∃ sec, ContactOf v x'.contact sec ∧ ((NoParam sec name ∧ g = z) ∨ ∃ t, Param sec name t ∧ P t g)) → f = g := by
    intro γ name hn P z f g hP ⟨s1, c1, h1⟩ ⟨s2, c2, h2⟩
    obtain ⟨_, rfl⟩ := contactOf_fun c1 c2
    rcases h1 with ⟨h1, k1⟩ | ⟨t, h1, k1⟩ <;> rcases h2 with ⟨h2, k2⟩ | ⟨t', h2, k2⟩
    · rw [k1, k2]
    · exact (param_noParam hn h2 h1).elim
    · exact (param_noParam hn h1 h2).elim
    · obtain rfl := param_fun hn h1 h2
      exact hP t f g k1 k2
  have eq : x.q = x'.q := by
    refine par "q".toList (by decide) (fun t f => w.qText t = some f) ['1'] _ _ ?_ h.q h'.q
    intro t a b ha hb
    rw [ha] at hb; simpa using hb
  have ei : x.instanceId = x'.instanceId := by
    refine par "+sip.instance".toList (by decide) (fun t f => f = some t) none _ _ ?_ h.instanceId h'.instanceId
    intro t a b ha hb; rw [ha, hb]
  have er : x.regId = x'.regId := by
    refine par "reg-id".toList (by decide) (fun t f => ∃ m, Decimal t m ∧ f = some m) none _ _ ?_ ?_ ?_
    · rintro t a b ⟨m, h1, rfl⟩ ⟨m', h2, rfl⟩
      rw [decimal_fun h1 h2]
    · obtain ⟨s, h1, h2 | ⟨t, m, h2, h3, h4⟩⟩ := h.regId
      · exact ⟨s, h1, Or.inl h2⟩
      · exact ⟨s, h1, Or.inr ⟨t, h2, m, h3, h4⟩⟩
    · obtain ⟨s, h1, h2 | ⟨t, m, h2, h3, h4⟩⟩ := h'.regId
      · exact ⟨s, h1, Or.inl h2⟩
      · exact ⟨s, h1, Or.inr ⟨t, h2, m, h3, h4⟩⟩
  have ec : x.callId = x'.callId := by
    obtain ⟨m, h1⟩ := h.callId
    obtain ⟨m', h2⟩ := h'.callId
    have := selects_unique h1 h2
    simp only [List.cons.injEq] at this
    exact this.1
  have es : x.cseq = x'.cseq := by
    obtain ⟨t, m, h1, h3⟩ := h.cseq
    obtain ⟨t', m', h2, h4⟩ := h'.cseq
    have := selects_unique h1 h2
    simp only [List.cons.injEq] at this
    obtain ⟨rfl, _⟩ := this
    exact cseqOf_fun h3 h4
  have eu : x.userAgent = x'.userAgent := by
    rcases h.userAgent with ⟨h1, k1⟩ | ⟨t, m, h1, k1⟩ <;> rcases h'.userAgent with ⟨h2, k2⟩ | ⟨t', m', h2, k2⟩
    · rw [k1, k2]
    · cases selects_unique h1 h2
    · cases selects_unique h1 h2
    · have := selects_unique h1 h2
      simp only [List.cons.injEq] at this
      rw [k1, k2, this.1]
  have ep : x.path = x'.path := by
    rcases h.path with ⟨h1, k1⟩ | ⟨⟨t, m, h1⟩, p, j1, k1⟩ <;> rcases h'.path with ⟨h2, k2⟩ | ⟨⟨t', m', h2⟩, p', j2, k2⟩
    · rw [k1, k2]
    · cases selects_unique h1 h2
    · cases selects_unique h1 h2
    · rw [j1] at j2
      simp only [Option.some.injEq] at j2
      rw [k1, k2, j2]
  have ef : x.flowToken = x'.flowToken := by rw [h.flowToken, h'.flowToken]
  refine ⟨e2, ?_⟩
  cases x; cases x'
  simp only at e1 eq ei er ec es eu ep ef
  simp only [Binding.mk.injEq]
  exact ⟨trivial, e1, trivial, ec, es, eq, eu, ep, ef, ei, er⟩

/-- the effect of a processed list of contacts, as lookups show it -/
theorem effect_lookup {w : World} {r : Reg} {req : Request} {d : Draw} {aor : Str} {c : Ctx} (hc : CtxOf r req d aor c)
    (hm : missingHeader req = none) {vs : List Str} {s' : Store} (hf : ∀ v ∈ vs, Fine w r req d c v)
    (he : Effect w r req d c vs (r.store.lookup aor d.now d.now).2 s') :
    (∀ a, a ≠ aor → ∀ t₁ t₂, t₁ ≤ t₂ → ∀ x, x ∈ (s'.lookup a t₁ t₂).1 ↔ x ∈ (r.store.lookup a t₁ t₂).1) ∧
    ∀ t₁ t₂, d.now ≤ t₁ → t₁ ≤ t₂ → ∀ x, x ∈ (s'.lookup aor t₁ t₂).1 ↔
      (x ∈ (r.store.lookup aor t₁ t₂).1 ∧ ∀ v ∈ vs, ¬ About v x.contact) ∨
      ∃ pre v post n, vs = pre ++ v :: post ∧ (∀ v' ∈ post, ¬ About v' x.contact) ∧
        AsAsked w req.headers (r.defaultExpires / SEC) v n x ∧ 0 < n ∧ x.aor = aor ∧
        t₂ < d.now + n * SEC ∧ x.expires = d.now + n * SEC - t₂ := by
  have hca := hc.aorEq
  constructor
  · intro a ha t₁ t₂ ht x
    refine same_of_mem (fun y => ?_) x t₁ t₂ ht
    rw [he.1 a (by rw [hca]; exact ha), at_lookup, if_neg ha]
  · intro t₁ t₂ h1 h2 x
    have heff := he.2
    rw [hca] at heff
    constructor
    · intro hx
      obtain ⟨y, hy, hlt, rfl⟩ := (mem_lookup _ _ _ _ h2 _).mp hx
      rcases (heff y).mp hy with ⟨h3, h4⟩ | ⟨pre, v, post, h3, h4, h5, h6⟩
      · left
        rw [at_lookup, if_pos rfl] at h3
        exact ⟨(mem_lookup _ _ _ _ h2 _).mpr ⟨y, (List.mem_filter.mp h3).1, hlt, rfl⟩, h4⟩
      · right
        obtain ⟨n, hn, hpos, hexp, _⟩ := grants_asked hc hm h6 t₂
        refine ⟨pre, v, post, n, h3, h5, hn, hpos, rfl, by rw [← hexp]; exact hlt, ?_⟩
        show y.expiresAt - t₂ = _
        rw [hexp]
    · rintro (⟨h3, h4⟩ | ⟨pre, v, post, n, h3, h4, h5, h6, h7, h8, h9⟩)
      · obtain ⟨y, hy, hlt, rfl⟩ := (mem_lookup _ _ _ _ h2 _).mp h3
        refine (mem_lookup _ _ _ _ h2 _).mpr ⟨y, (heff y).mpr (Or.inl ⟨?_, h4⟩), hlt, rfl⟩
        rw [at_lookup, if_pos rfl]
        exact List.mem_filter.mpr ⟨hy, by simp only [gt_iff_lt, decide_eq_true_eq]; omega⟩
      · obtain ⟨a, ha, hord, hor⟩ := hf v (by rw [h3]; simp)
        have hr := readContact_ok ha
        have hne : a.expires ≠ 0 := by
          have := (asks_fun hr.asks h5.uri).2
          omega
        obtain ⟨b, hb⟩ : ∃ b, makeBinding c a = some b := by
          rcases hor with h | h
          · exact absurd h hne
          · exact h
        have hg : Grants w r req d c v (b.stored d.now) := ⟨a, b, ha, hne, hb, rfl⟩
        obtain ⟨n', hn', _, hexp, _⟩ := grants_asked hc hm hg t₂
        obtain ⟨rfl, e⟩ := asAsked_fun h5 hn'
        have ec : x.contact = (b.stored d.now).contact := by rw [e]; rfl
        refine (mem_lookup _ _ _ _ h2 _).mpr ⟨b.stored d.now, (heff _).mpr (Or.inr ⟨pre, v, post, h3, ?_, ?_, hg⟩), ?_, ?_⟩
        · obtain ⟨sec, hs, _⟩ := h5.uri
          exact ⟨sec, by rw [← ec]; exact hs⟩
        · rw [← ec]; exact h4
        · rw [hexp]; exact h8
        · rw [e, h7, h9, ← hexp]
          rfl

end Siphon.Registrar
