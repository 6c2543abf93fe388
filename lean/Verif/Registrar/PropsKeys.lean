import Verif.Registrar.KeySpec
import Verif.Registrar.Model
import Verif.Core.NameAddr
import Verif.Core.UriProps
set_option linter.unusedSimpArgs false
/-!
# C70: address-of-record keys neither merge nor split accounts
-/
namespace Siphon.Registrar
open KeySpec UriP
open Siphon.Auth (splitOnce_some_iff)

/-! ## SIP addresses -/

theorem normalizeSip_eq {t : Str} {u : SipUri} (h : SipUri.parse t = some u) :
    normalizeSip u = (if u.sips then "sips".toList else "sip".toList) ++ ':' :: (userText u.user ++ u.host ++ portText u.port) := by
  have hs := (parse_sound h).1
  unfold normalizeSip
  cases hu : u.user with
  | none =>
    simp only [hs.hostLower, Option.map_none]
    cases u.port <;> simp [userText, portText]
  | some x =>
    have hv := hs.user x hu
    have hne : x.isEmpty = false := by simpa using (user_chars hv).1
    have hat : '@' ∉ x := user_not_mem hv '@' (by decide)
    simp only [hs.hostLower, Option.map_some, splitLast_none _ _ hat, hne, Bool.not_false, if_true]
    cases u.port <;> simp [userText, portText]

theorem append_sep_inj {c : Char} {a b a' b' : Str} (ha : c ∉ a) (ha' : c ∉ a') (h : a ++ c :: b = a' ++ c :: b') :
    a = a' ∧ b = b' := by
  have h1 := splitOnce_append c a b ha
  have h2 := splitOnce_append c a' b' ha'
  rw [h, h2] at h1
  simp only [Option.some.injEq, Prod.mk.injEq] at h1
  exact ⟨h1.1.symm, h1.2.symm⟩

/-- the key of a SIP address determines the scheme, the user and the text of host and port -/
theorem sip_key_parts {t t' : Str} {u v : SipUri} (hu : SipUri.parse t = some u) (hv : SipUri.parse t' = some v)
    (h : normalizeSip u = normalizeSip v) :
    u.sips = v.sips ∧ u.user = v.user ∧ u.host ++ portText u.port = v.host ++ portText v.port := by
  rw [normalizeSip_eq hu, normalizeSip_eq hv] at h
  have hs := (parse_sound hu).1
  have hs' := (parse_sound hv).1
  obtain ⟨h1, h2⟩ := append_sep_inj (by cases u.sips <;> decide) (by cases v.sips <;> decide) h
  have hsch : u.sips = v.sips := by
    revert h1; cases u.sips <;> cases v.sips <;> decide
  have hnat : ∀ w : SipUri, Sound w → '@' ∉ w.host ++ portText w.port := by
    intro w hw hm
    rcases List.mem_append.mp hm with hm | hm
    · exact host_not_mem hw.host '@' (not_host _ (by decide) (by decide)) hm
    · cases hp : w.port with
      | none => rw [hp] at hm; simp [portText] at hm
      | some p =>
        rw [hp] at hm
        simp only [portText, List.mem_cons] at hm
        rcases hm with hm | hm
        · cases hm
        · exact showNat_not_mem p '@' (by decide) hm
  have e : ∀ w : SipUri, ∀ x, w.user = some x →
      userText w.user ++ w.host ++ portText w.port = x ++ '@' :: (w.host ++ portText w.port) := by
    intro w x hx; rw [hx]; simp [userText]
  have e0 : ∀ w : SipUri, w.user = none → userText w.user ++ w.host ++ portText w.port = w.host ++ portText w.port := by
    intro w hx; rw [hx]; simp [userText]
  refine ⟨hsch, ?_⟩
  cases hx : u.user with
  | none =>
    rw [e0 u hx] at h2
    cases hy : v.user with
    | none => rw [e0 v hy] at h2; exact ⟨rfl, h2⟩
    | some y =>
      rw [e v y hy] at h2
      exact absurd (by rw [h2]; simp) (hnat u hs)
  | some x =>
    rw [e u x hx] at h2
    cases hy : v.user with
    | none =>
      rw [e0 v hy] at h2
      exact absurd (by rw [← h2]; simp) (hnat v hs')
    | some y =>
      rw [e v y hy] at h2
      obtain ⟨h3, h4⟩ := append_sep_inj (user_not_mem (hs.user x hx) '@' (by decide))
        (user_not_mem (hs'.user y hy) '@' (by decide)) h2
      exact ⟨by rw [h3], h4⟩

theorem append_last_inj {c : Char} {a b a' b' : Str} (hb : c ∉ b) (hb' : c ∉ b') (h : a ++ c :: b = a' ++ c :: b') :
    a = a' ∧ b = b' := by
  have h1 := splitLast_append c a b hb
  have h2 := splitLast_append c a' b' hb'
  rw [h, h2] at h1
  simp only [Option.some.injEq, Prod.mk.injEq] at h1
  exact ⟨h1.1.symm, h1.2.symm⟩

/-- **C70** for SIP addresses (partial): the registrar files two SIP URIs under the same key exactly when
they have the same scheme, user, host and port -- whatever their parameters, headers and way of writing --
unless one has a port, the other has none and the latter's host is an IPv6 address.
(Missing: that last case, see `C70_ipv6_port`.) -/
theorem C70_sip_partial {t t' : Str} {u v : SipUri} (hu : SipUri.parse t = some u) (hv : SipUri.parse t' = some v)
    (hk : (u.port.isSome = v.port.isSome) ∨ (':' ∉ u.host ∧ ':' ∉ v.host)) :
    normalizeAor (.sip u) = normalizeAor (.sip v) ↔ SameAddress u v := by
  simp only [normalizeAor, Option.some.injEq]
  constructor
  · intro h
    obtain ⟨h1, h2, h3⟩ := sip_key_parts hu hv h
    have nd : ∀ p, ':' ∉ showNat p := fun p => showNat_not_mem p ':' (by decide)
    have hp : u.host = v.host ∧ u.port = v.port := by
      cases hp : u.port with
      | none =>
        cases hq : v.port with
        | none => rw [hp, hq] at h3; simpa [portText] using h3
        | some q =>
          rcases hk with hk | hk
          · rw [hp, hq] at hk; cases hk
          · rw [hp, hq] at h3
            simp only [portText, List.append_nil] at h3
            exact absurd (by rw [h3]; simp) hk.1
      | some p =>
        cases hq : v.port with
        | none =>
          rcases hk with hk | hk
          · rw [hp, hq] at hk; cases hk
          · rw [hp, hq] at h3
            simp only [portText, List.append_nil] at h3
            exact absurd (by rw [← h3]; simp) hk.2
        | some q =>
          rw [hp, hq] at h3
          obtain ⟨h4, h5⟩ := append_last_inj (nd p) (nd q) h3
          exact ⟨h4, by rw [showNat_inj h5]⟩
    exact ⟨h1, h2, hp.1, hp.2⟩
  · rintro ⟨h1, h2, h3, h4⟩
    rw [normalizeSip_eq hu, normalizeSip_eq hv, h1, h2, h3, h4]

/-- Non-vacuity: two ways of writing one address. -/
example : ∃ u v, SipUri.parse "sip:%62ob@EX.org:5070;lr".toList = some u ∧ SipUri.parse "SIP:bob@ex.org:5070?a=b".toList = some v
    ∧ u.port.isSome = v.port.isSome ∧ normalizeAor (.sip u) = some "sip:bob@ex.org:5070".toList
    ∧ normalizeAor (.sip v) = some "sip:bob@ex.org:5070".toList :=
  ⟨_, _, rfl, rfl, by decide +kernel, by decide +kernel, by decide +kernel⟩

/-- **C70** fails for IPv6 addresses: without brackets, a port and the last group of the address look the
same, so two different hosts share a key. -/
theorem C70_ipv6_port :
    (match SipUri.parse "sip:bob@[2001:db8::1]:5060".toList, SipUri.parse "sip:bob@[2001:db8::1:5060]".toList with
      | some u, some v => normalizeAor (.sip u) == normalizeAor (.sip v) && u.host != v.host && u.port != v.port
      | _, _ => false) = true := by decide +kernel

/-! ## Telephone numbers -/

/-- what reading a tel URI guarantees -/
structure TelSound (u : TelUri) : Prop where
  number : ';' ∉ u.number
  plus : u.isGlobal = false → '+' ∉ u.number
  glob : u.isGlobal = true → u.number.head? = some '+'
  ctx : u.phoneContext.isSome = !u.isGlobal
  ctxSemi : ∀ c, u.phoneContext = some c → ';' ∉ c
  names : ∀ e ∈ u.parameters, ';' ∉ e.1 ∧ '=' ∉ e.1
  values : ∀ e ∈ u.parameters, ∀ v, e.2 = some v → ';' ∉ v

theorem telName_ne {n : Str} (h : validTelParamName n = true) : ';' ∉ n ∧ '=' ∉ n := by
  unfold validTelParamName at h
  simp only [Bool.and_eq_true, Bool.not_eq_true', List.any_eq_false, Bool.or_eq_true, not_or, beq_iff_eq] at h
  exact ⟨fun hm => (h.2 _ hm).1.2 rfl, fun hm => (h.2 _ hm).2 rfl⟩

theorem parseTelParams_good : ∀ (ps : List Str) (m : BMap (Option Str)) (ctx : Option Str) (out : BMap (Option Str) × Option Str),
    (∀ p ∈ ps, ';' ∉ p) → (∀ c, ctx = some c → ';' ∉ c) →
    (∀ e ∈ m, (';' ∉ e.1 ∧ '=' ∉ e.1) ∧ ∀ v, e.2 = some v → ';' ∉ v) →
    parseTelParams ps (m, ctx) = some out →
    (∀ c, out.2 = some c → ';' ∉ c) ∧ (∀ e ∈ out.1, (';' ∉ e.1 ∧ '=' ∉ e.1) ∧ ∀ v, e.2 = some v → ';' ∉ v)
  | [], m, ctx, out, _, h2, h3, h => by
    simp only [parseTelParams, Option.some.injEq] at h
    subst h; exact ⟨h2, h3⟩
  | p :: ps, m, ctx, out, h1, h2, h3, h => by
    have hp := h1 p (by simp)
    have h1' : ∀ q ∈ ps, ';' ∉ q := fun q hq => h1 q (by simp [hq])
    have ins : ∀ k (y : Option Str), (';' ∉ k ∧ '=' ∉ k) → (∀ v, y = some v → ';' ∉ v) →
        ∀ e ∈ m.insert k y, (';' ∉ e.1 ∧ '=' ∉ e.1) ∧ ∀ v, e.2 = some v → ';' ∉ v := by
      intro k y hk hy e he
      rcases mem_insert he with rfl | he
      · exact ⟨hk, hy⟩
      · exact h3 e he
    simp only [parseTelParams] at h
    split at h
    · cases h
    · split at h
      · exact parseTelParams_good ps m ctx out h1' h2 h3 h
      · split at h
        · cases h
        · split at h
          · rename_i k v hsp
            obtain ⟨e1, e2⟩ := (splitOnce_some_iff _ _ _ _).mp hsp
            have hv : ';' ∉ v := fun hm => hp (by rw [e1]; simp [hm])
            split at h
            · cases h
            · rename_i hval
              simp only [Bool.or_eq_true, Bool.not_eq_true', not_or, Bool.not_eq_false] at hval
              have hk := telName_ne hval.1
              have hi := ins k (some v) hk (fun w hw => by cases hw; exact hv)
              split at h
              · split at h
                · exact parseTelParams_good ps _ _ out h1' (fun c hc => by cases hc; exact hv) hi h
                · cases h
              · exact parseTelParams_good ps _ _ out h1' h2 hi h
          · split at h
            · cases h
            · rename_i hval
              simp only [Bool.not_eq_true', Bool.not_eq_false] at hval
              exact parseTelParams_good ps _ _ out h1' h2 (ins p none (telName_ne hval) (by simp)) h

theorem tel_sound {t : Str} {u : TelUri} (h : TelUri.parse t = some u) : TelSound u := by
  unfold TelUri.parse at h
  split at h
  · cases h
  · rename_i rest hrest
    split at h
    · cases h
    · rename_i b ps hsp
      simp only at h
      split at h
      · cases h
      · rename_i hval
        simp only [Bool.or_eq_true, Bool.not_eq_true', not_or, Bool.not_eq_false, Bool.not_eq_true] at hval
        have hmem : ∀ p ∈ b :: ps, ';' ∉ p := fun p hp => (mem_splitChar (by rw [hsp]; exact hp)).1
        have hb : ';' ∉ trim b := fun hm => hmem b (by simp) (mem_of_mem_trim hm)
        split at h
        · cases h
        · rename_i params ctx hpp
          obtain ⟨g1, g2⟩ := parseTelParams_good ps [] none _ (fun p hp => hmem p (by simp [hp])) (by simp)
            (fun e he => absurd he List.not_mem_nil) hpp
          split at h
          · cases h
          · rename_i hn1
            split at h
            · cases h
            · rename_i hn2
              simp only [Option.some.injEq] at h
              subst h
              cases hg : ((trim b).head? == some '+')
              · have hc : ctx.isSome = true := by
                  rw [hg] at hn1
                  cases ctx
                  · simp at hn1
                  · rfl
                refine ⟨?_, ?_, ?_, ?_, g1, fun e he => (g2 e he).1, fun e he => (g2 e he).2⟩
                · simpa [hg] using hb
                · intro _
                  simp only [hg, Bool.false_eq_true, if_false]
                  have hv := hval.2
                  unfold validTelNumber at hv
                  rw [Bool.and_eq_true] at hv
                  have hv := hv.2
                  split at hv
                  · rename_i e; rw [e] at hg; cases hg
                  · rw [Bool.and_eq_true] at hv
                    intro hm
                    have := List.all_eq_true.mp hv.1 '+' hm
                    revert this; decide
                · intro hh; cases hh
                · simp only [hg, hc]; rfl
              · have hc : ctx = none := by
                  rw [hg] at hn2
                  cases ctx
                  · rfl
                  · simp at hn2
                refine ⟨?_, ?_, ?_, ?_, g1, fun e he => (g2 e he).1, fun e he => (g2 e he).2⟩
                · simp only [hg, if_true]
                  intro hm
                  exact hb (List.mem_filter.mp hm).1
                · intro hh; cases hh
                · intro _
                  simp only [hg, if_true]
                  cases hbb : trim b with
                  | nil => rw [hbb] at hg; cases hg
                  | cons x xs =>
                    rw [hbb] at hg
                    have : x = '+' := by simpa using hg
                    subst this
                    rfl
                · simp only [hg, hc]; rfl

theorem visual_iff (c : Char) : isVisualSep c = ['-', '.', ' ', '(', ')'].contains c := by
  unfold isVisualSep
  rw [Bool.eq_iff_iff]
  simp [or_assoc]

theorem dropVisual_dialled (n : Str) : dropVisual n = dialled n := by
  unfold dropVisual dialled
  simp only [visual_iff]

/-- the parameters of the key, the context first -/
def keyParams (u : TelUri) : List (Str × Option Str) :=
  (match context u with | some c => [("phone-context".toList, some c)] | none => []) ++ sortParams (others u)

theorem filter_lower (k : Str) (hl : lower k = k) (l : List (Str × Option Str)) :
    (l.filter (fun p => !eqIgnoreCase p.1 k)).map (fun p => (lower p.1, p.2))
      = (l.map (fun p => (lower p.1, p.2))).filter (fun p => decide (p.1 ≠ k)) := by
  rw [List.filter_map]
  congr 1
  apply List.filter_congr
  intro p _
  rw [Bool.eq_iff_iff]
  simp [Function.comp, eqIgnoreCase, hl]

theorem others_eq (u : TelUri) :
    (u.parameters.filter (fun p => !eqIgnoreCase p.1 "phone-context".toList)).map (fun p => (lower p.1, p.2)) = others u :=
  filter_lower _ (by decide) _

theorem context_eq (u : TelUri) :
    u.phoneContext.map (fun c => if c.head? == some '+' then dropVisual c else lower c) = context u := by
  unfold context
  cases hc : u.phoneContext with
  | none => rfl
  | some c =>
    cases c with
    | nil => rfl
    | cons x xs =>
      by_cases hx : x = '+'
      · subst hx
        simp only [Option.map_some, List.head?_cons, beq_self_eq_true, if_true, dropVisual_dialled]
        rfl
      · have : (some x == some '+') = false := by simpa using hx
        simp only [Option.map_some, List.head?_cons, this, Bool.false_eq_true, if_false]
        split
        · rename_i h; exact absurd h (by simp)
        · rename_i e; simp only [Option.some.injEq, List.cons.injEq] at e; exact absurd e.1 hx
        · rename_i e; simp only [Option.some.injEq] at e; rw [e]

theorem normalizeTel_eq {u : TelUri} (h : TelSound u) :
    normalizeTel u = "tel:".toList ++ (dialled u.number ++ renderParams (keyParams u)) := by
  unfold normalizeTel keyParams
  simp only
  rw [others_eq, context_eq, dropVisual_dialled]
  have hc := h.ctx
  cases hg : u.isGlobal
  · rw [hg] at hc
    cases hp : context u with
    | none => simp
    | some c =>
      have e : ";phone-context=".toList = ';' :: "phone-context".toList ++ ['='] := rfl
      simp only [Bool.false_eq_true, if_false, e, renderParams, List.cons_append, List.nil_append, List.append_assoc]
  · rw [hg] at hc
    have hn : context u = none := by
      unfold context
      cases hp : u.phoneContext with
      | none => rfl
      | some c => rw [hp] at hc; cases hc
    simp only [hn, if_true, List.nil_append, List.append_assoc]

theorem insertParam_perm (x : Str × Option Str) : ∀ l, (insertParam x l).Perm (x :: l)
  | [] => .refl _
  | y :: ys => by
    unfold insertParam
    split
    · exact ((insertParam_perm x ys).cons y).trans (.swap x y ys)
    · exact .refl _

theorem sortParams_perm : ∀ l, (sortParams l).Perm l
  | [] => .refl _
  | x :: xs => (insertParam_perm x _).trans ((sortParams_perm xs).cons x)

/-- increasing names -/
def LeSorted (l : List (Str × Option Str)) : Prop := l.Pairwise (fun a b => strLt b.1 a.1 = false)

theorem insertParam_sorted (x : Str × Option Str) : ∀ l, LeSorted l → LeSorted (insertParam x l)
  | [], _ => by simp [insertParam, LeSorted]
  | y :: ys, h => by
    have h' := List.pairwise_cons.mp h
    unfold insertParam
    split
    · rename_i hlt
      refine List.pairwise_cons.mpr ⟨?_, insertParam_sorted x ys h'.2⟩
      intro a ha
      rcases List.mem_cons.mp ((insertParam_perm x ys).mem_iff.mp ha) with rfl | ha
      · apply Bool.eq_false_iff.mpr
        intro hc
        have := strLt_trans _ _ _ hlt hc
        rw [strLt_irrefl] at this; cases this
      · exact h'.1 a ha
    · rename_i hlt
      refine List.pairwise_cons.mpr ⟨?_, h⟩
      intro a ha
      rcases List.mem_cons.mp ha with rfl | ha
      · simpa using hlt
      · apply Bool.eq_false_iff.mpr
        intro hc
        by_cases hxy : x.1 = y.1
        · rw [hxy, h'.1 a ha] at hc; cases hc
        · have h1 := strLt_total y.1 x.1 (fun e => hxy e.symm) (by simpa using hlt)
          have h2 := strLt_trans _ _ _ hc h1
          rw [h'.1 a ha] at h2; cases h2

theorem sortParams_sorted : ∀ l, LeSorted (sortParams l)
  | [] => List.Pairwise.nil
  | x :: xs => insertParam_sorted x _ (sortParams_sorted xs)

theorem nodup_names_eq : ∀ {l : List (Str × Option Str)} {a b : Str × Option Str}, (l.map (·.1)).Nodup → a ∈ l → b ∈ l →
    a.1 = b.1 → a = b
  | x :: l, a, b, hn, ha, hb, he => by
    have hn' := List.nodup_cons.mp hn
    have out : ∀ y ∈ l, x.1 ≠ y.1 := fun y hy e => hn'.1 (List.mem_map.mpr ⟨y, hy, e.symm⟩)
    rcases List.mem_cons.mp ha with ha1 | ha1
    · rcases List.mem_cons.mp hb with hb1 | hb1
      · rw [ha1, hb1]
      · rw [ha1] at he; exact absurd he (out b hb1)
    · rcases List.mem_cons.mp hb with hb1 | hb1
      · rw [hb1] at he; exact absurd he.symm (out a ha1)
      · exact nodup_names_eq hn'.2 ha1 hb1 he

theorem sortParams_unique {l l' : List (Str × Option Str)} (hp : l.Perm l') (hn : (l.map (·.1)).Nodup) :
    sortParams l = sortParams l' := by
  have hp' : (sortParams l).Perm (sortParams l') := (sortParams_perm l).trans (hp.trans (sortParams_perm l').symm)
  refine List.Perm.eq_of_pairwise ?_ (sortParams_sorted l) (sortParams_sorted l') hp'
  intro a b ha hb h1 h2
  have ha' := (sortParams_perm l).mem_iff.mp ha
  have hb' := (hp.trans (sortParams_perm l').symm).mem_iff.mpr hb
  apply nodup_names_eq hn ha' hb'
  apply Classical.byContradiction
  intro hne
  have := strLt_total b.1 a.1 (fun e => hne e.symm) h1
  rw [this] at h2; cases h2

theorem paramText_inj {a b : Str × Option Str} (ha : '=' ∉ a.1) (hb : '=' ∉ b.1) (h : paramText a = paramText b) : a = b := by
  obtain ⟨n, x⟩ := a
  obtain ⟨m, y⟩ := b
  cases x <;> cases y <;> simp only [paramText] at h
  · rw [h]
  · exact absurd (by rw [h]; simp) ha
  · exact absurd (by rw [← h]; simp) hb
  · obtain ⟨h1, h2⟩ := append_sep_inj ha hb h
    have h1 : n = m := h1
    rw [h1, h2]

theorem splitChar_render (base : Str) (hb : ';' ∉ base) : ∀ ps : List (Str × Option Str), (∀ e ∈ ps, ';' ∉ paramText e) →
    splitChar ';' (base ++ renderParams ps) = base :: ps.map paramText
  | [], _ => by simp only [renderParams, List.append_nil, List.map_nil]; exact splitChar_of_not_mem _ _ hb
  | e :: t, h => by
    have : base ++ renderParams (e :: t) = base ++ ';' :: (paramText e ++ renderParams t) := by
      obtain ⟨k, o⟩ := e
      cases o <;> simp [renderParams, paramText]
    rw [this, splitChar_append_sep _ _ _ hb, splitChar_render (paramText e) (h e (by simp)) t (fun x hx => h x (by simp [hx]))]
    rfl

theorem map_paramText_inj : ∀ {l l' : List (Str × Option Str)}, (∀ e ∈ l, '=' ∉ e.1) → (∀ e ∈ l', '=' ∉ e.1) →
    l.map paramText = l'.map paramText → l = l'
  | [], [], _, _, _ => rfl
  | [], _ :: _, _, _, h => by cases h
  | _ :: _, [], _, _, h => by cases h
  | a :: l, b :: l', h1, h2, h => by
    simp only [List.map_cons, List.cons.injEq] at h
    rw [paramText_inj (h1 a (by simp)) (h2 b (by simp)) h.1,
      map_paramText_inj (fun e he => h1 e (by simp [he])) (fun e he => h2 e (by simp [he])) h.2]

theorem mem_lower_ne {c : Char} {n : Str} (hc : c.toNat < 65) (h : c ∈ lower n) : c ∈ n := by
  unfold lower at h
  obtain ⟨x, hx, e⟩ := List.mem_map.mp h
  have : x = c := by
    apply char_ext_toNat
    have := congrArg Char.toNat e
    rw [toLower_toNat] at this
    split at this <;> omega
  rw [← this]; exact hx

theorem mem_dialled {c : Char} {n : Str} (h : c ∈ dialled n) : c ∈ n := (List.mem_filter.mp h).1

theorem keyParams_good {u : TelUri} (h : TelSound u) : ∀ e ∈ keyParams u, '=' ∉ e.1 ∧ ';' ∉ paramText e := by
  intro e he
  have mk : ∀ (e : Str × Option Str), ';' ∉ e.1 → (∀ v, e.2 = some v → ';' ∉ v) → ';' ∉ paramText e := by
    rintro ⟨n, o⟩ h1 h2
    cases o with
    | none => exact h1
    | some v =>
      have := h2 v rfl
      simp only [paramText, List.mem_append, List.mem_cons, not_or]
      exact ⟨h1, by decide, this⟩
  rcases List.mem_append.mp he with he | he
  · cases hc : context u with
    | none => rw [hc] at he; simp at he
    | some c =>
      rw [hc] at he
      rw [List.mem_singleton] at he
      subst he
      refine ⟨(by decide : '=' ∉ "phone-context".toList), mk _ (by decide : ';' ∉ "phone-context".toList) ?_⟩
      intro v hv
      simp only [Option.some.injEq] at hv
      subst hv
      intro hm
      unfold context at hc
      split at hc
      · cases hc
      · rename_i t hp
        simp only [Option.some.injEq] at hc
        rw [← hc] at hm
        rcases List.mem_cons.mp hm with hm | hm
        · cases hm
        · exact h.ctxSemi _ hp (by simp [mem_dialled hm])
      · rename_i c' _ hp
        simp only [Option.some.injEq] at hc
        rw [← hc] at hm
        exact h.ctxSemi _ hp (mem_lower_ne (by decide) hm)
  · have he := (sortParams_perm _).mem_iff.mp he
    unfold others at he
    obtain ⟨p, hp, rfl⟩ := List.mem_map.mp (List.mem_filter.mp he).1
    have hn := h.names p hp
    exact ⟨fun hm => hn.2 (mem_lower_ne (by decide) hm),
      mk _ (fun hm => hn.1 (mem_lower_ne (by decide) hm)) (h.values p hp)⟩

theorem others_names (u : TelUri) : ∀ e ∈ others u, e.1 ≠ "phone-context".toList := by
  intro e he
  exact of_decide_eq_true (List.mem_filter.mp he).2

/-- **C70** for telephone numbers: two tel URIs filed under the same key are the same number -- same
digits, same context, same other parameters. -/
theorem C70_tel_distinct {t t' : Str} {u v : TelUri} (hu : TelUri.parse t = some u) (hv : TelUri.parse t' = some v)
    (h : normalizeAor (.tel u) = normalizeAor (.tel v)) : SameNumber u v := by
  have hs := tel_sound hu
  have hs' := tel_sound hv
  simp only [normalizeAor, Option.some.injEq, normalizeTel_eq hs, normalizeTel_eq hs'] at h
  have h := List.append_cancel_left h
  have n1 : ';' ∉ dialled u.number := fun hm => hs.number (mem_dialled hm)
  have n2 : ';' ∉ dialled v.number := fun hm => hs'.number (mem_dialled hm)
  have e1 := splitChar_render _ n1 (keyParams u) (fun e he => (keyParams_good hs e he).2)
  have e2 := splitChar_render _ n2 (keyParams v) (fun e he => (keyParams_good hs' e he).2)
  rw [h, e2] at e1
  simp only [List.cons.injEq] at e1
  have hk := map_paramText_inj (fun e he => (keyParams_good hs' e he).1) (fun e he => (keyParams_good hs e he).1) e1.2
  have hperm : ∀ w : TelUri, (sortParams (others w)).Perm (others w) := fun w => sortParams_perm _
  have hne : ∀ w : TelUri, ∀ e ∈ sortParams (others w), e.1 ≠ "phone-context".toList :=
    fun w e he => others_names w e ((hperm w).mem_iff.mp he)
  refine ⟨e1.1.symm, ?_, ?_⟩
  · unfold keyParams at hk
    cases hc : context u with
    | none =>
      rw [hc] at hk
      cases hd : context v with
      | none => rfl
      | some d =>
        rw [hd] at hk
        exact absurd rfl (hne u ("phone-context".toList, some d) (by
          have : sortParams (others u) = ("phone-context".toList, some d) :: sortParams (others v) := by simpa using hk.symm
          rw [this]; simp))
    | some c =>
      rw [hc] at hk
      cases hd : context v with
      | none =>
        rw [hd] at hk
        exact absurd rfl (hne v ("phone-context".toList, some c) (by
          have : sortParams (others v) = ("phone-context".toList, some c) :: sortParams (others u) := by simpa using hk
          rw [this]; simp))
      | some d =>
        rw [hd] at hk
        simp only [List.singleton_append, List.cons.injEq, Prod.mk.injEq, Option.some.injEq] at hk
        rw [hk.1.2]
  · have hsort : sortParams (others v) = sortParams (others u) := by
      unfold keyParams at hk
      cases hc : context u with
      | none =>
        rw [hc] at hk
        cases hd : context v with
        | none => rw [hd] at hk; simpa using hk
        | some d =>
          rw [hd] at hk
          exact absurd rfl (hne u ("phone-context".toList, some d) (by
            have : sortParams (others u) = ("phone-context".toList, some d) :: sortParams (others v) := by simpa using hk.symm
            rw [this]; simp))
      | some c =>
        rw [hc] at hk
        cases hd : context v with
        | none =>
          rw [hd] at hk
          exact absurd rfl (hne v ("phone-context".toList, some c) (by
            have : sortParams (others v) = ("phone-context".toList, some c) :: sortParams (others u) := by simpa using hk
            rw [this]; simp))
        | some d =>
          rw [hd] at hk
          simp only [List.singleton_append, List.cons.injEq] at hk
          exact hk.2
    exact (hperm u).symm.trans (hsort ▸ hperm v)

/-- **C70** for telephone numbers, the other direction: the same number has one key, however it is
written, provided no two of its parameters have names that differ in case only. -/
theorem C70_tel_same {t t' : Str} {u v : TelUri} (hu : TelUri.parse t = some u) (hv : TelUri.parse t' = some v)
    (hd : DistinctNames u) (h : SameNumber u v) : normalizeAor (.tel u) = normalizeAor (.tel v) := by
  have hs := tel_sound hu
  have hs' := tel_sound hv
  simp only [normalizeAor, Option.some.injEq, normalizeTel_eq hs, normalizeTel_eq hs']
  unfold keyParams
  rw [h.1, h.2.1, sortParams_unique h.2.2 hd]

/-- Non-vacuity: two ways of writing one number. -/
example : ∃ u v, TelUri.parse "tel:863-1234;phone-context=Example.COM;Ext=5;isub=7".toList = some u
    ∧ TelUri.parse "tel:8631234;isub=7;ext=5;phone-context=example.com".toList = some v ∧ DistinctNames u
    ∧ normalizeAor (.tel u) = some "tel:8631234;phone-context=example.com;ext=5;isub=7".toList
    ∧ normalizeAor (.tel v) = some "tel:8631234;phone-context=example.com;ext=5;isub=7".toList :=
  ⟨_, _, rfl, rfl, by unfold DistinctNames; decide +kernel, by decide +kernel, by decide +kernel⟩

/-- **C70**: SIP addresses and telephone numbers never share a key. -/
theorem C70_schemes {t t' : Str} {u : SipUri} {v : TelUri} (hu : SipUri.parse t = some u) (hv : TelUri.parse t' = some v) :
    normalizeAor (.sip u) ≠ normalizeAor (.tel v) := by
  intro h
  simp only [normalizeAor, Option.some.injEq, normalizeSip_eq hu, normalizeTel_eq (tel_sound hv)] at h
  have e : "tel:".toList = "tel".toList ++ [':'] := rfl
  rw [e, List.append_assoc] at h
  have h1 : ':' ∉ (if u.sips then "sips".toList else "sip".toList) := by cases u.sips <;> decide
  have := (append_sep_inj h1 (by decide : ':' ∉ "tel".toList) h).1
  revert this
  cases u.sips <;> decide

/-- **C70**: the identity that is compared with the name of an authenticated user is the user part of the
SIP address, or the digits of the telephone number. -/
theorem C70_identity_sip {t : Str} {u : SipUri} (hu : SipUri.parse t = some u) :
    aorIdentity (normalizeSip u) = u.user := by
  have hs := (parse_sound hu).1
  rw [normalizeSip_eq hu]
  unfold aorIdentity
  rw [splitOnce_append _ _ _ (by cases u.sips <;> decide)]
  have ht : eqIgnoreCase (if u.sips = true then "sips".toList else "sip".toList) "tel".toList = false := by
    cases u.sips <;> decide
  simp only [ht, Bool.false_eq_true, if_false]
  cases hx : u.user with
  | none =>
    have : '@' ∉ userText none ++ u.host ++ portText u.port := by
      simp only [userText, List.nil_append, List.mem_append, not_or]
      refine ⟨host_not_mem hs.host '@' (not_host _ (by decide) (by decide)), ?_⟩
      cases u.port with
      | none => simp [portText]
      | some p =>
        simp only [portText, List.mem_cons, not_or]
        exact ⟨by decide, showNat_not_mem p '@' (by decide)⟩
    rw [splitOnce_none _ _ this]; rfl
  | some x =>
    have e : userText (some x) ++ u.host ++ portText u.port = x ++ '@' :: (u.host ++ portText u.port) := by simp [userText]
    rw [e, splitOnce_append _ _ _ (user_not_mem (hs.user x hx) '@' (by decide))]
    rfl

theorem C70_identity_tel {t : Str} {u : TelUri} (hu : TelUri.parse t = some u) {id : Str}
    (h : aorIdentity (normalizeTel u) = some id) : id = dialled u.number := by
  have hs := tel_sound hu
  rw [normalizeTel_eq hs] at h
  unfold aorIdentity at h
  have e : "tel:".toList = "tel".toList ++ [':'] := rfl
  rw [e, List.append_assoc, List.singleton_append, splitOnce_append _ _ _ (by decide : ':' ∉ "tel".toList)] at h
  have ht : eqIgnoreCase "tel".toList "tel".toList = true := by decide
  simp only [ht, if_true] at h
  rw [splitChar_render _ (fun hm => hs.number (mem_dialled hm)) (keyParams u) (fun e he => (keyParams_good hs e he).2)] at h
  simp only at h
  split at h
  · cases h
  · exact (Option.some.inj h).symm

/-! ## The address a name-addr names -/

theorem new_uri {d : Option Str} {u : Uri} {ps : BMap (Option Str)} {n : NameAddr} (h : NameAddr.new d u ps = some n) :
    n.uri = u := by
  have key : ∀ b : Bool, (if b then none else if ps.length > 64 then none
      else (checkAddrParams ps []).map (fun p => ({ displayName := d, uri := u, params := p } : NameAddr))) = some n → n.uri = u := by
    intro b h
    split at h
    · cases h
    · split at h
      · cases h
      · obtain ⟨p, _, rfl⟩ := Option.map_eq_some_iff.mp h
        rfl
  exact key _ h

theorem parseNameAddr_uri {t : Str} {n : NameAddr} (h : parseNameAddr t = some n) :
    ∃ s u, Uri.parse s = some u ∧ n.uri = u.withoutUriHeaders := by
  unfold parseNameAddr at h
  simp only at h
  split at h
  · cases h
  · split at h
    · split at h
      · cases h
      · split at h
        · cases h
        · split at h
          · cases h
          · rename_i u hu
            exact ⟨_, u, hu, new_uri h⟩
    · split at h
      · cases h
      · rename_i u hu
        split at h
        · cases h
        · exact ⟨_, u, hu, new_uri h⟩

theorem uri_sip {s : Str} {u : SipUri} (h : Uri.parse s = some (.sip u)) : SipUri.parse s = some u := by
  unfold Uri.parse at h
  split at h
  · cases h
  · split at h
    · cases hp : TelUri.parse s <;> rw [hp] at h <;> cases h
    · split at h
      · cases hp : SipUri.parse s with
        | none => rw [hp] at h; cases h
        | some v => rw [hp] at h; cases h; rfl
      · cases hp : parseAbsolute s <;> rw [hp] at h <;> cases h

theorem uri_tel {s : Str} {u : TelUri} (h : Uri.parse s = some (.tel u)) : TelUri.parse s = some u := by
  unfold Uri.parse at h
  split at h
  · cases h
  · split at h
    · cases hp : TelUri.parse s with
      | none => rw [hp] at h; cases h
      | some v => rw [hp] at h; cases h; rfl
    · split at h
      · cases hp : SipUri.parse s <;> rw [hp] at h <;> cases h
      · cases hp : parseAbsolute s <;> rw [hp] at h <;> cases h

theorem withoutUriHeaders_same (u : SipUri) : u.withoutUriHeaders.user = u.user ∧ normalizeSip u.withoutUriHeaders = normalizeSip u := by
  unfold SipUri.withoutUriHeaders
  split <;> exact ⟨rfl, rfl⟩

/-- the identity behind a key is the account the name-addr names -/
theorem identity_names {t : Str} {n : NameAddr} {aor id : Str} (h : parseNameAddr t = some n)
    (ha : normalizeAor n.uri = some aor) (hi : aorIdentity aor = some id) : Names n.uri id := by
  obtain ⟨s, u, hu, he⟩ := parseNameAddr_uri h
  cases u with
  | sip u =>
    rw [he] at ha ⊢
    simp only [Uri.withoutUriHeaders, normalizeAor, Option.some.injEq] at ha ⊢
    rw [(withoutUriHeaders_same u).2] at ha
    rw [← ha, C70_identity_sip (uri_sip hu)] at hi
    show u.withoutUriHeaders.user = some id
    rw [(withoutUriHeaders_same u).1]; exact hi
  | tel u =>
    rw [he] at ha ⊢
    simp only [Uri.withoutUriHeaders, normalizeAor, Option.some.injEq] at ha ⊢
    rw [← ha] at hi
    exact (C70_identity_tel (uri_tel hu) hi).symm
  | absolute s =>
    rw [he] at ha
    cases ha

end Siphon.Registrar
