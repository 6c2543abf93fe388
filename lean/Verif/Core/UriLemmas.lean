import Verif.Core.UriSpec
import Verif.Base.PercentLemmas
import Verif.Auth.LemmasText
set_option linter.unusedSimpArgs false
/-! What `SipUri::parse` guarantees, and why the rebuilt text reads back. -/
namespace Siphon.UriP
open Siphon.UriSpec
open Siphon.Auth (splitOnce_some_iff)

/-! ## Text -/

theorem trim_split (s : Str) : ∃ a b, s = a ++ trim s ++ b := by
  obtain ⟨a, b, h1, _⟩ := strips_stripBoth isWs s
  exact ⟨a, b, h1⟩

theorem trimmed_trim (s : Str) : Trimmed (trim s) := by
  obtain ⟨a, b, _, _, _, h4, h5⟩ := strips_stripBoth isWs s
  exact ⟨h4, h5⟩

theorem mem_of_mem_trim {c : Char} {s : Str} (h : c ∈ trim s) : c ∈ s := by
  obtain ⟨a, b, h1⟩ := trim_split s
  rw [h1]; simp [h]

theorem splitOnce_none_iff (c : Char) (s : Str) : splitOnce c s = none ↔ c ∉ s := by
  constructor
  · intro h hm
    obtain ⟨a, b, rfl, hna⟩ := List.eq_append_cons_of_mem hm
    rw [splitOnce_append c a b hna] at h
    cases h
  · exact splitOnce_none c s

theorem mem_splitChar {c : Char} {s p : Str} (h : p ∈ splitChar c s) : c ∉ p ∧ ∀ x ∈ p, x ∈ s := by
  induction s generalizing p with
  | nil => simp only [splitChar, List.mem_singleton] at h; subst h; simp
  | cons y ys ih =>
    simp only [splitChar] at h
    split at h
    · rcases List.mem_cons.mp h with rfl | h
      · simp
      · have := ih h
        exact ⟨this.1, fun x hx => by simp [this.2 x hx]⟩
    · rename_i hne
      split at h
      · rename_i hs; exact absurd hs (splitChar_ne_nil _ _)
      · rename_i q qs hs
        rcases List.mem_cons.mp h with rfl | h
        · have := ih (p := q) (by rw [hs]; simp)
          refine ⟨by simp [this.1, Ne.symm hne], ?_⟩
          intro x hx
          rcases List.mem_cons.mp hx with rfl | hx
          · simp
          · simp [this.2 x hx]
        · have := ih (p := p) (by rw [hs]; simp [h])
          exact ⟨this.1, fun x hx => by simp [this.2 x hx]⟩

/-! ## Token characters -/

theorem token_iff (c : Char) : isUriTokenChar c = true ↔
    (97 ≤ c.toNat ∧ c.toNat ≤ 122 ∨ 65 ≤ c.toNat ∧ c.toNat ≤ 90 ∨ 48 ≤ c.toNat ∧ c.toNat ≤ 57) ∨
    c.toNat = 45 ∨ c.toNat = 46 ∨ c.toNat = 33 ∨ c.toNat = 37 ∨ c.toNat = 42 ∨ c.toNat = 95 ∨ c.toNat = 43 ∨
    c.toNat = 96 ∨ c.toNat = 39 ∨ c.toNat = 126 := by
  unfold isUriTokenChar isAlnum isAlpha isDigit
  simp only [Bool.or_eq_true, Bool.and_eq_true, decide_eq_true_eq, char_le_iff, List.contains_cons, List.contains_nil,
    beq_iff_eq, char_eq_iff, Bool.or_false, Bool.false_eq_true, or_false]
  have e : ∀ k : Char, k.toNat = k.toNat := fun _ => rfl
  simp only [show 'a'.toNat = 97 from rfl, show 'z'.toNat = 122 from rfl, show 'A'.toNat = 65 from rfl,
    show 'Z'.toNat = 90 from rfl, show '0'.toNat = 48 from rfl, show '9'.toNat = 57 from rfl, show '-'.toNat = 45 from rfl,
    show '.'.toNat = 46 from rfl, show '!'.toNat = 33 from rfl, show '%'.toNat = 37 from rfl, show '*'.toNat = 42 from rfl,
    show '_'.toNat = 95 from rfl, show '+'.toNat = 43 from rfl, show '`'.toNat = 96 from rfl, show '\''.toNat = 39 from rfl,
    show '~'.toNat = 126 from rfl]
  omega

theorem control_iff (c : Char) : isControl c = true ↔ c.toNat < 32 ∨ (127 ≤ c.toNat ∧ c.toNat ≤ 159) := by
  unfold isControl
  simp

theorem token_control (c : Char) (h : isUriTokenChar c = true) : isControl c = false := by
  rw [token_iff] at h
  apply Bool.eq_false_iff.mpr
  rw [Ne, control_iff]
  omega

theorem token_ws (c : Char) (h : isUriTokenChar c = true) : isWs c = false := by
  rw [token_iff] at h
  apply Bool.eq_false_iff.mpr
  unfold isWs
  simp only [Bool.or_eq_true, Bool.and_eq_true, decide_eq_true_eq, beq_iff_eq, ne_eq]
  omega

theorem token_lower (c : Char) (h : isUriTokenChar c = true) : isUriTokenChar c.toLower = true := by
  rw [token_iff] at *
  rw [toLower_toNat]
  split <;> omega

theorem token_ne (c k : Char) (h : isUriTokenChar c = true) (hk : isUriTokenChar k = false) : c ≠ k := by
  rintro rfl; rw [h] at hk; cases hk

/-- the whole of `validate_param_name` -/
theorem validName_iff (n : Str) : validUriParamName n = true ↔
    n ≠ [] ∧ utf8Len n ≤ 64 ∧ ∀ c ∈ n, isUriTokenChar c = true := by
  unfold validUriParamName MAX_URI_PARAM_NAME_LENGTH
  simp only [Bool.and_eq_true, Bool.not_eq_true', decide_eq_true_eq, List.any_eq_false, List.isEmpty_eq_false_iff,
    Bool.or_eq_true, not_or, Bool.not_eq_true, Bool.not_eq_false']
  constructor
  · rintro ⟨⟨h1, h2⟩, h3⟩; exact ⟨h1, h2, fun c hc => by simpa using (h3 c hc).2⟩
  · rintro ⟨h1, h2, h3⟩
    exact ⟨⟨h1, h2⟩, fun c hc => ⟨⟨by simpa using token_control c (h3 c hc), by simpa using token_ws c (h3 c hc)⟩, by simpa using h3 c hc⟩⟩

theorem validName_lower {n : Str} (h : validUriParamName n = true) : validUriParamName (lower n) = true := by
  rw [validName_iff] at *
  refine ⟨by simpa [lower] using h.1, by rw [utf8Len_lower]; exact h.2.1, ?_⟩
  intro c hc
  obtain ⟨x, hx, rfl⟩ := List.mem_map.mp hc
  exact token_lower x (h.2.2 x hx)

/-! ## Ordered maps -/

theorem strLt_irrefl : ∀ a : Str, strLt a a = false
  | [] => rfl
  | x :: xs => by simp [strLt, strLt_irrefl xs]

theorem strLt_trans : ∀ a b c : Str, strLt a b = true → strLt b c = true → strLt a c = true
  | [], [], _, h, _ => by simp [strLt] at h
  | [], _ :: _, [], _, h => by simp [strLt] at h
  | [], _ :: _, _ :: _, _, _ => rfl
  | _ :: _, [], _, h, _ => by simp [strLt] at h
  | _ :: _, _ :: _, [], _, h => by simp [strLt] at h
  | x :: xs, y :: ys, z :: zs, h1, h2 => by
    simp only [strLt] at *
    split at h1
    · split at h2
      · rw [if_pos (by omega)]
      · split at h2
        · cases h2
        · rw [if_pos (by omega)]
    · split at h1
      · cases h1
      · split at h2
        · rw [if_pos (by omega)]
        · split at h2
          · cases h2
          · rw [if_neg (by omega), if_neg (by omega)]
            exact strLt_trans xs ys zs h1 h2

theorem strLt_total : ∀ a b : Str, a ≠ b → strLt a b = false → strLt b a = true
  | [], [], h, _ => absurd rfl h
  | [], _ :: _, _, h => by simp [strLt] at h
  | _ :: _, [], _, _ => rfl
  | x :: xs, y :: ys, h, h' => by
    simp only [strLt] at *
    split at h'
    · cases h'
    · split at h'
      · rw [if_pos (by omega)]
      · rw [if_neg (by omega), if_neg (by omega)]
        have e : x = y := char_ext_toNat (by omega)
        exact strLt_total xs ys (fun h2 => h (by rw [e, h2])) h'

variable {V : Type}

/-- keys in increasing order -/
def Sorted (m : BMap V) : Prop := m.Pairwise (fun a b => strLt a.1 b.1 = true)

theorem mem_insert {m : BMap V} {k : Str} {v : V} {e : Str × V} (h : e ∈ m.insert k v) : e = (k, v) ∨ e ∈ m := by
  induction m with
  | nil => simpa [BMap.insert] using h
  | cons x t ih =>
    obtain ⟨k', v'⟩ := x
    simp only [BMap.insert] at h
    split at h
    · rcases List.mem_cons.mp h with h | h
      · exact Or.inl h
      · exact Or.inr (by simp [h])
    · split at h
      · rcases List.mem_cons.mp h with h | h
        · exact Or.inl h
        · exact Or.inr h
      · rcases List.mem_cons.mp h with h | h
        · exact Or.inr (by simp [h])
        · rcases ih h with h | h
          · exact Or.inl h
          · exact Or.inr (by simp [h])

theorem sorted_insert {m : BMap V} (k : Str) (v : V) (h : Sorted m) : Sorted (m.insert k v) := by
  induction m with
  | nil => simp [BMap.insert, Sorted]
  | cons x t ih =>
    obtain ⟨k', v'⟩ := x
    have h1 := (List.pairwise_cons.mp h).1
    have h2 := (List.pairwise_cons.mp h).2
    simp only [BMap.insert]
    split
    · rename_i e
      subst e
      exact List.pairwise_cons.mpr ⟨h1, h2⟩
    · split
      · rename_i hne hlt
        refine List.pairwise_cons.mpr ⟨?_, h⟩
        intro e he
        rcases List.mem_cons.mp he with rfl | he
        · exact hlt
        · exact strLt_trans _ _ _ hlt (h1 e he)
      · rename_i hne hlt
        refine List.pairwise_cons.mpr ⟨?_, ih h2⟩
        intro e he
        rcases mem_insert he with rfl | he
        · exact strLt_total _ _ hne (by simpa using hlt)
        · exact h1 e he

theorem length_insert (m : BMap V) (k : Str) (v : V) : (m.insert k v).length ≤ m.length + 1 := by
  induction m with
  | nil => simp [BMap.insert]
  | cons x t ih =>
    obtain ⟨k', v'⟩ := x
    simp only [BMap.insert]
    split
    · simp
    · split
      · simp
      · simp only [List.length_cons]; omega

/-- a key beyond all others goes to the end -/
theorem insert_last : ∀ (m : BMap V) (k : Str) (v : V), (∀ e ∈ m, strLt e.1 k = true) → m.insert k v = m ++ [(k, v)]
  | [], _, _, _ => rfl
  | (k', v') :: t, k, v, h => by
    have hk := h (k', v') (by simp)
    simp only [BMap.insert]
    rw [if_neg (by rintro rfl; rw [strLt_irrefl] at hk; cases hk), if_neg, insert_last t k v (fun e he => h e (by simp [he]))]
    · rfl
    · intro hh
      have := strLt_trans _ _ _ hh hk
      rw [strLt_irrefl] at this; cases this

/-! ## What parsing guarantees -/

/-- a parameter as it can be written -/
def GoodParam (e : Str × Option Str) : Prop :=
  validUriParamName e.1 = true ∧ lower e.1 = e.1 ∧
  ∀ v, e.2 = some v → validUriParamValue v = true ∧ Trimmed v ∧ ';' ∉ v ∧ '?' ∉ v

def GoodHeader (e : Str × Str) : Prop :=
  validUriParamName e.1 = true ∧ lower e.1 = e.1 ∧ validUriHeaderValue e.2 = true ∧ '&' ∉ e.2

structure Sound (u : SipUri) : Prop where
  user : ∀ x, u.user = some x → validUser x = true
  host : validHost u.host = true
  hostLower : lower u.host = u.host
  port : ∀ p, u.port = some p → 0 < p ∧ p ≤ 65535
  params : ∀ e ∈ u.params, GoodParam e
  paramsSorted : Sorted u.params
  paramsFew : u.params.length ≤ MAX_URI_PARAMS
  headers : ∀ e ∈ u.headers, GoodHeader e
  headersSorted : Sorted u.headers
  headersFew : u.headers.length ≤ MAX_URI_HEADERS

theorem parseUriParams_good : ∀ (ps : List Str) (acc out : BMap (Option Str)),
    (∀ p ∈ ps, ';' ∉ p ∧ '?' ∉ p) → (∀ e ∈ acc, GoodParam e) → Sorted acc → acc.length ≤ MAX_URI_PARAMS →
    parseUriParams ps acc = some out → (∀ e ∈ out, GoodParam e) ∧ Sorted out ∧ out.length ≤ MAX_URI_PARAMS
  | [], acc, out, _, h2, h3, h4, h => by
    simp only [parseUriParams, Option.some.injEq] at h
    subst h; exact ⟨h2, h3, h4⟩
  | p :: ps, acc, out, h1, h2, h3, h4, h => by
    simp only [parseUriParams] at h
    have hp := h1 p (by simp)
    have h1' : ∀ q ∈ ps, ';' ∉ q ∧ '?' ∉ q := fun q hq => h1 q (by simp [hq])
    split at h
    · cases h
    · rename_i hlen
      split at h
      · exact parseUriParams_good ps acc out h1' h2 h3 h4 h
      · split at h
        · rename_i k v hs
          obtain ⟨e1, e2⟩ := (splitOnce_some_iff _ _ _ _).mp hs
          split at h
          · cases h
          · rename_i hv
            simp only [Bool.or_eq_true, Bool.not_eq_true', not_or, Bool.not_eq_false] at hv
            refine parseUriParams_good ps _ out h1' ?_ (sorted_insert _ _ h3)
              (Nat.le_trans (length_insert _ _ _) (by omega)) h
            intro e he
            rcases mem_insert he with rfl | he
            · refine ⟨validName_lower hv.1, lower_lower _, ?_⟩
              intro x hx
              simp only [Option.some.injEq] at hx
              subst hx
              have hsub : ∀ c ∈ trim v, c ∈ p := fun c hc => mem_of_mem_trim (by rw [e1]; simp [mem_of_mem_trim hc])
              exact ⟨hv.2, trimmed_trim _, fun hc => hp.1 (hsub _ hc), fun hc => hp.2 (hsub _ hc)⟩
            · exact h2 e he
        · split at h
          · cases h
          · rename_i hv
            simp only [Bool.not_eq_true', Bool.not_eq_false] at hv
            refine parseUriParams_good ps _ out h1' ?_ (sorted_insert _ _ h3)
              (Nat.le_trans (length_insert _ _ _) (by omega)) h
            intro e he
            rcases mem_insert he with rfl | he
            · exact ⟨validName_lower hv, lower_lower _, fun x hx => by cases hx⟩
            · exact h2 e he

theorem parseUriHeaders_good : ∀ (ps : List Str) (acc out : BMap Str),
    (∀ p ∈ ps, '&' ∉ p) → (∀ e ∈ acc, GoodHeader e) → Sorted acc → acc.length ≤ MAX_URI_HEADERS →
    parseUriHeaders ps acc = some out → (∀ e ∈ out, GoodHeader e) ∧ Sorted out ∧ out.length ≤ MAX_URI_HEADERS
  | [], acc, out, _, h2, h3, h4, h => by
    simp only [parseUriHeaders, Option.some.injEq] at h
    subst h; exact ⟨h2, h3, h4⟩
  | p :: ps, acc, out, h1, h2, h3, h4, h => by
    simp only [parseUriHeaders] at h
    have hp := h1 p (by simp)
    have h1' : ∀ q ∈ ps, '&' ∉ q := fun q hq => h1 q (by simp [hq])
    split at h
    · cases h
    · rename_i hlen
      split at h
      · exact parseUriHeaders_good ps acc out h1' h2 h3 h4 h
      · split at h
        · rename_i k v hs
          obtain ⟨e1, e2⟩ := (splitOnce_some_iff _ _ _ _).mp hs
          split at h
          · cases h
          · rename_i hv
            simp only [Bool.or_eq_true, Bool.not_eq_true', not_or, Bool.not_eq_false] at hv
            refine parseUriHeaders_good ps _ out h1' ?_ (sorted_insert _ _ h3)
              (Nat.le_trans (length_insert _ _ _) (by omega)) h
            intro e he
            rcases mem_insert he with rfl | he
            · exact ⟨validName_lower hv.1, lower_lower _, hv.2, fun hc => hp (by rw [e1]; simp [mem_of_mem_trim hc])⟩
            · exact h2 e he
        · exact parseUriHeaders_good ps acc out h1' h2 h3 h4 h

theorem splitUserHost_some {b : Str} {user : Option Str} {hp : Str} (h : splitUserHost b = some (user, hp)) :
    ∀ x, user = some x → validUser x = true := by
  unfold splitUserHost at h
  split at h
  · split at h
    · cases h
    · rename_i u _
      split at h
      · rename_i hv
        simp only [Option.some.injEq, Prod.mk.injEq] at h
        rintro x rfl
        rw [Option.some.inj h.1] at hv
        exact hv
      · cases h
  · simp only [Option.some.injEq, Prod.mk.injEq] at h
    rintro x rfl; cases h.1

theorem splitHostPort_port {s host : Str} {p : Nat} (h : splitHostPort s = some (host, some p)) : p ≤ 65535 := by
  unfold splitHostPort at h
  split at h
  · split at h
    · cases h
    · split at h
      · split at h
        · rename_i hp
          simp only [Option.some.injEq, Prod.mk.injEq] at h
          rw [← h.2]; exact parseDec_le _ _ _ hp
        · cases h
      · simp at h
  · split at h
    · split at h
      · cases h
      · split at h
        · split at h
          · rename_i hp
            simp only [Option.some.injEq, Prod.mk.injEq] at h
            rw [← h.2]; exact parseDec_le _ _ _ hp
          · cases h
        · simp at h
    · simp at h

theorem parse_sound {t : Str} {u : SipUri} (h : SipUri.parse t = some u) : Sound u ∧ u.raw = t := by
  unfold SipUri.parse at h
  split at h
  · cases h
  split at h
  · cases h
  split at h
  · cases h
  rename_i scheme rest hscheme
  simp only at h
  split at h
  · cases h
  have hq : '?' ∉ (splitQuery rest).1 := by
    unfold splitQuery
    cases hq : splitOnce '?' rest with
    | none => exact (splitOnce_none_iff _ _).mp hq
    | some x => exact ((splitOnce_some_iff _ _ _ _).mp hq).2
  split at h
  · cases h
  rename_i b ps hsplit
  split at h
  · cases h
  rename_i params hparams
  split at h
  · cases h
  rename_i user hostPort huser
  split at h
  · cases h
  split at h
  · cases h
  rename_i hostText port hhp
  split at h
  · cases h
  rename_i hd hdec
  split at h
  · cases h
  rename_i hhost
  split at h
  · cases h
  rename_i hport0
  split at h
  · cases h
  rename_i headers hheaders
  simp only [Option.some.injEq] at h
  subst h
  have hps : ∀ p ∈ ps, ';' ∉ p ∧ '?' ∉ p := by
    intro p hp
    have := mem_splitChar (c := ';') (s := (splitQuery rest).1) (p := p) (by rw [hsplit]; simp [hp])
    exact ⟨this.1, fun hc => hq (this.2 _ hc)⟩
  have g1 := parseUriParams_good ps [] params hps (by simp) List.Pairwise.nil (Nat.zero_le _) hparams
  have g2 := parseUriHeaders_good _ [] headers (by
      intro p hp
      unfold headerPieces at hp
      split at hp
      · exact (mem_splitChar hp).1
      · simp at hp) (by simp) List.Pairwise.nil (Nat.zero_le _) hheaders
  refine ⟨⟨splitUserHost_some huser, by simpa using hhost, lower_lower _, ?_, g1.1, g1.2.1, g1.2.2, g2.1, g2.2.1, g2.2.2⟩, rfl⟩
  rintro p hp
  simp only at hp
  subst hp
  refine ⟨?_, splitHostPort_port hhp⟩
  apply Nat.pos_of_ne_zero
  rintro rfl
  exact hport0 rfl

end Siphon.UriP
