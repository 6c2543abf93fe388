import Verif.Core.MaxForwards
import Verif.Core.HeadersProps
import Verif.Base.Strip
/-!
# C25: Max-Forwards strictly decreases so forwarding stops
-/
set_option linter.unusedSimpArgs false
namespace Siphon
open TextSpec HdrSpec

namespace MfSpec

/-- The header is a Max-Forwards header. -/
def IsMf (h : Header) : Prop := SameName h.name "Max-Forwards".toList

/-- The first Max-Forwards header is `h`, with `pre` before and `post` after it. -/
def First (hs : Headers) (pre : List Header) (h : Header) (post : List Header) : Prop :=
  hs.inner = pre ++ h :: post ∧ IsMf h ∧ ∀ x ∈ pre, ¬ IsMf x

/-- The value is the number `k` in decimal, with nothing but white space around it. -/
def Says (v : Str) (k : Nat) : Prop :=
  ∃ a t b, v = a ++ t ++ b ∧ (∀ c ∈ a, isWs c = true) ∧ (∀ c ∈ b, isWs c = true) ∧ DecDigits t k

/-- Two header lists agree about Max-Forwards: the first such header of one has the value of the first of the
other, or neither has one. -/
def Agree (a b : Headers) : Prop :=
  (∃ p h q p' h' q', First a p h q ∧ First b p' h' q' ∧ h.value = h'.value) ∨
  ((∀ h ∈ a.inner, ¬ IsMf h) ∧ (∀ h ∈ b.inner, ¬ IsMf h))

/-- A chain of `n` forwards of a request that arrives with headers `hs`: each proxy decrements, and whatever
happens on the way to the next one leaves the value alone. -/
inductive Chain : Headers → Nat → Prop
  | stop (hs : Headers) : Chain hs 0
  | hop {hs out next : Headers} {v n : Nat} : decrementMaxForwards hs = .ok (v, out) → Agree out next →
      Chain next n → Chain hs (n + 1)

end MfSpec
open MfSpec

theorem decDigits_trimmed {t : Str} {k : Nat} (h : DecDigits t k) : Trimmed t :=
  trimmed_of_all t (fun c hc => isDigit_not_ws c ((decDigits_val h).2 c hc))

theorem decDigits_showNat (n : Nat) : DecDigits (showNat n) n := by
  rcases parseDec_some (parseDec_showNat n n (Nat.le_refl n)) with h | ⟨r, e, _⟩
  · exact h
  · have := showNat_digits n '+' (by rw [e]; simp)
    simp [not_digit_plus] at this

theorem says_iff (v : Str) (k : Nat) : Says v k ↔ DecDigits (trim v) k := by
  constructor
  · rintro ⟨a, t, b, rfl, ha, hb, ht⟩
    rw [trim_pad a t b ha hb (decDigits_trimmed ht)]; exact ht
  · intro h
    obtain ⟨a, b, e, ha, hb, _⟩ := (strips_trim v (trim v)).mpr rfl
    exact ⟨a, trim v, b, e, ha, hb, h⟩

/-- A number has one value. -/
theorem says_fun {v : Str} {j k : Nat} (h : Says v j) (h' : Says v k) : j = k := by
  rw [says_iff] at h h'
  exact decimal_fun (.inl h) (.inl h')

theorem digits_check (t : Str) (k : Nat) (hk : k ≤ 65535) :
    DecDigits t k ↔ (t.isEmpty || !t.all isDigit) = false ∧ parseDec 65535 t = some k := by
  constructor
  · intro h
    refine ⟨?_, parseDec_complete (.inl h) hk⟩
    have h1 := decDigits_ne h
    have h2 := (decDigits_val h).2
    cases t with
    | nil => simp at h1
    | cons c t => simpa using h2
  · rintro ⟨h1, h2⟩
    rcases parseDec_some h2 with h | ⟨r, rfl, _⟩
    · exact h
    · simp [not_digit_plus] at h1

theorem oneLine_showNat (n : Nat) : OneLine (showNat n) :=
  ⟨showNat_not_mem n _ (by decide), showNat_not_mem n _ (by decide), showNat_not_mem n _ (by decide)⟩

theorem token_mf : Token "Max-Forwards".toList := by
  have := (validateHeaderName_ok_iff "Max-Forwards".toList).mp (by decide +kernel)
  exact this.1

/-- The lengths involved are small. -/
theorem len_show_small (n : Nat) (h : n ≤ 255) : utf8Len (showNat n) ≤ 8192 := by
  have : ∀ m : Fin 256, utf8Len (showNat m.1) ≤ 8192 := by decide +kernel
  exact this ⟨n, by omega⟩

theorem first_get (hs : Headers) (pre : List Header) (h : Header) (post : List Header) (hf : First hs pre h post) :
    hs.get "Max-Forwards".toList = some h.value :=
  (C24_get _ _ _).mpr ⟨pre, h, post, hf.1, hf.2.1, rfl, hf.2.2⟩

theorem first_unique {hs : Headers} {p q p' q' : List Header} {h h' : Header} (a : First hs p h q)
    (b : First hs p' h' q') : p = p' ∧ h = h' ∧ q = q' := by
  obtain ⟨a1, a2, a3⟩ := a
  obtain ⟨b1, b2, b3⟩ := b
  rw [a1] at b1
  clear a1
  induction p generalizing p' with
  | nil =>
    cases p' with
    | nil => simpa using b1
    | cons x p' =>
      simp only [List.nil_append, List.cons_append, List.cons.injEq] at b1
      exact absurd (b1.1 ▸ a2) (b3 x (by simp))
  | cons x p ih =>
    cases p' with
    | nil =>
      simp only [List.nil_append, List.cons_append, List.cons.injEq] at b1
      exact absurd (b1.1 ▸ b2) (a3 x (by simp))
    | cons y p' =>
      simp only [List.cons_append, List.cons.injEq] at b1
      obtain ⟨r1, r2, r3⟩ := ih (p' := p') (fun z hz => a3 z (by simp [hz])) b1.2 (fun z hz => b3 z (by simp [hz]))
      exact ⟨by rw [b1.1, r1], r2, r3⟩

/-- **C25, one forward.**  Decrementing succeeds exactly when the first Max-Forwards header is a number
between 1 and 255, in which case its value, and nothing else, is lowered by one; or when there is no such
header and room for one, in which case `Max-Forwards: 69` is appended. -/
theorem C25_forward (hs out : Headers) (v : Nat) :
    decrementMaxForwards hs = .ok (v, out) ↔
      (∃ pre h post, First hs pre h post ∧ Says h.value (v + 1) ∧ v + 1 ≤ 255 ∧
        out.inner = pre ++ ⟨h.name, showNat v⟩ :: post) ∨
      ((∀ h ∈ hs.inner, ¬ IsMf h) ∧ hs.inner.length < 200 ∧ v = 69 ∧
        out.inner = hs.inner ++ [⟨"Max-Forwards".toList, "69".toList⟩]) := by
  unfold decrementMaxForwards
  cases hg : hs.get "Max-Forwards".toList with
  | none =>
    have hno := (C24_get_none hs _).mp hg
    have hl : ¬ ∃ pre h post, First hs pre h post ∧ Says h.value (v + 1) ∧ v + 1 ≤ 255 ∧
        out.inner = pre ++ ⟨h.name, showNat v⟩ :: post := by
      rintro ⟨pre, h, post, hf, _⟩
      exact hno h (by rw [hf.1]; simp) hf.2.1
    rw [or_iff_right hl]
    by_cases hroom : hs.inner.length < 200
    · have e := C24_push_ok hs "Max-Forwards".toList "69".toList hroom token_mf (by decide +kernel)
        ⟨by decide, by decide, by decide⟩ (by decide +kernel)
      simp only [e]
      constructor
      · intro h
        simp only [Except.ok.injEq, Prod.mk.injEq] at h
        exact ⟨hno, hroom, h.1.symm, by rw [← h.2]⟩
      · rintro ⟨_, _, rfl, ho⟩
        cases out
        simp only at ho
        rw [ho]
    · have e : hs.push "Max-Forwards".toList "69".toList = .error .tooMany := by
        unfold Headers.push
        rw [if_pos (by simp only [MAX_HEADERS]; omega)]
      simp only [e]
      constructor
      · intro h; cases h
      · rintro ⟨_, h, _⟩; exact absurd h hroom
  | some w =>
    obtain ⟨pre, h, post, e1, e2, e3, e4⟩ := (C24_get _ _ _).mp hg
    have hf : First hs pre h post := ⟨e1, e2, e4⟩
    have hr : ¬ ((∀ h ∈ hs.inner, ¬ IsMf h) ∧ hs.inner.length < 200 ∧ v = 69 ∧
        out.inner = hs.inner ++ [⟨"Max-Forwards".toList, "69".toList⟩]) := by
      rintro ⟨hno, _⟩
      exact hno h (by rw [e1]; simp) e2
    rw [or_iff_left hr]
    have hset : ∀ k ≤ 255, hs.setOrPush "Max-Forwards".toList (showNat k) = .ok ⟨pre ++ ⟨h.name, showNat k⟩ :: post⟩ := by
      intro k hk
      rcases C24_setOrPush hs "Max-Forwards".toList (showNat k) token_mf (by decide +kernel) (oneLine_showNat k)
        (len_show_small k hk) with ⟨hno, _⟩ | ⟨hno, _⟩ | ⟨pre', h', post', f1, f2, f3, f4⟩
      · exact absurd e2 (hno h (by rw [e1]; simp))
      · exact absurd e2 (hno h (by rw [e1]; simp))
      · obtain ⟨rfl, rfl, rfl⟩ := first_unique hf ⟨f1, f2, f3⟩
        exact f4
    subst e3
    constructor
    · intro hd
      simp only at hd
      split at hd
      · cases hd
      · rename_i hc
        simp only [Bool.not_eq_true] at hc
        split at hd
        · cases hd
        · rename_i cur hp
          split at hd
          · cases hd
          · rename_i hmax
            split at hd
            · cases hd
            · rename_i h0
              simp only [MAX_FORWARDS_MAX] at hmax
              rw [hset (cur - 1) (by omega)] at hd
              simp only [Except.ok.injEq, Prod.mk.injEq] at hd
              obtain ⟨rfl, rfl⟩ := hd
              refine ⟨pre, h, post, hf, ?_, by omega, rfl⟩
              rw [says_iff, show cur - 1 + 1 = cur by omega]
              exact (digits_check _ cur (by omega)).mpr ⟨hc, hp⟩
    · rintro ⟨pre', h', post', hf', hs', hv, ho⟩
      obtain ⟨rfl, rfl, rfl⟩ := first_unique hf hf'
      rw [says_iff] at hs'
      obtain ⟨hc, hp⟩ := (digits_check _ (v + 1) (by omega)).mp hs'
      simp only [hc, hp]
      rw [if_neg (by decide), if_neg (by simp only [MAX_FORWARDS_MAX]; omega), if_neg (by omega),
        show v + 1 - 1 = v by omega, hset v (by omega)]
      cases out
      simp only at ho
      rw [ho]

/-- **C25, refusals.**  A request whose first Max-Forwards says 0, more than 255, or is not a number is not
forwarded. -/
theorem C25_refused (hs : Headers) (pre : List Header) (h : Header) (post : List Header)
    (hf : First hs pre h post) (hbad : ∀ k, 1 ≤ k → k ≤ 255 → ¬ Says h.value k) :
    ∃ e, decrementMaxForwards hs = .error e := by
  cases hd : decrementMaxForwards hs with
  | error e => exact ⟨e, rfl⟩
  | ok p =>
    obtain ⟨v, out⟩ := p
    rcases (C25_forward hs out v).mp hd with ⟨pre', h', post', hf', hs', hv, _⟩ | ⟨hno, _⟩
    · obtain ⟨_, rfl, _⟩ := first_unique hf hf'
      exact absurd hs' (hbad _ (by omega) hv)
    · exact absurd hf.2.1 (hno h (by rw [hf.1]; simp))

/-- The refusal of an exhausted request is told apart: the first Max-Forwards says 0. -/
theorem C25_exhausted (hs : Headers) :
    decrementMaxForwards hs = .error .exhausted ↔ ∃ pre h post, First hs pre h post ∧ Says h.value 0 := by
  constructor
  · intro hd
    unfold decrementMaxForwards at hd
    split at hd
    · rename_i w hg
      obtain ⟨pre, h, post, e1, e2, e3, e4⟩ := (C24_get _ _ _).mp hg
      refine ⟨pre, h, post, ⟨e1, e2, e4⟩, ?_⟩
      simp only at hd
      split at hd
      · cases hd
      · rename_i hc
        split at hd
        · cases hd
        · rename_i cur hp
          split at hd
          · cases hd
          · split at hd
            · rename_i h0
              subst h0
              rw [e3, says_iff]
              exact (digits_check _ 0 (by omega)).mpr ⟨by simpa using hc, hp⟩
            · split at hd <;> cases hd
    · split at hd <;> cases hd
  · rintro ⟨pre, h, post, hf, hs'⟩
    rw [says_iff] at hs'
    obtain ⟨hc, hp⟩ := (digits_check _ 0 (by omega)).mp hs'
    unfold decrementMaxForwards
    simp only [first_get hs pre h post hf, hc, hp]
    rw [if_neg (by decide), if_neg (by simp [MAX_FORWARDS_MAX]), if_pos trivial]

/-- After a forward the first Max-Forwards says the value returned. -/
theorem forward_says {hs out : Headers} {v : Nat} (h : decrementMaxForwards hs = .ok (v, out)) :
    v ≤ 254 ∧ ∃ p x q, First out p x q ∧ Says x.value v := by
  rcases (C25_forward hs out v).mp h with ⟨pre, x, post, hf, hs', hv, ho⟩ | ⟨hno, _, rfl, ho⟩
  · refine ⟨by omega, pre, ⟨x.name, showNat v⟩, post, ⟨ho, hf.2.1, hf.2.2⟩, ?_⟩
    exact ⟨[], showNat v, [], by simp, by simp, by simp, decDigits_showNat v⟩
  · refine ⟨by omega, hs.inner, _, [], ⟨ho, sameName_refl _, hno⟩, ?_⟩
    exact ⟨[], showNat 69, [], by decide +kernel, by simp, by simp, decDigits_showNat 69⟩

/-- **C25, chains.**  A request that arrives with Max-Forwards `k` is forwarded at most `k` times. -/
theorem C25_chain {hs : Headers} {n : Nat} (hc : Chain hs n) :
    ∀ (pre : List Header) (h : Header) (post : List Header) (k : Nat), First hs pre h post → Says h.value k →
      n ≤ k := by
  induction hc with
  | stop hs => intro _ _ _ _ _ _; omega
  | @hop hs out next v n hd hag _ ih =>
    intro pre h post k hf hk
    rcases (C25_forward hs out v).mp hd with ⟨pre', h', post', hf', hs', hv, ho⟩ | ⟨hno, _⟩
    · obtain ⟨_, rfl, _⟩ := first_unique hf hf'
      have := says_fun hk hs'
      obtain ⟨_, p, x, q, hx, hsx⟩ := forward_says hd
      rcases hag with ⟨p1, h1, q1, p2, h2, q2, f1, f2, e⟩ | ⟨hno, _⟩
      · obtain ⟨_, rfl, _⟩ := first_unique hx f1
        have := ih p2 h2 q2 v f2 (e ▸ hsx)
        omega
      · exact absurd hx.2.1 (hno x (by rw [hx.1]; simp))
    · exact absurd hf.2.1 (hno h (by rw [hf.1]; simp))

/-- **C25, chains without the header.**  A request that arrives without Max-Forwards is forwarded at most 70
times. -/
theorem C25_chain_absent {hs : Headers} {n : Nat} (hc : Chain hs n) (hno : ∀ h ∈ hs.inner, ¬ IsMf h) :
    n ≤ 70 := by
  cases hc with
  | stop => omega
  | @hop _ out next v n hd hag hc =>
    rcases (C25_forward hs out v).mp hd with ⟨pre', h', post', hf', _⟩ | ⟨_, _, rfl, _⟩
    · exact absurd hf'.2.1 (hno h' (by rw [hf'.1]; simp))
    · obtain ⟨_, p, x, q, hx, hsx⟩ := forward_says hd
      rcases hag with ⟨p1, h1, q1, p2, h2, q2, f1, f2, e⟩ | ⟨hno', _⟩
      · obtain ⟨_, rfl, _⟩ := first_unique hx f1
        have := C25_chain hc p2 h2 q2 69 f2 (e ▸ hsx)
        omega
      · exact absurd hx.2.1 (hno' x (by rw [hx.1]; simp))

/-- **C25.**  Whatever the request, it is forwarded at most 255 times. -/
theorem C25_at_most_255 {hs : Headers} {n : Nat} (hc : Chain hs n) : n ≤ 255 := by
  cases hc with
  | stop => omega
  | @hop _ out next v n hd hag hc =>
    obtain ⟨hv, p, x, q, hx, hsx⟩ := forward_says hd
    rcases hag with ⟨p1, h1, q1, p2, h2, q2, f1, f2, e⟩ | ⟨hno', _⟩
    · obtain ⟨_, rfl, _⟩ := first_unique hx f1
      have := C25_chain hc p2 h2 q2 v f2 (e ▸ hsx)
      omega
    · exact absurd hx.2.1 (hno' x (by rw [hx.1]; simp))

/-- A chain as long as allowed exists for every starting value up to 255: the bound is met. -/
theorem C25_bound_met (k : Nat) (hk : k ≤ 255) : ∀ w, Says w k → Chain ⟨[⟨"Max-Forwards".toList, w⟩]⟩ k := by
  induction k with
  | zero => intro _ _; exact .stop _
  | succ k ih =>
    intro w hw
    have hf : First ⟨[⟨"Max-Forwards".toList, w⟩]⟩ [] ⟨"Max-Forwards".toList, w⟩ [] :=
      ⟨rfl, sameName_refl _, by simp⟩
    have hd : decrementMaxForwards ⟨[⟨"Max-Forwards".toList, w⟩]⟩ = .ok (k, ⟨[⟨"Max-Forwards".toList, showNat k⟩]⟩) :=
      (C25_forward _ _ _).mpr (.inl ⟨[], _, [], hf, hw, hk, rfl⟩)
    refine .hop hd ?_ (ih (by omega) (showNat k) ?_)
    · exact .inl ⟨[], ⟨"Max-Forwards".toList, showNat k⟩, [], [], ⟨"Max-Forwards".toList, showNat k⟩, [],
        ⟨rfl, sameName_refl _, by simp⟩, ⟨rfl, sameName_refl _, by simp⟩, rfl⟩
    · exact ⟨[], showNat k, [], by simp, by simp, by simp, decDigits_showNat k⟩

example : (match decrementMaxForwards ⟨[⟨"Via".toList, "x".toList⟩, ⟨"max-forwards".toList, " 10 ".toList⟩, ⟨"To".toList, "y".toList⟩]⟩ with
    | .ok (n, out) => n == 9 && out.inner == [⟨"Via".toList, "x".toList⟩, ⟨"max-forwards".toList, "9".toList⟩, ⟨"To".toList, "y".toList⟩]
    | _ => false) = true := by decide +kernel
example : (match decrementMaxForwards ⟨[⟨"Max-Forwards".toList, "0".toList⟩]⟩ with
    | .error .exhausted => true | _ => false) = true := by decide +kernel
example : (match decrementMaxForwards ⟨[⟨"Max-Forwards".toList, "256".toList⟩]⟩ with
    | .error .invalid => true | _ => false) = true := by decide +kernel
example : (match decrementMaxForwards ⟨[]⟩ with | .ok (69, _) => true | _ => false) = true := by decide +kernel

end Siphon
