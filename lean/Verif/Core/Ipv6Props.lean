import Verif.Core.Ipv6Spec
import Verif.Core.HeadersProps
import Verif.Core.UriLemmas
/-!
# Which texts are IPv4 and IPv6 addresses
-/
namespace Siphon.Dns
open Siphon.HdrSpec Ipv6Spec

/-! ## IPv4 -/

theorem show_octet : ∀ n : Fin 256, (showNat n.val).foldl (fun a c => a * 10 + (c.toNat - 48)) 0 = n.val ∧
    (showNat n.val).length ≤ 3 ∧ ((showNat n.val).head? = some '0' → (showNat n.val).length ≤ 1) := by decide +kernel

theorem takeWhile_digits (ds r : Str) (k : Nat) (hd : ∀ c ∈ ds, isDigit c = true)
    (hr : ∀ c, r.head? = some c → isDigit c = false) (hk : ds.length ≤ k) : ((ds ++ r).take k).takeWhile isDigit = ds := by
  rw [List.take_append, List.take_of_length_le hk]
  rw [List.takeWhile_append_of_pos hd]
  have : (r.take (k - ds.length)).takeWhile isDigit = [] := by
    cases r with
    | nil => simp
    | cons c r =>
      cases k - ds.length with
      | zero => rfl
      | succ j =>
        have := hr c rfl
        simp [this]
  rw [this, List.append_nil]

theorem readOctet_show (n : Nat) (r : Str) (hn : n ≤ 255) (hr : ∀ c, r.head? = some c → isDigit c = false) :
    readOctet (showNat n ++ r) = some r := by
  obtain ⟨h1, h2, h3⟩ := show_octet ⟨n, by omega⟩
  simp only at h1 h2 h3
  unfold readOctet
  simp only [takeWhile_digits (showNat n) r 4 (showNat_digits n) hr (by omega), h1]
  have e1 : (showNat n).isEmpty = false := by
    cases h : showNat n with
    | nil => exact absurd h (showNat_ne_nil n)
    | cons _ _ => rfl
  rw [if_neg]
  · rw [List.drop_left]
  · simp only [e1, Bool.false_or, Bool.or_eq_true, decide_eq_true_eq, Bool.and_eq_true, beq_iff_eq]
    rintro ((h | h) | ⟨h, h'⟩)
    · omega
    · omega
    · have := h3 h; omega

theorem digit_char {c : Char} (h : isDigit c = true) : ∃ k : Fin 10, c = digitChar k.val := by
  have h' := (isDigit_iff c).mp h
  refine ⟨⟨c.toNat - 48, by omega⟩, char_ext_toNat ?_⟩
  rw [digitChar_toNat _ (by simp only; omega)]
  simp only
  omega

theorem octet1 : ∀ a : Fin 10, showNat a.val = [digitChar a.val] := by decide +kernel
theorem octet2 : ∀ a b : Fin 10, a.val ≠ 0 → showNat (a.val * 10 + b.val) = [digitChar a.val, digitChar b.val] := by
  decide +kernel
theorem octet3 : ∀ a b c : Fin 10, a.val ≠ 0 →
    showNat ((a.val * 10 + b.val) * 10 + c.val) = [digitChar a.val, digitChar b.val, digitChar c.val] := by decide +kernel
theorem digitChar_val : ∀ a : Fin 10, (digitChar a.val).toNat - 48 = a.val := by decide
theorem digitChar_zero : ∀ a : Fin 10, digitChar a.val ≠ '0' → a.val ≠ 0 := by decide

theorem readOctet_some {s r : Str} (h : readOctet s = some r) : ∃ n, n ≤ 255 ∧ s = showNat n ++ r := by
  unfold readOctet at h
  simp only at h
  split at h
  · cases h
  · rename_i hc
    simp only [Option.some.injEq] at h
    have hpre : (s.take 4).takeWhile isDigit <+: s :=
      (List.takeWhile_prefix isDigit).trans (List.take_prefix 4 s)
    obtain ⟨t, ht⟩ := hpre
    have hd : ∀ c ∈ (s.take 4).takeWhile isDigit, isDigit c = true := fun c hcm =>
      List.all_eq_true.mp (List.all_takeWhile) c hcm
    generalize hds : (s.take 4).takeWhile isDigit = ds at *
    have hr : r = t := by rw [← h, ← ht, List.drop_left]
    subst hr
    simp only [Bool.or_eq_true, decide_eq_true_eq, Bool.and_eq_true, beq_iff_eq, List.isEmpty_iff, not_or, not_and] at hc
    obtain ⟨⟨⟨h1, h2⟩, h3⟩, h4⟩ := hc
    rw [← ht]
    match ds, h1, h2, h3, h4, hd with
    | [c], _, _, h3, _, hd =>
      obtain ⟨a, rfl⟩ := digit_char (hd c (by simp))
      exact ⟨a.val, by omega, by rw [octet1]⟩
    | [c, d], _, _, h3, h4, hd =>
      obtain ⟨a, rfl⟩ := digit_char (hd c (by simp))
      obtain ⟨b, rfl⟩ := digit_char (hd d (by simp))
      have ha : a.val ≠ 0 := digitChar_zero a (fun e => by
        have := h4 (by rw [e]; rfl)
        simp at this)
      simp only [List.foldl_cons, List.foldl_nil, digitChar_val] at h3
      exact ⟨a.val * 10 + b.val, by omega, by rw [octet2 a b ha]⟩
    | [c, d, e], _, _, h3, h4, hd =>
      obtain ⟨a, rfl⟩ := digit_char (hd c (by simp))
      obtain ⟨b, rfl⟩ := digit_char (hd d (by simp))
      obtain ⟨f, rfl⟩ := digit_char (hd e (by simp))
      have ha : a.val ≠ 0 := digitChar_zero a (fun e => by
        have := h4 (by rw [e]; rfl)
        simp at this)
      simp only [List.foldl_cons, List.foldl_nil, digitChar_val] at h3
      exact ⟨(a.val * 10 + b.val) * 10 + f.val, by omega, by rw [octet3 a b f ha]⟩
    | _ :: _ :: _ :: _ :: _, _, h2, _, _, _ => simp at h2

theorem stripDot {s r : Str} : stripPrefix ['.'] s = some r ↔ s = '.' :: r := by
  unfold stripPrefix
  cases s with
  | nil => simp
  | cons c s =>
    simp only [List.isPrefixOf, Bool.and_true, beq_iff_eq, List.length_singleton, List.drop_succ_cons, List.drop_zero]
    constructor
    · intro h
      split at h
      · rename_i hc; simp only [Option.some.injEq] at h; rw [← hc, h]
      · cases h
    · intro h
      simp only [List.cons.injEq] at h
      rw [if_pos h.1.symm, h.2]

theorem dottedQuad_iff (h : Str) : DottedQuad h ↔ readIpv4 h = some [] := by
  have hdot : ∀ (r : Str) (c : Char), ('.' :: r).head? = some c → isDigit c = false := by
    intro r c hc
    simp only [List.head?_cons, Option.some.injEq] at hc
    subst hc; decide
  constructor
  · rintro ⟨a, b, c, d, ha, hb, hc, hd, rfl⟩
    unfold readIpv4
    have hs : ∀ r, stripPrefix ['.'] ('.' :: r) = some r := fun r => stripDot.mpr rfl
    have hl := readOctet_show d [] hd (by intro c h; cases h)
    rw [List.append_nil] at hl
    simp only [bind, readOctet_show a _ ha (hdot _), readOctet_show b _ hb (hdot _), readOctet_show c _ hc (hdot _),
      Option.bind_some, hs, hl]
  · intro e
    unfold readIpv4 at e
    simp only [bind, Option.bind_eq_some_iff] at e
    obtain ⟨s1, e1, s2, e2, s3, e3, s4, e4, s5, e5, s6, e6, e7⟩ := e
    rw [stripDot] at e2 e4 e6
    subst e2 e4 e6
    obtain ⟨a, ha, h1⟩ := readOctet_some e1
    obtain ⟨b, hb, h2⟩ := readOctet_some e3
    obtain ⟨c, hc, h3⟩ := readOctet_some e5
    obtain ⟨d, hd, h4⟩ := readOctet_some e7
    exact ⟨a, b, c, d, ha, hb, hc, hd, by rw [h1, h2, h3, h4, List.append_nil]⟩

/-! ## IPv6 -/

theorem hex_iff (c : Char) : Hex c ↔ isHexDigit c = true := by
  have e : "0123456789abcdefABCDEF".toList = ['0','1','2','3','4','5','6','7','8','9','a','b','c','d','e','f','A','B','C','D','E','F'] := by
    decide +kernel
  unfold Hex
  rw [e]
  simp only [isHexDigit, isDigit, Bool.or_eq_true, Bool.and_eq_true, decide_eq_true_eq, char_le_iff, List.mem_cons, List.not_mem_nil,
    or_false, char_eq_iff]
  simp only [Char.reduceToNat]
  omega

theorem takeWhile_hex (ds r : Str) (k : Nat) (hd : ∀ c ∈ ds, isHexDigit c = true)
    (hr : ∀ c, r.head? = some c → isHexDigit c = false) (hk : ds.length ≤ k) : ((ds ++ r).take k).takeWhile isHexDigit = ds := by
  rw [List.take_append, List.take_of_length_le hk]
  rw [List.takeWhile_append_of_pos hd]
  have : (r.take (k - ds.length)).takeWhile isHexDigit = [] := by
    cases r with
    | nil => simp
    | cons c r =>
      cases k - ds.length with
      | zero => rfl
      | succ j =>
        have := hr c rfl
        simp [this]
  rw [this, List.append_nil]

theorem readGroup_piece {g : Str} (r : Str) (h : Piece g) (hr : ∀ c, r.head? = some c → isHexDigit c = false) :
    readGroup (g ++ r) = some r := by
  obtain ⟨h1, h2, h3⟩ := h
  unfold readGroup
  simp only [takeWhile_hex g r 5 (fun c hc => (hex_iff c).mp (h3 c hc)) hr (by omega)]
  rw [if_neg]
  · rw [List.drop_left]
  · simp only [Bool.or_eq_true, decide_eq_true_eq, List.isEmpty_iff]
    rintro (h | h)
    · exact h1 h
    · omega

theorem readGroup_some {s r : Str} (h : readGroup s = some r) : ∃ g, Piece g ∧ s = g ++ r := by
  unfold readGroup at h
  simp only at h
  split at h
  · cases h
  · rename_i hc
    simp only [Option.some.injEq] at h
    obtain ⟨t, ht⟩ : (s.take 5).takeWhile isHexDigit <+: s := (List.takeWhile_prefix isHexDigit).trans (List.take_prefix 5 s)
    have hd : ∀ c ∈ (s.take 5).takeWhile isHexDigit, isHexDigit c = true := fun c hcm =>
      List.all_eq_true.mp (List.all_takeWhile) c hcm
    generalize hds : (s.take 5).takeWhile isHexDigit = ds at *
    have hr : r = t := by rw [← h, ← ht, List.drop_left]
    subst hr
    simp only [Bool.or_eq_true, decide_eq_true_eq, List.isEmpty_iff, not_or] at hc
    exact ⟨ds, ⟨hc.1, by omega, fun c hcm => (hex_iff c).mpr (hd c hcm)⟩, ht.symm⟩

theorem readIpv4_some {s r : Str} (h : readIpv4 s = some r) : ∃ q, DottedQuad q ∧ s = q ++ r := by
  unfold readIpv4 at h
  simp only [bind, Option.bind_eq_some_iff] at h
  obtain ⟨s1, e1, s2, e2, s3, e3, s4, e4, s5, e5, s6, e6, e7⟩ := h
  rw [stripDot] at e2 e4 e6
  subst e2 e4 e6
  obtain ⟨a, ha, h1⟩ := readOctet_some e1
  obtain ⟨b, hb, h2⟩ := readOctet_some e3
  obtain ⟨c, hc, h3⟩ := readOctet_some e5
  obtain ⟨d, hd, h4⟩ := readOctet_some e7
  refine ⟨_, ⟨a, b, c, d, ha, hb, hc, hd, rfl⟩, ?_⟩
  rw [h1, h2, h3, h4]
  simp only [List.append_assoc, List.cons_append]

theorem readIpv4_quad {q : Str} (r : Str) (h : DottedQuad q) (hr : ∀ c, r.head? = some c → isDigit c = false) :
    readIpv4 (q ++ r) = some r := by
  have hdot : ∀ (r : Str) (c : Char), ('.' :: r).head? = some c → isDigit c = false := by
    intro r c hc
    simp only [List.head?_cons, Option.some.injEq] at hc
    subst hc; decide
  obtain ⟨a, b, c, d, ha, hb, hc, hd, rfl⟩ := h
  unfold readIpv4
  have hs : ∀ r, stripPrefix ['.'] ('.' :: r) = some r := fun r => stripDot.mpr rfl
  simp only [List.append_assoc, List.cons_append, bind, readOctet_show a _ ha (hdot _), readOctet_show b _ hb (hdot _),
    readOctet_show c _ hc (hdot _), Option.bind_some, hs, readOctet_show d r hd hr]

/-- A piece that no point follows is not the start of an IPv4 address. -/
theorem readIpv4_piece {g : Str} (r : Str) (h : Piece g) (hr : ∀ c, r.head? = some c → isHexDigit c = false ∧ c ≠ '.') :
    readIpv4 (g ++ r) = none := by
  cases e : readIpv4 (g ++ r) with
  | none => rfl
  | some t =>
    exfalso
    unfold readIpv4 at e
    simp only [bind, Option.bind_eq_some_iff] at e
    obtain ⟨s1, e1, s2, e2, _⟩ := e
    rw [stripDot] at e2
    subst e2
    obtain ⟨n, hn, hs⟩ := readOctet_some e1
    -- the point would be in `g ++ r` after digits only
    rcases List.append_eq_append_iff.mp hs with ⟨x, hx1, hx2⟩ | ⟨x, hx1, hx2⟩
    · -- showNat n = g ++ x, r = x ++ '.' :: s2
      cases x with
      | nil =>
        have := (hr '.' (by rw [hx2]; rfl)).2
        exact this rfl
      | cons c x =>
        have h1 := (hr c (by rw [hx2]; rfl)).1
        have h2 : isDigit c = true := showNat_digits n c (by rw [hx1]; simp)
        unfold isHexDigit at h1
        rw [h2] at h1
        cases h1
    · -- g = showNat n ++ x, '.' :: s2 = x ++ r
      cases x with
      | nil =>
        have := (hr '.' (by rw [List.nil_append] at hx2; rw [← hx2]; rfl)).2
        exact this rfl
      | cons c x =>
        rw [List.cons_append] at hx2
        have hc : c = '.' := (List.cons.inj hx2).1.symm
        have := (hex_iff c).mp (h.2.2 c (by rw [hx1]; simp))
        rw [hc] at this
        revert this
        decide

theorem stripColon {s r : Str} : stripPrefix [':'] s = some r ↔ s = ':' :: r := by
  unfold stripPrefix
  cases s with
  | nil => simp
  | cons c s =>
    simp only [List.isPrefixOf, Bool.and_true, beq_iff_eq, List.length_singleton, List.drop_succ_cons, List.drop_zero]
    constructor
    · intro h
      split at h
      · rename_i hc; simp only [Option.some.injEq] at h; rw [← hc, h]
      · cases h
    · intro h
      simp only [List.cons.injEq] at h
      rw [if_pos h.1.symm, h.2]

theorem stripColons {s r : Str} : stripPrefix [':', ':'] s = some r ↔ s = ':' :: ':' :: r := by
  unfold stripPrefix
  match s with
  | [] => simp
  | [c] => simp
  | c :: d :: s =>
    simp only [List.isPrefixOf, Bool.and_true, beq_iff_eq, Bool.and_eq_true, List.length_cons, List.length_nil, List.drop_succ_cons,
      List.drop_zero]
    constructor
    · intro h
      split at h
      · rename_i hc; simp only [Option.some.injEq] at h; rw [← hc.1, ← hc.2, h]
      · cases h
    · intro h
      simp only [List.cons.injEq] at h
      rw [if_pos ⟨h.1.symm, h.2.1.symm⟩, h.2.2]

/-- What the reader takes from position `i` on. -/
def Taken (i : Nat) (b : Bool) (t : Str) (k : Nat) : Prop :=
  t = [] ∧ k = 0 ∧ b = false ∨ ∃ u, Pieces b u k ∧ t = if i = 0 then u else ':' :: u

theorem readSep_some {i : Nat} {s t : Str} (h : readSep i s = some t) : s = if i = 0 then t else ':' :: t := by
  unfold readSep at h
  split at h
  · rename_i hi
    rw [if_pos hi]; cases h; rfl
  · rename_i hi
    rw [if_neg hi]; exact stripColon.mp h

theorem readSep_eq (i : Nat) (t : Str) : readSep i (if i = 0 then t else ':' :: t) = some t := by
  unfold readSep
  split
  · rfl
  · exact stripColon.mpr rfl

theorem sep_append (i : Nat) (u r : Str) : (if i = 0 then u ++ r else ':' :: (u ++ r)) = (if i = 0 then u else ':' :: u) ++ r := by
  split <;> rfl

theorem readGroups_sound (limit : Nat) : ∀ (f i : Nat) (s : Str), i + f = limit →
    ∃ t k, (readGroups limit f i s).1 = i + k ∧ s = t ++ (readGroups limit f i s).2.2 ∧ Taken i (readGroups limit f i s).2.1 t k ∧
      i + k ≤ limit := by
  intro f
  induction f with
  | zero => intro i s h; exact ⟨[], 0, rfl, rfl, Or.inl ⟨rfl, rfl, rfl⟩, by omega⟩
  | succ f ih =>
    intro i s h
    unfold readGroups
    split
    · rename_i rest e
      split at e
      · rename_i hi
        rw [Option.bind_eq_some_iff] at e
        obtain ⟨s', e1, e2⟩ := e
        obtain ⟨q, hq, rfl⟩ := readIpv4_some e2
        refine ⟨_, 2, rfl, ?_, Or.inr ⟨q, .quad hq, rfl⟩, by omega⟩
        rw [readSep_some e1, sep_append]
      · cases e
    · split
      · rename_i rest e
        rw [Option.bind_eq_some_iff] at e
        obtain ⟨s', e1, e2⟩ := e
        obtain ⟨g, hg, rfl⟩ := readGroup_some e2
        obtain ⟨t, k, h1, h2, h3, h4⟩ := ih (i + 1) rest (by omega)
        generalize readGroups limit f (i + 1) rest = z at h1 h2 h3
        obtain ⟨n, b, r⟩ := z
        simp only at h1 h2 h3 ⊢
        rcases h3 with ⟨rfl, rfl, rfl⟩ | ⟨u, hu, rfl⟩
        · refine ⟨_, 1, by omega, ?_, Or.inr ⟨g, .one hg, rfl⟩, by omega⟩
          rw [readSep_some e1, sep_append, h2]
          rfl
        · rw [if_neg (by omega)] at h2
          refine ⟨_, k + 1, by omega, ?_, Or.inr ⟨_, .cons hg hu, rfl⟩, by omega⟩
          rw [readSep_some e1, h2]
          split <;> simp
      · exact ⟨[], 0, rfl, rfl, Or.inl ⟨rfl, rfl, rfl⟩, by omega⟩

/-- Where the reader stops: at the end or at a colon. -/
def Stops (r : Str) : Prop := r = [] ∨ ∃ v, r = ':' :: ':' :: v

theorem stops_head {r : Str} (h : Stops r) : ∀ c, r.head? = some c → isHexDigit c = false ∧ c ≠ '.' := by
  rcases h with rfl | ⟨v, rfl⟩
  · intro c h; cases h
  · intro c h
    simp only [List.head?_cons, Option.some.injEq] at h
    subst h
    exact ⟨by decide, by decide⟩

theorem stops_digit {r : Str} (h : Stops r) : ∀ c, r.head? = some c → isDigit c = false := by
  rcases h with rfl | ⟨v, rfl⟩
  · intro c h; cases h
  · intro c h
    simp only [List.head?_cons, Option.some.injEq] at h
    subst h
    decide

theorem readGroup_colon (v : Str) : readGroup (':' :: v) = none := by
  unfold readGroup
  have : ((':' :: v).take 5).takeWhile isHexDigit = [] := by
    rw [List.take_succ_cons, List.takeWhile_cons, if_neg (by decide)]
  simp only [this]
  rfl

theorem readIpv4_colon (v : Str) : readIpv4 (':' :: v) = none := by
  have : readOctet (':' :: v) = none := by
    unfold readOctet
    have : ((':' :: v).take 4).takeWhile isDigit = [] := by
      rw [List.take_succ_cons, List.takeWhile_cons, if_neg (by decide)]
    simp only [this]
    rfl
  unfold readIpv4
  rw [this]
  rfl

theorem readGroups_stop (limit f i : Nat) {r : Str} (h : Stops r) : readGroups limit f i r = (i, false, r) := by
  cases f with
  | zero => rfl
  | succ f =>
    have h1 : (readSep i r).bind readIpv4 = none ∧ (readSep i r).bind readGroup = none := by
      rcases h with rfl | ⟨v, rfl⟩
      · by_cases hi : i = 0
        · unfold readSep; rw [if_pos hi]; exact ⟨by decide, by decide⟩
        · unfold readSep; rw [if_neg hi]; exact ⟨by decide, by decide⟩
      · by_cases hi : i = 0
        · unfold readSep
          rw [if_pos hi]
          exact ⟨readIpv4_colon (':' :: v), readGroup_colon (':' :: v)⟩
        · unfold readSep
          rw [if_neg hi, stripColon.mpr rfl]
          exact ⟨readIpv4_colon v, readGroup_colon v⟩ 
    unfold readGroups
    rw [h1.1, h1.2]
    simp

theorem readGroups_complete (limit : Nat) {b : Bool} {u : Str} {k : Nat} (h : Pieces b u k) : ∀ (f i : Nat) (r : Str), Stops r →
    i + f = limit → k ≤ f → readGroups limit f i ((if i = 0 then u else ':' :: u) ++ r) = (i + k, b, r) := by
  induction h with
  | @one g hg =>
    intro f i r hr hl hk
    obtain ⟨f, rfl⟩ : ∃ f', f = f' + 1 := ⟨f - 1, by omega⟩
    unfold readGroups
    rw [← sep_append, readSep_eq, Option.bind_some, Option.bind_some, readIpv4_piece r hg (stops_head hr),
      readGroup_piece r hg (fun c hc => (stops_head hr c hc).1), ite_self]
    exact readGroups_stop limit f (i + 1) hr
  | @quad q hq =>
    intro f i r hr hl hk
    obtain ⟨f, rfl⟩ : ∃ f', f = f' + 1 := ⟨f - 1, by omega⟩
    unfold readGroups
    rw [← sep_append, readSep_eq, Option.bind_some, if_pos (by omega), readIpv4_quad r hq (stops_digit hr)]
  | @cons b g s n hg hs ih =>
    intro f i r hr hl hk
    obtain ⟨f, rfl⟩ : ∃ f', f = f' + 1 := ⟨f - 1, by omega⟩
    have hc : ∀ c, (':' :: (s ++ r)).head? = some c → isHexDigit c = false ∧ c ≠ '.' := by
      intro c h
      simp only [List.head?_cons, Option.some.injEq] at h
      subst h
      exact ⟨by decide, by decide⟩
    have e : g ++ ':' :: s ++ r = g ++ ':' :: (s ++ r) := by simp
    unfold readGroups
    rw [← sep_append, readSep_eq, Option.bind_some, Option.bind_some, e, readIpv4_piece _ hg hc,
      readGroup_piece _ hg (fun c h => (hc c h).1), ite_self]
    have := ih f (i + 1) r hr (by omega) (by omega)
    rw [if_neg (by omega)] at this
    rw [List.cons_append] at this
    simp only
    rw [this]
    simp only [Prod.mk.injEq, and_true]
    omega

theorem side_of_taken {b : Bool} {t : Str} {k : Nat} (h : Taken 0 b t k) : Side b t k := by
  rcases h with ⟨h1, h2, h3⟩ | ⟨u, hu, rfl⟩
  · exact Or.inl ⟨h1, h2, h3⟩
  · exact Or.inr hu

theorem readGroups_side (limit : Nat) {b : Bool} {u : Str} {k : Nat} (h : Side b u k) (r : Str) (hr : Stops r) (hk : k ≤ limit) :
    readGroups limit limit 0 (u ++ r) = (k, b, r) := by
  rcases h with ⟨rfl, rfl, rfl⟩ | h
  · exact readGroups_stop limit limit 0 hr
  · have := readGroups_complete limit h limit 0 r hr (by omega) hk
    rw [if_pos rfl] at this
    rw [this, Nat.zero_add]

/-- The reader accepts exactly the texts of IPv6 addresses. -/
theorem ipv6_iff (s : Str) : Ipv6Text s ↔ isIpv6 s = true := by
  constructor
  · rintro (⟨b, h⟩ | ⟨u, v, b, n, m, rfl, hu, hv, hnm⟩)
    · have := readGroups_side 8 (Or.inr h) [] (Or.inl rfl) (by omega)
      rw [List.append_nil] at this
      unfold isIpv6
      rw [this]
      rfl
    · have h1 := readGroups_side 8 hu (':' :: ':' :: v) (Or.inr ⟨v, rfl⟩) (by omega)
      have h2 := readGroups_side (8 - (n + 1)) hv [] (Or.inl rfl) (by omega)
      rw [List.append_nil] at h2
      unfold isIpv6
      rw [h1]
      simp only
      rw [if_neg (by omega), if_neg (by decide), stripColons.mpr rfl]
      simp only
      rw [h2]
      rfl
  · intro h
    unfold isIpv6 at h
    obtain ⟨t, k, h1, h2, h3, h4⟩ := readGroups_sound 8 8 0 s rfl
    generalize readGroups 8 8 0 s = z at h h1 h2 h3
    obtain ⟨n, b, r⟩ := z
    simp only at h h1 h2 h3
    have hside := side_of_taken h3
    rw [Nat.zero_add] at h1
    subst h1
    split at h
    · rename_i hn
      subst hn
      rw [List.isEmpty_iff] at h
      subst h
      rw [List.append_nil] at h2
      subst h2
      rcases hside with ⟨_, h8, _⟩ | hp
      · omega
      · exact Or.inl ⟨b, hp⟩
    · rename_i hn
      split at h
      · cases h
      · rename_i hb
        have hb : b = false := by simpa using hb
        subst hb
        split at h
        · cases h
        · rename_i rest hs
          rw [stripColons] at hs
          subst hs
          obtain ⟨t', k', g1, g2, g3, g4⟩ := readGroups_sound (8 - (n + 1)) (8 - (n + 1)) 0 rest (by omega)
          generalize readGroups (8 - (n + 1)) (8 - (n + 1)) 0 rest = z at h g1 g2 g3
          obtain ⟨n', b', r'⟩ := z
          simp only at h g1 g2 g3
          rw [List.isEmpty_iff] at h
          subst h
          rw [List.append_nil] at g2
          subst g2
          exact Or.inr ⟨t, rest, b', n, k', h2, hside, side_of_taken g3, by omega⟩

end Siphon.Dns
