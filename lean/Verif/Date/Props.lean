import Verif.Date.Spec
import Verif.Base.Strip
import Verif.Base.TextLemmas
import Verif.Base.CharLemmas
import Verif.Core.HeadersProps
/-!
# C143: the Date header
-/
namespace Siphon.DateHdr
open TextSpec Spec

theorem digits_all {s : Str} {n : Nat} (h : DecDigits s n) : ∀ c ∈ s, 48 ≤ c.toNat ∧ c.toNat ≤ 57 := by
  induction h with
  | one h1 h2 => intro c hc; rw [List.mem_singleton.mp hc]; exact ⟨h1, h2⟩
  | snoc _ h1 h2 ih =>
    intro c hc
    rcases List.mem_append.mp hc with hc | hc
    · exact ih c hc
    · rw [List.mem_singleton.mp hc]; exact ⟨h1, h2⟩

theorem isDigit_iff' (c : Char) : isDigit c = true ↔ 48 ≤ c.toNat ∧ c.toNat ≤ 57 := by
  unfold isDigit
  simp only [Bool.and_eq_true, decide_eq_true_eq]
  exact Iff.rfl

theorem number_iff (len max lo hi : Nat) (hm : hi ≤ max) (p : Str) :
    number len max lo hi p = true ↔ ∃ n, Digits len p n ∧ lo ≤ n ∧ n ≤ hi := by
  unfold number Digits
  constructor
  · intro h
    simp only [Bool.and_eq_true, beq_iff_eq, List.all_eq_true] at h
    obtain ⟨⟨h1, h2⟩, h3⟩ := h
    cases hp : parseDec max p with
    | none => rw [hp] at h3; cases h3
    | some n =>
      rw [hp] at h3
      simp only [Bool.and_eq_true, decide_eq_true_eq] at h3
      rcases ((parseDec_iff _ _ _).mp hp).1 with hd | ⟨r, rfl, _⟩
      · exact ⟨n, ⟨h1, hd⟩, h3⟩
      · exact absurd (h2 '+' (by simp)) (by decide)
  · rintro ⟨n, ⟨h1, h2⟩, h3, h4⟩
    have hp : parseDec max p = some n := (parseDec_iff _ _ _).mpr ⟨Or.inl h2, by omega⟩
    simp only [Bool.and_eq_true, beq_iff_eq, List.all_eq_true, hp, decide_eq_true_eq]
    exact ⟨⟨h1, fun c hc => (isDigit_iff' c).mpr (digits_all h2 c hc)⟩, h3, h4⟩

theorem takeWhile_commas : ∀ s : Str, ∀ c ∈ s.takeWhile (· == ','), c = ','
  | [], c, h => by cases h
  | x :: xs, c, h => by
    cases hx : (x == ',') with
    | false => simp [List.takeWhile_cons, hx] at h
    | true =>
      rw [List.takeWhile_cons, if_pos hx] at h
      rcases List.mem_cons.mp h with rfl | h
      · simpa using hx
      · exact takeWhile_commas xs c h

theorem dropWhile_commas : ∀ k : Nat, (List.replicate k ',').dropWhile (· == ',') = []
  | 0 => rfl
  | k + 1 => by rw [List.replicate_succ, List.dropWhile_cons, if_pos (by decide), dropWhile_commas k]

theorem commas_split (p : Str) : ∃ k, p = dropCommas p ++ List.replicate k ',' := by
  unfold dropCommas
  have h := List.takeWhile_append_dropWhile (p := (· == ',')) (l := p.reverse)
  have hr := List.eq_replicate_of_mem (takeWhile_commas p.reverse)
  refine ⟨(p.reverse.takeWhile (· == ',')).length, ?_⟩
  have := congrArg List.reverse h
  rw [List.reverse_append, List.reverse_reverse] at this
  rw [hr, List.reverse_replicate] at this
  exact this.symm

theorem dropCommas_add {d : Str} (hd : d.getLast? ≠ some ',') (k : Nat) : dropCommas (d ++ List.replicate k ',') = d := by
  unfold dropCommas
  rw [List.reverse_append, List.reverse_replicate, List.dropWhile_append]
  have h1 := dropWhile_commas k
  rw [h1]
  simp only [List.isEmpty_nil, if_true]
  have h2 : d.reverse.dropWhile (· == ',') = d.reverse := by
    cases hr : d.reverse with
    | nil => rfl
    | cons c cs =>
      have : d.getLast? = some c := by rw [List.getLast?_eq_head?_reverse, hr]; rfl
      have hc : (c == ',') = false := by
        rw [this] at hd
        simpa using hd
      simp [List.dropWhile_cons, hc]
  rw [h2, List.reverse_reverse]

theorem dayName_iff (a : Str) : dayName a = true ↔ Weekday a := by
  unfold dayName Weekday
  simp only [Bool.and_eq_true, beq_iff_eq, List.contains_eq_mem, decide_eq_true_eq]
  have hlast : ∀ d ∈ days, d.getLast? ≠ some ',' := by decide
  constructor
  · rintro ⟨h1, h2⟩
    obtain ⟨k, hk⟩ := commas_split a
    cases k with
    | zero =>
      simp only [List.replicate_zero, List.append_nil] at hk
      exact absurd (hk ▸ h1) (hlast _ h2)
    | succ k => exact ⟨dropCommas a, k, h2, hk⟩
  · rintro ⟨d, k, hd, rfl⟩
    refine ⟨?_, by rw [dropCommas_add (hlast d hd)]; exact hd⟩
    rw [List.replicate_succ', ← List.append_assoc]
    simp

theorem no_colon {len : Nat} {s : Str} {n : Nat} (h : Digits len s n) : ':' ∉ s := fun hm => by
  have := digits_all h.2 _ hm
  revert this; decide

theorem time_iff (t : Str) : time t = true ↔ Time t := by
  unfold time Time
  constructor
  · intro h
    split at h
    · rename_i x y z hs
      simp only [Bool.and_eq_true] at h
      obtain ⟨nh, h1, _, h2⟩ := (number_iff 2 255 0 23 (by decide) x).mp h.1.1
      obtain ⟨nm, h3, _, h4⟩ := (number_iff 2 255 0 59 (by decide) y).mp h.1.2
      obtain ⟨ns, h5, _, h6⟩ := (number_iff 2 255 0 59 (by decide) z).mp h.2
      obtain ⟨_, hj, _⟩ := (pieces_iff ':' t _).mpr hs.symm
      exact ⟨x, y, z, nh, nm, ns, by rw [hj]; simp [join], h1, h3, h5, h2, h4, h6⟩
    · cases h
  · rintro ⟨x, y, z, nh, nm, ns, rfl, h1, h3, h5, h2, h4, h6⟩
    have hs : splitChar ':' (x ++ ':' :: (y ++ ':' :: z)) = [x, y, z] := by
      refine ((pieces_iff ':' _ _).mp ⟨by simp, by simp [join], ?_⟩).symm
      simp [no_colon h1, no_colon h3, no_colon h5]
    rw [hs]
    simp only [Bool.and_eq_true]
    exact ⟨⟨(number_iff 2 255 0 23 (by decide) x).mpr ⟨nh, h1, Nat.zero_le _, h2⟩,
      (number_iff 2 255 0 59 (by decide) y).mpr ⟨nm, h3, Nat.zero_le _, h4⟩⟩,
      (number_iff 2 255 0 59 (by decide) z).mpr ⟨ns, h5, Nat.zero_le _, h6⟩⟩

theorem zone_iff (z : Str) : zone z = true ↔ Zone z := by
  unfold zone Zone
  have ha : ∀ c, isAlpha c = true ↔ (65 ≤ c.toNat ∧ c.toNat ≤ 90) ∨ (97 ≤ c.toNat ∧ c.toNat ≤ 122) := by
    intro c
    unfold isAlpha
    simp only [Bool.or_eq_true, Bool.and_eq_true, decide_eq_true_eq]
    rw [or_comm]
    exact Iff.rfl
  simp only [Bool.and_eq_true, Bool.not_eq_true', decide_eq_false_iff_not, Nat.not_lt, List.all_eq_true, ha]

theorem validFormat_iff (s : Str) : validFormat s = true ↔ ∃ a d m y t z rest nd ny,
    Words s (a :: d :: m :: y :: t :: z :: rest) ∧ Weekday a ∧ Digits 2 d nd ∧ 1 ≤ nd ∧ nd ≤ 31 ∧ m ∈ months ∧
    Digits 4 y ny ∧ 1970 ≤ ny ∧ ny ≤ 2100 ∧ Time t ∧ Zone z := by
  unfold validFormat
  constructor
  · intro h
    split at h
    · rename_i a d m y t z rest hs
      simp only [Bool.and_eq_true, List.contains_eq_mem, decide_eq_true_eq] at h
      obtain ⟨⟨⟨⟨⟨h1, h2⟩, h3⟩, h4⟩, h5⟩, h6⟩ := h
      obtain ⟨nd, g1, g2, g3⟩ := (number_iff 2 255 1 31 (by decide) d).mp h2
      obtain ⟨ny, g4, g5, g6⟩ := (number_iff 4 65535 1970 2100 (by decide) y).mp h4
      exact ⟨a, d, m, y, t, z, rest, nd, ny, (words_iff _ _).mpr hs, (dayName_iff a).mp h1, g1, g2, g3, h3, g4, g5, g6,
        (time_iff t).mp h5, (zone_iff z).mp h6⟩
    · cases h
  · rintro ⟨a, d, m, y, t, z, rest, nd, ny, hw, h1, g1, g2, g3, h3, g4, g5, g6, h5, h6⟩
    rw [(words_iff _ _).mp hw]
    simp only [Bool.and_eq_true, List.contains_eq_mem, decide_eq_true_eq]
    exact ⟨⟨⟨⟨⟨(dayName_iff a).mpr h1, (number_iff 2 255 1 31 (by decide) d).mpr ⟨nd, g1, g2, g3⟩⟩, h3⟩,
      (number_iff 4 65535 1970 2100 (by decide) y).mpr ⟨ny, g4, g5, g6⟩⟩, (time_iff t).mpr h5⟩, (zone_iff z).mpr h6⟩

/-- **C143**: a text is accepted as a Date exactly if it is one; its text is kept, and its time is what httpdate reads. -/
theorem C143_new (H : HttpDate) (s : Str) (h : Header) :
    Header.new H s = some h ↔ Date s ∧ h.raw = s ∧ h.timestamp = H.read s := by
  have e : Date s ↔ utf8Len s ≤ 128 ∧ (∀ c ∈ s, isAsciiControl c = false) ∧ validFormat s = true := by
    rw [validFormat_iff]; exact Iff.rfl
  rw [e]
  unfold Header.new MAX_DATE_HEADER_LENGTH
  obtain ⟨r, ts⟩ := h
  split
  · rename_i hl
    exact ⟨fun h => (by cases h), fun h => absurd h.1.1 (by omega)⟩
  · rename_i hl
    split
    · rename_i hc
      refine ⟨fun h => (by cases h), fun h => ?_⟩
      obtain ⟨c, hc, hx⟩ := List.any_eq_true.mp hc
      rw [h.1.2.1 c hc] at hx; cases hx
    · rename_i hc
      have hc' : ∀ c ∈ s, isAsciiControl c = false := by
        intro c hm
        cases hx : isAsciiControl c with
        | false => rfl
        | true => exact absurd (List.any_eq_true.mpr ⟨c, hm, hx⟩) hc
      cases hv : validFormat s with
      | false => simp
      | true =>
        simp only [Bool.not_true, Bool.false_eq_true, if_false, Option.some.injEq, Header.mk.injEq]
        constructor
        · rintro ⟨rfl, rfl⟩; exact ⟨⟨by omega, hc', trivial⟩, rfl, rfl⟩
        · rintro ⟨_, rfl, rfl⟩; exact ⟨rfl, rfl⟩

/-- The example of RFC 3261. -/
example : Date "Sat, 13 Nov 2010 23:29:00 GMT".toList :=
  ((C143_new ⟨fun _ => none, fun _ => []⟩ _ ⟨"Sat, 13 Nov 2010 23:29:00 GMT".toList, none⟩).mp (by decide +kernel)).1

/-- **C143**: a date that is known to be past is; one that is known to come is. -/
theorem C143_past (h : Header) (now : Int) :
    (h.isPast now = some true ↔ ∃ t, h.timestamp = some t ∧ t ≤ now) ∧ (h.isFuture now = some true ↔ ∃ t, h.timestamp = some t ∧ now ≤ t) := by
  unfold Header.isPast Header.isFuture
  cases h.timestamp with
  | none => simp
  | some t =>
    constructor
    · by_cases hx : t ≤ now <;> simp [hx]
    · by_cases hx : now ≤ t <;> simp [hx]

/-- **C143** fails: the answer is never no.  A date that has not come is, asked whether it is past, not known to be. -/
theorem C143_never_no (h : Header) (now : Int) : h.isPast now ≠ some false ∧ h.isFuture now ≠ some false ∧
    (∀ t, h.timestamp = some t → now < t → h.isPast now = none) := by
  unfold Header.isPast Header.isFuture
  cases h.timestamp with
  | none => simp
  | some t =>
    refine ⟨?_, ?_, ?_⟩
    · by_cases hx : t ≤ now <;> simp [hx]
    · by_cases hx : now ≤ t <;> simp [hx]
    · intro t' ht hx
      cases ht
      have : ¬ t ≤ now := by omega
      simp [this]

/-- **C143**: a Date header that is one is read as its date. -/
theorem C143_parse (H : HttpDate) (now : Int) {v : Str} (hd : Date v) : parseDate H now v = ⟨v, H.read v⟩ := by
  unfold parseDate
  rw [(C143_new H v ⟨v, H.read v⟩).mpr ⟨hd, rfl, rfl⟩]
  rfl

/-- **C143** fails: a text that is no date is read as the present time, and cannot be told from a date that the peer gave. -/
theorem C143_bad_is_now (H : HttpDate) (now : Int) {v : Str} (hd : ¬ Date v) :
    parseDate H now v = ⟨H.write now, some now⟩ ∧ (parseDate H now v).isPast now = some true := by
  have hn : Header.new H v = none := by
    cases hv : Header.new H v with
    | none => rfl
    | some h => exact absurd ((C143_new H v h).mp hv).1 hd
  have e : parseDate H now v = ⟨H.write now, some now⟩ := by unfold parseDate; rw [hn]; rfl
  refine ⟨e, ?_⟩
  rw [e]
  simp [Header.isPast]

/-- Such a text. -/
example : ¬ Date "yesterday".toList := fun h => by
  have := (C143_new ⟨fun _ => none, fun _ => []⟩ "yesterday".toList ⟨"yesterday".toList, none⟩).mpr ⟨h, rfl, rfl⟩
  rw [show Header.new ⟨fun _ => none, fun _ => []⟩ "yesterday".toList = none by decide +kernel] at this
  cases this

/-- **C143** fails: what is accepted need not be a date of RFC 3261: days that do not exist, zones other than GMT, several commas, and
words after the zone. -/
theorem C143_lax : Date "Mon,, 31 Feb 2024 00:00:00 PST and more".toList :=
  ((C143_new ⟨fun _ => none, fun _ => []⟩ _ ⟨"Mon,, 31 Feb 2024 00:00:00 PST and more".toList, none⟩).mp (by decide +kernel)).1

/-- **C143**: a header made from a time is that time. -/
theorem C143_of_time (H : HttpDate) (t now : Int) : (Header.ofTime H t).timestamp = some t ∧ (Header.ofTime H t).raw = H.write t ∧
    ((Header.ofTime H t).isPast now = some true ↔ t ≤ now) := by
  refine ⟨rfl, rfl, ?_⟩
  rw [(C143_past _ now).1]
  simp [Header.ofTime]

end Siphon.DateHdr
