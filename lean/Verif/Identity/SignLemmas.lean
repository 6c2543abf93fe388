import Verif.Identity.FieldLemmas
import Verif.Base.Num
/-!
# What is written is read back (C108)
-/
namespace Siphon.Ident
open Spec
open TextSpec (DecDigits Strips Pieces)

theorem asChars_append (a b : Bytes) : asChars (a ++ b) = asChars a ++ asChars b := by simp [asChars]

/-- The bytes of a text, as characters. -/
def wire (s : Str) : Str := asChars (utf8 s)

theorem wire_append (a b : Str) : wire (a ++ b) = wire a ++ wire b := by
  unfold wire; rw [utf8_append, asChars_append]

theorem encode_ascii (c : Char) (h : c.toNat < 128) : String.utf8EncodeChar c = [UInt8.ofNat c.toNat] := by
  have hn : c.val.toNat = c.toNat := rfl
  unfold String.utf8EncodeChar
  simp only [hn]
  rw [if_pos (by omega)]

theorem wire_ascii_char (c : Char) (h : c.toNat < 128) : wire [c] = [c] := by
  unfold wire asChars
  rw [utf8_single, encode_ascii c h, List.map_singleton, u8 _ (by omega)]
  simp

theorem wire_cons (c : Char) (s : Str) : wire (c :: s) = wire [c] ++ wire s := wire_append [c] s

theorem wire_ascii_cons (c : Char) (s : Str) (h : c.toNat < 128) : wire (c :: s) = c :: wire s := by
  rw [wire_cons, wire_ascii_char c h]; rfl

theorem wire_ascii : ∀ s : Str, (∀ c ∈ s, c.toNat < 128) → wire s = s
  | [], _ => rfl
  | c :: s, h => by
    rw [wire_ascii_cons c s (h c List.mem_cons_self), wire_ascii s (fun x hx => h x (List.mem_cons_of_mem _ hx))]

theorem encode_big (c : Char) (h : 128 ≤ c.toNat) : ∀ b ∈ String.utf8EncodeChar c, 128 ≤ b.toNat := by
  have hn : c.val.toNat = c.toNat := rfl
  unfold String.utf8EncodeChar
  simp only [hn]
  generalize c.toNat = n at *
  intro b hb
  split at hb
  · omega
  · split at hb
    · simp only [List.mem_cons, List.not_mem_nil, or_false] at hb
      rcases hb with rfl | rfl <;> rw [u8 _ (by omega)] <;> omega
    · split at hb
      · simp only [List.mem_cons, List.not_mem_nil, or_false] at hb
        rcases hb with rfl | rfl | rfl <;> rw [u8 _ (by omega)] <;> omega
      · simp only [List.mem_cons, List.not_mem_nil, or_false] at hb
        rcases hb with rfl | rfl | rfl | rfl <;> rw [u8 _ (by omega)] <;> omega

theorem inside_append {a b : Str} {us vs : List Item} (h : Inside a us) (h' : Inside b vs) : Inside (a ++ b) (us ++ vs) := by
  induction h with
  | nil => exact h'
  | plain h1 h2 h3 _ ih => exact .plain h1 h2 h3 ih
  | escape h1 _ ih => exact .escape h1 ih
  | code h1 h2 h3 h4 _ ih => exact .code h1 h2 h3 h4 ih

theorem spells_append {us vs : List Item} {a b : Bytes} (h : Spells us a) (h' : Spells vs b) : Spells (us ++ vs) (a ++ b) := by
  induction h with
  | nil => exact h'
  | byte _ ih => exact .byte ih
  | char h1 _ ih => rw [List.append_assoc]; exact .char h1 ih
  | pair h1 h2 h3 h4 h5 _ ih => rw [List.append_assoc]; exact .pair h1 h2 h3 h4 h5 ih

theorem byte_char (b : UInt8) : (Char.ofNat b.toNat).toNat = b.toNat := by
  have := b.toNat_lt
  exact ofNat_valid (Or.inl (by omega))

theorem plain_bytes : ∀ bs : Bytes, (∀ b ∈ bs, 32 ≤ b.toNat ∧ b.toNat ≠ 34 ∧ b.toNat ≠ 92) →
    ∃ us, Inside (asChars bs) us ∧ Spells us bs
  | [], _ => ⟨[], .nil, .nil⟩
  | b :: bs, h => by
    obtain ⟨us, h1, h2⟩ := plain_bytes bs (fun x hx => h x (List.mem_cons_of_mem _ hx))
    obtain ⟨h3, h4, h5⟩ := h b List.mem_cons_self
    have e := byte_char b
    refine ⟨.byte (Char.ofNat b.toNat).toNat :: us, Inside.plain (c := Char.ofNat b.toNat) ?_ ?_ (by omega) h1, ?_⟩
    · intro hc; rw [hc] at e; exact h4 (by rw [← e]; rfl)
    · intro hc; rw [hc] at e; exact h5 (by rw [← e]; rfl)
    · have := Spells.byte (b := (Char.ofNat b.toNat).toNat) h2
      rw [e] at this ⊢
      simpa using this

theorem toNat_ext {c d : Char} (h : c.toNat = d.toNat) : c = d := by
  have h1 : c = Char.ofNat c.toNat := by simp
  have h2 : d = Char.ofNat d.toNat := by simp
  rw [h1, h2, h]

theorem control_ok : ∀ n, n < 32 →
    (writeChar (Char.ofNat n)).all (fun c => decide (c.toNat < 128)) = true ∧
    (lexStr (writeChar (Char.ofNat n) ++ ['"'])).map (fun p => (itemBytes p.1, p.2)) = some (some (utf8 [Char.ofNat n]), []) := by
  decide +kernel

theorem writeChar_ok (c : Char) : ∃ us, Inside (wire (writeChar c)) us ∧ Spells us (utf8 [c]) := by
  by_cases h32 : c.toNat < 32
  · have hc : c = Char.ofNat c.toNat := by simp
    obtain ⟨h1, h2⟩ := control_ok c.toNat h32
    rw [← hc] at h1 h2
    rw [wire_ascii _ (by intro x hx; exact of_decide_eq_true (List.all_eq_true.1 h1 x hx))]
    cases hl : lexStr (writeChar c ++ ['"']) with
    | none => rw [hl] at h2; cases h2
    | some p =>
      obtain ⟨us, r⟩ := p
      rw [hl] at h2
      simp only [Option.map_some, Option.some.injEq, Prod.mk.injEq] at h2
      obtain ⟨h2, rfl⟩ := h2
      obtain ⟨t, e, hi⟩ := (lex_iff _ _ _).1 hl
      have e' : writeChar c = t := List.append_cancel_right e
      rw [e']
      exact ⟨us, hi, items_sound us.length us (Nat.le_refl _) (inside_small hi) _ h2⟩
  · by_cases hq : c = '"'
    · subst hq
      exact ⟨[.byte 34], .escape .quote .nil, .byte .nil⟩
    · by_cases hb : c = '\\'
      · subst hb
        exact ⟨[.byte 92], .escape .backslash .nil, .byte .nil⟩
      · have e : writeChar c = [c] := by
          unfold writeChar
          rw [if_neg hq, if_neg hb, if_neg (by omega), if_neg (by omega), if_neg (by omega), if_neg (by omega), if_neg (by omega),
            if_neg (by omega)]
        rw [e]
        have hq' : c.toNat ≠ 34 := fun h => hq (toNat_ext h)
        have hb' : c.toNat ≠ 92 := fun h => hb (toNat_ext h)
        apply plain_bytes
        rw [utf8_single]
        intro b hbm
        by_cases h128 : c.toNat < 128
        · rw [encode_ascii c h128] at hbm
          simp only [List.mem_singleton] at hbm
          rw [hbm, u8 _ (by omega)]
          omega
        · have := encode_big c (by omega) b hbm
          omega

theorem writeInside (s : Str) : ∃ us, Inside (wire (s.flatMap writeChar)) us ∧ Spells us (utf8 s) := by
  induction s with
  | nil => exact ⟨[], .nil, .nil⟩
  | cons c s ih =>
    obtain ⟨us, h1, h2⟩ := writeChar_ok c
    obtain ⟨vs, h3, h4⟩ := ih
    refine ⟨us ++ vs, ?_, ?_⟩
    · rw [List.flatMap_cons, wire_append]; exact inside_append h1 h3
    · rw [show c :: s = [c] ++ s from rfl, utf8_append]; exact spells_append h2 h4

theorem wire_writeStr (s : Str) : wire (writeStr s) = '"' :: wire (s.flatMap writeChar) ++ ['"'] := by
  unfold writeStr
  rw [List.cons_append, wire_ascii_cons _ _ (by decide), wire_append, wire_ascii ['"'] (by decide)]
  rfl

/-- A written text is a JSON text and means the text. -/
theorem value_writeStr (s : Str) : Value (wire (writeStr s)) (.str (some s)) := by
  obtain ⟨us, h1, h2⟩ := writeInside s
  rw [wire_writeStr]
  exact .string h1 (s := some s) h2

theorem showGo_zero : ∀ f n, n ≤ f → (showNatGo f n).head? = some '0' → showNatGo f n = ['0'] ∧ n = 0
  | 0, n, hn, _ => by
    have : n = 0 := by omega
    subst this; exact ⟨rfl, rfl⟩
  | f + 1, n, hn, h => by
    simp only [showNatGo] at h ⊢
    split at h
    · rename_i hlt
      rw [if_pos hlt]
      simp only [List.head?_cons, Option.some.injEq] at h
      refine ⟨by rw [h], ?_⟩
      have := digitChar_toNat n hlt
      rw [h] at this
      have h0 : '0'.toNat = 48 := rfl
      omega
    · rename_i hge
      have hh : (showNatGo f (n / 10) ++ [digitChar (n % 10)]).head? = (showNatGo f (n / 10)).head? := by
        obtain ⟨c, t, e⟩ := List.exists_cons_of_ne_nil (showNatGo_ne_nil f (n / 10))
        rw [e]; rfl
      rw [hh] at h
      have := (showGo_zero f (n / 10) (by omega) h).2
      omega

theorem number_writeInt (n : Int) : Number (writeInt n) (.int n) := by
  have hz : (showNat n.natAbs).head? = some '0' → showNat n.natAbs = ['0'] := fun h => (showGo_zero _ _ (Nat.le_refl _) h).1
  have hd : DecDigits (showNat n.natAbs) n.natAbs := by
    have h := parseDec_showNat n.natAbs n.natAbs (Nat.le_refl _)
    rw [parseDec_iff] at h
    rcases h.1 with h | ⟨r, hr, _⟩
    · exact h
    · exact absurd (showNat_digits n.natAbs '+' (by rw [hr]; simp)) (by decide)
  unfold writeInt
  split
  · rename_i h
    have e : n = -(n.natAbs : Int) := by omega
    have := Number.neg hd (by omega) hz
    rwa [← e] at this
  · rename_i h
    have e : n = (n.natAbs : Int) := by omega
    have := Number.int hd hz
    rwa [← e] at this

theorem wire_writeInt (n : Int) : wire (writeInt n) = writeInt n := by
  apply wire_ascii
  intro c hc
  have hdig : ∀ c ∈ showNat n.natAbs, c.toNat < 128 := by
    intro c hc
    have := (isDigit_iff c).1 (showNat_digits _ c hc)
    have := this.2
    omega
  unfold writeInt at hc
  split at hc
  · rcases List.mem_cons.1 hc with rfl | hc
    · decide
    · exact hdig c hc
  · exact hdig c hc

theorem commas_cons (a b : Str) (t : List Str) : commas (a :: b :: t) = a ++ ',' :: commas (b :: t) := rfl

/-- A written array. -/
theorem elems_commas : ∀ (v : Str × Json) (vs : List (Str × Json)), (∀ p ∈ v :: vs, Value (wire p.1) p.2) →
    Elems (wire (commas ((v :: vs).map (·.1)))) ((v :: vs).map (·.2))
  | v, [], h => by
    have := Elems.one (w := []) (h v List.mem_cons_self) (by intro c hc; cases hc)
    simpa [commas] using this
  | v, u :: vs, h => by
    have ih := elems_commas u vs (fun p hp => h p (List.mem_cons_of_mem _ hp))
    simp only [List.map_cons] at ih ⊢
    rw [commas_cons, wire_append, wire_ascii_cons _ _ (by decide)]
    have := Elems.more (w := []) (w' := []) (h v List.mem_cons_self) (by intro c hc; cases hc) (by intro c hc; cases hc) ih
    simpa using this

theorem wire_member (k : String) (v : Str) :
    wire (member k v) = '"' :: wire (k.toList.flatMap writeChar) ++ '"' :: ':' :: wire v := by
  unfold member
  rw [wire_append, wire_writeStr, wire_ascii_cons _ _ (by decide)]
  simp

/-- A written object. -/
theorem members_commas : ∀ (m : String × Str × Json) (ms : List (String × Str × Json)), (∀ p ∈ m :: ms, Value (wire p.2.1) p.2.2) →
    Members (wire (commas ((m :: ms).map (fun p => member p.1 p.2.1)))) ((m :: ms).map (fun p => (some p.1.toList, p.2.2)))
  | m, [], h => by
    obtain ⟨us, h1, h2⟩ := writeInside m.1.toList
    have := Members.one (w := []) (w' := []) (w'' := []) (s := some m.1.toList) h1 h2 (by intro c hc; cases hc) (by intro c hc; cases hc)
      (h m List.mem_cons_self) (by intro c hc; cases hc)
    simp only [List.map_cons, List.map_nil, commas]
    rw [wire_member]
    simpa using this
  | m, n :: ms, h => by
    have ih := members_commas n ms (fun p hp => h p (List.mem_cons_of_mem _ hp))
    obtain ⟨us, h1, h2⟩ := writeInside m.1.toList
    simp only [List.map_cons] at ih ⊢
    rw [commas_cons, wire_append, wire_ascii_cons _ _ (by decide), wire_member]
    have := Members.more (w := []) (w' := []) (w'' := []) (w''' := []) (s := some m.1.toList) h1 h2 (by intro c hc; cases hc)
      (by intro c hc; cases hc) (h m List.mem_cons_self) (by intro c hc; cases hc) (by intro c hc; cases hc) ih
    simpa using this

theorem value_object (m : String × Str × Json) (ms : List (String × Str × Json)) (h : ∀ p ∈ m :: ms, Value (wire p.2.1) p.2.2) :
    Value (wire (object ((m :: ms).map (fun p => member p.1 p.2.1)))) (.obj ((m :: ms).map (fun p => (some p.1.toList, p.2.2)))) := by
  have := Value.object (w := []) (by intro c hc; cases hc) (members_commas m ms h)
  unfold object
  rw [List.cons_append, wire_ascii_cons _ _ (by decide), wire_append, wire_ascii ['}'] (by decide)]
  simpa using this

theorem value_array (v : Str × Json) (vs : List (Str × Json)) (h : ∀ p ∈ v :: vs, Value (wire p.1) p.2) :
    Value (wire ('[' :: commas ((v :: vs).map (·.1)) ++ [']'])) (.arr ((v :: vs).map (·.2))) := by
  have := Value.array (w := []) (by intro c hc; cases hc) (elems_commas v vs h)
  rw [List.cons_append, wire_ascii_cons _ _ (by decide), wire_append, wire_ascii [']'] (by decide)]
  simpa using this

theorem jsonText_of {t : Str} {v : Json} (h : Value (wire t) v) : JsonText (utf8 t) v :=
  ⟨[], wire t, [], (by intro c hc; cases hc), h, (by intro c hc; cases hc), by simp [wire, asChars]⟩

/-- The value of the header that is written. -/
def headerVal (x5u : Str) : Json :=
  .obj [(some "alg".toList, .str (some "ES256".toList)), (some "ppt".toList, .str (some "shaken".toList)),
    (some "typ".toList, .str (some "passport".toList)), (some "x5u".toList, .str (some x5u))]

theorem header_text (x5u : Str) : JsonText (utf8 (headerJson x5u)) (headerVal x5u) := by
  apply jsonText_of
  have := value_object ("alg", writeStr "ES256".toList, .str (some "ES256".toList))
    [("ppt", writeStr "shaken".toList, .str (some "shaken".toList)), ("typ", writeStr "passport".toList, .str (some "passport".toList)),
     ("x5u", writeStr x5u, .str (some x5u))] (by
      intro p hp
      simp only [List.mem_cons, List.not_mem_nil, or_false] at hp
      rcases hp with rfl | rfl | rfl | rfl <;> exact value_writeStr _)
  exact this

theorem header_says (x5u : Str) :
    HeaderOf (headerVal x5u) ⟨"ES256".toList, some "passport".toList, some "shaken".toList, x5u⟩ := by
  rw [← header_iff]
  rfl

/-- The value of the claims that are written. -/
def claimsVal (p : Params) : Json :=
  .obj ([(some "attest".toList, .str (some p.attest.asStr)),
    (some "dest".toList, .obj [(some "tn".toList, .arr (p.destTns.map (fun s => .str (some s))))]),
    (some "iat".toList, .int p.iat), (some "orig".toList, .obj [(some "tn".toList, .str (some p.origTn))])] ++
    (match p.origid with | some o => [(some "origid".toList, .str (some o))] | none => []))

theorem claims_text (p : Params) (hd : p.destTns ≠ []) : JsonText (utf8 (claimsJson p)) (claimsVal p) := by
  apply jsonText_of
  obtain ⟨x5u, at', orig, dests, iat, origid⟩ := p
  simp only at hd
  obtain ⟨d, ds, rfl⟩ := List.exists_cons_of_ne_nil hd
  have harr : Value (wire ('[' :: commas ((d :: ds).map writeStr) ++ [']'])) (.arr ((d :: ds).map (fun s => .str (some s)))) := by
    have := value_array (writeStr d, .str (some d)) (ds.map (fun s => (writeStr s, .str (some s)))) (by
      intro p hp
      rcases List.mem_cons.1 hp with rfl | hp
      · exact value_writeStr _
      · obtain ⟨s, _, rfl⟩ := List.mem_map.1 hp; exact value_writeStr _)
    simpa [List.map_map, Function.comp_def] using this
  have hdest := value_object ("tn", _, _) [] (by intro p hp; simp only [List.mem_cons, List.not_mem_nil, or_false] at hp; rw [hp]; exact harr)
  have horig := value_object ("tn", writeStr orig, .str (some orig)) [] (by
    intro p hp; simp only [List.mem_cons, List.not_mem_nil, or_false] at hp; rw [hp]; exact value_writeStr _)
  have hiat : Value (wire (writeInt iat)) (.int iat) := by rw [wire_writeInt]; exact .number (number_writeInt iat)
  cases origid with
  | none =>
    have := value_object ("attest", writeStr at'.asStr, .str (some at'.asStr)) [("dest", _, _), ("iat", _, _), ("orig", _, _)] (by
      intro p hp
      simp only [List.mem_cons, List.not_mem_nil, or_false] at hp
      rcases hp with rfl | rfl | rfl | rfl
      · exact value_writeStr _
      · exact hdest
      · exact hiat
      · exact horig)
    exact this
  | some o =>
    have := value_object ("attest", writeStr at'.asStr, .str (some at'.asStr)) [("dest", _, _), ("iat", _, _), ("orig", _, _),
      ("origid", writeStr o, .str (some o))] (by
      intro p hp
      simp only [List.mem_cons, List.not_mem_nil, or_false] at hp
      rcases hp with rfl | rfl | rfl | rfl | rfl
      · exact value_writeStr _
      · exact hdest
      · exact hiat
      · exact horig
      · exact value_writeStr _)
    exact this

theorem claims_says (p : Params) (h1 : -(2 : Int) ^ 63 ≤ p.iat) (h2 : p.iat < (2 : Int) ^ 63) :
    ClaimsOf (claimsVal p) ⟨some p.attest, some p.origTn, p.destTns, some p.iat, p.origid⟩ := by
  obtain ⟨x5u, at', orig, dests, iat, origid⟩ := p
  have ha : AttestOf (some at'.asStr) (some at') := by cases at' <;> constructor
  have ho : OrigOf (some (.obj [(some "tn".toList, .str (some orig))])) (some orig) :=
    .given (v := some (.str (some orig))) ((structFields_iff _ _ _).1 rfl) .text
  have hd : DestOf (some (.obj [(some "tn".toList, .arr (dests.map (fun s => .str (some s))))])) dests :=
    .given ((structFields_iff _ _ _).1 rfl)
  have hi : OptInt (some (.int iat)) (some iat) := .int h1 h2
  cases origid with
  | none => exact ⟨_, _, _, _, _, _, (structFields_iff _ _ _).1 rfl, .text, ha, ho, hd, hi, .absent⟩
  | some o => exact ⟨_, _, _, _, _, _, (structFields_iff _ _ _).1 rfl, .text, ha, ho, hd, hi, .text⟩

end Siphon.Ident
