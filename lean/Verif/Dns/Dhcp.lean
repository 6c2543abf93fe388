import Verif.Dns.Props
import Verif.Base.PercentLemmas
import Verif.Base.TextLemmas
/-!
# C61, C95: servers announced by DHCP
-/
namespace Siphon.Dns
open Siphon.TextSpec

/-! ## Model -/

/-- The second byte fits the first of a sequence of three or four bytes (`core::str::lossy`, `Utf8Chunks::next`). -/
def secondOk (a b : Nat) : Bool :=
  (a == 0xE0 && 0xA0 ≤ b && b ≤ 0xBF) || (0xE1 ≤ a && a ≤ 0xEC && 0x80 ≤ b && b ≤ 0xBF) ||
  (a == 0xED && 0x80 ≤ b && b ≤ 0x9F) || (0xEE ≤ a && a ≤ 0xEF && 0x80 ≤ b && b ≤ 0xBF) ||
  (a == 0xF0 && 0x90 ≤ b && b ≤ 0xBF) || (0xF1 ≤ a && a ≤ 0xF3 && 0x80 ≤ b && b ≤ 0xBF) ||
  (a == 0xF4 && 0x80 ≤ b && b ≤ 0x8F)

/-- The number of bytes replaced by one U+FFFD where no character can be read. -/
def badLen (a : UInt8) : Bytes → Nat
  | b :: rest =>
    if secondOk a.toNat b.toNat then
      if a.toNat < 0xF0 then 2
      else
        match rest with
        | c :: _ => if 0x80 ≤ c.toNat && c.toNat ≤ 0xBF then 3 else 2
        | [] => 2
    else 1
  | [] => 1

/-- The characters (fuel: at least the number of bytes). -/
def lossyGo : Nat → Bytes → Str
  | _, [] => []
  | 0, _ :: _ => []
  | f + 1, a :: t =>
    match takeChar (a :: t) with
    | some (c, rest) => c :: lossyGo f rest
    | none => '�' :: lossyGo f ((a :: t).drop (badLen a t))

/-- `String::from_utf8_lossy` -/
def lossy (bs : Bytes) : Str := lossyGo bs.length bs

/-- lib.rs 1008-1032: the labels of a name and what follows it (fuel: at least the number of bytes). -/
def readLabels : Nat → Bytes → List Str → Option (List Str × Bytes)
  | 0, _, _ => none
  | _ + 1, [], _ => none
  | f + 1, l :: rest, labels =>
    if l.toNat = 0 then some (labels, rest)
    else if l.toNat > 63 then none
    else if l.toNat > rest.length then none
    else readLabels f (rest.drop l.toNat) (labels ++ [lossy (rest.take l.toNat)])

/-- lib.rs 1004-1043: the loop over names. -/
def readNames : Nat → Bytes → List DhcpServer → Option (List DhcpServer)
  | _, [], servers => some servers
  | 0, _ :: _, _ => none
  | f + 1, a :: t, servers =>
    match readLabels ((a :: t).length + 1) (a :: t) [] with
    | none => none
    | some (labels, rest) =>
      if labels.isEmpty then none else readNames f rest (servers ++ [.domain (join '.' labels)])

/-- lib.rs 1000-1050 `parse_dhcp_domain_names` -/
def parseNames (data : Bytes) : Option (List DhcpServer) :=
  match readNames data.length data [] with
  | none => none
  | some servers => if servers.isEmpty then none else some servers

/-- The text of an IPv4 address. -/
def quad (a b c d : UInt8) : Str :=
  showNat a.toNat ++ '.' :: (showNat b.toNat ++ '.' :: (showNat c.toNat ++ '.' :: showNat d.toNat))

/-- `chunks_exact(4)`, as addresses. -/
def chunks : Bytes → List Str
  | a :: b :: c :: d :: t => quad a b c d :: chunks t
  | _ => []

/-- lib.rs 1055-1075 `parse_dhcp_ipv4_addresses` -/
def parseIpv4s (data : Bytes) : Option (List DhcpServer) :=
  if data.length % 4 ≠ 0 then none
  else
    let servers := (chunks data).map DhcpServer.ipv4
    if servers.isEmpty then none else some servers

/-- lib.rs 979-993 `parse_dhcp_option_120` -/
def parseOption120 : Bytes → Option (List DhcpServer)
  | [] => none
  | e :: payload => if e.toNat = 0 then parseNames payload else if e.toNat = 1 then parseIpv4s payload else none

/-- lib.rs 882-905 `parse_dhcp_option_150`; addresses as texts. -/
def parseOption150 (data : Bytes) : Option (List Str) :=
  if data.isEmpty then none
  else if data.length % 4 ≠ 0 then none
  else if (chunks data).isEmpty then none else some (chunks data)

/-- lib.rs 851-859 `parse_dhcp_option_66` -/
def parseOption66 (data : Bytes) : Option Str := if data.isEmpty then none else some (lossy data)

/-! ## Specification -/

/-- A label: 1 to 63 bytes. -/
def IsLabel (l : Bytes) : Prop := 1 ≤ l.length ∧ l.length ≤ 63

/-- RFC 1035: each label after its length, then a zero. -/
inductive Encodes : List Bytes → Bytes → Prop
  | done : Encodes [] [0]
  | label {l ls e} : IsLabel l → Encodes ls e → Encodes (l :: ls) (UInt8.ofNat l.length :: (l ++ e))

/-- Names, one after the other; none is empty. -/
inductive EncodesAll : List (List Bytes) → Bytes → Prop
  | nil : EncodesAll [] []
  | cons {n ns e es} : n ≠ [] → Encodes n e → EncodesAll ns es → EncodesAll (n :: ns) (e ++ es)

/-- Addresses, four bytes each. -/
inductive Quads : List (UInt8 × UInt8 × UInt8 × UInt8) → Bytes → Prop
  | nil : Quads [] []
  | cons {a b c d qs t} : Quads qs t → Quads ((a, b, c, d) :: qs) (a :: b :: c :: d :: t)

/-! ## Texts -/

theorem lossyGo_utf8 : ∀ (s : Str) (f : Nat), (utf8 s).length ≤ f → lossyGo f (utf8 s) = s
  | [], f, _ => by cases f <;> rfl
  | c :: s, f, h => by
    have e : utf8 (c :: s) = String.utf8EncodeChar c ++ utf8 s := by simp [utf8]
    have ht := takeChar_encode c (utf8 s)
    have hl : 1 ≤ (String.utf8EncodeChar c).length := by
      rw [String.length_utf8EncodeChar]
      exact Char.utf8Size_pos c
    rw [e] at h ⊢
    rw [List.length_append] at h
    cases f with
    | zero => omega
    | succ f =>
      cases hx : String.utf8EncodeChar c ++ utf8 s with
      | nil =>
        have := congrArg List.length hx
        simp only [List.length_append, List.length_nil] at this
        omega
      | cons a t =>
        rw [hx] at ht
        simp only [lossyGo, ht]
        rw [lossyGo_utf8 s f (by omega)]

/-- C61: Text comes back as it was. -/
theorem C61_text (s : Str) : lossy (utf8 s) = s := lossyGo_utf8 s _ (Nat.le_refl _)

/-- U+FFFD stands for bytes that are not text. -/
example : lossy [0x61, 0xFF, 0x62] = "a�b".toList ∧ lossy [0xE2, 0x82] = "�".toList ∧
    lossy [0xF0, 0x9F, 0x92, 0x41] = "�A".toList := by decide +kernel

/-! ## Names -/

theorem u8_ofNat {n : Nat} (h : n ≤ 63) : (UInt8.ofNat n).toNat = n := by
  rw [UInt8.toNat_ofNat']
  omega

theorem readLabels_enc : ∀ (ls : List Bytes) (e : Bytes), Encodes ls e → ∀ (f : Nat) (rest : Bytes) (acc : List Str),
    e.length ≤ f → readLabels f (e ++ rest) acc = some (acc ++ ls.map lossy, rest)
  | _, _, .done, f, rest, acc, h => by
    cases f with
    | zero => simp at h
    | succ f => simp [readLabels]
  | _, _, .label (l := l) (ls := ls) (e := e) hl he, f, rest, acc, h => by
    cases f with
    | zero => simp at h
    | succ f =>
      obtain ⟨h1, h2⟩ := hl
      have ht : (l ++ (e ++ rest)).take l.length = l := List.take_left
      have hdr : (l ++ (e ++ rest)).drop l.length = e ++ rest := List.drop_left
      simp only [List.cons_append, List.append_assoc, readLabels, u8_ofNat h2]
      rw [if_neg (by omega), if_neg (by omega), if_neg (by simp only [List.length_append]; omega), ht, hdr,
        readLabels_enc ls e he f rest (acc ++ [lossy l]) (by simp only [List.length_cons, List.length_append] at h; omega)]
      simp

theorem readLabels_dec : ∀ (f : Nat) (bs : Bytes) (acc ls : List Str) (rest : Bytes), readLabels f bs acc = some (ls, rest) →
    ∃ labels e, Encodes labels e ∧ bs = e ++ rest ∧ ls = acc ++ labels.map lossy
  | 0, _, _, _, _, h => by cases h
  | f + 1, [], _, _, _, h => by cases h
  | f + 1, l :: t, acc, ls, rest, h => by
    simp only [readLabels] at h
    split at h
    · rename_i h0
      simp only [Option.some.injEq, Prod.mk.injEq] at h
      obtain ⟨rfl, rfl⟩ := h
      have : l = 0 := UInt8.toNat_inj.mp (by simpa using h0)
      subst this
      exact ⟨[], [0], .done, rfl, by simp⟩
    · split at h
      · cases h
      · split at h
        · cases h
        · rename_i h0 h1 h2
          obtain ⟨labels, e, he, hb, rfl⟩ := readLabels_dec f _ _ _ _ h
          have hlen : (t.take l.toNat).length = l.toNat := by rw [List.length_take]; omega
          refine ⟨t.take l.toNat :: labels, UInt8.ofNat (t.take l.toNat).length :: (t.take l.toNat ++ e),
            .label ⟨by omega, by omega⟩ he, ?_, by simp⟩
          rw [hlen, UInt8.ofNat_toNat, List.cons_append, List.append_assoc, ← hb, List.take_append_drop]

theorem readNames_enc : ∀ (ns : List (List Bytes)) (e : Bytes), EncodesAll ns e → ∀ (f : Nat) (acc : List DhcpServer),
    e.length ≤ f → readNames f e acc = some (acc ++ ns.map (fun n => .domain (join '.' (n.map lossy))))
  | _, _, .nil, f, acc, _ => by cases f <;> simp [readNames]
  | _, _, .cons (n := n) (ns := ns) (e := e) (es := es) hne he hes, f, acc, h => by
    have hpos : 1 ≤ e.length := by cases he <;> simp
    cases f with
    | zero => rw [List.length_append] at h; omega
    | succ f =>
      have hr := readLabels_enc n e he ((e ++ es).length + 1) es [] (by rw [List.length_append]; omega)
      cases hx : e ++ es with
      | nil =>
        have := congrArg List.length hx
        simp only [List.length_append, List.length_nil] at this
        omega
      | cons a t =>
        rw [hx] at hr
        simp only [readNames, hr, List.nil_append]
        rw [if_neg (by simpa using hne), readNames_enc ns es hes f _ (by rw [List.length_append] at h; omega)]
        simp

theorem readNames_dec : ∀ (f : Nat) (bs : Bytes) (acc r : List DhcpServer), readNames f bs acc = some r →
    ∃ ns, EncodesAll ns bs ∧ r = acc ++ ns.map (fun n => .domain (join '.' (n.map lossy)))
  | f, [], acc, r, h => by
    have : some acc = some r := by cases f <;> exact h
    cases this
    exact ⟨[], .nil, by simp⟩
  | 0, _ :: _, _, _, h => by cases h
  | f + 1, a :: t, acc, r, h => by
    simp only [readNames] at h
    split at h
    · cases h
    · rename_i labels rest hl
      split at h
      · cases h
      · rename_i hne
        obtain ⟨ls, e, he, hb, rfl⟩ := readLabels_dec _ _ _ _ _ hl
        obtain ⟨ns, hns, rfl⟩ := readNames_dec f rest _ r h
        refine ⟨ls :: ns, ?_, by simp⟩
        rw [hb]
        refine .cons ?_ he hns
        rintro rfl
        exact hne rfl

/-- C61: Option 120 with names is accepted exactly if it is the encoding of at least one name, each with at least one label
of 1 to 63 bytes; the servers are these names in order, the labels read as text and joined by dots. -/
theorem C61_names (data : Bytes) (r : List DhcpServer) : parseOption120 (0 :: data) = some r ↔
    ∃ ns, ns ≠ [] ∧ EncodesAll ns data ∧ r = ns.map (fun n => .domain (join '.' (n.map lossy))) := by
  have hp : parseOption120 (0 :: data) = parseNames data := rfl
  rw [hp, parseNames]
  constructor
  · intro h
    split at h
    · cases h
    · rename_i s hs
      split at h
      · cases h
      · rename_i hne
        simp only [Option.some.injEq] at h
        subst h
        obtain ⟨ns, h1, h2⟩ := readNames_dec _ _ _ _ hs
        rw [List.nil_append] at h2
        refine ⟨ns, ?_, h1, h2⟩
        rintro rfl
        exact hne (by rw [h2]; rfl)
  · rintro ⟨ns, hne, he, rfl⟩
    rw [readNames_enc ns data he _ [] (Nat.le_refl _)]
    cases ns with
    | nil => exact absurd rfl hne
    | cons n ns => rfl

/-- The bytes of names given as texts. -/
def encodeNames (ns : List (List Str)) : Bytes :=
  ns.flatMap (fun n => n.flatMap (fun l => UInt8.ofNat (utf8 l).length :: utf8 l) ++ [0])

theorem encodes_texts : ∀ (n : List Str), (∀ l ∈ n, 1 ≤ utf8Len l ∧ utf8Len l ≤ 63) →
    Encodes (n.map utf8) (n.flatMap (fun l => UInt8.ofNat (utf8 l).length :: utf8 l) ++ [0])
  | [], _ => .done
  | l :: n, h => by
    have := Encodes.label (l := utf8 l) (by unfold IsLabel; rw [length_utf8]; exact h l List.mem_cons_self)
      (encodes_texts n (fun x hx => h x (List.mem_cons_of_mem _ hx)))
    simpa [List.append_assoc] using this

/-- C61: The encoding of any names is read back: labels of 1 to 63 bytes, at least one in every name. -/
theorem C61_roundtrip (ns : List (List Str)) (hne : ns ≠ [])
    (h : ∀ n ∈ ns, n ≠ [] ∧ ∀ l ∈ n, 1 ≤ utf8Len l ∧ utf8Len l ≤ 63) :
    parseOption120 (0 :: encodeNames ns) = some (ns.map (fun n => .domain (join '.' n))) := by
  have hall : ∀ ns : List (List Str), (∀ n ∈ ns, n ≠ [] ∧ ∀ l ∈ n, 1 ≤ utf8Len l ∧ utf8Len l ≤ 63) →
      EncodesAll (ns.map (fun n => n.map utf8)) (encodeNames ns) := by
    intro ns
    induction ns with
    | nil => intro _; exact .nil
    | cons n ns ih =>
      intro h
      obtain ⟨h1, h2⟩ := h n List.mem_cons_self
      have := EncodesAll.cons (by simpa using h1) (encodes_texts n h2) (ih (fun x hx => h x (List.mem_cons_of_mem _ hx)))
      simpa [encodeNames] using this
  rw [C61_names]
  refine ⟨ns.map (fun n => n.map utf8), by simpa using hne, hall ns h, ?_⟩
  rw [List.map_map]
  refine List.map_congr_left ?_
  intro n _
  simp only [Function.comp, List.map_map]
  congr 2
  conv => lhs; rw [← List.map_id n]
  exact List.map_congr_left (fun l _ => (C61_text l).symm)

/-- The hypotheses of `C61_roundtrip`. -/
example : parseOption120 (0 :: encodeNames [["sip".toList, "example".toList, "com".toList], ["x".toList]]) =
    some [.domain "sip.example.com".toList, .domain "x".toList] := by decide +kernel

/-- C61: A dot inside a label is not told from a dot between labels. -/
theorem C61_dot : encodeNames [["a.b".toList]] ≠ encodeNames [["a".toList, "b".toList]] ∧
    parseOption120 (0 :: encodeNames [["a.b".toList]]) = parseOption120 (0 :: encodeNames [["a".toList, "b".toList]]) := by
  decide +kernel

/-- C61: The length of the whole name is not limited (RFC 1035 allows 255 bytes). -/
theorem C61_too_long (k : Nat) (hk : 0 < k) :
    parseOption120 (0 :: encodeNames [List.replicate k "abc".toList]) = some [.domain (join '.' (List.replicate k "abc".toList))] := by
  refine C61_roundtrip _ (by simp) ?_
  intro n hn
  rw [List.mem_singleton.mp hn]
  refine ⟨by cases k with | zero => omega | succ k => simp [List.replicate_succ], ?_⟩
  intro l hl
  rw [(List.mem_replicate.mp hl).2]
  decide

/-! ## Addresses -/

theorem chunks_quads : ∀ {qs : List (UInt8 × UInt8 × UInt8 × UInt8)} {bs : Bytes}, Quads qs bs →
    chunks bs = qs.map (fun q => quad q.1 q.2.1 q.2.2.1 q.2.2.2) ∧ bs.length = 4 * qs.length
  | _, _, .nil => ⟨rfl, rfl⟩
  | _, _, .cons h => by
    obtain ⟨h1, h2⟩ := chunks_quads h
    refine ⟨by simp only [chunks, h1, List.map_cons], ?_⟩
    simp only [List.length_cons, h2]
    omega

theorem quads_exist : ∀ (k : Nat) (bs : Bytes), bs.length = 4 * k → ∃ qs, Quads qs bs ∧ qs.length = k
  | 0, bs, h => by
    have h0 : bs = [] := List.length_eq_zero_iff.mp (by omega)
    rw [h0]
    exact ⟨[], .nil, rfl⟩
  | k + 1, bs, h => by
    match bs, h with
    | a :: b :: c :: d :: t, h =>
      obtain ⟨qs, h1, h2⟩ := quads_exist k t (by simp only [List.length_cons] at h; omega)
      exact ⟨_, .cons h1, by simp only [List.length_cons, h2]⟩
    | [], h => simp only [List.length_nil] at h; omega
    | [_], h => simp only [List.length_cons, List.length_nil] at h; omega
    | [_, _], h => simp only [List.length_cons, List.length_nil] at h; omega
    | [_, _, _], h => simp only [List.length_cons, List.length_nil] at h; omega

theorem quads_iff (bs : Bytes) (r : List Str) : (bs.length % 4 = 0 ∧ bs ≠ [] ∧ r = chunks bs) ↔
    ∃ qs, qs ≠ [] ∧ Quads qs bs ∧ r = qs.map (fun q => quad q.1 q.2.1 q.2.2.1 q.2.2.2) := by
  constructor
  · rintro ⟨h1, h2, rfl⟩
    obtain ⟨qs, hq, hl⟩ := quads_exist (bs.length / 4) bs (by omega)
    refine ⟨qs, ?_, hq, (chunks_quads hq).1⟩
    rintro rfl
    cases hq
    exact h2 rfl
  · rintro ⟨qs, hne, hq, rfl⟩
    obtain ⟨h1, h2⟩ := chunks_quads hq
    refine ⟨by omega, ?_, h1.symm⟩
    rintro rfl
    cases hq
    exact hne rfl

theorem chunks_nonempty {bs : Bytes} (h : bs.length % 4 = 0) (hne : bs ≠ []) : (chunks bs).isEmpty = false := by
  obtain ⟨qs, h1, _, h3⟩ := (quads_iff bs (chunks bs)).mp ⟨h, hne, rfl⟩
  rw [h3]
  cases qs with
  | nil => exact absurd rfl h1
  | cons _ _ => rfl

/-- C61: Option 120 with addresses is accepted exactly if it is a positive multiple of four bytes; the servers are the
addresses in order. -/
theorem C61_ipv4 (data : Bytes) (r : List DhcpServer) : parseOption120 (1 :: data) = some r ↔
    ∃ qs, qs ≠ [] ∧ Quads qs data ∧ r = qs.map (fun q => .ipv4 (quad q.1 q.2.1 q.2.2.1 q.2.2.2)) := by
  have hp : parseOption120 (1 :: data) = parseIpv4s data := rfl
  rw [hp, parseIpv4s]
  constructor
  · intro h
    split at h
    · cases h
    · rename_i hl
      simp only at h
      split at h
      · cases h
      · rename_i hne
        simp only [Option.some.injEq] at h
        subst h
        have hd : data ≠ [] := by rintro rfl; exact hne rfl
        obtain ⟨qs, h1, h2, h3⟩ := (quads_iff data (chunks data)).mp ⟨by omega, hd, rfl⟩
        exact ⟨qs, h1, h2, by rw [h3, List.map_map]; rfl⟩
  · rintro ⟨qs, h1, h2, rfl⟩
    obtain ⟨h3, h4, h5⟩ := (quads_iff data _).mpr ⟨qs, h1, h2, rfl⟩
    rw [if_neg (by omega)]
    simp only [← h5]
    rw [List.map_map]
    cases qs with
    | nil => exact absurd rfl h1
    | cons q qs => rfl

/-- C61: Nothing else is accepted as option 120. -/
theorem C61_other (data : Bytes) (r : List DhcpServer) (h : parseOption120 data = some r) :
    ∃ payload, data = 0 :: payload ∨ data = 1 :: payload := by
  cases data with
  | nil => cases h
  | cons e payload =>
    simp only [parseOption120] at h
    split at h
    · rename_i he
      exact ⟨payload, Or.inl (by rw [UInt8.toNat_inj.mp (show e.toNat = (0 : UInt8).toNat from he)])⟩
    · split at h
      · rename_i he
        exact ⟨payload, Or.inr (by rw [UInt8.toNat_inj.mp (show e.toNat = (1 : UInt8).toNat from he)])⟩
      · cases h

/-- C61: Option 150 likewise. -/
theorem C61_option150 (data : Bytes) (r : List Str) : parseOption150 data = some r ↔
    ∃ qs, qs ≠ [] ∧ Quads qs data ∧ r = qs.map (fun q => quad q.1 q.2.1 q.2.2.1 q.2.2.2) := by
  rw [← quads_iff]
  unfold parseOption150
  constructor
  · intro h
    split at h
    · cases h
    · rename_i h1
      split at h
      · cases h
      · split at h
        · cases h
        · simp only [Option.some.injEq] at h
          exact ⟨by omega, by simpa using h1, h.symm⟩
  · rintro ⟨h1, h2, rfl⟩
    rw [if_neg (by simpa using h2), if_neg (by omega), chunks_nonempty h1 h2]
    rfl

/-- C61: Option 66 is any text that is not empty. -/
theorem C61_option66 (s : Str) : parseOption66 (utf8 s) = if s = [] then none else some s := by
  unfold parseOption66
  cases s with
  | nil => rfl
  | cons c s =>
    have hl : (utf8 (c :: s)).length ≠ 0 := by
      rw [length_utf8]
      have := Char.utf8Size_pos c
      simp only [utf8Len, List.map_cons, List.sum_cons]
      omega
    rw [if_neg, if_neg (by simp), C61_text]
    intro h
    exact hl (by rw [List.isEmpty_iff.mp h]; rfl)

/-- The addresses of an example. -/
example : parseOption120 [1, 192, 168, 1, 1, 10, 0, 0, 1] = some [.ipv4 "192.168.1.1".toList, .ipv4 "10.0.0.1".toList] ∧
    parseOption120 [1, 192, 168, 1] = none ∧ parseOption120 [0, 64] = none ∧ parseOption120 [0, 3, 97, 98] = none ∧
    parseOption120 [0, 0] = none ∧ parseOption120 [0] = none ∧ parseOption150 [10, 0, 0, 1] = some ["10.0.0.1".toList] := by
  decide +kernel

/-! ## C95: resolving through DHCP -/

/-- What the servers announced by DHCP give: an address is a target with the default port, a name is asked from the
resolver behind (in place of the host of the URI, without port), which may fail. -/
inductive Announced (inner : Nat → SipUri → Option (List Target)) (u : SipUri) : Nat → List DhcpServer → List Target → Prop
  | nil {n} : Announced inner u n [] []
  | ipv4 {n a ss ts p o} : Spec.DefaultPort u.sips p → Spec.Insists u o → Announced inner u n ss ts →
      Announced inner u n (.ipv4 a :: ss) ({ host := a, port := p, transport := Spec.orUdp o } :: ts)
  | found {n d ss ts u' l} : u.withHost d = some u' → inner n u'.withoutPort = some l → Announced inner u (n + 1) ss ts →
      Announced inner u n (.domain d :: ss) (l ++ ts)
  | failed {n d ss ts u'} : u.withHost d = some u' → inner n u'.withoutPort = none → Announced inner u (n + 1) ss ts →
      Announced inner u n (.domain d :: ss) ts

theorem announced_iff (inner : Nat → SipUri → Option (List Target)) (u : SipUri) : ∀ (ss : List DhcpServer) (n : Nat)
    (ts : List Target), Announced inner u n ss ts ↔ dhcpTargets inner u n ss = some ts
  | [], n, ts => ⟨fun h => (by cases h; rfl), fun h => (by cases h; exact .nil)⟩
  | .ipv4 a :: ss, n, ts => by
    simp only [dhcpTargets, Option.map_eq_some_iff]
    constructor
    · intro h
      cases h with
      | ipv4 hp hi h =>
        refine ⟨_, (announced_iff inner u ss n _).mp h, ?_⟩
        rw [(defaultPort_iff _ _).mp hp, (insists_iff _ _).mp hi, defaultTransport_eq]
    · rintro ⟨l, h, rfl⟩
      rw [defaultTransport_eq]
      exact .ipv4 ((defaultPort_iff _ _).mpr rfl) ((insists_iff _ _).mpr rfl) ((announced_iff inner u ss n _).mpr h)
  | .domain d :: ss, n, ts => by
    simp only [dhcpTargets]
    constructor
    · intro h
      cases h with
      | found hw hi h => simp only [hw, hi, (announced_iff inner u ss _ _).mp h, Option.map_some]
      | failed hw hi h => simp only [hw, hi, (announced_iff inner u ss _ _).mp h]
    · intro h
      split at h
      · cases h
      · rename_i u' hw
        split at h
        · rename_i l hi
          simp only [Option.map_eq_some_iff] at h
          obtain ⟨rest, h, rfl⟩ := h
          exact .found hw hi ((announced_iff inner u ss _ _).mpr h)
        · rename_i hi
          exact .failed hw hi ((announced_iff inner u ss _ _).mpr h)

/-- C95: The resolver that asks DHCP only: the targets of the announced servers in their order, if there are any and not
more than a hundred. -/
theorem C95_dhcp (provider : Option (Option (List DhcpServer))) (inner : Nat → SipUri → Option (List Target)) (u : SipUri)
    (ts : List Target) : dhcpResolve provider inner u = some ts ↔
      ∃ ss, provider = some (some ss) ∧ Announced inner u 0 ss ts ∧ ts ≠ [] ∧ ts.length ≤ 100 := by
  simp only [announced_iff]
  unfold dhcpResolve
  constructor
  · intro h
    split at h
    · rename_i ss
      split at h
      · cases h
      · split at h
        · cases h
        · rename_i l hl
          split at h
          · cases h
          · rename_i hne
            unfold enforceLimit MAX_TARGETS_PER_QUERY at h
            split at h
            · cases h
            · simp only [Option.some.injEq] at h
              subst h
              exact ⟨ss, rfl, hl, by simpa using hne, by omega⟩
    · cases h
  · rintro ⟨ss, rfl, h, hne, hl⟩
    have hs : ss.isEmpty = false := by
      cases ss with
      | nil => simp only [dhcpTargets, Option.some.injEq] at h; exact absurd h.symm hne
      | cons _ _ => rfl
    have ht : ts.isEmpty = false := by
      cases ts with
      | nil => exact absurd rfl hne
      | cons _ _ => rfl
    simp only [hs, h, ht, Bool.false_eq_true, if_false]
    unfold enforceLimit MAX_TARGETS_PER_QUERY
    rw [if_neg (by omega)]

/-- C95: The resolver that falls back to the DNS: if announced servers give targets these are used; if there are no
announced servers, or they give nothing, the URI itself is asked from the resolver behind. -/
theorem C95_hybrid (provider : Option (Option (List DhcpServer))) (inner : Nat → SipUri → Option (List Target)) (u : SipUri)
    (ts : List Target) : hybridResolve provider inner u = some ts ↔ ts.length ≤ 100 ∧
      ((∃ ss, provider = some (some ss) ∧ Announced inner u 0 ss ts ∧ ts ≠ []) ∨
       (∃ ss, provider = some (some ss) ∧ Announced inner u 0 ss [] ∧ inner ss.length u = some ts) ∨
       ((∀ ss, provider ≠ some (some ss)) ∧ inner 0 u = some ts)) := by
  have hlim : ∀ l : List Target, enforceLimit l = some ts ↔ l = ts ∧ ts.length ≤ 100 := by
    intro l
    unfold enforceLimit MAX_TARGETS_PER_QUERY
    constructor
    · intro h
      split at h
      · cases h
      · simp only [Option.some.injEq] at h
        subst h
        exact ⟨rfl, by omega⟩
    · rintro ⟨rfl, h⟩
      rw [if_neg (by omega)]
  have hfall : ∀ n, limited (inner n u) = some ts ↔
      inner n u = some ts ∧ ts.length ≤ 100 := by
    intro n
    cases h : inner n u with
    | none => simp [limited]
    | some l => simp only [limited, hlim, Option.some.injEq]
  simp only [announced_iff]
  unfold hybridResolve
  match provider with
  | none => simp [hfall, and_comm]
  | some none => simp [hfall, and_comm]
  | some (some ss) =>
    have e1 : ∀ ss' : List DhcpServer, (some (some ss) : Option (Option (List DhcpServer))) = some (some ss') ↔ ss' = ss := by
      intro ss'; simp [eq_comm]
    simp only [e1, exists_eq_left]
    have e2 : ¬ ∀ ss' : List DhcpServer, (some (some ss) : Option (Option (List DhcpServer))) ≠ some (some ss') :=
      fun h => h ss rfl
    simp only [e2, false_and, or_false]
    cases ss with
    | nil =>
      simp only [List.isEmpty_nil, if_true, hfall, dhcpTargets, Option.some.injEq, List.length_nil, true_and]
      constructor
      · rintro ⟨h1, h2⟩; exact ⟨h2, Or.inr h1⟩
      · rintro ⟨h2, ⟨h3, h4⟩ | h1⟩
        · exact absurd h3.symm h4
        · exact ⟨h1, h2⟩
    | cons s ss =>
      simp only [List.isEmpty_cons, Bool.false_eq_true, if_false]
      cases hd : dhcpTargets inner u 0 (s :: ss) with
      | none => simp
      | some l =>
        simp only [Option.some.injEq]
        cases l with
        | nil =>
          simp only [List.isEmpty_nil, if_true, hfall, true_and]
          constructor
          · rintro ⟨h1, h2⟩; exact ⟨h2, Or.inr h1⟩
          · rintro ⟨h2, ⟨h3, h4⟩ | h1⟩
            · exact absurd h3.symm h4
            · exact ⟨h1, h2⟩
        | cons x l =>
          simp only [List.isEmpty_cons, Bool.false_eq_true, if_false, hlim, reduceCtorEq, false_and, or_false]
          constructor
          · rintro ⟨rfl, h⟩; exact ⟨h, rfl, by simp⟩
          · rintro ⟨h, rfl, _⟩; exact ⟨rfl, h⟩

/-- C95: A single announced name that is not a valid host, of whatever kind, makes every request fail, even though the DNS
would answer and even though other servers were announced. -/
theorem C95_bad_name : ∃ (u : SipUri) (ts : List Target) (inner : Nat → SipUri → Option (List Target)) (bytes : Bytes)
    (ss : List DhcpServer), parseOption120 bytes = some ss ∧ (∃ a, ss.head? = some (.domain a) ∧ inner 0 { u with host := a } = some ts) ∧
      (∀ n, inner n u = some ts) ∧ ts ≠ [] ∧ hybridResolve (some (some ss)) inner u = none :=
  ⟨uriFor false "example.com".toList none, [⟨"192.0.2.1".toList, 5060, .udp, 0, none⟩],
    fun _ _ => some [⟨"192.0.2.1".toList, 5060, .udp, 0, none⟩],
    0 :: encodeNames [["sip".toList], ["my host".toList]], [.domain "sip".toList, .domain "my host".toList],
    by decide +kernel, ⟨"sip".toList, rfl, rfl⟩, fun _ => rfl, by simp, by decide +kernel⟩

/-- Both resolvers at work: the announced name fails, then the DNS is asked. -/
example : dhcpResolve (some (some [.ipv4 "10.0.0.1".toList])) (fun _ _ => none) (uriFor true "example.com".toList none) =
      some [⟨"10.0.0.1".toList, 5061, .tls, 0, none⟩] ∧
    hybridResolve (some (some [.domain "sip.lan".toList]))
      (fun _ u => if u.host = "example.com".toList then some [⟨"192.0.2.1".toList, 5060, .udp, 0, none⟩] else none)
      (uriFor false "example.com".toList none) = some [⟨"192.0.2.1".toList, 5060, .udp, 0, none⟩] := by decide +kernel

end Siphon.Dns
