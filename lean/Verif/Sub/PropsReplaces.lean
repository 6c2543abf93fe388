import Verif.Sub.ReferProps
set_option linter.unusedSimpArgs false
/-!
# C107: attended transfers
-/
namespace Siphon.Sub
open Spec TextSpec HdrSpec Dlg.Spec
open Dlg (selects_iff)

/-! ## Percent decoding -/

theorem hex_iff (b : UInt8) (x : Nat) : Hex b x ↔ hexByte b = some x := by
  unfold hexByte
  simp only
  constructor
  · intro h
    cases h with
    | digit h1 h2 h3 => rw [if_pos ⟨h1, h2⟩, h3]
    | small h1 h2 h3 => rw [if_neg (by omega), if_pos ⟨h1, h2⟩, h3]; congr 1; omega
    | capital h1 h2 h3 => rw [if_neg (by omega), if_neg (by omega), if_pos ⟨h1, h2⟩, h3]; congr 1; omega
  · intro h
    split at h
    · rename_i hc; cases h; exact .digit hc.1 hc.2 rfl
    · split at h
      · rename_i hc; cases h; exact .small hc.1 hc.2 (by omega)
      · split at h
        · rename_i hc; cases h; exact .capital hc.1 hc.2 (by omega)
        · cases h

theorem byte37 (a : UInt8) : a.toNat = 37 ↔ a = 37 := by
  constructor
  · intro h; exact UInt8.toNat_inj.1 h
  · rintro rfl; rfl

theorem twoHex_cons (b c : UInt8) (t : Bytes) : TwoHex (b :: c :: t) ↔ ∃ x y, hexByte b = some x ∧ hexByte c = some y := by
  unfold TwoHex
  constructor
  · rintro ⟨b', c', t', x, y, e, h1, h2⟩
    cases e
    exact ⟨x, y, (hex_iff _ _).1 h1, (hex_iff _ _).1 h2⟩
  · rintro ⟨x, y, h1, h2⟩
    exact ⟨b, c, t, x, y, rfl, (hex_iff _ _).2 h1, (hex_iff _ _).2 h2⟩

theorem unescapes_go : ∀ (f : Nat) (bs : Bytes), bs.length ≤ f → Unescapes bs (percentGo f bs)
  | 0, [], _ => .nil
  | 0, _ :: _, h => by simp at h
  | _ + 1, [], _ => .nil
  | f + 1, a :: t, h => by
    have ht : t.length ≤ f := by simpa using h
    simp only [percentGo]
    by_cases ha : a.toNat = 37
    · rw [if_pos ha]
      rw [byte37] at ha
      subst ha
      match t with
      | [] => exact .stray (by rintro ⟨_, _, _, _, _, e, _⟩; cases e) (unescapes_go f [] ht)
      | [b] => exact .stray (by rintro ⟨_, _, _, _, _, e, _⟩; cases e) (unescapes_go f [b] ht)
      | b :: c :: t' =>
        simp only
        split
        · rename_i x y hx hy
          exact .escape ((hex_iff _ _).2 hx) ((hex_iff _ _).2 hy) (unescapes_go f t' (by simp at ht; omega))
        · rename_i hn
          refine .stray ?_ (unescapes_go f _ ht)
          rw [twoHex_cons]
          rintro ⟨x, y, hx, hy⟩
          exact hn x y hx hy
    · rw [if_neg ha]
      exact .plain (by rwa [Ne, ← byte37]) (unescapes_go f t ht)

theorem unescapes_unique {bs u : Bytes} (h : Unescapes bs u) : ∀ {w : Bytes}, Unescapes bs w → u = w := by
  induction h with
  | nil => intro w h; cases h; rfl
  | escape h1 h2 _ ih =>
    intro w h
    cases h with
    | escape k1 k2 k3 =>
      rw [hex_iff] at h1 h2 k1 k2
      rw [h1] at k1
      rw [h2] at k2
      cases k1
      cases k2
      rw [ih k3]
    | stray k _ => exact absurd ⟨_, _, _, _, _, rfl, h1, h2⟩ k
    | plain k => exact absurd rfl k
  | stray h1 _ ih =>
    intro w h
    cases h with
    | escape k1 k2 _ => exact absurd ⟨_, _, _, _, _, rfl, k1, k2⟩ h1
    | stray _ k => rw [ih k]
    | plain k => exact absurd rfl k
  | plain h1 _ ih =>
    intro w h
    cases h with
    | escape => exact absurd rfl h1
    | stray => exact absurd rfl h1
    | plain _ k => rw [ih k]

theorem decodes_iff (raw d : Str) : Decodes raw d ↔ percentDecodeLossy raw = d := by
  unfold Decodes percentDecodeLossy
  have h := unescapes_go (utf8 raw).length (utf8 raw) (Nat.le_refl _)
  constructor
  · rintro ⟨bs, h1, h2⟩
    rw [← h2, unescapes_unique h1 h]
  · intro e
    exact ⟨_, h, e⟩

/-! ## Texts in texts -/

theorem hasText_iff (p : Str) : ∀ s, hasText p s = true ↔ ∃ a b, s = a ++ p ++ b
  | [] => by
    unfold hasText
    constructor
    · intro h
      exact ⟨[], [], by simp [List.isEmpty_iff.1 h]⟩
    · rintro ⟨a, b, h⟩
      have := congrArg List.length h
      simp only [List.length_nil, List.length_append] at this
      have hp : p = [] := List.eq_nil_of_length_eq_zero (by omega)
      simp [hp]
  | c :: s => by
    unfold hasText
    rw [Bool.or_eq_true, hasText_iff p s, List.isPrefixOf_iff_prefix]
    constructor
    · rintro (⟨t, h⟩ | ⟨a, b, h⟩)
      · exact ⟨[], t, by simp [h]⟩
      · exact ⟨c :: a, b, by simp [h]⟩
    · rintro ⟨a, b, h⟩
      cases a with
      | nil => exact .inl ⟨b, by simpa using h.symm⟩
      | cons x a =>
        simp only [List.cons_append, List.cons.injEq] at h
        exact .inr ⟨a, b, h.2⟩

theorem lower_append (a b : Str) : lower (a ++ b) = lower a ++ lower b := by simp [lower]

theorem mentions_iff (p d : Str) (hp : lower p = p) : Mentions p d ↔ hasText p (lower d) = true := by
  rw [hasText_iff]
  unfold Mentions
  constructor
  · rintro ⟨a, x, b, rfl, h⟩
    refine ⟨lower a, lower b, ?_⟩
    rw [sameName_iff] at h
    simp only [eqIgnoreCase, beq_iff_eq, hp] at h
    rw [lower_append, lower_append, h]
  · rintro ⟨a, b, h⟩
    unfold lower at h
    rw [List.append_assoc, List.map_eq_append_iff] at h
    obtain ⟨d1, d2, e, h1, h2⟩ := h
    rw [List.map_eq_append_iff] at h2
    obtain ⟨d3, d4, e2, h3, h4⟩ := h2
    refine ⟨d1, d3, d4, by rw [e, e2]; simp, ?_⟩
    rw [sameName_iff]
    simp only [eqIgnoreCase, beq_iff_eq, hp]
    exact h3

/-! ## The Replaces of a Refer-To -/

theorem carries_iff (ps : List Str) (d : Str) : Carries ps d ↔ replacesIn ps = some d := by
  have ht : lower "to-tag=".toList = "to-tag=".toList := by decide
  have hf : lower "from-tag=".toList = "from-tag=".toList := by decide
  constructor
  · intro h
    induction h with
    | @here n raw ps d h1 h2 h3 h4 h5 =>
      rw [sameName_iff] at h2
      rw [decodes_iff] at h3
      rw [mentions_iff _ _ ht] at h4
      rw [mentions_iff _ _ hf] at h5
      simp only [replacesIn]
      rw [splitOnce_append _ _ _ h1]
      simp only [h2, h3, h4, h5, Bool.not_true, Bool.false_eq_true, if_false, Bool.or_self]
    | @later n x ps d h1 h2 _ ih =>
      rw [sameName_iff] at h2
      have h2 : eqIgnoreCase n "Replaces".toList = false := by simpa using h2
      simp only [replacesIn]
      rw [splitOnce_append _ _ _ h1]
      simp only [h2, Bool.not_false, if_true]
      exact ih
  · intro h
    induction ps with
    | nil => cases h
    | cons p ps ih =>
      simp only [replacesIn] at h
      split at h
      · cases h
      · rename_i n raw hs
        obtain ⟨e, hn⟩ := (Auth.splitOnce_some_iff _ _ _ _).1 hs
        subst e
        split at h
        · rename_i he
          refine .later hn ?_ (ih h)
          rw [sameName_iff]
          simpa using he
        · rename_i he
          split at h
          · cases h
          · rename_i ht'
            simp only [Option.some.injEq] at h
            simp only [Bool.or_eq_true, Bool.not_eq_true', not_or, Bool.not_eq_false] at ht'
            rw [h] at ht'
            refine .here hn ((sameName_iff _ _).2 (by simpa using he)) ((decodes_iff _ _).2 h) ((mentions_iff _ _ ht).2 ht'.1) ((mentions_iff _ _ hf).2 ht'.2)

theorem stripAngle_iff (q q' : Str) : (q = q' ++ ['>'] ∨ q = q' ∧ ∀ x, q ≠ x ++ ['>']) ↔ stripAngle q = q' := by
  unfold stripAngle
  have key : q.getLast? = some '>' ↔ ∃ x, q = x ++ ['>'] := by
    rw [List.getLast?_eq_some_iff]
  constructor
  · rintro (rfl | ⟨rfl, h⟩)
    · rw [if_pos (key.2 ⟨q', rfl⟩)]
      simp
    · rw [if_neg (fun hl => by obtain ⟨x, e⟩ := key.1 hl; exact h x e)]
  · intro h
    split at h
    · rename_i hl
      obtain ⟨x, rfl⟩ := key.1 hl
      simp at h
      exact .inl (by rw [h])
    · rename_i hl
      exact .inr ⟨h, fun x e => hl (key.2 ⟨x, e⟩)⟩

theorem replaces_iff (v d : Str) : ReplacesOf v d ↔ extractReplaces v = some d := by
  unfold ReplacesOf extractReplaces
  constructor
  · rintro ⟨a, q, q', ps, rfl, h1, h2, h3, h4⟩
    rw [splitOnce_append _ _ _ h1]
    simp only
    rw [(stripAngle_iff _ _).1 h2, ← (pieces_iff _ _ _).1 h3]
    exact (carries_iff _ _).1 h4
  · intro h
    split at h
    · cases h
    · rename_i a q hs
      obtain ⟨e, ha⟩ := (Auth.splitOnce_some_iff _ _ _ _).1 hs
      exact ⟨a, q, _, _, e, ha, (stripAngle_iff _ _).2 rfl, (pieces_iff _ _ _).2 rfl, (carries_iff _ _).2 h⟩

theorem headerText_iff (d : Str) : HeaderText d ↔ validateHeaderValue d = .ok () := by
  unfold HeaderText validateHeaderValue
  rw [length_utf8]
  constructor
  · rintro ⟨h1, h2, h3, h4⟩
    rw [if_neg (by unfold MAX_HEADER_VALUE_LENGTH; omega), if_neg (by simp [h2, h3]), if_neg (by simpa using h4)]
  · intro h
    split at h
    · cases h
    · rename_i h1
      split at h
      · cases h
      · rename_i h2
        split at h
        · cases h
        · rename_i h3
          simp only [Bool.or_eq_true, List.contains_iff_mem, not_or] at h2
          exact ⟨by unfold MAX_HEADER_VALUE_LENGTH at h1; omega, h2.1, h2.2, by simpa using h3⟩

theorem pushReplaces (hs : Headers) (d : Str) (hl : hs.inner.length < 200) :
    pushQuiet hs "Replaces" d = if validateHeaderValue d = .ok () then ⟨hs.inner ++ [⟨"Replaces".toList, d⟩]⟩ else hs := by
  unfold pushQuiet Headers.push
  rw [if_neg (by unfold MAX_HEADERS; omega)]
  unfold Header.new
  rw [show validateHeaderName "Replaces".toList = .ok () from by decide]
  simp only
  cases validateHeaderValue d with
  | error e => simp
  | ok u => cases u; simp

theorem withVia_getAll (tr : String) (br : Str) (hs : Headers) (h : Header) (t : List Header) (e : hs.inner = h :: t) (n : Str)
    (hn : eqIgnoreCase h.name n = false) : (withVia tr br hs).getAll n = hs.getAll n := by
  unfold withVia
  cases hs with
  | mk inner =>
    simp only at e
    subst e
    simp only
    obtain ⟨hname, hval⟩ := h
    simp only at hn ⊢
    rw [Uas.getAll_cons, Uas.getAll_cons, hn]
    simp

/-- C107: the INVITE of a transfer has the Replaces header the Refer-To asks for and no other. -/
theorem C107_invite (cfg : RCfg) (ds : Dlg.Mgr) (m m' : SubMgr) (rq : Request) (rnd : Rand) (r : Response) (t : Told) (inv : Request)
    (a : Addr) (p : Nat) (tr : String) (h : handleRefer cfg ds m rq rnd = .done (.accepted r (.calling t inv a p tr), m'))
    (v : Str) (hv : First rq.headers "Refer-To" v) :
    (∀ d, ReplacesOf v d → HeaderText d → Selects "Replaces".toList inv.headers.inner [d]) ∧
    ((∀ d, ReplacesOf v d → ¬ HeaderText d) → Selects "Replaces".toList inv.headers.inner []) := by
  obtain ⟨v', d, hv', _, _, _, _, h⟩ := refer_accepted h
  obtain rfl := Dlg.first_unique hv hv'
  rcases h with ⟨_, h, _⟩ | ⟨s, t', _, _, _, h⟩
  · cases h
  · obtain ⟨u, x, y, z, w, _, _, _, _, _, _, _, _, o, i, h7, _, h8⟩ := transfer_calling h
    obtain ⟨_, _, hi⟩ := invite_inner h7
    subst h8
    simp only
    have hnone : i.headers.getAll "Replaces".toList = [] := by
      have e : i.headers = ⟨(inviteHead cfg rnd u.withoutUriHeaders o).map (fun p => ⟨p.1.toList, p.2⟩)⟩ := by rw [← hi]
      rw [e, getAll_pick]
      cases o <;> (unfold inviteHead Dlg.sdpHeaders; simp only [List.cons_append, List.nil_append]; picks)
    have hlen : i.headers.inner.length < 200 := by
      rw [hi]
      cases o <;> (simp [inviteHead, Dlg.sdpHeaders])
    have hvia : ∃ b tl, i.headers.inner = ⟨"Via".toList, b⟩ :: tl := by
      rw [hi]
      exact ⟨_, _, rfl⟩
    obtain ⟨b, tl, hvia⟩ := hvia
    have hn : eqIgnoreCase "Via".toList "Replaces".toList = false := by decide
    have base : ∀ hs : Headers, (∃ tl', hs.inner = ⟨"Via".toList, b⟩ :: tl') → (withVia tr rnd.invite hs).getAll "Replaces".toList =
        hs.getAll "Replaces".toList := by
      rintro hs ⟨tl', e⟩
      exact withVia_getAll _ _ _ _ _ e _ hn
    unfold replacing
    constructor
    · intro d hd ht
      rw [(replaces_iff _ _).1 hd]
      simp only
      rw [selects_iff, pushReplaces _ _ hlen, if_pos ((headerText_iff _).1 ht), base _ ⟨tl ++ [⟨"Replaces".toList, d⟩], by simp [hvia]⟩]
      have : Headers.getAll ⟨i.headers.inner ++ [⟨"Replaces".toList, d⟩]⟩ "Replaces".toList =
          i.headers.getAll "Replaces".toList ++ [d] := by
        unfold Headers.getAll
        rw [List.filter_append, List.map_append]
        rfl
      rw [this, hnone]
      rfl
    · intro hd
      rw [selects_iff]
      cases he : extractReplaces v with
      | none =>
        simp only
        rw [base _ ⟨tl, hvia⟩, hnone]
      | some d =>
        simp only
        have := hd d ((replaces_iff _ _).2 he)
        rw [headerText_iff] at this
        rw [pushReplaces _ _ hlen, if_neg this, base _ ⟨tl, hvia⟩, hnone]

/-! ## The round trip -/

/-- the text for one byte -/
def encodeByte (b : UInt8) : Str :=
  if b.toNat < 128 && (isAlnum (Char.ofNat b.toNat) || Char.ofNat b.toNat == '-' || Char.ofNat b.toNat == '_' || Char.ofNat b.toNat == '.' ||
    Char.ofNat b.toNat == '~') then [Char.ofNat b.toNat]
  else ['%', hexUpper (b.toNat / 16), hexUpper (b.toNat % 16)]

theorem urlEncode_eq (s : Str) : urlEncode s = (utf8 s).flatMap encodeByte := rfl

/-- every byte is written as itself or as an escape for it -/
theorem encodeByte_shape : ∀ n : Fin 256,
    (utf8 (encodeByte (UInt8.ofNat n)) = [UInt8.ofNat n] ∧ UInt8.ofNat n ≠ 37) ∨
    (∃ b ∈ utf8 (encodeByte (UInt8.ofNat n)), ∃ c ∈ utf8 (encodeByte (UInt8.ofNat n)),
      utf8 (encodeByte (UInt8.ofNat n)) = [37, b, c] ∧ hexByte b = some (n.val / 16) ∧ hexByte c = some (n.val % 16)) := by decide +kernel

theorem encodeByte_chars : ∀ n : Fin 256, ∀ c ∈ encodeByte (UInt8.ofNat n), c ≠ '&' ∧ c ≠ '>' ∧ c ≠ '?' ∧ c ≠ '<' := by decide +kernel

theorem byte_fin (b : UInt8) : ∃ n : Fin 256, b = UInt8.ofNat n ∧ b.toNat = n.val :=
  ⟨⟨b.toNat, b.toNat_lt⟩, by simp, rfl⟩

theorem unescapes_byte (b : UInt8) (t u : Bytes) (h : Unescapes t u) : Unescapes (utf8 (encodeByte b) ++ t) (b :: u) := by
  obtain ⟨n, e, e'⟩ := byte_fin b
  rw [e]
  rcases encodeByte_shape n with ⟨h1, h2⟩ | ⟨x, _, y, _, h1, h2, h3⟩
  · rw [h1]
    exact .plain h2 h
  · rw [h1]
    have := Unescapes.escape ((hex_iff _ _).2 h2) ((hex_iff _ _).2 h3) h
    rw [show n.val / 16 * 16 + n.val % 16 = n.val by omega] at this
    exact this

theorem unescapes_bytes : ∀ (bs t u : Bytes), Unescapes t u → Unescapes (utf8 (bs.flatMap encodeByte) ++ t) (bs ++ u)
  | [], t, u, h => by simpa [utf8] using h
  | b :: bs, t, u, h => by
    rw [List.flatMap_cons, utf8_append, List.append_assoc]
    exact unescapes_byte b _ _ (unescapes_bytes bs t u h)

theorem unescapes_plain : ∀ (bs t u : Bytes), (∀ b ∈ bs, b ≠ 37) → Unescapes t u → Unescapes (bs ++ t) (bs ++ u)
  | [], t, u, _, h => h
  | b :: bs, t, u, hb, h => .plain (hb b (by simp)) (unescapes_plain bs t u (fun x hx => hb x (by simp [hx])) h)

theorem encode_chars (s : Str) : ∀ c ∈ urlEncode s, c ≠ '&' ∧ c ≠ '>' ∧ c ≠ '?' ∧ c ≠ '<' := by
  intro c hc
  rw [urlEncode_eq, List.mem_flatMap] at hc
  obtain ⟨b, _, hc⟩ := hc
  obtain ⟨n, e, _⟩ := byte_fin b
  rw [e] at hc
  exact encodeByte_chars n c hc

/-- the part after `Replaces=` -/
def encoded (d : Dlg.DialogId) : Str :=
  urlEncode d.callId ++ ";to-tag=".toList ++ urlEncode d.remoteTag ++ ";from-tag=".toList ++ urlEncode d.localTag

theorem encoded_decodes (d : Dlg.DialogId) : Decodes (encoded d) (Replacing d) := by
  refine ⟨utf8 (Replacing d), ?_, Dns.C61_text _⟩
  unfold encoded Replacing
  simp only [urlEncode_eq, utf8_append, List.append_assoc]
  apply unescapes_bytes
  apply unescapes_plain _ _ _ (by decide)
  apply unescapes_bytes
  apply unescapes_plain _ _ _ (by decide)
  have := unescapes_bytes (utf8 d.localTag) [] [] .nil
  simpa using this

theorem encoded_chars (d : Dlg.DialogId) : ∀ c ∈ encoded d, c ≠ '&' := by
  intro c hc
  unfold encoded at hc
  simp only [List.mem_append] at hc
  rcases hc with (((hc | hc) | hc) | hc) | hc
  · exact (encode_chars _ c hc).1
  · exact fun e => absurd (e ▸ hc) (by decide)
  · exact (encode_chars _ c hc).1
  · exact fun e => absurd (e ▸ hc) (by decide)
  · exact (encode_chars _ c hc).1

/-- **C107 (partial).** The Refer-To value written for an attended transfer asks for the Replaces of the dialog to be replaced,
whatever characters are in its Call-ID and tags.  Missing: a target URI with headers of its own (`C107_two_marks`). -/
theorem C107_round_trip_partial (target : SipUri) (d : Dlg.DialogId) (ht : '?' ∉ target.raw) :
    ReplacesOf (referToReplacing target d) (Replacing d) := by
  have e : referToReplacing target d = ('<' :: target.raw) ++ '?' :: ("Replaces=".toList ++ encoded d ++ ['>']) := by
    unfold referToReplacing
    rw [show "?Replaces=".toList = '?' :: "Replaces=".toList from rfl]
    simp [encoded]
  refine ⟨_, _, "Replaces=".toList ++ encoded d, ["Replaces=".toList ++ encoded d], e, ?_, .inl rfl, ?_, ?_⟩
  · intro hm
    rcases List.mem_cons.1 hm with h | h
    · cases h
    · exact ht h
  · rw [pieces_iff, splitChar_of_not_mem]
    intro hm
    rcases List.mem_append.1 hm with h | h
    · exact absurd h (by decide)
    · exact encoded_chars d _ h rfl
  · have : "Replaces=".toList ++ encoded d = "Replaces".toList ++ '=' :: encoded d := rfl
    rw [this]
    refine .here (by decide) ((sameName_iff _ _).2 (by decide)) (encoded_decodes d) ?_ ?_
    · refine ⟨d.callId ++ [';'], "to-tag=".toList, d.remoteTag ++ ";from-tag=".toList ++ d.localTag, ?_, (sameName_iff _ _).2 (by decide)⟩
      unfold Replacing
      rw [show ";to-tag=".toList = ';' :: "to-tag=".toList from rfl]
      simp
    · refine ⟨d.callId ++ ";to-tag=".toList ++ d.remoteTag ++ [';'], "from-tag=".toList, d.localTag, ?_, (sameName_iff _ _).2 (by decide)⟩
      unfold Replacing
      rw [show ";from-tag=".toList = ';' :: "from-tag=".toList from rfl]
      simp

/-- **C107 (partial).** From end to end: a REFER with that value makes the daemon send an INVITE with exactly the Replaces header
for that dialog. -/
theorem C107_attended_partial (cfg : RCfg) (ds : Dlg.Mgr) (m m' : SubMgr) (rq : Request) (rnd : Rand) (r : Response) (t : Told)
    (inv : Request) (a : Addr) (p : Nat) (tr : String)
    (h : handleRefer cfg ds m rq rnd = .done (.accepted r (.calling t inv a p tr), m')) (target : SipUri) (d : Dlg.DialogId)
    (hv : First rq.headers "Refer-To" (referToReplacing target d)) (ht : '?' ∉ target.raw) (hd : HeaderText (Replacing d)) :
    Selects "Replaces".toList inv.headers.inner [Replacing d] :=
  (C107_invite _ _ _ _ _ _ _ _ _ _ _ _ h _ hv).1 _ (C107_round_trip_partial target d ht) hd

/-! ## Examples, and what fails -/

/-- the Replaces values of the INVITE for a Refer-To value -/
def replacesEx (to : String) : Option (List Str) :=
  match handleRefer (cfgEx false) (.run dialogsEx) [] (referEx to) rndEx with
  | .done (.accepted _ (.calling _ inv _ _ _), _) => some (inv.headers.getAll "Replaces".toList)
  | _ => none

def carolUri : SipUri := ⟨"sip:carol@8.8.4.4".toList, false, some "carol".toList, "8.8.4.4".toList, none, [], []⟩

example : replacesEx "<sip:carol@8.8.4.4?Replaces=c9%40h%3Bto-tag%3Dab%3Bfrom-tag%3Dcd>" = some ["c9@h;to-tag=ab;from-tag=cd".toList] := by
  decide +kernel
example : replacesEx (String.ofList (referToReplacing carolUri ⟨"c9@h".toList, "cd".toList, "ab".toList⟩)) =
    some ["c9@h;to-tag=ab;from-tag=cd".toList] := by decide +kernel
/-- both tags are needed -/
example : replacesEx "<sip:carol@8.8.4.4?Replaces=c9%3Bto-tag%3Dab>" = some [] := by decide +kernel

/-- C107, the code against RFC 3515: when the target URI has headers of its own, the value written has two question marks and the
Replaces is lost. -/
theorem C107_two_marks : let u : SipUri := ⟨"sip:carol@8.8.4.4?Subject=x".toList, false, some "carol".toList, "8.8.4.4".toList, none, [],
      [("subject".toList, "x".toList)]⟩
    SipUri.parse u.raw = some u ∧ ∀ d, extractReplaces (referToReplacing u d) = none := by
  refine ⟨by decide +kernel, ?_⟩
  intro d
  unfold extractReplaces
  have e : referToReplacing ⟨"sip:carol@8.8.4.4?Subject=x".toList, false, some "carol".toList, "8.8.4.4".toList, none, [],
      [("subject".toList, "x".toList)]⟩ d =
      "<sip:carol@8.8.4.4".toList ++ '?' :: ("Subject=x?Replaces=".toList ++ encoded d ++ ['>']) := by
    unfold referToReplacing encoded
    simp
  rw [e, splitOnce_append _ _ _ (by decide)]
  simp only
  rw [(stripAngle_iff _ ("Subject=x?Replaces=".toList ++ encoded d)).1 (.inl rfl), splitChar_of_not_mem]
  · simp only [replacesIn]
    rw [show "Subject=x?Replaces=".toList ++ encoded d = "Subject".toList ++ '=' :: ("x?Replaces=".toList ++ encoded d) from rfl,
      splitOnce_append _ _ _ (by decide)]
    simp only
    rw [show eqIgnoreCase "Subject".toList "Replaces".toList = false from by decide]
    rfl
  · intro hm
    rcases List.mem_append.1 hm with h | h
    · exact absurd h (by decide)
    · exact encoded_chars d _ h rfl

/-- C107, the code against RFC 3261: header parameters after the closing bracket end up in the Replaces value, a pair without an
equals sign before it makes the transfer a blind one, and so does an escaped line break. -/
theorem C107_misread :
    replacesEx "<sip:carol@8.8.4.4?Replaces=c9;to-tag=ab;from-tag=cd>;x=y" = some ["c9;to-tag=ab;from-tag=cd>;x=y".toList] ∧
    replacesEx "<sip:carol@8.8.4.4?x&Replaces=c9;to-tag=ab;from-tag=cd>" = some [] ∧
    replacesEx "<sip:carol@8.8.4.4?Replaces=c9%0D%0A;to-tag=ab;from-tag=cd>" = some [] := by decide +kernel

end Siphon.Sub
