import Verif.Reason.Props
import Verif.Base.Num
import Verif.Core.RSeq
import Verif.Dialog.UacProps
set_option linter.unusedSimpArgs false
set_option linter.unusedVariables false
/-!
# C138: the Reason header made by a program, its text, and the text read back
-/
namespace Siphon.Reason
open TextSpec HdrSpec Spec

theorem newParams_iff (l : List (Str × Option Str)) (m m' : BMap (Option Str)) :
    newParams l m = some m' ↔ (∀ x ∈ l, Plain 64 (lower x.1) ∧ ∀ t, x.2 = some t → GoodValue t) ∧
      addAll (l.map (fun x => (lower x.1, x.2))) m = some m' := by
  induction l generalizing m with
  | nil => simp [newParams, addAll]
  | cons e t ih =>
    obtain ⟨n, v⟩ := e
    have hv : v.all validValue = true ↔ ∀ t, v = some t → GoodValue t := by
      cases v with
      | none => simp
      | some t => simp [validValue_iff]
    rw [newParams]
    simp only [List.map_cons, addAll, List.forall_mem_cons]
    rw [← validName_iff, ← hv]
    cases validName (lower n) <;> cases v.all validValue <;> cases m.has (lower n) <;> simp [ih]

/-- **C138.** A header made from a protocol and parameters has them, or is refused: names that differ only in case are the same
name. -/
theorem C138_new (p : Str) (params : List (Str × Option Str)) (h : Header) :
    Header.new p params = some h ↔ Plain 32 p ∧ Canonical p h.protocol ∧ params.length ≤ 20 ∧
      (∀ x ∈ params, Plain 64 (lower x.1) ∧ ∀ t, x.2 = some t → GoodValue t) ∧
      TableOf (params.map (fun x => (lower x.1, x.2))) h.params := by
  unfold Header.new
  rw [← validProtocol_iff, canonical_iff, ← addAll_table]
  have h20 : MAX_PARAMS = 20 := rfl
  cases hv : validProtocol p with
  | false => simp
  | true =>
    by_cases hl : params.length > MAX_PARAMS
    · simp only [Bool.not_true, Bool.false_eq_true, if_false, if_pos hl]
      exact ⟨nofun, fun ⟨_, _, h, _⟩ => by omega⟩
    · simp only [Bool.not_true, Bool.false_eq_true, if_false, if_neg hl, Option.map_eq_some_iff, newParams_iff, true_and]
      constructor
      · rintro ⟨m, ⟨h1, h2⟩, rfl⟩; exact ⟨rfl, by omega, h1, h2⟩
      · rintro ⟨h1, _, h2, h3⟩; exact ⟨_, ⟨h2, h3⟩, by rw [h1]⟩

theorem strips_self (s : Str) : Strips isWs s s ↔ Trimmed s := by
  constructor
  · rintro ⟨_, _, _, _, _, h⟩; exact h
  · intro h; exact ⟨[], [], by simp, by simp, by simp, h⟩

/-- What follows the semicolon. -/
def body (x : Str × Option Str) : Str := (paramText x).drop 1

theorem paramText_eq (x : Str × Option Str) : paramText x = ';' :: body x := by
  unfold body paramText
  split
  · split <;> rfl
  · rfl

theorem show_eq (p : Str) (l : List (Str × Option Str)) : p ++ (l.map paramText).flatten = join ';' (p :: l.map body) := by
  induction l generalizing p with
  | nil => simp [join]
  | cons x l ih =>
    rw [List.map_cons, List.flatten_cons, paramText_eq, List.map_cons, join, ← ih (body x)]
    simp
    intro e
    simp at e

theorem unescapes_self (t : Str) (h1 : '\\' ∉ t) (h2 : ∀ c ∈ t, isAsciiControl c = false) : Unescapes t t := by
  induction t with
  | nil => exact .nil
  | cons c t ih =>
    simp only [List.mem_cons, not_or] at h1
    exact .plain (fun e => h1.1 e.symm) (h2 c (by simp)) (ih h1.2 (fun d hd => h2 d (by simp [hd])))

theorem inQuotes_iff (k v : Str) : (k = "text".toList ∨ v.any (fun c => isWs c || c == ';') = true) ↔ InQuotes k v := by
  unfold InQuotes
  simp only [List.any_eq_true, Bool.or_eq_true, beq_iff_eq]

theorem trimmed_pair (k w : Str) (hk : k ≠ []) (h1 : Trimmed k) (h2 : ∀ c, w.getLast? = some c → isWs c = false) :
    Trimmed (k ++ '=' :: w) := by
  constructor
  · intro c hc
    cases k with
    | nil => exact absurd rfl hk
    | cons a k => exact h1.1 c hc
  · intro c hc
    rw [List.getLast?_append] at hc
    cases hw : w.getLast? with
    | none =>
      rw [List.getLast?_eq_none_iff] at hw
      subst hw
      cases hc
      decide
    | some d =>
      rw [List.getLast?_cons, hw] at hc
      cases hc
      exact h2 d hw

theorem body_item (k : Str) (v : Option Str) (h : Safe k v) :
    ';' ∉ body (k, v) ∧ Strips isWs (body (k, v)) (body (k, v)) ∧ body (k, v) ≠ [] ∧ Item (body (k, v)) (k, v) := by
  obtain ⟨hp, hlow, hsemi, heq, hstrip, hval⟩ := h
  have hne := hp.1
  have htr := (strips_self k).1 hstrip
  have hp' : Plain 64 (lower k) := by rw [hlow]; exact hp
  cases v with
  | none =>
    have e : body (k, none) = k := rfl
    rw [e]
    refine ⟨hsemi, hstrip, hne, ?_⟩
    have := Item.flag heq hp'
    rwa [hlow] at this
  | some t =>
    obtain ⟨hg, hs, hq, hnq⟩ := hval t rfl
    by_cases iq : InQuotes k t
    · have e : body (k, some t) = k ++ '=' :: ('"' :: t ++ ['"']) := by
        unfold body paramText
        simp only
        rw [if_pos ((inQuotes_iff k t).2 iq)]
        simp
      rw [e]
      have tr : Trimmed ('"' :: t ++ ['"']) := by
        constructor
        · intro c hc; cases hc; decide
        · intro c hc; rw [List.getLast?_append] at hc; cases hc; decide
      refine ⟨by simp [hsemi, hs], (strips_self _).2 (trimmed_pair k _ hne htr tr.2), by simp, ?_⟩
      have := Item.value heq hstrip ((strips_self _).2 tr) (.quoted (unescapes_self t (hq iq) hg.2)) hp' hg
      rwa [hlow] at this
    · have e : body (k, some t) = k ++ '=' :: t := by
        unfold body paramText
        simp only
        rw [if_neg (fun h => iq ((inQuotes_iff k t).1 h))]
        simp
      rw [e]
      have tr : Trimmed t := trimmed_of_all t (fun c hc => by
        cases hw : isWs c with
        | false => rfl
        | true => exact absurd (.inr ⟨c, hc, .inl hw⟩) iq)
      refine ⟨by simp [hsemi, hs], (strips_self _).2 (trimmed_pair k _ hne htr tr.2), by simp, ?_⟩
      have := Item.value heq hstrip ((strips_self _).2 tr) (.plain (hnq iq)) hp' hg
      rwa [hlow] at this

/-- **C138 (partial).** A header whose parameters are safe is read back from its text.  Missing: texts with semicolons, backslashes, and
unquoted values that look quoted do not survive (`C138_semicolon`, `C138_backslash`, `C138_quotes`). -/
theorem C138_roundtrip_partial (h : Header) (hp : Plain 32 h.protocol) (hs : ';' ∉ h.protocol)
    (hstrip : Strips isWs h.protocol h.protocol) (hc : Canonical h.protocol h.protocol) (hn : h.params.length ≤ 20)
    (hord : h.params.Pairwise (fun a b => a.1 < b.1)) (hsafe : ∀ k v, (k, v) ∈ h.params → Safe k v)
    (hlen : utf8Len h.show ≤ 1024) : parse h.show = some h := by
  rw [C138_parse]
  refine ⟨hlen, h.protocol, h.protocol, h.params.map body, h.params, ⟨by simp, show_eq _ _, ?_⟩, hstrip, hp, hc, ?_, hn, hord, ?_, fun _ => Iff.rfl⟩
  · intro p hp
    rcases List.mem_cons.1 hp with rfl | hp
    · exact hs
    · obtain ⟨⟨k, v⟩, hx, rfl⟩ := List.mem_map.1 hp
      exact (body_item k v (hsafe k v hx)).1
  · clear hn hord hlen
    revert hsafe
    generalize h.params = l
    intro hsafe
    induction l with
    | nil => exact .nil
    | cons x l ih =>
      obtain ⟨k, v⟩ := x
      obtain ⟨_, h1, h2, h3⟩ := body_item k v (hsafe k v (by simp))
      exact .item h1 h2 h3 (ih (fun k v hx => hsafe k v (by simp [hx])))
  · rw [List.nodup_iff_pairwise_ne, List.pairwise_map]
    exact hord.imp (fun {a b} hab e => by rw [e] at hab; exact List.lt_irrefl _ hab)

/-- **C138.** The codes: a number stands for a cause exactly when the cause has that number. -/
theorem C138_codes (n : Nat) (c : Cause) : Cause.fromCode n = some c ↔ c.code = n := by
  constructor
  · intro h
    unfold Cause.fromCode at h
    split at h <;> first | (cases h; rfl) | cases h
  · rintro rfl
    cases c <;> rfl

/-- **C138.** Every Q.850 cause is read back from its text, with its number and its words. -/
theorem C138_q850 (c : Cause) : parse (Header.q850 c).show = some (Header.q850 c) ∧ (Header.q850 c).asQ850 = some c ∧
    (Header.q850 c).causeCode = some c.code ∧ (Header.q850 c).text = some c.text := by
  cases c <;> decide +kernel

/-- **C138.** A reason has a Q.850 cause exactly if its protocol is Q.850, whatever the case of its letters, and its code is the cause's. -/
theorem C138_as_q850 (h : Header) (c : Cause) :
    h.asQ850 = some c ↔ SameName h.protocol "Q.850".toList ∧ h.causeCode = some c.code := by
  unfold Header.asQ850 Header.isQ850
  rw [sameName_iff]
  by_cases hq : eqIgnoreCase h.protocol "Q.850".toList = true
  · rw [if_pos hq]
    simp only [hq, true_and, Option.bind_eq_some_iff, C138_codes]
    exact ⟨fun ⟨n, h1, h2⟩ => h2 ▸ h1, fun h1 => ⟨_, h1, rfl⟩⟩
  · rw [if_neg hq]
    exact ⟨fun h => (by cases h), fun h => absurd h.1 hq⟩

example : ∃ h, parse "q.850;cause=16".toList = some h ∧ h.asQ850 = some .normalCallClearing := ⟨_, rfl, by decide +kernel⟩

theorem sipText_good (code : Nat) : GoodValue (sipText code) ∧ ';' ∉ sipText code ∧ '\\' ∉ sipText code := by
  have g : ∀ s : Str, (decide (utf8Len s ≤ 256) && s.all (fun c => !isAsciiControl c && c != ';' && c != '\\')) = true →
      GoodValue s ∧ ';' ∉ s ∧ '\\' ∉ s := by
    intro s h
    simp only [Bool.and_eq_true, decide_eq_true_eq, List.all_eq_true, Bool.not_eq_true', bne_iff_ne] at h
    exact ⟨⟨h.1, fun c hc => (h.2 c hc).1.1⟩, fun hc => (h.2 _ hc).1.2 rfl, fun hc => (h.2 _ hc).2 rfl⟩
  apply g
  unfold sipText
  split <;> decide

theorem digits_plain (n : Nat) : ∀ c ∈ showNat n, isAsciiControl c = false ∧ c ≠ ';' ∧ c ≠ '"' ∧ isWs c = false := by
  intro c hc
  have := showNat_digits n c hc
  have key : ∀ d : Char, isDigit d = true → isAsciiControl d = false ∧ d ≠ ';' ∧ d ≠ '"' ∧ isWs d = false := by
    intro d hd
    have : d ∈ ['0','1','2','3','4','5','6','7','8','9'] := by
      unfold isDigit at hd
      simp only [Bool.and_eq_true, decide_eq_true_eq] at hd
      have h1 := hd.1
      have h2 := hd.2
      have hn : 48 ≤ d.toNat ∧ d.toNat ≤ 57 := ⟨h1, h2⟩
      have : d = Char.ofNat d.toNat := (Char.ofNat_toNat d).symm
      have c10 : d.toNat = 48 ∨ d.toNat = 49 ∨ d.toNat = 50 ∨ d.toNat = 51 ∨ d.toNat = 52 ∨ d.toNat = 53 ∨ d.toNat = 54 ∨ d.toNat = 55 ∨
        d.toNat = 56 ∨ d.toNat = 57 := by omega
      rcases c10 with h | h | h | h | h | h | h | h | h | h <;> (rw [h] at this; rw [this]; decide)
    revert d
    intro d _ hd
    simp only [List.mem_cons, List.not_mem_nil, or_false] at hd
    rcases hd with rfl | rfl | rfl | rfl | rfl | rfl | rfl | rfl | rfl | rfl <;> decide
  exact key c this

/-- **C138.** A reason for a SIP response is made exactly if its words can be written: at most 256 bytes without control characters. -/
theorem C138_sip_made (code : Nat) (text : Option Str) (t : Str) (ht : text = some t ∨ text = none ∧ t = sipText code) :
    (∃ h, Header.sip code text = some h) ↔ GoodValue t := by
  rw [← validValue_iff t]
  rcases ht with rfl | ⟨rfl, rfl⟩
  · unfold Header.sip
    cases h : validValue t <;> simp [h]
  · unfold Header.sip
    cases h : validValue (sipText code) <;> simp [h]

/-- **C138.** The reason for a SIP response, with the words given or the ones for its code, is read back: its number and its words. -/
theorem C138_sip (code : Nat) (text : Option Str) (t : Str) (hcode : code < 65536) (ht : text = some t ∨ text = none ∧ t = sipText code)
    (hg : GoodValue t) (hsemi : ';' ∉ t) (hback : '\\' ∉ t) :
    ∃ h, Header.sip code text = some h ∧ parse h.show = some h ∧ h.protocol = "SIP".toList ∧ h.causeCode = some code ∧ h.text = some t := by
  have hi : BMap.insert (BMap.insert [] "cause".toList (some (showNat code))) "text".toList (some t) =
      [("cause".toList, some (showNat code)), ("text".toList, some t)] := rfl
  refine ⟨⟨"SIP".toList, [("cause".toList, some (showNat code)), ("text".toList, some t)]⟩, ?_, ?_, rfl, ?_, rfl⟩
  · have hv := (validValue_iff t).2 hg
    rcases ht with rfl | ⟨rfl, rfl⟩ <;>
      (unfold Header.sip; simp only [hv, Bool.not_true, Bool.false_eq_true, if_false]; rfl)
  · have hd := digits_plain code
    have hlen := RSeq.showNat_utf8 code (by omega)
    have nq : ¬ InQuotes "cause".toList (showNat code) := by
      rintro (h | ⟨c, hc, h | h⟩)
      · exact absurd h (by decide)
      · rw [(hd c hc).2.2.2] at h; cases h
      · exact (hd c hc).2.1 h
    apply C138_roundtrip_partial
    · show Plain 32 "SIP".toList; exact ⟨by decide, by decide, by decide⟩
    · show ';' ∉ "SIP".toList; decide
    · exact (strips_self _).2 ⟨by intro c h; cases h; decide, by intro c h; cases h; decide⟩
    · show Canonical "SIP".toList "SIP".toList; exact .sip ((sameName_iff _ _).2 (by decide))
    · show 2 ≤ 20; omega
    · show List.Pairwise _ [_, _]
      rw [List.pairwise_cons]
      refine ⟨?_, by simp⟩
      intro b hb
      simp only [List.mem_singleton] at hb
      subst hb
      show "cause".toList < "text".toList
      decide
    · intro k v hkv
      simp only [List.mem_cons, Prod.mk.injEq, List.not_mem_nil, or_false] at hkv
      rcases hkv with ⟨rfl, rfl⟩ | ⟨rfl, rfl⟩
      · refine ⟨⟨by decide, by decide, by decide⟩, by decide, by decide, by decide,
          (strips_self _).2 ⟨by intro c h; cases h; decide, by intro c h; cases h; decide⟩, ?_⟩
        rintro u hu
        cases hu
        refine ⟨⟨by omega, fun c hc => (hd c hc).1⟩, fun hc => (hd _ hc).2.1 rfl, fun h => absurd h nq, fun _ q hq => ?_⟩
        exact (hd '"' (by rw [hq]; simp)).2.2.1 rfl
      · refine ⟨⟨by decide, by decide, by decide⟩, by decide, by decide, by decide,
          (strips_self _).2 ⟨by intro c h; cases h; decide, by intro c h; cases h; decide⟩, ?_⟩
        rintro u hu
        cases hu
        exact ⟨hg, hsemi, fun _ => hback, fun h => absurd (.inl rfl) h⟩
    · have e1 : paramText ("cause".toList, some (showNat code)) = ";cause=".toList ++ showNat code := by
        unfold paramText
        simp only
        rw [if_neg (fun h => nq ((inQuotes_iff _ _).1 h))]
        rfl
      have e2 : paramText ("text".toList, some t) = ";text=\"".toList ++ (t ++ ['"']) := by
        unfold paramText
        simp only [true_or, if_true]
        rfl
      unfold Header.show
      simp only [List.map_cons, List.map_nil, e1, e2, List.flatten_cons, List.flatten_nil, List.append_nil, Dlg.utf8Len_append]
      have h1 : utf8Len "SIP".toList = 3 := by decide
      have h2 : utf8Len ";cause=".toList = 7 := by decide
      have h3 : utf8Len ";text=\"".toList = 7 := by decide
      have h4 : utf8Len ['"'] = 1 := by decide
      have := hg.1
      omega
  · show parseDec 65535 (showNat code) = some code
    exact (parseDec_iff _ _ _).2 ⟨Dlg.decimal_showNat code, by omega⟩

/-- The words for every code can be used. -/
example (code : Nat) (hcode : code < 65536) : ∃ h, Header.sip code none = some h ∧ parse h.show = some h ∧ h.causeCode = some code ∧
    h.text = some (sipText code) := by
  obtain ⟨h, h1, h2, _, h3, h4⟩ := C138_sip code none (sipText code) hcode (.inr ⟨rfl, rfl⟩) (sipText_good code).1
    (sipText_good code).2.1 (sipText_good code).2.2
  exact ⟨h, h1, h2, h3, h4⟩

theorem sipText_other (n : Nat) (h : n ∉ Spec.phrases.map (·.1)) : sipText n = "Unknown".toList := by
  have e : Spec.phrases.map (·.1) = [100, 180, 181, 182, 183, 200, 202, 300, 301, 302, 305, 380, 400, 401, 402, 403, 404, 405, 406, 407, 408, 410, 413,
    414, 415, 416, 420, 421, 423, 480, 481, 482, 483, 484, 485, 486, 487, 488, 491, 493, 500, 501, 502, 503, 504, 505, 513, 600, 603, 604, 606] := rfl
  rw [e] at h
  unfold sipText
  split
  case h_52 => rfl
  all_goals exact absurd (by decide) h

/-- **C138.** The words for the responses are those of RFC 3261, for other codes "Unknown"; the numbers and words of the causes are those
of Q.850. -/
theorem C138_words : (∀ n w, (n, w) ∈ Spec.phrases → sipText n = w.toList) ∧
    (∀ n, (∀ w, (n, w) ∉ Spec.phrases) → sipText n = "Unknown".toList) ∧
    (∀ c : Cause, ∃ w, (c.code, w) ∈ Spec.causes ∧ c.text = w.toList) ∧ (∀ n w, (n, w) ∈ Spec.causes → ∃ c : Cause, c.code = n ∧ c.text = w.toList) := by
  refine ⟨?_, ?_, ?_, ?_⟩
  · have : Spec.phrases.all (fun x => sipText x.1 == x.2.toList) = true := by decide +kernel
    intro n w h
    simpa using List.all_eq_true.1 this _ h
  · intro n h
    have h' : n ∉ Spec.phrases.map (·.1) := fun hm => by
      obtain ⟨⟨a, w⟩, hw, rfl⟩ := List.mem_map.1 hm
      exact h w hw
    exact sipText_other n h'
  · intro c
    cases c <;> exact ⟨_, by unfold Spec.causes; simp [Cause.code], rfl⟩
  · have : Spec.causes.all (fun x => match Cause.fromCode x.1 with | some c => c.text == x.2.toList | none => false) = true := by
      decide +kernel
    intro n w h
    have := List.all_eq_true.1 this _ h
    simp only at this
    split at this
    · rename_i c hc
      exact ⟨c, (C138_codes n c).1 hc, by simpa using this⟩
    · cases this

/-- A value as other systems write it: names in any case, white space, an escaped quote. -/
example : parse "q.850 ;CAUSE = 16 ; Text=\"a \\\"b\\\"\";;flag".toList = some ⟨"Q.850".toList,
    [("cause".toList, some "16".toList), ("flag".toList, none), ("text".toList, some "a \"b\"".toList)]⟩ := by decide +kernel

/-- A name set twice, a value without a protocol, an escape at the end: refused. -/
example : parse "SIP;cause=200;Cause=201".toList = none ∧ parse ";cause=200".toList = none ∧ parse "SIP;text=\"a\\\"".toList = none := by
  decide +kernel

/-- **C138, as the code is.** Words with a semicolon do not survive: the text is cut there, and the rest becomes another parameter. -/
theorem C138_semicolon : ∃ h h', Header.sip 480 (some "a;b".toList) = some h ∧ parse h.show = some h' ∧ h'.text = some "\"a".toList ∧
    h'.getParam "b\"".toList = some none ∧ h' ≠ h :=
  ⟨⟨"SIP".toList, [("cause".toList, some "480".toList), ("text".toList, some "a;b".toList)]⟩,
   ⟨"SIP".toList, [("b\"".toList, none), ("cause".toList, some "480".toList), ("text".toList, some "\"a".toList)]⟩,
   by decide +kernel, by decide +kernel, by decide +kernel, by decide +kernel, by decide +kernel⟩

/-- **C138, as the code is.** Words with a backslash lose it. -/
theorem C138_backslash : ∃ h h', Header.sip 480 (some "a\\b".toList) = some h ∧ parse h.show = some h' ∧ h'.text = some "ab".toList :=
  ⟨⟨"SIP".toList, [("cause".toList, some "480".toList), ("text".toList, some "a\\b".toList)]⟩,
   ⟨"SIP".toList, [("cause".toList, some "480".toList), ("text".toList, some "ab".toList)]⟩,
   by decide +kernel, by decide +kernel, by decide +kernel⟩

/-- **C138, as the code is.** A value in quotes that has no white space loses its quotes. -/
theorem C138_quotes : ∃ h h', Header.new "X".toList [("y".toList, some "\"z\"".toList)] = some h ∧ parse h.show = some h' ∧
    h'.getParam "y".toList = some (some "z".toList) :=
  ⟨⟨"X".toList, [("y".toList, some "\"z\"".toList)]⟩, ⟨"X".toList, [("y".toList, some "z".toList)]⟩,
   by decide +kernel, by decide +kernel, by decide +kernel⟩

/-- **C138, as the code is.** Two reasons in one header, as RFC 3326 allows, are taken for one, whose cause is not a number. -/
theorem C138_two_reasons : ∃ h, parse "Q.850;cause=16, SIP".toList = some h ∧ h.isQ850 = true ∧ h.causeCode = none ∧ h.asQ850 = none :=
  ⟨⟨"Q.850".toList, [("cause".toList, some "16, SIP".toList)]⟩, by decide +kernel, by decide +kernel, by decide +kernel, by decide +kernel⟩

/-- The hypotheses of `C138_roundtrip_partial` are met by a header with a flag, a number and a text. -/
example : ∃ h : Header, Plain 32 h.protocol ∧ h.params.length = 3 ∧ parse h.show = some h :=
  ⟨⟨"X-foo".toList, [("a".toList, none), ("cause".toList, some "1".toList), ("text".toList, some "b c".toList)]⟩,
   ⟨by decide, by decide, by decide⟩, rfl, by decide +kernel⟩

end Siphon.Reason
