import Verif.Offer.LemmasPre
/-!
# C123: answers to offers
-/
namespace Siphon.Offer
open Siphon.TextSpec Spec

/-! ## One stream -/

theorem codecsFor_iff (o : Options) (m : Media) (r : RtpMap) :
    ((m.media = "audio".toList ∧ Supports o.audio r) ∨ (m.media = "video".toList ∧ Supports o.video r)) ↔
      ∃ cs, codecsFor o m.media = some cs ∧ Supports cs r := by
  unfold codecsFor
  by_cases h1 : m.media = "audio".toList
  · rw [if_pos h1]
    constructor
    · rintro (⟨_, h⟩ | ⟨h, _⟩)
      · exact ⟨_, rfl, h⟩
      · rw [h1] at h
        exact absurd h (by decide)
    · rintro ⟨cs, e, h⟩
      cases e
      exact Or.inl ⟨h1, h⟩
  · rw [if_neg h1]
    by_cases h2 : m.media = "video".toList
    · rw [if_pos h2]
      constructor
      · rintro (⟨h, _⟩ | ⟨_, h⟩)
        · exact absurd h h1
        · exact ⟨_, rfl, h⟩
      · rintro ⟨cs, e, h⟩
        cases e
        exact Or.inr ⟨h2, h⟩
    · rw [if_neg h2]
      constructor
      · rintro (⟨h, _⟩ | ⟨h, _⟩)
        · exact absurd h h1
        · exact absurd h h2
      · rintro ⟨cs, e, _⟩
        cases e

/-- The entries that go into the answer. -/
def entries (ord : Order) (m : Media) (cs : List Codec) : List (Str × RtpMap) :=
  (ord.run (mapsOf m)).filter (fun e => cs.any (fun c => c.matches e.2))

theorem mem_entries (ord : Order) (m : Media) (cs : List Codec) (p : Str) (r : RtpMap) :
    (p, r) ∈ entries ord m cs ↔ Means m p r ∧ Supports cs r := by
  unfold entries
  rw [List.mem_filter, (ord.perm _).mem_iff, supports_iff, ← maps_get]
  constructor
  · rintro ⟨h, hs⟩
    exact ⟨Tbl.get_of_mem _ _ _ (maps_nodup m) h, hs⟩
  · rintro ⟨h, hs⟩
    exact ⟨Tbl.mem_of_get _ _ _ h, hs⟩

theorem nodup_entries (ord : Order) (m : Media) (cs : List Codec) : ((entries ord m cs).map (·.1)).Nodup := by
  unfold entries
  refine List.Nodup.sublist (List.Sublist.map _ List.filter_sublist) ?_
  have : ((ord.run (mapsOf m)).map (·.1)).Perm ((mapsOf m).map (·.1)) := (ord.perm _).map _
  exact this.nodup_iff.mpr (maps_nodup m)

theorem negotiate_none (ord : Order) (m : Media) (o : Options) (port : Nat) :
    negotiateMedia ord m o port = none ↔ ∀ p r, ¬ Common o m p r := by
  have hcom : ∀ p r, Common o m p r ↔ ∃ cs, codecsFor o m.media = some cs ∧ (p, r) ∈ entries ord m cs := by
    intro p r
    unfold Common
    rw [codecsFor_iff]
    constructor
    · rintro ⟨h1, cs, h2, h3⟩
      exact ⟨cs, h2, (mem_entries _ _ _ _ _).mpr ⟨h1, h3⟩⟩
    · rintro ⟨cs, h2, h3⟩
      obtain ⟨h1, h3⟩ := (mem_entries _ _ _ _ _).mp h3
      exact ⟨h1, cs, h2, h3⟩
  unfold negotiateMedia
  split
  · next h =>
    constructor
    · intro _ p r hc
      obtain ⟨cs, e, _⟩ := (hcom p r).mp hc
      rw [h] at e
      cases e
    · intro _; rfl
  · next cs h =>
    simp only
    change (if (entries ord m cs).isEmpty = true then none else _) = none ↔ _
    split
    · next he =>
      constructor
      · intro _ p r hc
        obtain ⟨cs', e, hm⟩ := (hcom p r).mp hc
        rw [h] at e
        cases e
        rw [List.isEmpty_iff.mp he] at hm
        cases hm
      · intro _; rfl
    · next he =>
      constructor
      · intro h'; cases h'
      · intro hn
        exfalso
        apply he
        cases hes : entries ord m cs with
        | nil => rfl
        | cons e es => exact absurd ((hcom e.1 e.2).mpr ⟨cs, h, by rw [hes]; simp⟩) (hn _ _)

theorem asStr_fmtp (d : Dir) : d.asStr ≠ "fmtp".toList := by cases d <;> decide

theorem negotiate_takes (ord : Order) (m a : Media) (o : Options) (port : Nat) (h : negotiateMedia ord m o port = some a) :
    Takes o m a port := by
  unfold negotiateMedia at h
  split at h
  · cases h
  · next cs hcs =>
    simp only at h
    change (if (entries ord m cs).isEmpty = true then none else _) = some a at h
    split at h
    · cases h
    · next he =>
      generalize hdir : answerDir o m.attributes = dir at h
      cases h
      have hcom : ∀ p r, Common o m p r ↔ (p, r) ∈ entries ord m cs := by
        intro p r
        unfold Common
        rw [codecsFor_iff, mem_entries]
        constructor
        · rintro ⟨h1, cs', h2, h3⟩
          rw [hcs] at h2
          cases h2
          exact ⟨h1, h3⟩
        · rintro ⟨h1, h3⟩
          exact ⟨h1, cs, hcs, h3⟩
      have ht : ∀ e ∈ entries ord m cs, RtpText e.2.show e.2 := fun e he =>
        means_text ((mem_entries ord m cs e.1 e.2).mp he).1
      have hpre := preconditions_name o m.attributes
      have hsays : ∀ r, (∃ b ∈ codecAttrs m.attributes (entries ord m cs) ++ [(⟨dir.asStr, none⟩ : Attr)] ++ answerPreconditions o m.attributes,
          Says b r) ↔ ∃ p, (p, r) ∈ entries ord m cs := by
        intro r
        rw [← says_codecs m.attributes _ ht r]
        constructor
        · rintro ⟨b, hb, hs⟩
          rcases List.mem_append.mp hb with hb | hb
          · rcases List.mem_append.mp hb with hb | hb
            · exact ⟨b, hb, hs⟩
            · simp only [List.mem_cons, List.not_mem_nil, or_false] at hb
              subst hb
              obtain ⟨_, v, hv, _⟩ := hs
              cases hv
          · have hn := hs.1
            rcases hpre b hb with e | e | e <;> (rw [e] at hn; exact absurd hn (by decide))
        · rintro ⟨b, hb, hs⟩
          exact ⟨b, by simp [hb], hs⟩
      have hdecl : ∀ x, Declares (codecAttrs m.attributes (entries ord m cs) ++ [(⟨dir.asStr, none⟩ : Attr)] ++
          answerPreconditions o m.attributes) x ↔ x = Pair dir := by
        intro x
        rw [declares_iff, List.append_assoc, directionOf_append _ _ (codecAttrs_value _ _)]
        simp only [List.cons_append, List.nil_append, directionOf, Option.isNone_none, if_true, parse_asStr]
      have hcodec : ∀ b ∈ codecAttrs m.attributes (entries ord m cs), b.name = "rtpmap".toList ∨ b.name = "fmtp".toList := by
        generalize entries ord m cs = es
        induction es with
        | nil => simp [codecAttrs]
        | cons e es ih =>
          intro b hb
          simp only [codecAttrs, List.mem_cons, List.mem_append] at hb
          rcases hb with rfl | hb | hb
          · exact Or.inl rfl
          · split at hb
            · simp at hb; subst hb; exact Or.inr rfl
            · cases hb
          · exact ih b hb
      have hcurrs : ∀ n : String, "rtpmap".toList ≠ n.toList → "fmtp".toList ≠ n.toList →
          currsOf n (codecAttrs m.attributes (entries ord m cs) ++ [(⟨dir.asStr, none⟩ : Attr)] ++ answerPreconditions o m.attributes) =
          currsOf n (answerPreconditions o m.attributes) := by
        intro n h1 h2
        rw [currsOf_append, currsOf_append]
        have e1 : currsOf n (codecAttrs m.attributes (entries ord m cs)) = [] := by
          apply filterMap_other
          intro b hb e
          rcases hcodec b hb with e' | e'
          · exact h1 (e'.symm.trans e)
          · exact h2 (e'.symm.trans e)
        have e2 : currsOf n [(⟨dir.asStr, none⟩ : Attr)] = [] := by
          simp [currsOf]
        rw [e1, e2]
        rfl
      have hdess : desOf (codecAttrs m.attributes (entries ord m cs) ++ [(⟨dir.asStr, none⟩ : Attr)] ++ answerPreconditions o m.attributes) =
          desOf (answerPreconditions o m.attributes) := by
        rw [desOf_append, desOf_append]
        have e1 : desOf (codecAttrs m.attributes (entries ord m cs)) = [] := by
          apply filterMap_other "des"
          intro b hb e
          rcases hcodec b hb with e' | e'
          · exact absurd (e'.symm.trans e) (by decide)
          · exact absurd (e'.symm.trans e) (by decide)
        have e2 : desOf [(⟨dir.asStr, none⟩ : Attr)] = [] := by
          simp [desOf]
        rw [e1, e2]
        rfl
      refine ⟨rfl, rfl, rfl, rfl, rfl, ⟨rfl, rfl, rfl, rfl, rfl⟩, rfl, nodup_entries ord m cs, ?_, ?_, ?_, ?_, ?_, ?_, ?_, ?_⟩
      · intro p
        change p ∈ (entries ord m cs).map (·.1) ↔ _
        simp only [List.mem_map]
        constructor
        · rintro ⟨e, he, rfl⟩
          exact ⟨e.2, (hcom _ _).mpr he⟩
        · rintro ⟨r, h⟩
          exact ⟨(p, r), (hcom _ _).mp h, rfl⟩
      · intro p r
        rw [hcom]
        constructor
        · intro h
          cases h with
          | @explicit pre b post _ e h1 _ =>
            obtain ⟨q, hq⟩ := (hsays r).mp ⟨b, by rw [show codecAttrs m.attributes (entries ord m cs) ++ [(⟨dir.asStr, none⟩ : Attr)] ++ answerPreconditions o m.attributes = pre ++ b :: post from e]; simp, h1⟩
            have : q = showNat r.payload := means_show ((mem_entries _ _ _ _ _).mp hq).1
            rwa [this] at hq
          | static hf hs hu =>
            exfalso
            obtain ⟨e, he, e1⟩ := List.mem_map.mp (show p ∈ (entries ord m cs).map (·.1) from hf)
            obtain ⟨b, hb, hs2⟩ := (hsays e.2).mpr ⟨e.1, he⟩
            refine hu b hb e.2 hs2 (showNat_inj ?_)
            rw [← static_show _ _ hs, ← e1]
            exact (means_show ((mem_entries _ _ _ _ _).mp he).1).symm
        · intro h
          obtain ⟨b, hb, hs⟩ := (hsays r).mpr ⟨p, h⟩
          have hp : p = showNat r.payload := means_show ((mem_entries _ _ _ _ _).mp h).1
          obtain ⟨pre, c, post, e, h1, h2⟩ := mapped_of_says hb hs (by
            intro b' hb' r' hs' e'
            obtain ⟨q, hq⟩ := (hsays r').mp ⟨b', hb', hs'⟩
            have hq1 : q = showNat r'.payload := means_show ((mem_entries _ _ _ _ _).mp hq).1
            rw [e', ← hp] at hq1
            subst hq1
            exact means_unique ((mem_entries _ _ _ _ _).mp hq).1 ((mem_entries _ _ _ _ _).mp h).1)
          rw [hp]
          exact .explicit e h1 h2
      · intro p hp v
        simp only
        change FmtpOf (codecAttrs m.attributes (entries ord m cs) ++ [(⟨dir.asStr, none⟩ : Attr)] ++ answerPreconditions o m.attributes) p v ↔ _
        rw [List.append_assoc]
        refine fmtp_codecs m.attributes _ (entries ord m cs) (nodup_entries ord m cs) ?_ p hp v
        intro b hb
        rcases List.mem_append.mp hb with hb | hb
        · simp only [List.mem_cons, List.not_mem_nil, or_false] at hb
          subst hb
          exact asStr_fmtp dir
        · rcases hpre b hb with e | e | e <;> (rw [e]; decide)
      · intro hd s r hdec
        refine (hdecl _).mpr ?_
        unfold answerDir at hdir
        rw [hd] at hdir
        simp only at hdir
        rw [← hdir, pair_answer, ← (declares_iff _ _).mp hdec]
      · intro d hd
        refine (hdecl _).mpr ?_
        unfold answerDir at hdir
        rw [hd] at hdir
        simp only at hdir
        rw [← hdir]
      · intro l hl
        have hl := (currs_iff _ _ _).mp hl
        obtain ⟨l', h1, h2⟩ := answers_curr o (currsOf "curr" m.attributes)
        refine ⟨l', (currs_iff _ _ _).mpr ?_, hl ▸ h2⟩
        refine (hcurrs "curr" (by decide) (by decide)).trans ?_
        unfold answerPreconditions
        rw [currsOf_append, currsOf_append]
        rw [show currsOf "curr" ((desOf m.attributes).filterMap (answerDes o)) = [] from
          filterMap_other "curr" _ _ (fun b hb e => absurd ((answerDes_name _ _ b hb).symm.trans e) (by decide)),
          show currsOf "curr" ((currsOf "conf" m.attributes).filterMap answerConf) = [] from
          filterMap_other "curr" _ _ (fun b hb e => absurd ((answerConf_name _ b hb).symm.trans e) (by decide))]
        simpa [currsOf] using h1
      · intro l hl
        have hl := (deses_iff _ _).mp hl
        obtain ⟨l', h1, h2⟩ := answers_des o (desOf m.attributes)
        refine ⟨l', (deses_iff _ _).mpr ?_, hl ▸ h2⟩
        refine hdess.trans ?_
        unfold answerPreconditions
        rw [desOf_append, desOf_append]
        rw [show desOf ((currsOf "curr" m.attributes).filterMap (answerCurr o)) = [] from
          filterMap_other "des" _ _ (fun b hb e => absurd ((answerCurr_name _ _ b hb).symm.trans e) (by decide)),
          show desOf ((currsOf "conf" m.attributes).filterMap answerConf) = [] from
          filterMap_other "des" _ _ (fun b hb e => absurd ((answerConf_name _ b hb).symm.trans e) (by decide))]
        simpa [desOf] using h1
      · intro l hl
        have hl := (currs_iff _ _ _).mp hl
        obtain ⟨l', h1, h2⟩ := answers_conf (currsOf "conf" m.attributes)
        refine ⟨l', (currs_iff _ _ _).mpr ?_, hl ▸ h2⟩
        refine (hcurrs "conf" (by decide) (by decide)).trans ?_
        unfold answerPreconditions
        rw [currsOf_append, currsOf_append]
        rw [show currsOf "conf" ((currsOf "curr" m.attributes).filterMap (answerCurr o)) = [] from
          filterMap_other "conf" _ _ (fun b hb e => absurd ((answerCurr_name _ _ b hb).symm.trans e) (by decide)),
          show currsOf "conf" ((desOf m.attributes).filterMap (answerDes o)) = [] from
          filterMap_other "conf" _ _ (fun b hb e => absurd ((answerDes_name _ _ b hb).symm.trans e) (by decide))]
        simpa [currsOf] using h1

theorem rejected_refuses (m : Media) : Refuses m (rejected m) :=
  ⟨rfl, rfl, rfl, rfl, rfl, rfl, ⟨rfl, rfl⟩, ⟨rfl, rfl, rfl, rfl, rfl⟩⟩

/-! ## All streams -/

theorem media_run (ord : Nat → Order) (o : Options) (i port : Nat) (ms : List Media) (hp : port ≤ 65535) :
    (∃ as k, answerMedia ord o i port ms = .done as ∧ Answered o i port ms as ∧ Count o i ms k ∧ port + 2 * k ≤ 65535) ∨
    (∃ k, answerMedia ord o i port ms = .panic ∧ Count o i ms k ∧ 65535 < port + 2 * k) := by
  induction ms generalizing i port with
  | nil => exact Or.inl ⟨[], 0, rfl, .nil, .nil, by omega⟩
  | cons m ms ih =>
    have refuse : ¬ Taken o i m → answerMedia ord o i port (m :: ms) =
        (answerMedia ord o (i + 1) port ms).bind (fun r => .done (rejected m :: r)) →
        (∃ as k, answerMedia ord o i port (m :: ms) = .done as ∧ Answered o i port (m :: ms) as ∧ Count o i (m :: ms) k ∧ port + 2 * k ≤ 65535) ∨
        (∃ k, answerMedia ord o i port (m :: ms) = .panic ∧ Count o i (m :: ms) k ∧ 65535 < port + 2 * k) := by
      intro ht e
      rcases ih (i + 1) port hp with ⟨as, k, h1, h2, h3, h4⟩ | ⟨k, h1, h2, h3⟩
      · exact Or.inl ⟨rejected m :: as, k, by rw [e, h1]; rfl, .refuse ht (rejected_refuses m) h2, .refuse ht h3, h4⟩
      · exact Or.inr ⟨k, by rw [e, h1]; rfl, .refuse ht h2, h3⟩
    by_cases hr : o.reject.contains i = true
    · refine refuse (fun ht => ht.1 (by simpa using hr)) ?_
      rw [answerMedia, if_pos hr]
    · have hr' : i ∉ o.reject := by simpa using hr
      cases hn : negotiateMedia (ord i) m o port with
      | none =>
        refine refuse (fun ht => ?_) ?_
        · obtain ⟨_, p, r, hc⟩ := ht
          exact (negotiate_none _ _ _ _).mp hn p r hc
        · rw [answerMedia, if_neg hr, hn]
      | some a =>
        have ht : Taken o i m := by
          refine ⟨hr', ?_⟩
          apply Classical.byContradiction
          intro hc
          have := (negotiate_none (ord i) m o port).mpr (fun p r h => hc ⟨p, r, h⟩)
          rw [hn] at this
          cases this
        have e : answerMedia ord o i port (m :: ms) =
            if port + 2 > 65535 then .panic else (answerMedia ord o (i + 1) (port + 2) ms).bind (fun r => .done (a :: r)) := by
          rw [answerMedia, if_neg hr, hn]
        by_cases hb : port + 2 > 65535
        · rw [if_pos hb] at e
          have : ∃ k, Count o (i + 1) ms k := by
            clear ih refuse e
            generalize i + 1 = j
            induction ms generalizing j with
            | nil => exact ⟨0, .nil⟩
            | cons m' ms ih =>
              obtain ⟨k, hk⟩ := ih (j + 1)
              by_cases h : Taken o j m'
              · exact ⟨k + 1, .take h hk⟩
              · exact ⟨k, .refuse h hk⟩
          obtain ⟨k, hk⟩ := this
          exact Or.inr ⟨k + 1, e, .take ht hk, by omega⟩
        · rw [if_neg hb] at e
          rcases ih (i + 1) (port + 2) (by omega) with ⟨as, k, h1, h2, h3, h4⟩ | ⟨k, h1, h2, h3⟩
          · exact Or.inl ⟨a :: as, k + 1, by rw [e, h1]; rfl, .take ht (negotiate_takes _ _ _ _ _ hn) h2, .take ht h3, by omega⟩
          · exact Or.inr ⟨k + 1, by rw [e, h1]; rfl, .take ht h2, by omega⟩

theorem count_unique {o : Options} {i : Nat} {ms : List Media} {k k' : Nat} (h : Count o i ms k) (h' : Count o i ms k') : k = k' := by
  induction h generalizing k' with
  | nil => cases h'; rfl
  | refuse ht _ ih =>
    cases h' with
    | refuse _ h => exact ih h
    | take ht' _ => exact absurd ht' ht
  | take ht _ ih =>
    cases h' with
    | refuse ht' _ => exact absurd ht ht'
    | take _ h => rw [ih h]

/-- C123: the answer to an offer.  It has one stream for each of the offer, in the same order: refused unless the two sides
have a codec in common, and otherwise with exactly the common formats, each with the meaning and the parameters that it has
in the offer, with the other direction, and with the next free port.  Whatever the orders of the hash maps. -/
theorem C123_answer (ord : Nat → Order) (offer ans : Session) (o : Options) (hp : o.basePort ≤ 65535)
    (h : generateAnswer ord offer o = .done (some ans)) :
    Answered o 0 o.basePort offer.media ans.media ∧ ans.name = offer.name ∧ ans.timing = offer.timing ∧
      ans.attributes = [] ∧ ans.other = [] ∧
      ans.origin = ⟨o.username, o.sessionId, "0".toList, "IN".toList, "IP4".toList, o.address⟩ ∧
      ans.connection = some ("IN".toList, "IP4".toList, o.address) := by
  unfold generateAnswer at h
  split at h
  · cases h
  · rcases media_run ord o 0 o.basePort offer.media hp with ⟨as, k, h1, h2, _, _⟩ | ⟨k, h1, _⟩
    · rw [h1] at h
      cases h
      exact ⟨h2, rfl, rfl, rfl, rfl, rfl, rfl⟩
    · rw [h1] at h
      cases h

/-- C123: there is an answer exactly when the offer has at most twenty streams and the ports suffice; with more streams
there is an error, and when the ports run out the engine panics. -/
theorem C123_succeeds (ord : Nat → Order) (offer : Session) (o : Options) (hp : o.basePort ≤ 65535) (k : Nat)
    (hk : Count o 0 offer.media k) :
    (generateAnswer ord offer o = .done none ↔ 20 < offer.media.length) ∧
    (generateAnswer ord offer o = .panic ↔ offer.media.length ≤ 20 ∧ 65535 < o.basePort + 2 * k) ∧
    ((∃ ans, generateAnswer ord offer o = .done (some ans)) ↔ offer.media.length ≤ 20 ∧ o.basePort + 2 * k ≤ 65535) := by
  unfold generateAnswer
  by_cases hl : offer.media.length > MAX_MEDIA_STREAMS
  · rw [if_pos hl]
    have : 20 < offer.media.length := hl
    refine ⟨by simp [this], ?_, ?_⟩
    · constructor
      · intro h; cases h
      · rintro ⟨h, _⟩; omega
    · constructor
      · rintro ⟨_, h⟩; cases h
      · rintro ⟨h, _⟩; omega
  · rw [if_neg hl]
    have hl : ¬ 20 < offer.media.length := hl
    rcases media_run ord o 0 o.basePort offer.media hp with ⟨as, k', h1, _, h3, h4⟩ | ⟨k', h1, h2, h3⟩
    · cases count_unique hk h3
      rw [h1]
      refine ⟨?_, ?_, ?_⟩
      · constructor
        · intro h; cases h
        · intro h; exact absurd h hl
      · constructor
        · intro h; cases h
        · rintro ⟨_, h⟩; omega
      · constructor
        · intro _; exact ⟨by omega, h4⟩
        · intro _; exact ⟨_, rfl⟩
    · cases count_unique hk h2
      rw [h1]
      refine ⟨?_, ?_, ?_⟩
      · constructor
        · intro h; cases h
        · intro h; exact absurd h hl
      · constructor
        · intro _; exact ⟨by omega, h3⟩
        · intro _; rfl
      · constructor
        · rintro ⟨_, h⟩; cases h
        · rintro ⟨_, h⟩; omega

theorem answered_streams {o : Options} {i port : Nat} {ms as : List Media} (h : Answered o i port ms as) :
    List.Forall₂ (fun m a => a.media = m.media ∧ a.proto = m.proto ∧ a.mid = m.mid) ms as := by
  induction h with
  | nil => exact .nil
  | refuse _ h _ ih => exact .cons ⟨h.media, h.proto, h.mid⟩ ih
  | take _ h _ ih => exact .cons ⟨h.media, h.proto, h.mid⟩ ih

/-- C123: the streams of the answer correspond to those of the offer. -/
theorem C123_streams (ord : Nat → Order) (offer ans : Session) (o : Options) (hp : o.basePort ≤ 65535)
    (h : generateAnswer ord offer o = .done (some ans)) :
    List.Forall₂ (fun m a => a.media = m.media ∧ a.proto = m.proto ∧ a.mid = m.mid) offer.media ans.media :=
  answered_streams (C123_answer ord offer ans o hp h).1

theorem answered_ports {o : Options} {i port : Nat} {ms as : List Media} (h : Answered o i port ms as) (hp : 0 < port) :
    (∀ a ∈ as, a.port = 0 ∨ (port ≤ a.port ∧ 2 ∣ (a.port - port))) ∧ ((as.map (·.port)).filter (· ≠ 0)).Nodup := by
  induction h with
  | nil => simp
  | refuse _ h _ ih =>
    obtain ⟨h1, h2⟩ := ih hp
    refine ⟨?_, ?_⟩
    · intro b hb
      rcases List.mem_cons.mp hb with rfl | hb
      · exact Or.inl h.port
      · exact h1 b hb
    · rw [List.map_cons, h.port]
      simpa using h2
  | @take i port m a ms as _ h _ ih =>
    obtain ⟨h1, h2⟩ := ih (by omega)
    refine ⟨?_, ?_⟩
    · intro b hb
      rcases List.mem_cons.mp hb with rfl | hb
      · exact Or.inr ⟨by rw [h.port]; exact Nat.le_refl _, by rw [h.port]; simp⟩
      · rcases h1 b hb with e | ⟨h3, h4⟩
        · exact Or.inl e
        · exact Or.inr ⟨by omega, by omega⟩
    · rw [List.map_cons, h.port, List.filter_cons_of_pos (by simp; omega), List.nodup_cons]
      refine ⟨?_, h2⟩
      intro hm
      simp only [List.mem_filter, List.mem_map] at hm
      obtain ⟨⟨b, hb, e⟩, _⟩ := hm
      rcases h1 b hb with e2 | ⟨h3, _⟩
      · omega
      · omega

/-- C123: with a port to begin with, the streams that are not refused have ports of their own, two apart, so the ports of
their RTCP differ too. -/
theorem C123_ports (ord : Nat → Order) (offer ans : Session) (o : Options) (hp : o.basePort ≤ 65535) (h0 : 0 < o.basePort)
    (h : generateAnswer ord offer o = .done (some ans)) :
    (∀ a ∈ ans.media, a.port = 0 ∨ (o.basePort ≤ a.port ∧ 2 ∣ (a.port - o.basePort))) ∧
      ((ans.media.map (·.port)).filter (· ≠ 0)).Nodup :=
  answered_ports (C123_answer ord offer ans o hp h).1 h0

theorem answered_get {o : Options} {i port : Nat} {ms as : List Media} (h : Answered o i port ms as) (hp : 0 < port)
    (j : Nat) (m a : Media) (hm : ms[j]? = some m) (ha : as[j]? = some a) : a.port ≠ 0 ↔ Taken o (i + j) m := by
  induction h generalizing j with
  | nil => cases hm
  | refuse ht h _ ih =>
    cases j with
    | zero =>
      cases hm
      cases ha
      simp [h.port, ht]
    | succ j =>
      have := ih hp j hm ha
      rw [this, show ∀ i, i + 1 + j = i + (j + 1) from fun i => by omega]
  | take ht h _ ih =>
    cases j with
    | zero =>
      cases hm
      cases ha
      simp only [h.port, Nat.add_zero, ht, iff_true]
      omega
    | succ j =>
      have := ih (by omega) j hm ha
      rw [this, show ∀ i, i + 1 + j = i + (j + 1) from fun i => by omega]

/-- C123: a stream is refused when the application says so, or when there is no codec in common, and only then. -/
theorem C123_refused_iff (ord : Nat → Order) (offer ans : Session) (o : Options) (hp : o.basePort ≤ 65535) (h0 : 0 < o.basePort)
    (h : generateAnswer ord offer o = .done (some ans)) (j : Nat) (m a : Media) (hm : offer.media[j]? = some m)
    (ha : ans.media[j]? = some a) : a.port = 0 ↔ j ∈ o.reject ∨ ∀ p r, ¬ Common o m p r := by
  have := answered_get (C123_answer ord offer ans o hp h).1 h0 j m a hm ha
  rw [Nat.zero_add] at this
  unfold Taken at this
  constructor
  · intro e
    apply Classical.byContradiction
    intro hc
    refine this.mpr ⟨fun hj => hc (Or.inl hj), ?_⟩ e
    apply Classical.byContradiction
    intro hc2
    exact hc (Or.inr (fun p r h => hc2 ⟨p, r, h⟩))
  · intro hc
    apply Classical.byContradiction
    intro e
    obtain ⟨h1, p, r, h2⟩ := this.mp e
    rcases hc with hc | hc
    · exact h1 hc
    · exact hc p r h2

/-! ## What goes wrong -/

theorem negotiate_port (ord : Order) (m : Media) (o : Options) (port q : Nat) :
    negotiateMedia ord { m with port := q } o port = negotiateMedia ord m o port := rfl

theorem media_port (ord : Nat → Order) (o : Options) (i port q : Nat) (ms : List Media) :
    answerMedia ord o i port (ms.map (fun m => { m with port := q })) = answerMedia ord o i port ms := by
  induction ms generalizing i port with
  | nil => rfl
  | cons m ms ih =>
    rw [List.map_cons, answerMedia, answerMedia, negotiate_port, ih (i + 1) port, ih (i + 1) (port + 2)]
    rfl

/-- C123 (finding): the ports of the offer do not matter.  A stream that the offerer has disabled, with port 0, is answered
like any other. -/
theorem C123_disabled_answered (ord : Nat → Order) (offer : Session) (o : Options) (q : Nat) :
    generateAnswer ord { offer with media := offer.media.map (fun m => { m with port := q }) } o = generateAnswer ord offer o := by
  unfold generateAnswer
  simp only [List.length_map]
  rw [media_port]

/-- C123 (finding): neither the direction of the whole session nor its address matter. -/
theorem C123_session_level_ignored (ord : Nat → Order) (offer : Session) (o : Options) (as : List Attr) (c : Option (Str × Str × Str))
    (org : Origin) :
    generateAnswer ord { offer with attributes := as, connection := c, origin := org } o = generateAnswer ord offer o := rfl

/-- C123 (finding): an address is always said to be IPv4. -/
theorem C123_ip4_only (ord : Nat → Order) (offer ans : Session) (o : Options) (h : generateAnswer ord offer o = .done (some ans)) :
    ans.origin.addrtype = "IP4".toList ∧ ans.connection = some ("IN".toList, "IP4".toList, o.address) := by
  unfold generateAnswer at h
  split at h
  · cases h
  · cases hm : answerMedia ord o 0 o.basePort offer.media with
    | panic => rw [hm] at h; cases h
    | done as =>
      rw [hm] at h
      cases h
      exact ⟨rfl, rfl⟩

end Siphon.Offer
