import Verif.Sdp.ProfileSpec
import Verif.Sdp.Build
set_option linter.unusedSimpArgs false
/-!
# Lemmas about answers from profiles
-/
namespace Siphon.Sdp
open Siphon.TextSpec Spec

theorem short_of_subset : ∀ (l m : List Nat), l.Nodup → (∀ x ∈ l, x ∈ m) → l.length ≤ m.length
  | [], _, _, _ => by simp
  | x :: l, m, hn, hs => by
    rw [List.nodup_cons] at hn
    have hx : x ∈ m := hs x (by simp)
    have := short_of_subset l (m.erase x) hn.2 (fun y hy => by
      have hne : y ≠ x := fun e => hn.1 (e ▸ hy)
      exact (List.mem_erase_of_ne hne).2 (hs y (by simp [hy])))
    rw [List.length_erase_of_mem hx] at this
    have : 0 < m.length := List.length_pos_iff.2 (List.ne_nil_of_mem hx)
    simp only [List.length_cons]
    omega

/-! ## Choosing codecs -/

theorem pickFormat_iff (want : List Nat) (m : Media) (fmt : Str) (c : Codec) : pickFormat want m fmt = some c ↔
    ∃ pt r, Payload fmt pt ∧ pt ∈ want ∧ Tbl.get m.rtpmaps pt = some r ∧ c = ⟨pt, r.encoding, r.clock⟩ := by
  unfold pickFormat
  cases hp : parsePayload fmt with
  | none =>
    refine ⟨fun h => (by cases h), ?_⟩
    rintro ⟨pt, r, h, _⟩
    rw [payload_iff, hp] at h
    cases h
  | some pt =>
    have key : ∀ pt', Payload fmt pt' ↔ pt = pt' := by
      intro pt'
      rw [payload_iff, hp, Option.some.injEq]
    simp only [key]
    by_cases hw : pt ∈ want
    · rw [if_pos (List.contains_iff_mem.mpr hw)]
      cases hg : Tbl.get m.rtpmaps pt with
      | none =>
        refine ⟨fun h => (by cases h), ?_⟩
        rintro ⟨_, r, rfl, _, h, _⟩
        rw [hg] at h
        cases h
      | some r =>
        simp only [Option.some.injEq]
        constructor
        · intro h
          exact ⟨pt, r, rfl, hw, hg, h.symm⟩
        · rintro ⟨_, r', rfl, _, h, rfl⟩
          rw [hg] at h
          cases h
          rfl
    · rw [if_neg (by rwa [List.contains_iff_mem])]
      refine ⟨fun h => (by cases h), ?_⟩
      rintro ⟨_, _, rfl, h, _⟩
      exact absurd h hw

theorem picks_iff (want : List Nat) (m : Media) : ∀ (fs : List Str) (cs : List Codec),
    Picks want m fs cs ↔ fs.filterMap (pickFormat want m) = cs
  | [], cs => by
    constructor
    · intro h; cases h; rfl
    · rintro rfl; exact .nil
  | f :: fs, cs => by
    constructor
    · intro h
      cases h with
      | pick h1 h2 h3 h4 =>
        rw [List.filterMap_cons, (pickFormat_iff want m f _).mpr ⟨_, _, h1, h2, h3, rfl⟩]
        simp only
        rw [(picks_iff want m fs _).mp h4]
      | skip h1 h2 =>
        have : pickFormat want m f = none := by
          cases hx : pickFormat want m f with
          | none => rfl
          | some c =>
            obtain ⟨pt, r, a, b, c, _⟩ := (pickFormat_iff want m f c).mp hx
            exact absurd c (h1 pt r a b)
        rw [List.filterMap_cons, this]
        exact (picks_iff want m fs _).mp h2
    · intro h
      rw [List.filterMap_cons] at h
      cases hx : pickFormat want m f with
      | none =>
        rw [hx] at h
        refine .skip ?_ ((picks_iff want m fs _).mpr h)
        intro pt r a b c
        rw [(pickFormat_iff want m f _).mpr ⟨pt, r, a, b, c, rfl⟩] at hx
        cases hx
      | some c =>
        rw [hx] at h
        subst h
        obtain ⟨pt, r, a, b, d, rfl⟩ := (pickFormat_iff want m f c).mp hx
        exact .pick a b d ((picks_iff want m fs _).mpr rfl)

/-- The codecs of all streams of a kind, computed. -/
def picked (want : List Nat) (k : MediaType) (ms : List Media) : List Codec :=
  (ms.filter (fun m => m.kind == k)).flatMap (fun m => m.formats.filterMap (pickFormat want m))

theorem picksAll_iff (want : List Nat) (k : MediaType) : ∀ (ms : List Media) (cs : List Codec),
    PicksAll want k ms cs ↔ picked want k ms = cs
  | [], cs => by
    constructor
    · intro h; cases h; rfl
    · rintro rfl; exact .nil
  | m :: ms, cs => by
    unfold picked
    rw [List.filter_cons]
    by_cases hk : m.kind = k
    · rw [if_pos (by simp [hk]), List.flatMap_cons]
      constructor
      · intro h
        cases h with
        | mine _ h2 h3 =>
          rw [(picks_iff want m m.formats _).mp h2, ← (picksAll_iff want k ms _).mp h3]
          rfl
        | other h1 _ => exact absurd hk h1
      · rintro rfl
        exact .mine hk ((picks_iff want m _ _).mpr rfl) ((picksAll_iff want k ms _).mpr rfl)
    · rw [if_neg (by simp [hk])]
      constructor
      · intro h
        cases h with
        | mine h1 _ _ => exact absurd h1 hk
        | other _ h2 => exact (picksAll_iff want k ms _).mp h2
      · rintro h
        exact .other hk ((picksAll_iff want k ms _).mpr h)

theorem picked_payload (want : List Nat) (k : MediaType) (ms : List Media) (c : Codec) (h : c ∈ picked want k ms) :
    c.payload ≤ 127 ∧ c.payload ∈ want := by
  unfold picked at h
  simp only [List.mem_flatMap, List.mem_filterMap] at h
  obtain ⟨m, _, f, _, h⟩ := h
  obtain ⟨pt, r, h1, h2, _, rfl⟩ := (pickFormat_iff want m f c).mp h
  exact ⟨h1.2, h2⟩

theorem gather_foldl (p : Profile) : ∀ (ms : List Media) (b : Profile),
    ms.foldl (gather p) b =
      { b with
        audio := b.audio ++ picked (p.audio.map (·.payload)) .audio ms
        telephoneEvent := b.telephoneEvent || (p.telephoneEvent && ms.any (fun m => m.kind == .audio &&
          m.formats.any (fun f => parsePayload f == some 101)))
        video := b.video ++ (if p.enableVideo || !p.video.isEmpty then picked (p.video.map (·.payload)) .video ms else [])
        enableVideo := b.enableVideo || ((p.enableVideo || !p.video.isEmpty) && ms.any (fun m => m.kind == .video)) }
  | [], b => by
    cases b
    simp [picked]
  | m :: ms, b => by
    rw [List.foldl_cons, gather_foldl p ms]
    have hne : ∀ k, m.kind = k → ∀ want k', picked want k' (m :: ms) =
        (if k = k' then m.formats.filterMap (pickFormat want m) else []) ++ picked want k' ms := by
      intro k hk want k'
      unfold picked
      rw [List.filter_cons, hk]
      by_cases h : k = k'
      · rw [if_pos (by simp [h]), if_pos h, List.flatMap_cons]
      · rw [if_neg (by simp [h]), if_neg h, List.nil_append]
    have e1 : (MediaType.audio == MediaType.video) = false := by decide
    have e2 : (MediaType.video == MediaType.audio) = false := by decide
    have e3 : (MediaType.text == MediaType.audio) = false := by decide
    have e4 : (MediaType.text == MediaType.video) = false := by decide
    have e5 : (MediaType.application == MediaType.audio) = false := by decide
    have e6 : (MediaType.application == MediaType.video) = false := by decide
    have e7 : (MediaType.message == MediaType.audio) = false := by decide
    have e8 : (MediaType.message == MediaType.video) = false := by decide
    have e9 : ∀ n, (MediaType.other n == MediaType.audio) = false := fun n => by rw [beq_eq_false_iff_ne]; simp
    have e10 : ∀ n, (MediaType.other n == MediaType.video) = false := fun n => by rw [beq_eq_false_iff_ne]; simp
    unfold gather
    cases hk : m.kind with
    | audio =>
      simp only [hne _ hk, hk, if_true, List.any_cons, beq_self_eq_true, Bool.true_and, List.append_assoc, Bool.or_assoc,
        Bool.and_or_distrib_left, reduceCtorEq, if_false, List.nil_append]
      simp [e1]
    | video =>
      cases hv : (p.enableVideo || !p.video.isEmpty) with
      | false => simp [hne _ hk, hk, e1, e2, e3, e4, e5, e6, e7, e8, e9, e10]
      | true => simp [hne _ hk, hk, e1, e2, e3, e4, e5, e6, e7, e8, e9, e10]
    | text => simp [hne _ hk, hk, e1, e2, e3, e4, e5, e6, e7, e8, e9, e10]
    | application => simp [hne _ hk, hk, e1, e2, e3, e4, e5, e6, e7, e8, e9, e10]
    | message => simp [hne _ hk, hk, e1, e2, e3, e4, e5, e6, e7, e8, e9, e10]
    | other n => simp [hne _ hk, hk, e1, e2, e3, e4, e5, e6, e7, e8, e9, e10]

/-! ## Adding codecs to a stream -/

/-- What a stream holds after some codecs were added. -/
structure Holds (kind : MediaType) (port : Nat) (cs : List Codec) (a : Media) : Prop where
  same : { a with formats := [], attributes := [], rtpmaps := [] } = ({ kind := kind, port := port } : Media)
  formats : a.formats = cs.map (fun c => showNat c.payload)
  attributes : a.attributes = .property "sendrecv".toList :: mapLines (keepLast (cs.map codecMap))
  get : ∀ pt, Tbl.get a.rtpmaps pt = Tbl.get (keepLast (cs.map codecMap)) pt
  nodup : (Tbl.keys a.rtpmaps).Nodup
  size : a.rtpmaps.length = (keepLast (cs.map codecMap)).length
  small : ∀ c ∈ cs, c.payload ≤ 127

theorem remove_cons_property (n : Str) (as : List Attribute) (k : Nat) :
    removeRtpmapAttr (.property n :: as) k = .property n :: removeRtpmapAttr as k := by
  unfold removeRtpmapAttr
  rw [List.filter_cons]
  rfl

theorem goodCodec_iff (c : Codec) : GoodCodec c ↔ validField c.name 64 = true ∧ validClock c.clock = true := by
  unfold GoodCodec validClock
  simp only [field_iff, decide_eq_true_eq, Bool.and_eq_true]

theorem addCodec_step {kind : MediaType} {port : Nat} {cs : List Codec} {a : Media} (c : Codec) (hf : Holds kind port cs a)
    (hd : (keepLast (cs.map codecMap)).length ≤ 44) :
    (∀ a', addCodecs [c] a = some a' → c.payload ≤ 127 ∧ GoodCodec c ∧ cs.length < 50 ∧ Holds kind port (cs ++ [c]) a') ∧
    (c.payload ≤ 127 → GoodCodec c → cs.length < 50 → ∃ a', addCodecs [c] a = some a') := by
  have hform : a.formats.length = cs.length := by rw [hf.formats, List.length_map]
  have hkeyed : ∀ e ∈ keepLast (cs.map codecMap), e.1 = e.2.payload ∧ e.2.payload ≤ 127 := by
    intro e he
    have := mem_keepLast e _ he
    obtain ⟨x, hx, rfl⟩ := List.mem_map.mp this
    exact ⟨rfl, hf.small x hx⟩
  have hattr' : (if Tbl.contains a.rtpmaps c.payload then removeRtpmapAttr a.attributes c.payload else a.attributes) =
      .property "sendrecv".toList :: mapLines ((keepLast (cs.map codecMap)).filter (fun x => decide (x.1 ≠ c.payload))) := by
    rw [hf.attributes, remove_cons_property, remove_mapLines _ _ hkeyed]
    split
    · rfl
    · rename_i hc
      have hn : c.payload ∉ Tbl.keys (keepLast (cs.map codecMap)) := by
        rw [← Tbl.get_eq_none_iff, ← hf.get]
        simpa [Tbl.contains] using hc
      have hr := Tbl.remove_of_not_mem (keepLast (cs.map codecMap)) c.payload hn
      rw [show (keepLast (cs.map codecMap)).filter (fun x => decide (x.1 ≠ c.payload)) =
        Tbl.remove (keepLast (cs.map codecMap)) c.payload from rfl, hr]
  have hmaps' : (if Tbl.contains a.rtpmaps c.payload then Tbl.remove a.rtpmaps c.payload else a.rtpmaps) =
      Tbl.remove a.rtpmaps c.payload := by
    split
    · rfl
    · rename_i hc
      rw [Tbl.remove_of_not_mem]
      rw [← Tbl.get_eq_none_iff]
      simpa [Tbl.contains] using hc
  have hsz1 : (Attribute.property "sendrecv".toList ::
      mapLines ((keepLast (cs.map codecMap)).filter (fun x => decide (x.1 ≠ c.payload)))).length < 50 := by
    unfold mapLines
    rw [List.length_cons, List.length_map]
    have := List.length_filter_le (fun x => decide (x.1 ≠ c.payload)) (keepLast (cs.map codecMap))
    omega
  have hsz2 : (Tbl.remove a.rtpmaps c.payload).length < 50 := by
    have := Tbl.length_remove_le a.rtpmaps c.payload
    have := hf.size
    omega
  have hadd : addCodecs [c] a =
      if !validPayload c.payload then none else if cs.length ≥ 50 then none
      else if !validField c.name 64 then none else if !validClock c.clock then none
      else some { a with
        formats := a.formats ++ [showNat c.payload]
        attributes := (.property "sendrecv".toList ::
          mapLines ((keepLast (cs.map codecMap)).filter (fun x => decide (x.1 ≠ c.payload)))) ++
          [.value "rtpmap".toList (rtpmapValue ⟨c.payload, c.name, c.clock, none⟩)]
        rtpmaps := Tbl.insert (Tbl.remove a.rtpmaps c.payload) c.payload ⟨c.payload, c.name, c.clock, none⟩ } := by
    simp only [addCodecs, Media.addFormat, hform]
    cases h1 : validPayload c.payload with
    | false => rfl
    | true =>
      by_cases h2 : cs.length ≥ 50
      · simp [h2]
      · simp only [Bool.not_true, Bool.false_eq_true, if_false, if_neg h2, Media.addRtpmap, h1, hattr', hmaps']
        cases h3 : validField c.name 64 with
        | false => rfl
        | true =>
          cases h4 : validClock c.clock with
          | false => rfl
          | true =>
            simp only [Bool.not_true, Bool.false_eq_true, if_false]
            rw [if_neg (by omega), if_neg (by omega)]
  rw [hadd]
  rw [goodCodec_iff]
  have hv : c.payload ≤ 127 ↔ validPayload c.payload = true := by simp [validPayload]
  constructor
  · intro a' ha
    by_cases h1 : validPayload c.payload = true
    · by_cases h2 : cs.length ≥ 50
      · rw [if_neg (by simp [h1]), if_pos h2] at ha; cases ha
      by_cases h3 : validField c.name 64 = true
      · by_cases h4 : validClock c.clock = true
        · simp only [h1, h3, h4, Bool.not_true, Bool.false_eq_true, if_false, if_neg h2, Option.some.injEq] at ha
          refine ⟨hv.mpr h1, ⟨h3, h4⟩, by omega, ?_⟩
          subst ha
          have hlast : keepLast ((cs ++ [c]).map codecMap) =
              (keepLast (cs.map codecMap)).filter (fun x => decide (x.1 ≠ c.payload)) ++ [codecMap c] := by
            rw [List.map_append, List.map_cons, List.map_nil, keepLast_snoc]
            rfl
          constructor
          · exact hf.same
          · simp only [List.map_append, List.map_cons, List.map_nil, hf.formats]
          · rw [hlast]
            simp only [mapLines, List.map_append, List.map_cons, List.map_nil, List.cons_append]
            rw [mapLine_eq]
            rfl
          · intro pt
            rw [hlast]
            simp only [codecMap, get_snoc]
            by_cases hk : pt = c.payload
            · subst hk
              rw [Tbl.get_insert_self, Tbl.get_insert_self]
            · rw [Tbl.get_insert_ne _ _ hk, Tbl.get_insert_ne _ _ hk, Tbl.get_remove_ne _ hk, hf.get]
          · exact Tbl.nodup_insert _ _ _ (Tbl.nodup_remove _ _ hf.nodup)
          · simp only [hlast, List.length_append, List.length_singleton, Tbl.insert, List.length_cons, List.length_nil]
            rw [Tbl.remove_of_not_mem _ _ (Tbl.not_mem_keys_remove _ _)]
            have hnd := (keepLast_nodup (cs.map codecMap)).1
            have hsz := hf.size
            have hg := hf.get c.payload
            by_cases hc : c.payload ∈ Tbl.keys a.rtpmaps
            · have hc' : c.payload ∈ Tbl.keys (keepLast (cs.map codecMap)) := by
                rw [← Tbl.get_isSome_iff, ← hg, Tbl.get_isSome_iff]; exact hc
              have e1 := Tbl.length_remove_mem a.rtpmaps c.payload hf.nodup hc
              have e2 := Tbl.length_remove_mem (keepLast (cs.map codecMap)) c.payload hnd hc'
              simp only [Tbl.remove] at e1 e2 ⊢
              omega
            · have hc' : c.payload ∉ Tbl.keys (keepLast (cs.map codecMap)) := by
                rw [← Tbl.get_isSome_iff, ← hg, Tbl.get_isSome_iff]; exact hc
              have e1 := Tbl.remove_of_not_mem a.rtpmaps c.payload hc
              have e2 := Tbl.remove_of_not_mem (keepLast (cs.map codecMap)) c.payload hc'
              simp only [Tbl.remove] at e1 e2 ⊢
              rw [e1, e2, hsz]
          · intro x hx
            rcases List.mem_append.mp hx with hx | hx
            · exact hf.small x hx
            · rw [List.mem_singleton] at hx
              subst hx
              exact hv.mpr h1
        · rw [if_neg (by simp [h1]), if_neg h2, if_neg (by simp [h3]), if_pos (by simp [h4])] at ha
          cases ha
      · rw [if_neg (by simp [h1]), if_neg h2, if_pos (by simp [h3])] at ha
        cases ha
    · rw [if_pos (by simp [h1])] at ha
      cases ha
  · intro h1 ⟨h2, h3⟩ h4
    rw [if_neg (by simp [hv.mp h1]), if_neg (by omega), if_neg (by simp [h2]), if_neg (by simp [h3])]
    exact ⟨_, rfl⟩

theorem addCodecs_cons (c : Codec) (cs : List Codec) (a : Media) :
    addCodecs (c :: cs) a = (addCodecs [c] a).bind (addCodecs cs) := by
  simp only [addCodecs]
  cases a.addFormat c.payload with
  | none => rfl
  | some m =>
    simp only
    cases m.addRtpmap ⟨c.payload, c.name, c.clock, none⟩ <;> rfl

theorem keepLast_short (W : List Nat) (hW : W.length ≤ 44) (cs : List Codec) (h : ∀ c ∈ cs, c.payload ∈ W) :
    (keepLast (cs.map codecMap)).length ≤ 44 := by
  have h1 := keepLast_nodup (cs.map codecMap)
  have := short_of_subset ((keepLast (cs.map codecMap)).map (·.1)) W h1.1 (by
    intro x hx
    rw [h1.2] at hx
    simp only [List.map_map, List.mem_map] at hx
    obtain ⟨c, hc, rfl⟩ := hx
    exact h c hc)
  rw [List.length_map] at this
  omega

theorem addCodecs_spec {kind : MediaType} {port : Nat} (W : List Nat) (hW : W.length ≤ 44) :
    ∀ (cs done : List Codec) (a : Media), Holds kind port done a → done.length ≤ 50 →
    (∀ c ∈ done ++ cs, c.payload ∈ W) →
    (∀ a', addCodecs cs a = some a' → Holds kind port (done ++ cs) a' ∧ (done ++ cs).length ≤ 50 ∧
      (∀ c ∈ cs, GoodCodec c)) ∧
    ((done ++ cs).length ≤ 50 → (∀ c ∈ cs, c.payload ≤ 127) → (∀ c ∈ cs, GoodCodec c) → ∃ a', addCodecs cs a = some a')
  | [], done, a, hf, hl, hw => by
    simp only [List.append_nil]
    refine ⟨?_, fun _ _ _ => ⟨a, rfl⟩⟩
    intro a' h
    cases h
    exact ⟨hf, hl, by simp⟩
  | c :: cs, done, a, hf, hl, hw => by
    obtain ⟨s1, s2⟩ := addCodec_step c hf (keepLast_short W hW done (fun c hc => hw c (List.mem_append_left _ hc)))
    rw [addCodecs_cons]
    have happ : done ++ c :: cs = (done ++ [c]) ++ cs := by simp
    constructor
    · intro a' h
      cases h1 : addCodecs [c] a with
      | none => rw [h1] at h; cases h
      | some m =>
        rw [h1] at h
        obtain ⟨p1, p2, p3, p4⟩ := s1 m h1
        obtain ⟨q1, q2, q3⟩ := (addCodecs_spec W hW cs (done ++ [c]) m p4 (by rw [List.length_append, List.length_singleton]; omega)
          (by rw [← happ]; exact hw)).1 a' h
        rw [happ]
        refine ⟨q1, q2, ?_⟩
        intro x hx
        rcases List.mem_cons.mp hx with rfl | hx
        · exact p2
        · exact q3 x hx
    · intro h1 h2 h3
      have hlen : done.length + (cs.length + 1) ≤ 50 := by simpa using h1
      obtain ⟨m, hm⟩ := s2 (h2 c List.mem_cons_self) (h3 c List.mem_cons_self) (by omega)
      rw [hm]
      obtain ⟨_, _, _, p4⟩ := s1 m hm
      exact (addCodecs_spec W hW cs (done ++ [c]) m p4 (by rw [List.length_append, List.length_singleton]; omega)
          (by rw [← happ]; exact hw)).2 (by rw [← happ]; exact h1) (fun c hc => h2 c (List.mem_cons_of_mem _ hc))
          (fun c hc => h3 c (List.mem_cons_of_mem _ hc))

/-! ## Whole streams -/

theorem start_holds (kind : MediaType) (port : Nat) :
    ∃ m, ({ kind := kind, port := port } : Media).addProperty "sendrecv".toList = some m ∧ Holds kind port [] m := by
  refine ⟨{ kind := kind, port := port, attributes := [.property "sendrecv".toList] }, ?_, ?_⟩
  · unfold Media.addProperty
    rw [if_neg (by decide), if_neg (by simp)]
    simp
  · constructor <;> simp [keepLast, mapLines, Tbl.keys]

/-- The line for key presses. -/
def keysLine (on : Bool) : List Attribute := if on then [.value "fmtp".toList "101 0-16".toList] else []

/-- The line for one port. -/
def muxLine (on : Bool) : List Attribute := if on then [.property "rtcp-mux".toList] else []

theorem keysLine_length (on : Bool) : (keysLine on).length ≤ 1 := by cases on <;> decide

theorem addMux_spec (on : Bool) (m : Media) (h : m.attributes.length < 50) :
    addMux on m = some { m with attributes := m.attributes ++ muxLine on } := by
  cases on
  · have : muxLine false = [] := rfl
    rw [this, List.append_nil]
    rfl
  · unfold addMux Media.addProperty
    rw [if_pos rfl, if_neg (by decide), if_neg (by omega)]
    rfl

theorem addKeys_eq (m : Media) (h : ∀ m', addCodecs [keysCodec] m = some m' → m'.attributes.length < 50) :
    addTelephoneEvent m = (addCodecs [keysCodec] m).map (fun m' => { m' with attributes := m'.attributes ++ keysLine true }) := by
  unfold addTelephoneEvent
  simp only [addCodecs, keysCodec] at h ⊢
  cases h1 : m.addFormat 101 with
  | none => rfl
  | some m1 =>
    rw [h1] at h
    simp only at h ⊢
    cases h2 : m1.addRtpmap ⟨101, "telephone-event".toList, 8000, none⟩ with
    | none => rfl
    | some m2 =>
      rw [h2] at h
      have := h m2 rfl
      simp only [Option.map_some]
      unfold Media.addAttribute
      rw [if_neg (by decide), if_neg (by decide), if_neg (by omega)]
      rfl

theorem good_keys : GoodCodec keysCodec := by
  unfold GoodCodec keysCodec
  rw [field_iff]
  decide

theorem addCodecs_append : ∀ (cs ds : List Codec) (a : Media), addCodecs (cs ++ ds) a = (addCodecs cs a).bind (addCodecs ds)
  | [], _, _ => rfl
  | c :: cs, ds, a => by
    rw [List.cons_append, addCodecs_cons, addCodecs_cons c cs]
    cases addCodecs [c] a with
    | none => rfl
    | some m => exact addCodecs_append cs ds m

theorem holds_attributes {kind port cs a} (W : List Nat) (hW : W.length ≤ 44) (h : ∀ c ∈ cs, c.payload ∈ W)
    (hf : Holds kind port cs a) : a.attributes.length ≤ 45 := by
  rw [hf.attributes]
  have := keepLast_short W hW cs h
  simp only [mapLines, List.length_cons, List.length_map]
  omega

theorem holds_stream {kind port cs a} (hf : Holds kind port cs a) (keys mux : Bool) :
    Stream kind port cs (keys = true) (mux = true) { a with
      attributes := a.attributes ++ keysLine keys ++ muxLine mux } := by
  have hs := hf.same
  obtain ⟨k, po, np, pr, fo, ti, co, bw, ke, at', rm⟩ := a
  simp only [Media.mk.injEq] at hs
  obtain ⟨rfl, rfl, rfl, rfl, _, rfl, rfl, rfl, rfl, _⟩ := hs
  refine ⟨keysLine keys, muxLine mux, ?_, ?_, hf.get, ?_⟩
  · cases keys
    · exact Or.inr ⟨by decide, rfl⟩
    · exact Or.inl ⟨rfl, rfl⟩
  · cases mux
    · exact Or.inr ⟨by decide, rfl⟩
    · exact Or.inl ⟨rfl, rfl⟩
  · have h1 := hf.formats
    have h2 := hf.attributes
    simp only at h1 h2
    subst h1 h2
    rw [List.cons_append, List.cons_append]
    rfl

/-- The codecs of the audio stream, with the one for key presses. -/
def withKeys (keys : Bool) (cs : List Codec) : List Codec := if keys then cs ++ [keysCodec] else cs

theorem audioStream_spec (p : Profile) (port : Nat) (W : List Nat) (hW : W.length ≤ 43) (hd : p.direction = "sendrecv".toList)
    (hw : ∀ c ∈ p.audio, c.payload ≤ 127 ∧ c.payload ∈ W) :
    (∀ a, p.audioStream port = some a → (withKeys p.telephoneEvent p.audio).length ≤ 50 ∧ (∀ c ∈ p.audio, GoodCodec c) ∧
      Stream .audio port (withKeys p.telephoneEvent p.audio) (p.telephoneEvent = true) (p.rtcpMux = true) a) ∧
    ((withKeys p.telephoneEvent p.audio).length ≤ 50 → (∀ c ∈ p.audio, GoodCodec c) → ∃ a, p.audioStream port = some a) := by
  obtain ⟨m, hm, hm0⟩ := start_holds .audio port
  have hW' : (101 :: W).length ≤ 44 := by simp only [List.length_cons]; omega
  have hall : ∀ c ∈ withKeys p.telephoneEvent p.audio, c.payload ≤ 127 ∧ c.payload ∈ 101 :: W := by
    intro c hc
    unfold withKeys at hc
    split at hc
    · rcases List.mem_append.mp hc with hc | hc
      · exact ⟨(hw c hc).1, List.mem_cons_of_mem _ (hw c hc).2⟩
      · rw [List.mem_singleton] at hc
        subst hc
        exact ⟨by decide, List.mem_cons_self⟩
    · exact ⟨(hw c hc).1, List.mem_cons_of_mem _ (hw c hc).2⟩
  obtain ⟨s1, s2⟩ := addCodecs_spec (101 :: W) hW' (withKeys p.telephoneEvent p.audio) [] m hm0 (by simp)
    (fun c hc => (hall c hc).2)
  simp only [List.nil_append] at s1 s2
  have hgood : (∀ c ∈ withKeys p.telephoneEvent p.audio, GoodCodec c) ↔ ∀ c ∈ p.audio, GoodCodec c := by
    unfold withKeys
    split
    · constructor
      · intro h c hc; exact h c (List.mem_append_left _ hc)
      · intro h c hc
        rcases List.mem_append.mp hc with hc | hc
        · exact h c hc
        · rw [List.mem_singleton] at hc
          subst hc
          exact good_keys
    · exact Iff.rfl
  rw [hgood] at s2
  have heq : p.audioStream port = (addCodecs (withKeys p.telephoneEvent p.audio) m).map (fun a => { a with
      attributes := a.attributes ++ keysLine p.telephoneEvent ++
        muxLine p.rtcpMux }) := by
    unfold Profile.audioStream
    rw [hd, hm]
    simp only
    cases ht : p.telephoneEvent with
    | false =>
      rw [ht] at s1
      simp only [withKeys, Bool.false_eq_true, if_false] at s1 ⊢
      cases h1 : addCodecs p.audio m with
      | none => rfl
      | some m1 =>
        obtain ⟨q1, _, _⟩ := s1 m1 h1
        have := holds_attributes (101 :: W) hW' (fun c hc => List.mem_cons_of_mem _ (hw c hc).2) q1
        simp only [Option.map_some]
        rw [addMux_spec _ _ (by omega)]
        have hk : keysLine false = [] := rfl
        rw [hk, List.append_nil]
    | true =>
      rw [ht] at s1
      simp only [withKeys, if_true] at s1 ⊢
      rw [addCodecs_append] at s1 ⊢
      cases h1 : addCodecs p.audio m with
      | none => rfl
      | some m1 =>
        rw [h1] at s1
        simp only [Option.bind_some] at s1 ⊢
        have hlen : ∀ m', addCodecs [keysCodec] m1 = some m' → m'.attributes.length ≤ 45 := by
          intro m' h'
          obtain ⟨q1, _, _⟩ := s1 m' h'
          refine holds_attributes (101 :: W) hW' ?_ q1
          intro c hc
          refine (hall c ?_).2
          rw [ht]
          exact hc
        rw [addKeys_eq m1 (fun m' h' => by have := hlen m' h'; omega)]
        cases h2 : addCodecs [keysCodec] m1 with
        | none => rfl
        | some m2 =>
          have := hlen m2 h2
          simp only [Option.map_some]
          rw [addMux_spec _ _ (by
            have := keysLine_length true
            simp only [List.length_append]; omega)]
  rw [heq]
  constructor
  · intro a ha
    cases h1 : addCodecs (withKeys p.telephoneEvent p.audio) m with
    | none => rw [h1] at ha; cases ha
    | some m1 =>
      rw [h1] at ha
      simp only [Option.map_some, Option.some.injEq] at ha
      obtain ⟨q1, q2, q3⟩ := s1 m1 h1
      subst ha
      exact ⟨q2, hgood.mp q3, holds_stream q1 _ _⟩
  · intro h1 h2
    obtain ⟨a, ha⟩ := s2 h1 (fun c hc => (hall c hc).1) h2
    rw [ha]
    exact ⟨_, rfl⟩

theorem videoStream_spec (p : Profile) (port : Nat) (W : List Nat) (hW : W.length ≤ 43) (hd : p.direction = "sendrecv".toList)
    (hw : ∀ c ∈ p.video, c.payload ≤ 127 ∧ c.payload ∈ W) :
    (∀ a, p.videoStream port = some a → p.video.length ≤ 50 ∧ (∀ c ∈ p.video, GoodCodec c) ∧
      Stream .video port p.video False (p.rtcpMux = true) a) ∧
    (p.video.length ≤ 50 → (∀ c ∈ p.video, GoodCodec c) → ∃ a, p.videoStream port = some a) := by
  obtain ⟨m, hm, hm0⟩ := start_holds .video port
  obtain ⟨s1, s2⟩ := addCodecs_spec W (by omega) p.video [] m hm0 (by simp) (fun c hc => (hw c hc).2)
  simp only [List.nil_append] at s1 s2
  have heq : p.videoStream port = (addCodecs p.video m).map (fun a => { a with
      attributes := a.attributes ++ keysLine false ++
        muxLine p.rtcpMux }) := by
    unfold Profile.videoStream
    rw [hd, hm]
    simp only
    cases h1 : addCodecs p.video m with
    | none => rfl
    | some m1 =>
      obtain ⟨q1, _, _⟩ := s1 m1 h1
      have := holds_attributes W (by omega) (fun c hc => (hw c hc).2) q1
      simp only [Option.map_some]
      rw [addMux_spec _ _ (by omega)]
      have hk : keysLine false = [] := rfl
      rw [hk, List.append_nil]
  rw [heq]
  constructor
  · intro a ha
    cases h1 : addCodecs p.video m with
    | none => rw [h1] at ha; cases ha
    | some m1 =>
      rw [h1] at ha
      simp only [Option.map_some, Option.some.injEq] at ha
      obtain ⟨q1, q2, q3⟩ := s1 m1 h1
      subst ha
      have hs := holds_stream q1 false p.rtcpMux
      rw [show (false = true) = False from by simp] at hs
      exact ⟨q2, q3, hs⟩
  · intro h1 h2
    obtain ⟨a, ha⟩ := s2 h1 (fun c hc => (hw c hc).1) h2
    rw [ha]
    exact ⟨_, rfl⟩

end Siphon.Sdp
