import Verif.Sdp.TextLemmas
set_option linter.unusedSimpArgs false
/-!
# Lemmas: the description that lines make
-/
namespace Siphon.Sdp
open Siphon.TextSpec Spec

/-! ## Maps -/

theorem mapValue_iff (v : Str) (r : RtpMap) : MapValue v r ↔ parseRtpmap v = some r := by
  unfold MapValue parseRtpmap
  constructor
  · rintro ⟨p, rest, clock, more, rfl, h2, h3, h4, h5, h6, h7, h8⟩
    rw [(Siphon.Auth.splitOnce_some_iff ' ' _ p rest).mpr ⟨rfl, h2⟩]
    simp only
    rw [(parseDec_iff _ _ _).mpr ⟨h3, h4⟩]
    simp only
    rw [← (pieces_iff _ _ _).mp h5]
    simp only
    rw [(parseDec_iff _ _ _).mpr ⟨h6, h7⟩, ← h8]
  · intro h
    cases h1 : splitOnce ' ' v with
    | none => rw [h1] at h; cases h
    | some q =>
      obtain ⟨p, rest⟩ := q
      rw [h1] at h
      simp only at h
      obtain ⟨rfl, e2⟩ := (Siphon.Auth.splitOnce_some_iff ' ' _ p rest).mp h1
      cases h2 : parseDec 255 p with
      | none => rw [h2] at h; cases h
      | some pt =>
        rw [h2] at h
        simp only at h
        split at h
        · rename_i name clock more hs
          cases h3 : parseDec 4294967295 clock with
          | none => rw [h3] at h; cases h
          | some c =>
            rw [h3] at h
            simp only [Option.some.injEq] at h
            subst h
            obtain ⟨f1, f2⟩ := (parseDec_iff _ _ _).mp h2
            obtain ⟨g1, g2⟩ := (parseDec_iff _ _ _).mp h3
            exact ⟨p, rest, clock, more, rfl, e2, f1, f2, (pieces_iff _ _ _).mpr hs.symm, g1, g2, rfl⟩
        · cases h

theorem rtpmapsOf_append (as bs : List Attribute) (t : Tbl Nat RtpMap) :
    rtpmapsOf (as ++ bs) t = rtpmapsOf bs (rtpmapsOf as t) := by
  induction as generalizing t with
  | nil => rfl
  | cons a as ih =>
    cases a with
    | property n => exact ih t
    | value n v =>
      simp only [List.cons_append, rtpmapsOf]
      split
      · split <;> exact ih _
      · exact ih t

theorem rtpmaps_iff (as : List Attribute) (pt : Nat) (r : RtpMap) :
    Tbl.get (rtpmapsOf as []) pt = some r ↔ LastMap as pt r := by
  induction as using snocInd with
  | h1 =>
    constructor
    · intro h; cases h
    · rintro ⟨pre, v, post, h, _⟩; simp at h
  | h2 as a ih =>
    have hskip : (∀ v x, a = .value "rtpmap".toList v → MapValue v x → x.payload ≠ pt) → (LastMap (as ++ [a]) pt r ↔ LastMap as pt r) := by
      intro hno
      constructor
      · rintro ⟨pre, v, post, h1, h2, h3, h4⟩
        rcases snoc_cases post with rfl | ⟨post', b, rfl⟩
        · obtain ⟨rfl, e⟩ := List.append_inj' h1 rfl
          simp only [List.cons.injEq, and_true] at e
          exact absurd h3 (hno v r e h2)
        · rw [show pre ++ Attribute.value "rtpmap".toList v :: (post' ++ [b]) = (pre ++ Attribute.value "rtpmap".toList v :: post') ++ [b] by simp] at h1
          obtain ⟨rfl, _⟩ := List.append_inj' h1 rfl
          exact ⟨pre, v, post', rfl, h2, h3, fun w r' hw => h4 w r' (List.mem_append_left _ hw)⟩
      · rintro ⟨pre, v, post, rfl, h2, h3, h4⟩
        refine ⟨pre, v, post ++ [a], by simp, h2, h3, ?_⟩
        intro w r' hw hm
        rcases List.mem_append.mp hw with hw | hw
        · exact h4 w r' hw hm
        · simp only [List.mem_singleton] at hw
          exact hno w r' hw.symm hm
    rw [rtpmapsOf_append]
    cases a with
    | property n =>
      simp only [rtpmapsOf]
      rw [ih, hskip (by simp)]
    | value n v =>
      simp only [rtpmapsOf]
      split
      · rename_i hn
        subst hn
        split
        · rename_i x hx
          by_cases hp : x.payload = pt
          · subst hp
            rw [Tbl.get_insert_self]
            constructor
            · intro h
              simp only [Option.some.injEq] at h
              subst h
              exact ⟨as, v, [], rfl, (mapValue_iff _ _).mpr hx, rfl, by simp⟩
            · rintro ⟨pre, w, post, h1, h2, h3, h4⟩
              rcases snoc_cases post with rfl | ⟨post', b, rfl⟩
              · obtain ⟨rfl, e⟩ := List.append_inj' h1 rfl
                simp only [List.cons.injEq, and_true, Attribute.value.injEq, true_and] at e
                subst e
                rw [mapValue_iff, hx] at h2
                exact h2
              · rw [show pre ++ Attribute.value "rtpmap".toList w :: (post' ++ [b]) = (pre ++ Attribute.value "rtpmap".toList w :: post') ++ [b] by simp] at h1
                obtain ⟨rfl, e⟩ := List.append_inj' h1 rfl
                simp only [List.cons.injEq, and_true] at e
                subst e
                exact absurd rfl (h4 v x (by simp) ((mapValue_iff _ _).mpr hx))
          · rw [Tbl.get_insert_ne _ _ (Ne.symm hp), ih, hskip ?_]
            intro w y hw hy
            simp only [Attribute.value.injEq, true_and] at hw
            subst hw
            rw [mapValue_iff, hx] at hy
            simp only [Option.some.injEq] at hy
            subst hy
            exact hp
        · rename_i hx
          rw [ih, hskip ?_]
          intro w y hw hy
          simp only [Attribute.value.injEq, true_and] at hw
          subst hw
          rw [mapValue_iff, hx] at hy
          cases hy
      · rename_i hn
        rw [ih, hskip ?_]
        intro w y hw
        simp only [Attribute.value.injEq] at hw
        exact absurd hw.1 hn

/-! ## One line -/

theorem addLine_global {st st' : Parts} {l : SdpLine} (h : addLine st l = some st') :
    st'.version = (versionOf l).or st.version ∧ st'.origin = (originOf l).or st.origin ∧ st'.name = (nameOf l).or st.name ∧
    st'.uri = (uriOf l).or st.uri ∧ st'.email = (emailOf l).or st.email ∧ st'.phone = (phoneOf l).or st.phone := by
  cases l <;> simp only [addLine] at h <;> (repeat' split at h) <;>
    first | (cases h; done) | (simp only [Option.some.injEq] at h; subst h; simp [versionOf, originOf, nameOf, uriOf, emailOf, phoneOf])

theorem addLine_zones {st st' : Parts} {l : SdpLine} (h : addLine st l = some st') :
    st'.zones = st.zones ++ (zoneOf l).toList.flatten ∧ ∀ z, zoneOf l = some z → validZones z = true := by
  cases l <;> simp only [addLine] at h <;> (repeat' split at h) <;>
    first | (cases h; done) | (simp only [Option.some.injEq] at h; subst h; simp_all [zoneOf])

theorem addLine_time {st st' : Parts} {l : SdpLine} (h : addLine st l = some st') :
    (timing l = none ∧ st'.times = st.times ∧ st'.current = st.current) ∨
    (∃ a b, l = .time a b ∧ st'.times = flushTo st.times st.current ∧ st'.current = some ⟨a, b, []⟩) ∨
    (∃ r t, l = .repeat r ∧ validRepeat r = true ∧ st'.times = st.times ∧ st.current = some t ∧
      st'.current = some { t with repeats := t.repeats ++ [r] }) := by
  cases l <;> simp only [addLine] at h <;> (repeat' split at h) <;>
    first | (cases h; done) | (simp only [Option.some.injEq] at h; subst h; simp_all [timing])

theorem addLine_session {st st' : Parts} {l : SdpLine} (h : addLine st l = some st') (hm : st.media = none) (hl : isMedia l = false) :
    st'.media = none ∧ st'.blocks = st.blocks ∧ st'.info = (infoOf l).or st.info ∧
    st'.connection = (connectionOf l).or st.connection ∧ st'.bandwidth = st.bandwidth ++ (bandwidthOf l).toList ∧
    st'.key = (keyOf l).or st.key ∧ st'.attributes = st.attributes ++ (attributeOf l).toList ∧
    (∀ a, attributeOf l = some a → st.attributes.length < 500) := by
  cases l <;> simp only [addLine, hm] at h <;> (repeat' split at h) <;>
    first
    | (cases h; done)
    | (cases hl; done)
    | (simp only [Option.some.injEq] at h; subst h; simp_all [infoOf, connectionOf, bandwidthOf, keyOf, attributeOf])

theorem addLine_stream {st st' : Parts} {l : SdpLine} {m : Media} (h : addLine st l = some st') (hm : st.media = some m)
    (hl : isMedia l = false) :
    st'.blocks = st.blocks ∧ st'.info = st.info ∧ st'.connection = st.connection ∧ st'.bandwidth = st.bandwidth ∧
    st'.key = st.key ∧ st'.attributes = st.attributes ∧
    st'.media = some { m with title := (infoOf l).or m.title, connection := (connectionOf l).or m.connection,
                              bandwidth := m.bandwidth ++ (bandwidthOf l).toList, key := (keyOf l).or m.key,
                              attributes := m.attributes ++ (attributeOf l).toList } ∧
    (∀ a, attributeOf l = some a → m.attributes.length < 500) := by
  cases l <;> simp only [addLine, hm] at h <;> (repeat' split at h) <;>
    first
    | (cases h; done)
    | (cases hl; done)
    | (simp only [Option.some.injEq] at h; subst h; simp_all [infoOf, connectionOf, bandwidthOf, keyOf, attributeOf])

/-! ## All lines -/

/-- The stream of a section, before its maps are collected. -/
def rawMedia (sec : Media × List SdpLine) : Media :=
  { sec.1 with title := last infoOf sec.2, connection := last connectionOf sec.2, bandwidth := sec.2.filterMap bandwidthOf,
               key := last keyOf sec.2, attributes := sec.2.filterMap attributeOf }

/-- A stream with nothing but its line `m=`. -/
def Bare (m : Media) : Prop :=
  m = { kind := m.kind, port := m.port, numPorts := m.numPorts, protocol := m.protocol, formats := m.formats }

/-- Every line `m=` stands for itself only. -/
def BareLines (ls : List SdpLine) : Prop := ∀ m, SdpLine.media m ∈ ls → Bare m

/-- The lines of a time description. -/
def timeItems (t : TimeDesc) : List ((Nat × Nat) ⊕ RepeatTime) := .inl (t.start, t.stop) :: t.repeats.map .inr

/-- What has been collected from some lines. -/
structure Built (ls : List SdpLine) (st : Parts) (hd : List SdpLine) (secs : List (Media × List SdpLine)) : Prop where
  sections : Sections ls hd secs
  noStream : secs = [] → st.media = none ∧ st.blocks = []
  streams : ∀ q x, secs = q ++ [x] → st.media = some (rawMedia x) ∧ st.blocks = q.map rawMedia
  version : st.version = last versionOf ls
  origin : st.origin = last originOf ls
  name : st.name = last nameOf ls
  uri : st.uri = last uriOf ls
  email : st.email = last emailOf ls
  phone : st.phone = last phoneOf ls
  info : st.info = last infoOf hd
  connection : st.connection = last connectionOf hd
  bandwidth : st.bandwidth = hd.filterMap bandwidthOf
  key : st.key = last keyOf hd
  attributes : st.attributes = hd.filterMap attributeOf
  limit : st.attributes.length ≤ 500
  limits : ∀ x ∈ secs, (rawMedia x).attributes.length ≤ 500
  times : ls.filterMap timing = (flushTo st.times st.current).flatMap timeItems
  noTime : st.current = none → st.times = []
  repeats : ∀ t ∈ flushTo st.times st.current, ∀ r ∈ t.repeats, validRepeat r = true
  zones : st.zones = (ls.filterMap zoneOf).flatten
  zonesOk : ∀ z ∈ ls.filterMap zoneOf, validZones z = true

theorem last_snoc {α : Type} (f : SdpLine → Option α) (ls : List SdpLine) (l : SdpLine) :
    last f (ls ++ [l]) = (f l).or (last f ls) := by
  unfold last
  rw [List.filterMap_append]
  cases h : f l with
  | none => simp [List.filterMap_cons, h]
  | some x => simp [List.filterMap_cons, h]

theorem filterMap_snoc {α : Type} (f : SdpLine → Option α) (ls : List SdpLine) (l : SdpLine) :
    (ls ++ [l]).filterMap f = ls.filterMap f ++ (f l).toList := by
  rw [List.filterMap_append]
  cases h : f l <;> simp [List.filterMap_cons, h]

theorem built_step {ls : List SdpLine} {st : Parts} {hd : List SdpLine} {secs : List (Media × List SdpLine)} (B : Built ls st hd secs)
    {l : SdpLine} {st' : Parts} (h : addLine st l = some st') (hb : ∀ m, l = .media m → Bare m) :
    ∃ hd' secs', Built (ls ++ [l]) st' hd' secs' := by
  obtain ⟨g1, g2, g3, g4, g5, g6⟩ := addLine_global h
  obtain ⟨z1, z2⟩ := addLine_zones h
  have ht := addLine_time h
  have hversion : st'.version = last versionOf (ls ++ [l]) := by rw [g1, B.version, last_snoc]
  have horigin : st'.origin = last originOf (ls ++ [l]) := by rw [g2, B.origin, last_snoc]
  have hname : st'.name = last nameOf (ls ++ [l]) := by rw [g3, B.name, last_snoc]
  have huri : st'.uri = last uriOf (ls ++ [l]) := by rw [g4, B.uri, last_snoc]
  have hemail : st'.email = last emailOf (ls ++ [l]) := by rw [g5, B.email, last_snoc]
  have hphone : st'.phone = last phoneOf (ls ++ [l]) := by rw [g6, B.phone, last_snoc]
  have hzones : st'.zones = ((ls ++ [l]).filterMap zoneOf).flatten := by
    rw [z1, B.zones, filterMap_snoc, List.flatten_append]
  have hzonesOk : ∀ z ∈ (ls ++ [l]).filterMap zoneOf, validZones z = true := by
    intro z hz
    rw [filterMap_snoc] at hz
    rcases List.mem_append.mp hz with hz | hz
    · exact B.zonesOk z hz
    · exact z2 z (by simpa using hz)
  have htimes : (ls ++ [l]).filterMap timing = (flushTo st'.times st'.current).flatMap timeItems ∧
      (st'.current = none → st'.times = []) ∧ ∀ t ∈ flushTo st'.times st'.current, ∀ r ∈ t.repeats, validRepeat r = true := by
    rw [filterMap_snoc, B.times]
    rcases ht with ⟨t1, t2, t3⟩ | ⟨a, b, rfl, t2, t3⟩ | ⟨r, t, rfl, t2, t3, t4, t5⟩
    · rw [t1, t2, t3]
      exact ⟨by simp, B.noTime, B.repeats⟩
    · rw [t2, t3]
      refine ⟨by simp [flushTo, timing, timeItems], by simp, ?_⟩
      intro t ht
      simp only [flushTo, List.mem_append, List.mem_singleton] at ht
      rcases ht with ht | rfl
      · exact B.repeats t ht
      · simp
    · rw [t3, t5, t4]
      refine ⟨by simp [flushTo, timing, timeItems], by simp, ?_⟩
      intro u hu
      simp only [flushTo, List.mem_append, List.mem_singleton] at hu
      rcases hu with hu | rfl
      · exact B.repeats u (by rw [t4]; simp [flushTo, hu])
      · intro q hq
        simp only [List.mem_append, List.mem_singleton] at hq
        rcases hq with hq | rfl
        · exact B.repeats t (by rw [t4]; simp [flushTo]) q hq
        · exact t2
  obtain ⟨ht1, ht2, ht3⟩ := htimes
  cases hl : isMedia l with
  | true =>
    cases l with
    | media m =>
      simp only [addLine, Option.some.injEq] at h
      subst h
      have hbare := hb m rfl
      have hraw : rawMedia (m, []) = m := by
        unfold rawMedia
        rw [hbare]
        rfl
      refine ⟨hd, secs ++ [(m, [])], ?_⟩
      exact {
        sections := sections_media B.sections m
        noStream := by simp
        streams := by
          intro q x hq
          obtain ⟨rfl, e⟩ := List.append_inj' hq rfl
          simp only [List.cons.injEq, and_true] at e
          subst e
          refine ⟨by rw [hraw], ?_⟩
          rcases snoc_cases secs with rfl | ⟨q', y, rfl⟩
          · obtain ⟨e1, e2⟩ := B.noStream rfl
            simp [e1, e2, flushTo]
          · obtain ⟨e1, e2⟩ := B.streams q' y rfl
            simp [e1, e2, flushTo]
        version := hversion, origin := horigin, name := hname, uri := huri, email := hemail, phone := hphone
        info := B.info, connection := B.connection, bandwidth := B.bandwidth, key := B.key, attributes := B.attributes
        limit := B.limit
        limits := by
          intro x hx
          rcases List.mem_append.mp hx with hx | hx
          · exact B.limits x hx
          · simp only [List.mem_singleton] at hx
            subst hx
            simp [rawMedia]
        times := ht1, noTime := ht2, repeats := ht3, zones := hzones, zonesOk := hzonesOk }
    | _ => cases hl
  | false =>
    rcases snoc_cases secs with rfl | ⟨q, ⟨m, body⟩, rfl⟩
    · obtain ⟨e1, e2⟩ := B.noStream rfl
      obtain ⟨f1, f2, f3, f4, f5, f6, f7, f8⟩ := addLine_session h e1 hl
      obtain ⟨rfl, hs⟩ := sections_head B.sections l hl
      refine ⟨hd ++ [l], [], ?_⟩
      exact {
        sections := hs
        noStream := fun _ => ⟨f1, by rw [f2, e2]⟩
        streams := by intro q x hq; simp at hq
        version := hversion, origin := horigin, name := hname, uri := huri, email := hemail, phone := hphone
        info := by rw [f3, B.info, last_snoc]
        connection := by rw [f4, B.connection, last_snoc]
        bandwidth := by rw [f5, B.bandwidth, filterMap_snoc]
        key := by rw [f6, B.key, last_snoc]
        attributes := by rw [f7, B.attributes, filterMap_snoc]
        limit := by
          rw [f7, List.length_append]
          cases ha : attributeOf l with
          | none => simpa using B.limit
          | some a => have := f8 a ha; simp; omega
        limits := by simp
        times := ht1, noTime := ht2, repeats := ht3, zones := hzones, zonesOk := hzonesOk }
    · obtain ⟨e1, e2⟩ := B.streams q (m, body) rfl
      obtain ⟨f1, f2, f3, f4, f5, f6, f7, f8⟩ := addLine_stream h e1 hl
      have hraw : rawMedia (m, body ++ [l]) = { rawMedia (m, body) with title := (infoOf l).or (rawMedia (m, body)).title, connection := (connectionOf l).or (rawMedia (m, body)).connection, bandwidth := (rawMedia (m, body)).bandwidth ++ (bandwidthOf l).toList, key := (keyOf l).or (rawMedia (m, body)).key, attributes := (rawMedia (m, body)).attributes ++ (attributeOf l).toList } := by
        simp only [rawMedia, last_snoc, filterMap_snoc]
      refine ⟨hd, q ++ [(m, body ++ [l])], ?_⟩
      exact {
        sections := sections_body B.sections l hl
        noStream := by simp
        streams := by
          intro q' x hq
          obtain ⟨rfl, e⟩ := List.append_inj' hq rfl
          simp only [List.cons.injEq, and_true] at e
          subst e
          exact ⟨by rw [f7, hraw], by rw [f1, e2]⟩
        version := hversion, origin := horigin, name := hname, uri := huri, email := hemail, phone := hphone
        info := by rw [f2, B.info]
        connection := by rw [f3, B.connection]
        bandwidth := by rw [f4, B.bandwidth]
        key := by rw [f5, B.key]
        attributes := by rw [f6, B.attributes]
        limit := by rw [f6]; exact B.limit
        limits := by
          intro x hx
          rcases List.mem_append.mp hx with hx | hx
          · exact B.limits x (List.mem_append_left _ hx)
          · simp only [List.mem_singleton] at hx
            subst hx
            rw [hraw]
            simp only [List.length_append]
            have := B.limits (m, body) (by simp)
            cases ha : attributeOf l with
            | none => simpa using this
            | some a => have := f8 a ha; simp; omega
        times := ht1, noTime := ht2, repeats := ht3, zones := hzones, zonesOk := hzonesOk }

theorem built_nil : Built [] {} [] [] where
  sections := .head (by simp)
  noStream := fun _ => ⟨rfl, rfl⟩
  streams := by intro q x hq; simp at hq
  version := rfl
  origin := rfl
  name := rfl
  uri := rfl
  email := rfl
  phone := rfl
  info := rfl
  connection := rfl
  bandwidth := rfl
  key := rfl
  attributes := rfl
  limit := by decide
  limits := by simp
  times := rfl
  noTime := fun _ => rfl
  repeats := by intro t ht; simp [flushTo] at ht
  zones := rfl
  zonesOk := by simp

theorem addLines_append (a b : List SdpLine) (st : Parts) : addLines (a ++ b) st = (addLines a st).bind (addLines b) := by
  induction a generalizing st with
  | nil => rfl
  | cons l a ih =>
    simp only [List.cons_append, addLines]
    cases addLine st l with
    | none => rfl
    | some st' => exact ih st'

theorem built_all {ls : List SdpLine} (hb : BareLines ls) {st : Parts} (h : addLines ls {} = some st) :
    ∃ hd secs, Built ls st hd secs := by
  induction ls using snocInd generalizing st with
  | h1 =>
    simp only [addLines, Option.some.injEq] at h
    subst h
    exact ⟨[], [], built_nil⟩
  | h2 ls l ih =>
    rw [addLines_append] at h
    cases h1 : addLines ls {} with
    | none => rw [h1] at h; cases h
    | some st1 =>
      rw [h1] at h
      obtain ⟨hd, secs, B⟩ := ih (fun m hm => hb m (List.mem_append_left _ hm)) h1
      simp only [Option.bind_some, addLines] at h
      cases h2 : addLine st1 l with
      | none => rw [h2] at h; cases h
      | some st2 =>
        rw [h2] at h
        simp only [Option.some.injEq] at h
        subst h
        exact built_step B h2 (fun m hm => hb m (by rw [hm]; simp))

/-! ## The end -/

theorem validRepeat_iff (r : RepeatTime) : validRepeat r = true ↔ r.interval ≠ [] ∧ r.duration ≠ [] := by
  simp [validRepeat]

theorem validZones_iff (zs : List Zone) : validZones zs = true ↔ zs ≠ [] ∧ ∀ e ∈ zs, e.time ≠ [] ∧ e.offset ≠ [] := by
  simp [validZones]

theorem validMedia_iff (m : Media) : validMedia m = true ↔
    m.kind ≠ .other [] ∧ m.formats ≠ [] ∧ (∀ f ∈ m.formats, f ≠ []) ∧ (Rtp m.protocol → ∀ f ∈ m.formats, ∃ pt, Payload f pt) := by
  unfold validMedia
  simp only [Bool.and_eq_true, Bool.not_eq_true', beq_eq_false_iff_ne, ne_eq, Bool.or_eq_true, List.all_eq_true, rtp_iff,
    List.any_eq_false, and_assoc]
  have h1 : m.formats.isEmpty = false ↔ ¬ m.formats = [] := by cases m.formats <;> simp
  have h2 : (∀ x ∈ m.formats, ¬ List.isEmpty x = true) ↔ ∀ f ∈ m.formats, ¬ f = [] := by simp
  have h3 : (∀ x ∈ m.formats, (parsePayload x).isSome = true) ↔ ∀ f ∈ m.formats, ∃ pt, Payload f pt := by
    simp only [Option.isSome_iff_exists, payload_iff]
  rw [h1, h2, h3]
  have h4 : (isRtp m.protocol = false ∨ ∀ f ∈ m.formats, ∃ pt, Payload f pt) ↔ (isRtp m.protocol = true → ∀ f ∈ m.formats, ∃ pt, Payload f pt) := by
    cases isRtp m.protocol <;> simp
  rw [h4]

/-- The stream with its maps. -/
def withMaps (m : Media) : Media := { m with rtpmaps := rtpmapsOf m.attributes [] }

theorem finishAll_iff (ms rs : List Media) : finishAll ms = some rs ↔ (∀ m ∈ ms, validMedia m = true) ∧ rs = ms.map withMaps := by
  induction ms generalizing rs with
  | nil =>
    simp only [finishAll, Option.some.injEq, List.map_nil]
    exact ⟨fun h => ⟨by simp, h.symm⟩, fun h => h.2.symm⟩
  | cons m ms ih =>
    simp only [finishAll, finishMedia, List.forall_mem_cons, List.map_cons]
    by_cases hv : validMedia m = true
    · simp only [if_pos hv]
      cases hf : finishAll ms with
      | none =>
        simp only [Option.map_none, reduceCtorEq, hv, true_and, false_iff, not_and]
        intro h _
        have := (ih (ms.map withMaps)).mpr ⟨h, rfl⟩
        rw [hf] at this
        cases this
      | some rs' =>
        obtain ⟨e1, e2⟩ := (ih rs').mp hf
        simp only [Option.map_some, Option.some.injEq, hv, true_and]
        constructor
        · rintro rfl; exact ⟨e1, by rw [e2]; rfl⟩
        · rintro ⟨_, rfl⟩; rw [e2]; rfl
    · simp [hv]

theorem finish_iff (st : Parts) (s : Session) : finish st = some s ↔
    st.version = some 0 ∧ (∃ o, st.origin = some o ∧ ∃ n, st.name = some n ∧ (flushTo st.times st.current) ≠ [] ∧
      (∀ m ∈ flushTo st.blocks st.media, validMedia m = true) ∧
      s = { version := 0, origin := o, name := n, info := st.info, uri := st.uri, email := st.email, phone := st.phone,
            connection := st.connection, bandwidth := st.bandwidth, times := flushTo st.times st.current, zones := st.zones,
            key := st.key, attributes := st.attributes, media := (flushTo st.blocks st.media).map withMaps }) := by
  unfold finish
  cases hv : st.version with
  | none => simp
  | some v =>
  cases ho : st.origin with
  | none => simp
  | some o =>
  cases hn : st.name with
  | none => simp
  | some n =>
  simp only [Option.some.injEq]
  by_cases h0 : v = 0
  · subst h0
    simp only [ne_eq, not_true_eq_false, if_false, true_and]
    by_cases ht : (flushTo st.times st.current) = []
    · simp [ht]
    · have : (flushTo st.times st.current).isEmpty = false := by simp [ht]
      rw [this]
      simp only [Bool.false_eq_true, if_false]
      cases hf : finishAll (flushTo st.blocks st.media) with
      | none =>
        simp only [Option.map_none, reduceCtorEq, false_iff]
        rintro ⟨_, _, _, _, _, h, _⟩
        have := (finishAll_iff _ _).mpr ⟨h, rfl⟩
        rw [hf] at this
        cases this
      | some rs =>
        obtain ⟨e1, rfl⟩ := (finishAll_iff _ _).mp hf
        simp only [Option.map_some, Option.some.injEq]
        constructor
        · rintro rfl
          exact ⟨o, rfl, n, rfl, ht, e1, rfl⟩
        · rintro ⟨_, rfl, _, rfl, _, _, rfl⟩
          rfl
  · simp [h0]

theorem zip_map {α β : Type} {P : α → β → Prop} (f : α → β) (as : List α) (h : ∀ a ∈ as, P a (f a)) : Zip P as (as.map f) := by
  induction as with
  | nil => exact .nil
  | cons a as ih => exact .cons (h a List.mem_cons_self) (ih (fun b hb => h b (List.mem_cons_of_mem _ hb)))

theorem built_blocks {ls : List SdpLine} {st : Parts} {hd : List SdpLine} {secs : List (Media × List SdpLine)} (B : Built ls st hd secs) :
    flushTo st.blocks st.media = secs.map rawMedia := by
  rcases snoc_cases secs with rfl | ⟨q, x, rfl⟩
  · obtain ⟨e1, e2⟩ := B.noStream rfl
    rw [e1, e2]; rfl
  · obtain ⟨e1, e2⟩ := B.streams q x rfl
    rw [e1, e2]; simp [flushTo]

theorem build_describes {ls : List SdpLine} (hb : BareLines ls) {s : Session} (h : build ls = some s) : Describes ls s := by
  unfold build at h
  cases h1 : addLines ls {} with
  | none => rw [h1] at h; cases h
  | some st =>
    rw [h1] at h
    simp only at h
    obtain ⟨hd, secs, B⟩ := built_all hb h1
    obtain ⟨f1, o, f2, n, f3, f4, f5, rfl⟩ := (finish_iff _ _).mp h
    rw [built_blocks B] at f5 ⊢
    refine ⟨hd, secs, B.sections, rfl, by rw [← B.version, f1], by rw [← B.origin, f2], by rw [← B.name, f3],
      B.uri, B.email, B.phone, B.info, B.connection, B.bandwidth, B.key, B.attributes, B.limit, f4, B.times,
      fun t ht r hr => (validRepeat_iff r).mp (B.repeats t ht r hr), B.zones, fun z hz => (validZones_iff z).mp (B.zonesOk z hz), ?_⟩
    rw [List.map_map]
    refine zip_map _ _ ?_
    intro x hx
    obtain ⟨v1, v2, v3, v4⟩ := (validMedia_iff _).mp (f5 (rawMedia x) (List.mem_map.mpr ⟨x, hx, rfl⟩))
    exact ⟨rfl, fun pt r => rtpmaps_iff _ pt r, B.limits x hx, v1, v2, v3, v4⟩

theorem zip_map_eq {α β γ : Type} {P : α → β → Prop} (f : α → γ) (g : β → γ) {as : List α} {bs : List β} (h : Zip P as bs)
    (hP : ∀ a b, a ∈ as → P a b → f a = g b) : as.map f = bs.map g := by
  induction h with
  | nil => rfl
  | cons h _ ih =>
    rw [List.map_cons, List.map_cons, hP _ _ List.mem_cons_self h, ih (fun a b ha => hP a b (List.mem_cons_of_mem _ ha))]

theorem zip_mem {α β : Type} {P : α → β → Prop} {as : List α} {bs : List β} (h : Zip P as bs) {a : α} (ha : a ∈ as) :
    ∃ b ∈ bs, P a b := by
  induction h with
  | nil => cases ha
  | @cons a' b' as bs h _ ih =>
    rcases List.mem_cons.mp ha with rfl | ha
    · exact ⟨b', List.mem_cons_self, h⟩
    · obtain ⟨b, hb, hp⟩ := ih ha
      exact ⟨b, List.mem_cons_of_mem _ hb, hp⟩

theorem addLines_none {ls : List SdpLine} {st : Parts} (h : addLines ls st = none) :
    ∃ pre l post st1, ls = pre ++ l :: post ∧ addLines pre st = some st1 ∧ addLine st1 l = none := by
  induction ls generalizing st with
  | nil => cases h
  | cons l ls ih =>
    simp only [addLines] at h
    cases h1 : addLine st l with
    | none => exact ⟨[], l, ls, st, rfl, rfl, h1⟩
    | some st' =>
      rw [h1] at h
      obtain ⟨pre, x, post, st1, rfl, e2, e3⟩ := ih h
      exact ⟨l :: pre, x, post, st1, rfl, by simp only [addLines, h1]; exact e2, e3⟩

theorem addLine_none {st : Parts} {l : SdpLine} (h : addLine st l = none) :
    (∃ r, l = .repeat r ∧ (validRepeat r = false ∨ st.current = none)) ∨ (∃ z, l = .zone z ∧ validZones z = false) ∨
    (∃ a, l = .attribute a ∧ ((st.media = none ∧ 500 ≤ st.attributes.length) ∨ ∃ m, st.media = some m ∧ 500 ≤ m.attributes.length)) := by
  cases l <;> simp only [addLine] at h <;> (repeat' split at h) <;> simp_all

theorem attributes_prefix {a b : List SdpLine} (h : a <+: b) : (a.filterMap attributeOf).length ≤ (b.filterMap attributeOf).length := by
  obtain ⟨c, rfl⟩ := h
  rw [List.filterMap_append, List.length_append]
  omega

theorem describes_build {ls : List SdpLine} (hb : BareLines ls) {s : Session} (h : Describes ls s) : ∃ s', build ls = some s' := by
  obtain ⟨hd, secs, hs, d1, d2, d3, d4, d5, d6, d7, d8, d9, d10, d11, d12, d13, d14, d15, d16, d17, d18, d19⟩ := h
  have hadd : ∃ st, addLines ls {} = some st := by
    cases h1 : addLines ls {} with
    | some st => exact ⟨st, rfl⟩
    | none =>
      exfalso
      obtain ⟨pre, l, post, st1, rfl, e2, e3⟩ := addLines_none h1
      obtain ⟨hd1, secs1, B⟩ := built_all (fun m hm => hb m (List.mem_append_left _ hm)) e2
      rcases addLine_none e3 with ⟨r, rfl, hr⟩ | ⟨z, rfl, hz⟩ | ⟨a, rfl, ha⟩
      · have hmem : (Sum.inr r : (Nat × Nat) ⊕ RepeatTime) ∈ (pre ++ SdpLine.repeat r :: post).filterMap timing := by
          rw [List.filterMap_append]
          exact List.mem_append_right _ (by simp [List.filterMap_cons, timing])
        rcases hr with hr | hr
        · rw [d15] at hmem
          obtain ⟨t, ht, hm⟩ := List.mem_flatMap.mp hmem
          simp only [List.mem_cons, reduceCtorEq, List.mem_map, Sum.inr.injEq, exists_eq_right, false_or] at hm
          have := (validRepeat_iff r).mpr (d16 t ht r hm)
          rw [hr] at this
          cases this
        · have h0 := B.times
          rw [hr, B.noTime hr] at h0
          rw [List.filterMap_append, h0] at d15
          simp only [flushTo, List.flatMap_nil, List.nil_append, List.filterMap_cons, timing] at d15
          cases ht : s.times with
          | nil => exact d14 ht
          | cons t ts =>
            rw [ht] at d15
            simp at d15
      · have := (validZones_iff z).mpr (d18 z (by rw [List.filterMap_append]; exact List.mem_append_right _ (by simp [List.filterMap_cons, zoneOf])))
        rw [hz] at this
        cases this
      · have hsplit : pre ++ SdpLine.attribute a :: post = (pre ++ [.attribute a]) ++ post := by simp
        rw [hsplit] at hs
        rcases snoc_cases secs1 with rfl | ⟨q, ⟨m, body⟩, rfl⟩
        · obtain ⟨g1, g2⟩ := B.noStream rfl
          obtain ⟨rfl, k2⟩ := sections_head B.sections (.attribute a) rfl
          obtain ⟨hd2, secs2, k3, k4⟩ := sections_extend _ _ _ k2 post
          obtain ⟨rfl, rfl⟩ := sections_unique hs k3
          have hlen : 500 ≤ st1.attributes.length := by
            rcases ha with ⟨_, h⟩ | ⟨m, h, _⟩
            · exact h
            · rw [g1] at h; cases h
          rcases k4 with ⟨_, k4⟩ | ⟨_, _, _, _, _, h, _⟩
          · have := attributes_prefix k4
            rw [filterMap_snoc, List.length_append, ← B.attributes] at this
            rw [d12] at d13
            simp [attributeOf] at this
            omega
          · simp at h
        · obtain ⟨g1, g2⟩ := B.streams q (m, body) rfl
          have k2 := sections_body B.sections (.attribute a) rfl
          obtain ⟨hd2, secs2, k3, k4⟩ := sections_extend _ _ _ k2 post
          obtain ⟨rfl, rfl⟩ := sections_unique hs k3
          have hlen : 500 ≤ (rawMedia (m, body)).attributes.length := by
            rcases ha with ⟨h, _⟩ | ⟨m', h, h'⟩
            · rw [g1] at h; cases h
            · rw [g1] at h
              simp only [Option.some.injEq] at h
              rw [h]; exact h'
          rcases k4 with ⟨h, _⟩ | ⟨q', m', b, b2, w, h1, _, h2, h3⟩
          · simp at h
          · obtain ⟨rfl, e⟩ := List.append_inj' h1 rfl
            simp only [List.cons.injEq, Prod.mk.injEq, and_true] at e
            obtain ⟨rfl, rfl⟩ := e
            have hlim : (b2.filterMap attributeOf).length ≤ 500 := by
              obtain ⟨x, hx, hp⟩ := zip_mem d19 (a := (m, b2)) (by rw [h2]; simp)
              obtain ⟨p1, _, p3, _⟩ := hp
              rw [p1] at p3
              exact p3
            have := attributes_prefix h3
            rw [filterMap_snoc, List.length_append] at this
            simp [attributeOf] at this
            change 500 ≤ (body.filterMap attributeOf).length at hlen
            omega
  obtain ⟨st, hst⟩ := hadd
  obtain ⟨hd', secs', B⟩ := built_all hb hst
  obtain ⟨rfl, rfl⟩ := sections_unique hs B.sections
  suffices hf : ∃ s', finish st = some s' by
    obtain ⟨s', hf⟩ := hf
    exact ⟨s', by unfold build; rw [hst]; exact hf⟩
  · refine ⟨_, (finish_iff st _).mpr ⟨by rw [B.version, d2], s.origin, by rw [B.origin, d3], s.name, by rw [B.name, d4], ?_, ?_, rfl⟩⟩
    · intro h
      have := B.times
      rw [h, d15] at this
      cases ht : s.times with
      | nil => exact d14 ht
      | cons t ts => rw [ht] at this; simp at this
    · rw [built_blocks B]
      intro x hx
      obtain ⟨sec, hsec, rfl⟩ := List.mem_map.mp hx
      obtain ⟨y, _, hp⟩ := zip_mem d19 hsec
      obtain ⟨p1, _, _, p4, p5, p6, p7⟩ := hp
      refine (validMedia_iff _).mpr ?_
      rw [p1] at p4 p5 p6 p7
      exact ⟨p4, p5, p6, p7⟩

/-! ## The same description -/

theorem timeItems_inj : ∀ (a b : List TimeDesc), a.flatMap timeItems = b.flatMap timeItems → a = b := by
  have hsplit : ∀ (r r' : List RepeatTime) (x y : List TimeDesc),
      r.map (Sum.inr (α := Nat × Nat)) ++ x.flatMap timeItems = r'.map .inr ++ y.flatMap timeItems → r = r' ∧ x.flatMap timeItems = y.flatMap timeItems := by
    intro r
    induction r with
    | nil =>
      intro r' x y h
      cases r' with
      | nil => exact ⟨rfl, h⟩
      | cons q r' =>
        cases x with
        | nil => simp at h
        | cons t x => simp [timeItems] at h
    | cons p r ih =>
      intro r' x y h
      cases r' with
      | nil =>
        cases y with
        | nil => simp at h
        | cons t y => simp [timeItems] at h
      | cons q r' =>
        simp only [List.map_cons, List.cons_append, List.cons.injEq, Sum.inr.injEq] at h
        obtain ⟨e1, e2⟩ := ih r' x y h.2
        exact ⟨by rw [h.1, e1], e2⟩
  intro a
  induction a with
  | nil =>
    intro b h
    cases b with
    | nil => rfl
    | cons t b => simp [timeItems] at h
  | cons t a ih =>
    intro b h
    cases b with
    | nil => simp [timeItems] at h
    | cons u b =>
      simp only [List.flatMap_cons, timeItems, List.cons_append, List.cons.injEq, Sum.inl.injEq, Prod.mk.injEq] at h
      obtain ⟨⟨h1, h2⟩, h3⟩ := h
      obtain ⟨e1, e2⟩ := hsplit _ _ a b h3
      rw [ih b e2]
      cases t; cases u
      simp_all

theorem mediaSection_same {sec : Media × List SdpLine} {m m' : Media} (h : MediaSection sec m) (h' : MediaSection sec m') : SameMedia m m' := by
  obtain ⟨a1, a2, _⟩ := h
  obtain ⟨b1, b2, _⟩ := h'
  constructor
  · rw [a1, b1]
  · intro pt
    have hat : m.attributes = m'.attributes := by rw [a1, b1]
    apply Option.ext
    intro r
    rw [a2, b2, hat]

theorem zip_same {α β : Type} {P : α → β → Prop} {Q : β → β → Prop} (hq : ∀ a x y, P a x → P a y → Q x y) {as : List α} {bs cs : List β}
    (h : Zip P as bs) (h' : Zip P as cs) : Zip Q bs cs := by
  induction h generalizing cs with
  | nil => cases h'; exact .nil
  | cons h _ ih =>
    cases h' with
    | cons h1 h2 => exact .cons (hq _ _ _ h h1) (ih h2)

theorem describes_same {ls : List SdpLine} {s s' : Session} (h : Describes ls s) (h' : Describes ls s') :
    { s with media := [] } = { s' with media := [] } ∧ Zip SameMedia s.media s'.media := by
  obtain ⟨hd, secs, hs, d1, d2, d3, d4, d5, d6, d7, d8, d9, d10, d11, d12, d13, d14, d15, d16, d17, d18, d19⟩ := h
  obtain ⟨hd', secs', hs', c1, c2, c3, c4, c5, c6, c7, c8, c9, c10, c11, c12, c13, c14, c15, c16, c17, c18, c19⟩ := h'
  obtain ⟨rfl, rfl⟩ := sections_unique hs hs'
  have ht : s.times = s'.times := timeItems_inj _ _ (d15.symm.trans c15)
  have ho : s.origin = s'.origin := Option.some.inj (d3.symm.trans c3)
  have hn : s.name = s'.name := Option.some.inj (d4.symm.trans c4)
  constructor
  · rw [d1, c1, ho, hn, d5, c5, d6, c6, d7, c7, d8, c8, d9, c9, d10, c10, d11, c11, d12, c12, ht, d17, c17]
  · exact zip_same (P := MediaSection) (fun a x y h h' => mediaSection_same h h') d19 c19

theorem text_bare {ls : List SdpLine} {t : Str} (h : Text ls t) : BareLines ls := by
  induction h with
  | nil _ => intro m hm; cases hm
  | cons h _ _ _ ih =>
    intro m hm
    rcases List.mem_cons.mp hm with rfl | hm
    · cases h; rfl
    · exact ih m hm

end Siphon.Sdp
