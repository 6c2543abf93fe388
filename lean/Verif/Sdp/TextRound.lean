import Verif.Sdp.TextWrite
set_option linter.unusedSimpArgs false
/-!
# Lemmas: the lines of a description make that description, and what is read can be written
-/
namespace Siphon.Sdp
open Siphon.TextSpec Spec

/-! ## Collecting the written lines -/

theorem addLines_cons {st st' : Parts} {l : SdpLine} (ls : List SdpLine) (h : addLine st l = some st') : addLines (l :: ls) st = addLines ls st' := by
  simp only [addLines, h]

theorem addLines_then {st st' : Parts} {a : List SdpLine} (b : List SdpLine) (h : addLines a st = some st') : addLines (a ++ b) st = addLines b st' := by
  rw [addLines_append, h]; rfl

theorem add_bandwidths (bs : List Bandwidth) (st : Parts) (h : st.media = none) :
    addLines (bs.map .bandwidth) st = some { st with bandwidth := st.bandwidth ++ bs } := by
  induction bs generalizing st with
  | nil => simp [addLines]
  | cons b bs ih =>
    rw [List.map_cons, addLines_cons _ (st' := { st with bandwidth := st.bandwidth ++ [b] }) (by simp [addLine, h]), ih { st with bandwidth := st.bandwidth ++ [b] } h]
    simp

theorem add_attributes (as : List Attribute) (st : Parts) (h : st.media = none) (hl : st.attributes.length + as.length ≤ 500) :
    addLines (as.map .attribute) st = some { st with attributes := st.attributes ++ as } := by
  induction as generalizing st with
  | nil => simp [addLines]
  | cons a as ih =>
    have hlt : st.attributes.length < 500 := by simp only [List.length_cons] at hl; omega
    rw [List.map_cons, addLines_cons _ (st' := { st with attributes := st.attributes ++ [a] }) (by simp [addLine, h, hlt]), ih { st with attributes := st.attributes ++ [a] } h ?_]
    · simp
    · simp only [List.length_append, List.length_cons, List.length_nil] at hl ⊢; omega

theorem add_mBandwidths (bs : List Bandwidth) (st : Parts) (m : Media) (h : st.media = some m) :
    addLines (bs.map .bandwidth) st = some { st with media := some { m with bandwidth := m.bandwidth ++ bs } } := by
  induction bs generalizing st m with
  | nil => simp [addLines, ← h]
  | cons b bs ih =>
    rw [List.map_cons, addLines_cons _ (st' := { st with media := some { m with bandwidth := m.bandwidth ++ [b] } }) (by simp [addLine, h]), ih _ _ rfl]
    simp

theorem add_mAttributes (as : List Attribute) (st : Parts) (m : Media) (h : st.media = some m) (hl : m.attributes.length + as.length ≤ 500) :
    addLines (as.map .attribute) st = some { st with media := some { m with attributes := m.attributes ++ as } } := by
  induction as generalizing st m with
  | nil => simp [addLines, ← h]
  | cons a as ih =>
    have hlt : m.attributes.length < 500 := by simp only [List.length_cons] at hl; omega
    rw [List.map_cons, addLines_cons _ (st' := { st with media := some { m with attributes := m.attributes ++ [a] } }) (by simp [addLine, h, hlt]), ih _ _ rfl ?_]
    · simp
    · simp only [List.length_append, List.length_cons, List.length_nil] at hl ⊢; omega

theorem add_repeats (rs : List RepeatTime) (st : Parts) (t : TimeDesc) (h : st.current = some t) (hv : ∀ r ∈ rs, validRepeat r = true) :
    addLines (rs.map .repeat) st = some { st with current := some { t with repeats := t.repeats ++ rs } } := by
  induction rs generalizing st t with
  | nil => simp [addLines, ← h]
  | cons r rs ih =>
    rw [List.map_cons, addLines_cons _ (st' := { st with current := some { t with repeats := t.repeats ++ [r] } })
      (by simp [addLine, h, hv r List.mem_cons_self]), ih _ _ rfl (fun x hx => hv x (List.mem_cons_of_mem _ hx))]
    simp

theorem add_times (ts : List TimeDesc) (st : Parts) (hv : ∀ t ∈ ts, ∀ r ∈ t.repeats, validRepeat r = true) :
    ∃ times current, addLines ((ts.map (fun t => SdpLine.time t.start t.stop :: t.repeats.map .repeat)).flatten) st = some { st with times := times, current := current } ∧
      flushTo times current = flushTo st.times st.current ++ ts := by
  induction ts generalizing st with
  | nil => exact ⟨st.times, st.current, rfl, by simp⟩
  | cons t ts ih =>
    obtain ⟨a, b, h1, h2⟩ := ih { st with times := flushTo st.times st.current, current := some t }
      (fun x hx => hv x (List.mem_cons_of_mem _ hx))
    refine ⟨a, b, ?_, ?_⟩
    · rw [List.map_cons, List.flatten_cons, List.cons_append,
        addLines_cons _ (st' := { st with times := flushTo st.times st.current, current := some ⟨t.start, t.stop, []⟩ }) rfl,
        addLines_then _ (add_repeats t.repeats _ ⟨t.start, t.stop, []⟩ rfl (hv t List.mem_cons_self))]
      simpa using h1
    · rw [h2]
      simp [flushTo]

/-- A stream without its table of maps. -/
def noMaps (m : Media) : Media := { m with rtpmaps := [] }

theorem add_media (m : Media) (st : Parts) (hl : m.attributes.length ≤ 500) :
    addLines (mediaSdp m) st = some { st with blocks := flushTo st.blocks st.media, media := some (noMaps m) } := by
  unfold mediaSdp
  rw [addLines_cons _ (st' := { st with blocks := flushTo st.blocks st.media, media := some { kind := m.kind, port := m.port, numPorts := m.numPorts, protocol := m.protocol, formats := m.formats } }) rfl]
  rw [addLines_then _ (st' := { st with blocks := flushTo st.blocks st.media, media := some { kind := m.kind, port := m.port, numPorts := m.numPorts, protocol := m.protocol, formats := m.formats, title := m.title } })
    (by cases m.title <;> rfl)]
  rw [addLines_then _ (st' := { st with blocks := flushTo st.blocks st.media, media := some { kind := m.kind, port := m.port, numPorts := m.numPorts, protocol := m.protocol, formats := m.formats, title := m.title, connection := m.connection } })
    (by cases m.connection <;> rfl)]
  rw [addLines_then _ (add_mBandwidths m.bandwidth _ _ rfl)]
  rw [addLines_then _ (st' := { st with blocks := flushTo st.blocks st.media, media := some { kind := m.kind, port := m.port, numPorts := m.numPorts, protocol := m.protocol, formats := m.formats, title := m.title, connection := m.connection, bandwidth := m.bandwidth, key := m.key } })
    (by cases m.key <;> rfl)]
  rw [add_mAttributes m.attributes _ _ rfl (by simpa using hl)]
  rfl

theorem add_medias (ms : List Media) (st : Parts) (hl : ∀ m ∈ ms, m.attributes.length ≤ 500) :
    ∃ blocks media, addLines ((ms.map mediaSdp).flatten) st = some { st with blocks := blocks, media := media } ∧
      flushTo blocks media = flushTo st.blocks st.media ++ ms.map noMaps := by
  induction ms generalizing st with
  | nil => exact ⟨st.blocks, st.media, rfl, by simp⟩
  | cons m ms ih =>
    obtain ⟨a, b, h1, h2⟩ := ih { st with blocks := flushTo st.blocks st.media, media := some (noMaps m) }
      (fun x hx => hl x (List.mem_cons_of_mem _ hx))
    refine ⟨a, b, ?_, ?_⟩
    · rw [List.map_cons, List.flatten_cons, addLines_then _ (add_media m st (hl m List.mem_cons_self))]
      exact h1
    · rw [h2]
      simp [flushTo]

theorem goodMedia_valid {m : Media} (h : GoodMedia m) : validMedia (noMaps m) = true := by
  obtain ⟨h1, h2, h3, h4, h5, h6, h7, -⟩ := h
  refine (validMedia_iff _).mpr ⟨?_, h5, fun f hf => (h6 f hf).1, h7⟩
  intro hk
  exact (h1 [] hk).2.1 rfl

theorem build_sdp {s : Session} (h : Writable s) : build (sessionSdp s) = some { s with media := s.media.map withMaps } := by
  obtain ⟨h1, h2, h3, h4, h5, h6, h7, h8, h9, h10, h11, h12, h13, h14, h15, h16, h17, h18, h19⟩ := h
  have hrep : ∀ t ∈ s.times, ∀ r ∈ t.repeats, validRepeat r = true := by
    intro t ht r hr
    obtain ⟨a, b, _⟩ := (h14 t ht).2.2 r hr
    exact (validRepeat_iff r).mpr ⟨a.1, b.1⟩
  have hzone : s.zones ≠ [] → validZones s.zones = true := by
    intro hne
    exact (validZones_iff _).mpr ⟨hne, fun z hz => ⟨(h15 z hz).1.1, (h15 z hz).2.1⟩⟩
  have hadd : ∃ st, addLines (sessionSdp s) {} = some st ∧ st.version = some s.version ∧ st.origin = some s.origin ∧
      st.name = some s.name ∧ st.info = s.info ∧ st.uri = s.uri ∧ st.email = s.email ∧ st.phone = s.phone ∧
      st.connection = s.connection ∧ st.bandwidth = s.bandwidth ∧ flushTo st.times st.current = s.times ∧ st.zones = s.zones ∧
      st.key = s.key ∧ st.attributes = s.attributes ∧ flushTo st.blocks st.media = s.media.map noMaps := by
    unfold sessionSdp
    rw [addLines_cons _ (st' := { version := some s.version }) rfl,
      addLines_cons _ (st' := { version := some s.version, origin := some s.origin }) rfl,
      addLines_cons _ (st' := { version := some s.version, origin := some s.origin, name := some s.name }) rfl,
      addLines_then _ (st' := { version := some s.version, origin := some s.origin, name := some s.name, info := s.info })
        (by cases s.info <;> rfl),
      addLines_then _ (st' := { version := some s.version, origin := some s.origin, name := some s.name, info := s.info, uri := s.uri })
        (by cases s.uri <;> rfl),
      addLines_then _ (st' := { version := some s.version, origin := some s.origin, name := some s.name, info := s.info, uri := s.uri, email := s.email })
        (by cases s.email <;> rfl),
      addLines_then _ (st' := { version := some s.version, origin := some s.origin, name := some s.name, info := s.info, uri := s.uri, email := s.email, phone := s.phone })
        (by cases s.phone <;> rfl),
      addLines_then _ (st' := { version := some s.version, origin := some s.origin, name := some s.name, info := s.info, uri := s.uri, email := s.email, phone := s.phone, connection := s.connection })
        (by cases s.connection <;> rfl),
      addLines_then _ (add_bandwidths s.bandwidth _ rfl)]
    obtain ⟨ta, tb, t1, t2⟩ := add_times s.times { version := some s.version, origin := some s.origin, name := some s.name, info := s.info, uri := s.uri, email := s.email, phone := s.phone, connection := s.connection, bandwidth := [] ++ s.bandwidth } hrep
    rw [addLines_then _ t1,
      addLines_then _ (st' := { version := some s.version, origin := some s.origin, name := some s.name, info := s.info, uri := s.uri, email := s.email, phone := s.phone, connection := s.connection, bandwidth := [] ++ s.bandwidth, times := ta, current := tb, zones := s.zones })
        (by
          cases hz : s.zones with
          | nil => rfl
          | cons z zs =>
            have := hzone (by rw [hz]; simp)
            rw [hz] at this
            simp [addLines, addLine, this]),
      addLines_then _ (st' := { version := some s.version, origin := some s.origin, name := some s.name, info := s.info, uri := s.uri, email := s.email, phone := s.phone, connection := s.connection, bandwidth := [] ++ s.bandwidth, times := ta, current := tb, zones := s.zones, key := s.key })
        (by cases s.key <;> rfl),
      addLines_then _ (add_attributes s.attributes _ rfl (by simpa using h18))]
    obtain ⟨ma, mb, m1, m2⟩ := add_medias s.media { version := some s.version, origin := some s.origin, name := some s.name, info := s.info, uri := s.uri, email := s.email, phone := s.phone, connection := s.connection, bandwidth := [] ++ s.bandwidth, times := ta, current := tb, zones := s.zones, key := s.key, attributes := [] ++ s.attributes }
      (fun m hm => (h19 m hm).2.2.2.2.2.2.2.2.2.2.2.2)
    rw [m1]
    exact ⟨_, rfl, rfl, rfl, rfl, rfl, rfl, rfl, rfl, rfl, rfl, by simpa [flushTo] using t2, rfl, rfl, rfl, by simpa [flushTo] using m2⟩
  obtain ⟨st, e, f1, f2, f3, f4, f5, f6, f7, f8, f9, f10, f11, f12, f13, f14⟩ := hadd
  unfold build
  rw [e]
  simp only
  refine (finish_iff st _).mpr ⟨by rw [f1, h1], s.origin, f2, s.name, f3, by rw [f10]; exact h13, ?_, ?_⟩
  · rw [f14]
    intro m hm
    obtain ⟨x, hx, rfl⟩ := List.mem_map.mp hm
    exact goodMedia_valid (h19 x hx)
  · rw [f4, f5, f6, f7, f8, f9, f10, f11, f12, f13, f14, List.map_map]
    have : (withMaps ∘ noMaps) = withMaps := rfl
    rw [this, h1]

/-! ## What is read can be written -/

theorem strips_self {x t : Str} (h : Strips isWs x t) : Strips isWs t t := by
  obtain ⟨a, b, _, _, _, h4, h5⟩ := h
  exact ⟨[], [], by simp, by simp, by simp, h4, h5⟩

theorem oneLine_sub {x t : Str} (h : OneLine x) (hs : ∀ c ∈ t, c ∈ x) : OneLine t :=
  ⟨fun hc => h.1 (hs _ hc), fun hc => h.2 (hs _ hc)⟩

theorem lineText_of {x t : Str} (h1 : OneLine x) (h2 : Strips isWs x t) : LineText t := by
  refine ⟨oneLine_sub h1 ?_, strips_self h2⟩
  obtain ⟨a, b, rfl, _⟩ := h2
  intro c hc; simp [hc]

theorem lineText_address {six : Bool} {addr a : Str} (h : AddressText six addr a) : LineText addr := by
  cases h with
  | ip4 _ _ h1 _ h2 => exact lineText_of h1 h2
  | ip6 _ _ h1 _ h2 => exact lineText_of h1 h2

theorem words_word {x : Str} {ws : List Str} (h : Words x ws) : ∀ w ∈ ws, Word w := by
  induction h with
  | nil _ => simp
  | cons _ h2 h3 _ _ ih =>
    intro w hw
    rcases List.mem_cons.mp hw with rfl | hw
    · exact ⟨h2, h3⟩
    · exact ih w hw

theorem zoneWords_word {zs : List Zone} {ws : List Str} (h : ZoneWords zs ws) (hw : ∀ w ∈ ws, Word w) :
    ∀ z ∈ zs, z.offset ≠ [] → Word z.time ∧ Word z.offset := by
  induction h with
  | nil => simp
  | odd => intro z hz ho; simp only [List.mem_singleton] at hz; subst hz; exact absurd rfl ho
  | pair _ ih =>
    intro z hz ho
    rcases List.mem_cons.mp hz with rfl | hz
    · exact ⟨hw _ (by simp), hw _ (by simp)⟩
    · exact ih (fun w h => hw w (by simp [h])) z hz ho

theorem formatsText_good {fs : List Str} {t : Str} (h : FormatsText fs t) : ∀ f ∈ fs, ' ' ∉ f ∧ OneLine f ∧ NoLead f := by
  induction h with
  | one h1 h2 h3 => intro f hf; simp only [List.mem_singleton] at hf; subst hf; exact ⟨h1, h2, h3⟩
  | more _ h1 h2 h3 _ _ ih =>
    intro f hf
    rcases List.mem_cons.mp hf with rfl | hf
    · exact ⟨h1, h2, h3⟩
    · exact ih f hf

/-- What a line that can be read satisfies. -/
def GoodLine : SdpLine → Prop
  | .version n => n ≤ 255
  | .origin o => ' ' ∉ o.username ∧ GoodToken o.sessionId ∧ GoodToken o.sessionVersion ∧ LineText o.address
  | .name t | .info t | .uri t | .email t | .phone t | .key t => LineText t
  | .connection c => LineText c.address
  | .bandwidth b => GoodBandwidth b
  | .time a b => a < 2 ^ 64 ∧ b < 2 ^ 64
  | .repeat r => r.interval ≠ [] → r.duration ≠ [] → Word r.interval ∧ Word r.duration ∧ ∀ o ∈ r.offsets, Word o
  | .zone zs => ∀ z ∈ zs, z.offset ≠ [] → Word z.time ∧ Word z.offset
  | .attribute a => GoodAttribute a
  | .media m => Bare m ∧ (∀ n, m.kind = .other n → KindName m.kind n ∧ ' ' ∉ n ∧ OneLine n) ∧ m.port < 2 ^ 16 ∧
      (∀ n, m.numPorts = some n → n < 2 ^ 16) ∧ (∀ n, m.protocol = .other n → ProtocolName m.protocol n) ∧
      ∀ f ∈ m.formats, ' ' ∉ f ∧ OneLine f ∧ NoLead f

theorem reads_good {l : SdpLine} {t : Str} (h : Reads l t) : GoodLine l := by
  cases h with
  | version h => exact h.2
  | origin c1 _ c3 c4 c5 _ c7 c8 c9 _ c11 => exact ⟨c1, ⟨c3, c4, c5⟩, ⟨c7, c8, c9⟩, lineText_address c11⟩
  | name h1 h2 => exact lineText_of h1 h2
  | info h1 h2 => exact lineText_of h1 h2
  | uri h1 h2 => exact lineText_of h1 h2
  | email h1 h2 => exact lineText_of h1 h2
  | phone h1 h2 => exact lineText_of h1 h2
  | connection h => exact lineText_address h
  | bandwidth h1 h2 => exact ⟨h1, by have := h2.2; simp only; omega⟩
  | time h1 _ h2 => exact ⟨by have := h1.2; omega, by have := h2.2; omega⟩
  | «repeat» h1 h2 h3 =>
    have hw := words_word h2
    cases h3 with
    | none => intro h; exact absurd rfl h
    | one => intro _ h; exact absurd rfl h
    | more =>
      intro _ _
      exact ⟨hw _ (by simp), hw _ (by simp), fun o ho => hw o (by simp [show o ∈ _ from ho])⟩
  | zone h1 h2 h3 => exact zoneWords_word h3 (words_word h2)
  | key h1 h2 => exact lineText_of h1 h2
  | value h1 h2 h3 h4 =>
    obtain ⟨b, rfl, _, h5⟩ := h4
    exact ⟨h1, h2, oneLine_sub h3 (fun c hc => List.mem_append_left _ hc), h5⟩
  | property h1 h2 h3 =>
    refine ⟨lineText_of h2 h3, ?_⟩
    obtain ⟨a, b, rfl, _⟩ := h3
    intro hc; exact h1 (by simp [hc])
  | @media k kn b1 port num pt b2 p pn b3 fs ft c1 c2 c3 c4 c5 c6 c7 c8 c9 c10 =>
    refine ⟨rfl, ?_, ?_, ?_, ?_, formatsText_good c10⟩
    · rintro n rfl
      have hn : kn = n := by
        rcases c1 with ⟨h, _⟩ | ⟨h, _⟩ | ⟨h, _⟩ | ⟨h, _⟩ | ⟨h, _⟩ | ⟨h, _⟩
        all_goals try cases h
        rfl
      subst hn
      exact ⟨c1, c2, c3⟩
    · cases c5 with
      | one h => have := h.2; simp only; omega
      | many h _ => have := h.2; simp only; omega
    · rintro n rfl
      cases c5 with
      | many _ h => have := h.2; omega
    · rintro n rfl
      have hn : pn = n := by
        rcases c7 with ⟨h, _⟩ | ⟨h, _⟩ | ⟨h, _⟩ | ⟨h, _⟩ | ⟨h, _⟩ | ⟨h, _⟩ | ⟨h, _⟩ | ⟨h, _⟩
        all_goals try cases h
        rfl
      subst hn
      exact c7

theorem text_good {ls : List SdpLine} {t : Str} (h : Text ls t) : ∀ l ∈ ls, GoodLine l := by
  induction h with
  | nil _ => intro l hl; cases hl
  | cons h _ _ _ ih =>
    intro l hl
    rcases List.mem_cons.mp hl with rfl | hl
    · exact reads_good h
    · exact ih l hl

theorem last_mem {α : Type} {f : SdpLine → Option α} {ls : List SdpLine} {x : α} (h : last f ls = some x) : ∃ l ∈ ls, f l = some x := by
  obtain ⟨l, hl, hf⟩ := List.mem_filterMap.mp (List.mem_of_getLast? h)
  exact ⟨l, hl, hf⟩

theorem sections_mem {ls hd : List SdpLine} {secs : List (Media × List SdpLine)} (h : Sections ls hd secs) :
    (∀ l ∈ hd, l ∈ ls) ∧ ∀ x ∈ secs, SdpLine.media x.1 ∈ ls ∧ ∀ l ∈ x.2, l ∈ ls := by
  induction h with
  | head _ => exact ⟨fun l hl => hl, by simp⟩
  | @media m pre body rest hd secs hb hs he ih =>
    subst he
    refine ⟨fun l hl => List.mem_append_left _ (ih.1 l hl), ?_⟩
    intro x hx
    rcases List.mem_append.mp hx with hx | hx
    · exact ⟨List.mem_append_left _ (ih.2 x hx).1, fun l hl => List.mem_append_left _ ((ih.2 x hx).2 l hl)⟩
    · simp only [List.mem_singleton] at hx
      subst hx
      exact ⟨by simp, fun l hl => by simp [show l ∈ body from hl]⟩

theorem zip_mem_right {α β : Type} {P : α → β → Prop} {as : List α} {bs : List β} (h : Zip P as bs) {b : β} (hb : b ∈ bs) :
    ∃ a ∈ as, P a b := by
  induction h with
  | nil => cases hb
  | @cons a' b' as bs h _ ih =>
    rcases List.mem_cons.mp hb with rfl | hb
    · exact ⟨a', List.mem_cons_self, h⟩
    · obtain ⟨a, ha, hp⟩ := ih hb
      exact ⟨a, List.mem_cons_of_mem _ ha, hp⟩

theorem describes_writable {ls : List SdpLine} (hg : ∀ l ∈ ls, GoodLine l) {s : Session} (h : Describes ls s) : Writable s := by
  obtain ⟨hd, secs, hs, d1, d2, d3, d4, d5, d6, d7, d8, d9, d10, d11, d12, d13, d14, d15, d16, d17, d18, d19⟩ := h
  obtain ⟨m1, m2⟩ := sections_mem hs
  have hInfo : ∀ (xs : List SdpLine), (∀ l ∈ xs, GoodLine l) → ∀ t, last infoOf xs = some t → LineText t := by
    intro xs hx t ht
    obtain ⟨l, hl, hf⟩ := last_mem ht
    have := hx l hl
    cases l <;> simp only [infoOf, reduceCtorEq, Option.some.injEq] at hf
    subst hf; exact this
  have hKey : ∀ (xs : List SdpLine), (∀ l ∈ xs, GoodLine l) → ∀ t, last keyOf xs = some t → LineText t := by
    intro xs hx t ht
    obtain ⟨l, hl, hf⟩ := last_mem ht
    have := hx l hl
    cases l <;> simp only [keyOf, reduceCtorEq, Option.some.injEq] at hf
    subst hf; exact this
  have hConn : ∀ (xs : List SdpLine), (∀ l ∈ xs, GoodLine l) → ∀ c, last connectionOf xs = some c → LineText c.address := by
    intro xs hx t ht
    obtain ⟨l, hl, hf⟩ := last_mem ht
    have := hx l hl
    cases l <;> simp only [connectionOf, reduceCtorEq, Option.some.injEq] at hf
    subst hf; exact this
  have hBw : ∀ (xs : List SdpLine), (∀ l ∈ xs, GoodLine l) → ∀ b ∈ xs.filterMap bandwidthOf, GoodBandwidth b := by
    intro xs hx t ht
    obtain ⟨l, hl, hf⟩ := List.mem_filterMap.mp ht
    have := hx l hl
    cases l <;> simp only [bandwidthOf, reduceCtorEq, Option.some.injEq] at hf
    subst hf; exact this
  have hAttr : ∀ (xs : List SdpLine), (∀ l ∈ xs, GoodLine l) → ∀ a ∈ xs.filterMap attributeOf, GoodAttribute a := by
    intro xs hx t ht
    obtain ⟨l, hl, hf⟩ := List.mem_filterMap.mp ht
    have := hx l hl
    cases l <;> simp only [attributeOf, reduceCtorEq, Option.some.injEq] at hf
    subst hf; exact this
  have hOrigin : GoodLine (.origin s.origin) := by
    obtain ⟨l, hl, hf⟩ := last_mem d3
    have := hg l hl
    cases l <;> simp only [originOf, reduceCtorEq, Option.some.injEq] at hf
    subst hf; exact this
  have hName : LineText s.name := by
    obtain ⟨l, hl, hf⟩ := last_mem d4
    have := hg l hl
    cases l <;> simp only [nameOf, reduceCtorEq, Option.some.injEq] at hf
    subst hf; exact this
  have ghd : ∀ l ∈ hd, GoodLine l := fun l hl => hg l (m1 l hl)
  have timeMem : ∀ x ∈ ls.filterMap timing, (∀ a b, x = .inl (a, b) → a < 2 ^ 64 ∧ b < 2 ^ 64) ∧
      ∀ r, x = .inr r → r.interval ≠ [] → r.duration ≠ [] → Word r.interval ∧ Word r.duration ∧ ∀ o ∈ r.offsets, Word o := by
    intro x hx
    obtain ⟨l, hl, hf⟩ := List.mem_filterMap.mp hx
    have := hg l hl
    cases l <;> simp only [timing, reduceCtorEq, Option.some.injEq] at hf
    · subst hf
      refine ⟨?_, by simp⟩
      intro a b h
      simp only [Sum.inl.injEq, Prod.mk.injEq] at h
      obtain ⟨rfl, rfl⟩ := h
      exact this
    · subst hf
      refine ⟨by simp, ?_⟩
      intro r h
      simp only [Sum.inr.injEq] at h
      subst h
      exact this
  refine ⟨d1, hOrigin.1, hOrigin.2.1, hOrigin.2.2.1, hOrigin.2.2.2, hName, ?_, ?_, ?_, ?_, ?_, ?_, d14, ?_, ?_, ?_, ?_, d13, ?_⟩
  · intro t ht; exact hInfo hd ghd t (by rw [← d8]; exact ht)
  · intro t ht
    rw [d5] at ht
    obtain ⟨l, hl, hf⟩ := last_mem ht
    have := hg l hl
    cases l <;> simp only [uriOf, reduceCtorEq, Option.some.injEq] at hf
    subst hf; exact this
  · intro t ht
    rw [d6] at ht
    obtain ⟨l, hl, hf⟩ := last_mem ht
    have := hg l hl
    cases l <;> simp only [emailOf, reduceCtorEq, Option.some.injEq] at hf
    subst hf; exact this
  · intro t ht
    rw [d7] at ht
    obtain ⟨l, hl, hf⟩ := last_mem ht
    have := hg l hl
    cases l <;> simp only [phoneOf, reduceCtorEq, Option.some.injEq] at hf
    subst hf; exact this
  · intro c hc; exact hConn hd ghd c (by rw [← d9]; exact hc)
  · rw [d10]; exact hBw hd ghd
  · intro t ht
    have hin : ∀ x ∈ timeItems t, x ∈ ls.filterMap timing := by
      intro x hx
      rw [d15]
      exact List.mem_flatMap.mpr ⟨t, ht, hx⟩
    obtain ⟨a1, a2⟩ := (timeMem _ (hin (.inl (t.start, t.stop)) (by simp [timeItems]))).1 _ _ rfl
    refine ⟨a1, a2, ?_⟩
    intro r hr
    obtain ⟨v1, v2⟩ := d16 t ht r hr
    exact (timeMem _ (hin (.inr r) (by simp [timeItems, hr]))).2 r rfl v1 v2
  · intro z hz
    rw [d17] at hz
    obtain ⟨zs, hzs, hz⟩ := List.mem_flatten.mp hz
    have hv := (d18 zs hzs).2 z hz
    obtain ⟨l, hl, hf⟩ := List.mem_filterMap.mp hzs
    have := hg l hl
    cases l <;> simp only [zoneOf, reduceCtorEq, Option.some.injEq] at hf
    subst hf
    exact this z hz hv.2
  · intro t ht; exact hKey hd ghd t (by rw [← d11]; exact ht)
  · rw [d12]; exact hAttr hd ghd
  · intro m hm
    obtain ⟨sec, hsec, p1, p2, p3, p4, p5, p6, p7⟩ := zip_mem_right d19 hm
    obtain ⟨q1, q2⟩ := m2 sec hsec
    obtain ⟨g0, g1, g2, g3, g4, g5⟩ := hg _ q1
    have gb : ∀ l ∈ sec.2, GoodLine l := fun l hl => hg l (q2 l hl)
    have e1 : m.kind = sec.1.kind := by rw [p1]
    have e2 : m.port = sec.1.port := by rw [p1]
    have e3 : m.numPorts = sec.1.numPorts := by rw [p1]
    have e4 : m.protocol = sec.1.protocol := by rw [p1]
    have e5 : m.formats = sec.1.formats := by rw [p1]
    have e6 : m.title = last infoOf sec.2 := by rw [p1]
    have e7 : m.connection = last connectionOf sec.2 := by rw [p1]
    have e8 : m.bandwidth = sec.2.filterMap bandwidthOf := by rw [p1]
    have e9 : m.key = last keyOf sec.2 := by rw [p1]
    have e10 : m.attributes = sec.2.filterMap attributeOf := by rw [p1]
    refine ⟨?_, by rw [e2]; exact g2, by rw [e3]; exact g3, by rw [e4]; exact g4, p5, ?_, p7, ?_, ?_, ?_, ?_, ?_, p3⟩
    · intro n hn
      have := g1 n (by rw [← e1]; exact hn)
      refine ⟨by rw [e1]; exact this.1, ?_, this.2⟩
      rintro rfl
      exact p4 hn
    · intro f hf
      exact ⟨p6 f hf, g5 f (by rw [← e5]; exact hf)⟩
    · intro t ht; exact hInfo _ gb t (by rw [← e6]; exact ht)
    · intro c hc; exact hConn _ gb c (by rw [← e7]; exact hc)
    · rw [e8]; exact hBw _ gb
    · intro t ht; exact hKey _ gb t (by rw [← e9]; exact ht)
    · rw [e10]; exact hAttr _ gb

end Siphon.Sdp
