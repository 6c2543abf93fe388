import Verif.Sdp.TextBuild
set_option linter.unusedSimpArgs false
/-!
# Lemmas: what is written is read back
-/
namespace Siphon.Sdp
open Siphon.TextSpec Spec

/-- The lines of a stream. -/
def mediaSdp (m : Media) : List SdpLine :=
  .media { kind := m.kind, port := m.port, numPorts := m.numPorts, protocol := m.protocol, formats := m.formats } ::
    (m.title.toList.map .info ++ (m.connection.toList.map .connection ++ (m.bandwidth.map .bandwidth ++
    (m.key.toList.map .key ++ m.attributes.map .attribute))))

/-- The lines of a description. -/
def sessionSdp (s : Session) : List SdpLine :=
  .version s.version :: .origin s.origin :: .name s.name ::
    (s.info.toList.map .info ++ (s.uri.toList.map .uri ++ (s.email.toList.map .email ++ (s.phone.toList.map .phone ++
    (s.connection.toList.map .connection ++ (s.bandwidth.map .bandwidth ++
    ((s.times.map (fun t => .time t.start t.stop :: t.repeats.map .repeat)).flatten ++
    ((if s.zones.isEmpty then [] else [.zone s.zones]) ++ (s.key.toList.map .key ++
    (s.attributes.map .attribute ++ (s.media.map mediaSdp).flatten))))))))))

/-! ## The text consists of these lines -/

theorem zip_append {α β : Type} {P : α → β → Prop} {a c : List α} {b d : List β} (h : Zip P a b) (h' : Zip P c d) : Zip P (a ++ c) (b ++ d) := by
  induction h with
  | nil => exact h'
  | cons h _ ih => exact .cons h ih

theorem zip_map2 {α β γ : Type} {P : β → γ → Prop} (f : α → β) (g : α → γ) (as : List α) (h : ∀ a ∈ as, P (f a) (g a)) :
    Zip P (as.map f) (as.map g) := by
  induction as with
  | nil => exact .nil
  | cons a as ih => exact .cons (h a List.mem_cons_self) (ih (fun b hb => h b (List.mem_cons_of_mem _ hb)))

theorem zip_flatten {α β γ : Type} {P : β → γ → Prop} (f : α → List β) (g : α → List γ) (as : List α) (h : ∀ a ∈ as, Zip P (f a) (g a)) :
    Zip P (as.map f).flatten (as.map g).flatten := by
  induction as with
  | nil => exact .nil
  | cons a as ih => exact zip_append (h a List.mem_cons_self) (ih (fun b hb => h b (List.mem_cons_of_mem _ hb)))

theorem zip_opt {P : SdpLine → Str → Prop} (f : Str → SdpLine) (tag : Str) (o : Option Str) (h : ∀ t, o = some t → P (f t) (tag ++ t)) :
    Zip P (o.toList.map f) (optLine tag o) := by
  cases o with
  | none => exact .nil
  | some t => exact .cons (h t rfl) .nil

theorem text_of_zip {ls : List SdpLine} {xs : List Str} (h : Zip Reads ls xs) : Text ls ((xs.map (· ++ ['\r', '\n'])).flatten) := by
  induction h with
  | nil => exact .nil (by simp)
  | @cons l x ls xs h _ ih =>
    rw [List.map_cons, List.flatten_cons, List.append_assoc]
    refine .cons h ?_ (Or.inr (Or.inl rfl)) ih
    cases l <;> (intro c hc; simp only [List.cons_append, List.head?_cons, Option.some.injEq] at hc; subst hc; first | decide | exact Or.inl rfl)

theorem number_show {max n : Nat} (h : n ≤ max) : Number max (showNat n) n := by
  refine ⟨?_, h⟩
  obtain ⟨h1, _⟩ := (parseDec_iff max (showNat n) n).mp (parseDec_showNat max n h)
  rcases h1 with h1 | ⟨t, h1, _⟩
  · exact h1
  · have := showNat_digits n '+' (by rw [h1]; simp)
    exact absurd this (by decide)

theorem blank_space : Blanks [' '] := ⟨by simp, by simp⟩

theorem spaces_space : Spaces [' '] := ⟨blank_space, rfl⟩

theorem lineText_noLead {t : Str} (h : LineText t) : NoLead t := by
  obtain ⟨_, _, _, _, _, _, h, _⟩ := h
  constructor <;> (intro hc; exact absurd (h _ hc) (by decide))

theorem address_show {six : Bool} {addr : Str} (h : LineText addr) : AddressText six addr (showAddress six addr) := by
  cases six with
  | false => exact AddressText.ip4 (b := [' ']) (b' := [' ']) blank_space blank_space h.1 (lineText_noLead h) h.2
  | true => exact AddressText.ip6 (b := [' ']) (b' := [' ']) blank_space blank_space h.1 (lineText_noLead h) h.2

/-- Words after each other, each with a space before it. -/
def spaced (ws : List Str) : Str := (ws.map (' ' :: ·)).flatten

theorem spaced_head (ws : List Str) : ∀ c, (spaced ws).head? = some c → isWs c = true := by
  intro c hc
  cases ws with
  | nil => cases hc
  | cons w ws => simp [spaced] at hc; subst hc; decide

theorem words_spaced (ws : List Str) (h : ∀ w ∈ ws, Word w) : Words (spaced ws) ws := by
  induction ws with
  | nil => exact .nil (by simp [spaced])
  | cons w ws ih =>
    obtain ⟨h1, h2⟩ := h w List.mem_cons_self
    exact Words.cons (lead := [' ']) (by simp; decide) h1 h2 (spaced_head ws) (ih (fun x hx => h x (List.mem_cons_of_mem _ hx)))

theorem words_first (w : Str) (ws : List Str) (h : ∀ x ∈ w :: ws, Word x) : Words (w ++ spaced ws) (w :: ws) := by
  obtain ⟨h1, h2⟩ := h w List.mem_cons_self
  exact Words.cons (lead := []) (by simp) h1 h2 (spaced_head ws) (words_spaced ws (fun x hx => h x (List.mem_cons_of_mem _ hx)))

theorem word_oneLine {w : Str} (h : Word w) : OneLine w := by
  constructor <;> (intro hc; have := h.2 _ hc; exact absurd this (by decide))

theorem oneLine_append {a b : Str} : OneLine (a ++ b) ↔ OneLine a ∧ OneLine b := by
  simp only [OneLine, List.mem_append, not_or]
  constructor
  · rintro ⟨⟨a1, a2⟩, b1, b2⟩; exact ⟨⟨a1, b1⟩, a2, b2⟩
  · rintro ⟨⟨a1, b1⟩, a2, b2⟩; exact ⟨⟨a1, a2⟩, b1, b2⟩

theorem spaced_oneLine (ws : List Str) (h : ∀ w ∈ ws, Word w) : OneLine (spaced ws) := by
  induction ws with
  | nil => simp [spaced, OneLine]
  | cons w ws ih =>
    have : spaced (w :: ws) = [' '] ++ (w ++ spaced ws) := rfl
    rw [this, oneLine_append, oneLine_append]
    exact ⟨⟨by decide, by decide⟩, word_oneLine (h w List.mem_cons_self), ih (fun x hx => h x (List.mem_cons_of_mem _ hx))⟩

/-- The words of zone adjustments. -/
def zoneTexts (zs : List Zone) : List Str := zs.flatMap (fun z => [z.time, z.offset])

theorem zoneWords_texts (zs : List Zone) : ZoneWords zs (zoneTexts zs) := by
  induction zs with
  | nil => exact .nil
  | cons z zs ih => exact .pair ih

theorem zonePairs_cons (z : Zone) : ∀ zs : List Zone, zonePairs (z :: zs) = z.time ++ spaced (z.offset :: zoneTexts zs)
  | [] => by simp [zonePairs, spaced, zoneTexts]
  | y :: zs => by
    have := zonePairs_cons y zs
    simp only [zonePairs]
    cases zs with
    | nil => simp [zonePairs, spaced, zoneTexts]
    | cons x xs =>
      rw [this]
      simp [spaced, zoneTexts]

theorem formatsText_show (fs : List Str) (h : ∀ f ∈ fs, f ≠ [] ∧ ' ' ∉ f ∧ OneLine f ∧ NoLead f) (f : Str)
    (hf : f ≠ [] ∧ ' ' ∉ f ∧ OneLine f ∧ NoLead f) : FormatsText (f :: fs) (f ++ spaced fs) := by
  induction fs generalizing f with
  | nil => simpa [spaced] using FormatsText.one hf.2.1 hf.2.2.1 hf.2.2.2
  | cons g fs ih =>
    have hg := h g List.mem_cons_self
    exact FormatsText.more (b := [' ']) hf.1 hf.2.1 hf.2.2.1 hf.2.2.2 spaces_space (ih (fun x hx => h x (List.mem_cons_of_mem _ hx)) g hg)

theorem kindName_show (k : MediaType) (h : ∀ n, k = .other n → KindName k n) : KindName k k.show := by
  cases k with
  | other n => exact h n rfl
  | audio => exact Or.inl ⟨rfl, rfl⟩
  | video => exact Or.inr (Or.inl ⟨rfl, rfl⟩)
  | text => exact Or.inr (Or.inr (Or.inl ⟨rfl, rfl⟩))
  | application => exact Or.inr (Or.inr (Or.inr (Or.inl ⟨rfl, rfl⟩)))
  | message => exact Or.inr (Or.inr (Or.inr (Or.inr (Or.inl ⟨rfl, rfl⟩))))

theorem protocolName_show (p : Protocol) (h : ∀ n, p = .other n → ProtocolName p n) : ProtocolName p p.show := by
  cases p with
  | other n => exact h n rfl
  | rtpAvp => exact Or.inl ⟨rfl, rfl⟩
  | rtpSavp => exact Or.inr (Or.inl ⟨rfl, rfl⟩)
  | rtpSavpf => exact Or.inr (Or.inr (Or.inl ⟨rfl, rfl⟩))
  | udpTlsRtpSavpf => exact Or.inr (Or.inr (Or.inr (Or.inl ⟨rfl, rfl⟩)))
  | tcpTlsRtpSavpf => exact Or.inr (Or.inr (Or.inr (Or.inr (Or.inl ⟨rfl, rfl⟩))))
  | udp => exact Or.inr (Or.inr (Or.inr (Or.inr (Or.inr (Or.inl ⟨rfl, rfl⟩)))))
  | tcp => exact Or.inr (Or.inr (Or.inr (Or.inr (Or.inr (Or.inr (Or.inl ⟨rfl, rfl⟩))))))

theorem media_reads {m : Media} (h : GoodMedia m) :
    Reads (.media { kind := m.kind, port := m.port, numPorts := m.numPorts, protocol := m.protocol, formats := m.formats }) (mediaLine m) := by
  obtain ⟨h1, h2, h3, h4, h5, h6, -⟩ := h
  have hk : ' ' ∉ m.kind.show ∧ OneLine m.kind.show := by
    cases hk : m.kind with
    | other n => obtain ⟨_, _, a, b⟩ := h1 n hk; exact ⟨a, b⟩
    | audio => exact ⟨by decide, by decide, by decide⟩
    | video => exact ⟨by decide, by decide, by decide⟩
    | text => exact ⟨by decide, by decide, by decide⟩
    | application => exact ⟨by decide, by decide, by decide⟩
    | message => exact ⟨by decide, by decide, by decide⟩
  have hport : PortText m.port m.numPorts (match m.numPorts with
      | some n => showNat m.port ++ '/' :: showNat n
      | none => showNat m.port) := by
    cases hn : m.numPorts with
    | none => exact .one (number_show (by omega))
    | some n => exact .many (number_show (by omega)) (number_show (by have := h3 n hn; omega))
  cases hf : m.formats with
  | nil => exact absurd hf h5
  | cons f fs =>
    have hft := formatsText_show fs (fun x hx => h6 x (by rw [hf]; simp [hx])) f (h6 f (by rw [hf]; simp))
    have := Reads.media (b1 := [' ']) (b2 := [' ']) (b3 := [' ']) (kindName_show m.kind (fun n hn => (h1 n hn).1)) hk.1 hk.2 spaces_space hport
      blank_space (protocolName_show m.protocol h4) blank_space (fun _ _ => rfl) hft
    unfold mediaLine
    rw [hf]
    exact this

theorem attribute_reads {a : Attribute} (h : GoodAttribute a) : Reads (.attribute a) (attributeLine a) := by
  cases a with
  | property n => exact .property h.2 h.1.1 h.1.2
  | value n v => exact .value h.1 h.2.1 h.2.2.1 ⟨[], by simp, by simp, h.2.2.2⟩

theorem bandwidth_reads {b : Bandwidth} (h : GoodBandwidth b) : Reads (.bandwidth b) (bandwidthLine b) :=
  .bandwidth h.1 (number_show (by have := h.2; omega))

theorem connection_reads {c : Connection} (h : LineText c.address) : Reads (.connection c) (connectionLine c) :=
  .connection (address_show h)

theorem repeat_reads {r : RepeatTime} (h1 : Word r.interval) (h2 : Word r.duration) (h3 : ∀ o ∈ r.offsets, Word o) :
    Reads (.repeat r) (repeatLine r) := by
  have hw : ∀ x ∈ r.interval :: r.duration :: r.offsets, Word x := by
    simp only [List.mem_cons]
    rintro x (rfl | rfl | hx)
    · exact h1
    · exact h2
    · exact h3 x hx
  refine Reads.repeat (ws := r.interval :: r.duration :: r.offsets) ?_ (words_first r.interval (r.duration :: r.offsets) hw) .more
  rw [oneLine_append]
  exact ⟨word_oneLine h1, spaced_oneLine (r.duration :: r.offsets) (fun x hx => hw x (List.mem_cons_of_mem _ hx))⟩

theorem zone_reads {zs : List Zone} (hne : zs ≠ []) (h : ∀ z ∈ zs, Word z.time ∧ Word z.offset) :
    Reads (.zone zs) ("z=".toList ++ zonePairs zs) := by
  cases zs with
  | nil => exact absurd rfl hne
  | cons z zs =>
    have hw : ∀ x ∈ z.time :: z.offset :: zoneTexts zs, Word x := by
      simp only [List.mem_cons, zoneTexts, List.mem_flatMap, List.not_mem_nil, or_false]
      rintro x (rfl | rfl | ⟨y, hy, rfl | rfl⟩)
      · exact (h z List.mem_cons_self).1
      · exact (h z List.mem_cons_self).2
      · exact (h y (List.mem_cons_of_mem _ hy)).1
      · exact (h y (List.mem_cons_of_mem _ hy)).2
    rw [zonePairs_cons]
    refine Reads.zone ?_ (words_first z.time (z.offset :: zoneTexts zs) hw) (.pair (zoneWords_texts zs))
    rw [oneLine_append]
    exact ⟨word_oneLine (hw _ List.mem_cons_self), spaced_oneLine _ (fun x hx => hw x (List.mem_cons_of_mem _ hx))⟩

theorem origin_reads {o : Origin} (h1 : ' ' ∉ o.username) (h2 : GoodToken o.sessionId) (h3 : GoodToken o.sessionVersion)
    (h4 : LineText o.address) : Reads (.origin o) (originLine o) :=
  Reads.origin (b1 := [' ']) (b2 := [' ']) (b3 := [' ']) h1 spaces_space h2.1 h2.2.1 h2.2.2 spaces_space h3.1 h3.2.1 h3.2.2 spaces_space
    (address_show h4)

theorem media_zip {m : Media} (h : GoodMedia m) : Zip Reads (mediaSdp m) (mediaLines m) := by
  have hm := media_reads h
  obtain ⟨h1, h2, h3, h4, h5, h6, h7, h8, h9, h10, h11, h12, h13⟩ := h
  refine .cons hm (zip_append (zip_opt _ _ _ (fun t ht => .info (h8 t ht).1 (h8 t ht).2)) (zip_append ?_ (zip_append ?_ (zip_append ?_ ?_))))
  · exact zip_map2 _ _ _ (fun c hc => connection_reads (h9 c (by simpa using hc)))
  · exact zip_map2 _ _ _ (fun b hb => bandwidth_reads (h10 b hb))
  · exact zip_opt _ _ _ (fun t ht => .key (h11 t ht).1 (h11 t ht).2)
  · exact zip_map2 _ _ _ (fun a ha => attribute_reads (h12 a ha))

theorem session_zip {s : Session} (h : Writable s) : Zip Reads (sessionSdp s) (sessionLines s) := by
  obtain ⟨h1, h2, h3, h4, h5, h6, h7, h8, h9, h10, h11, h12, h13, h14, h15, h16, h17, h18, h19⟩ := h
  refine .cons (.version (number_show (by omega))) (.cons (origin_reads h2 h3 h4 h5) (.cons (.name h6.1 h6.2) ?_))
  refine zip_append (zip_opt _ _ _ (fun t ht => .info (h7 t ht).1 (h7 t ht).2)) ?_
  refine zip_append (zip_opt _ _ _ (fun t ht => .uri (h8 t ht).1 (h8 t ht).2)) ?_
  refine zip_append (zip_opt _ _ _ (fun t ht => .email (h9 t ht).1 (h9 t ht).2)) ?_
  refine zip_append (zip_opt _ _ _ (fun t ht => .phone (h10 t ht).1 (h10 t ht).2)) ?_
  refine zip_append (zip_map2 _ _ _ (fun c hc => connection_reads (h11 c (by simpa using hc)))) ?_
  refine zip_append (zip_map2 _ _ _ (fun b hb => bandwidth_reads (h12 b hb))) ?_
  refine zip_append ?_ ?_
  · have hne : s.times.isEmpty = false := by cases hh : s.times; exact absurd hh h13; rfl
    rw [hne]
    refine zip_flatten _ _ _ (fun t ht => ?_)
    obtain ⟨a1, a2, a3⟩ := h14 t ht
    refine .cons (Reads.time (b := [' ']) (number_show (by omega)) blank_space (number_show (by omega))) ?_
    exact zip_map2 _ _ _ (fun r hr => repeat_reads (a3 r hr).1 (a3 r hr).2.1 (a3 r hr).2.2)
  refine zip_append ?_ ?_
  · cases hz : s.zones with
    | nil => exact .nil
    | cons z zs =>
      have hr := zone_reads (zs := s.zones) (by rw [hz]; simp) h15
      rw [hz] at hr
      exact .cons hr .nil
  refine zip_append (zip_opt _ _ _ (fun t ht => .key (h16 t ht).1 (h16 t ht).2)) ?_
  refine zip_append (zip_map2 _ _ _ (fun a ha => attribute_reads (h17 a ha))) ?_
  exact zip_flatten _ _ _ (fun m hm => media_zip (h19 m hm))

end Siphon.Sdp
