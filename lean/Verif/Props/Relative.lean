import Verif.Lemmas.PropsRelative
import Verif.Lemmas.StreamExact
import Verif.Lemmas.Relative
import Verif.Props.Successor

/-! Property theorems C25-C27: encodings of entries. -/

namespace Willow.Props
open Willow Spec

/-- An entry used in examples, with ids of one byte and a digest of two. -/
def exEntry : Entry :=
  { namespaceId := [1], subspaceId := [2], path := [[5, 6], [7]], payloadDigest := [8, 9], payloadLength := 300,
    timestamp := 70000 }

/-! ## C25 -/

/-- C25 is violated: fed byte by byte, the decoder of the path does not wait for the second
byte of the component and crashes, if the arrays in which the bytes are gathered have no room for it. -/
theorem C25_violated : ∃ sched,
    decodeEntry (fixedCodec 1) (fixedCodec 1) (fixedCodec 2) tinyParams sched []
      (encodeEntry (fixedCodec 1) (fixedCodec 1) (fixedCodec 2) tinyParams exEntry) = .crash :=
  ⟨[], by decide⟩

/-- C25 is violated: with arrays of eight bytes, as Go makes them here, an entry is returned that was not
encoded: the second byte of the last component is zero instead of 6. -/
theorem C25_violated_silent : ∃ sched,
    decodeEntry (fixedCodec 1) (fixedCodec 1) (fixedCodec 2) tinyParams sched [7, 7, 7]
      (encodeEntry (fixedCodec 1) (fixedCodec 1) (fixedCodec 2) tinyParams { exEntry with path := [[7], [5, 6]] }) =
        .ok { exEntry with path := [[7], [5, 0]] } :=
  ⟨[], by decide +kernel⟩

/-- C25 is violated, whatever room the arrays have: for all schemes and limits, if the bytes arrive one at a time and
no sooner than asked for, an entry is not decoded if the first component longer than its length field is wide has
a byte other than zero beyond that width. -/
theorem C25_violated_slow (ns ss pd : Codec) (vn vs vp : Bytes → Prop) (hn : ns.Lawful vn) (hs : ss.Lawful vs)
    (hp : pd.Lawful vp) (p : PathParams) (e : Entry)
    (h1 : vn e.namespaceId) (h2 : vs e.subspaceId) (h3 : ShortPath p e.path) (h4 : vp e.payloadDigest)
    (pre post : Path) (c : Bytes) (hpath : e.path = pre ++ c :: post) (hpre : ∀ d ∈ pre, d.length ≤ getWidthMax32Int p.cl)
    (b : UInt8) (hb : b ∈ c.drop (getWidthMax32Int p.cl)) (hb0 : b ≠ 0) (room : List Nat) :
    decodeEntry ns ss pd p [] room (encodeEntry ns ss pd p e) ≠ .ok e := by
  intro h
  obtain ⟨g', hg'⟩ := (decodeEntry_encode hn hs hp h1 h2 h4 [] room).2 e h
  rw [hpath] at hg' h3
  exact hb0 (decodePathStream_zeros h3 (shortPath_small h3) ⟨0, room⟩ hpre hg' b hb)

example : exEntry.path = [] ++ [5, 6] :: [[7]] ∧ (6 : UInt8) ∈ ([5, 6] : Bytes).drop (getWidthMax32Int appParams.cl) ∧
    (6 : UInt8) ≠ 0 := by decide

/-- C25, partial: under every schedule, if decoding returns and the arrays have no room beyond their bytes, it
returns the entry. Missing: that it returns, and arrays that have room (see the violations); paths that are not short. -/
theorem C25_sound_partial (ns ss pd : Codec) (vn vs vp : Bytes → Prop) (hn : ns.Lawful vn) (hs : ss.Lawful vs)
    (hp : pd.Lawful vp) (p : PathParams) (e : Entry)
    (h1 : vn e.namespaceId) (h2 : vs e.subspaceId) (h3 : ShortPath p e.path) (h4 : vp e.payloadDigest)
    (sched : List Nat) (x : Entry)
    (h : decodeEntry ns ss pd p sched [] (encodeEntry ns ss pd p e) = .ok x) : x = e := by
  obtain ⟨k1, k2⟩ := decodeEntry_encode hn hs hp (p := p) h1 h2 h4 sched []
  obtain ⟨g', hg'⟩ := k2 x h
  obtain ⟨hx, -⟩ := (decodePathStream_encode p e.path h3 (shortPath_small h3) _ _ (singles_content _ _ _)).1 rfl _ _ hg'
  rw [hx] at hg'
  have := k1 g' hg'
  rw [this] at h
  simp only [Res.ok.injEq] at h
  exact h.symm

example : (fixedCodec 1).Lawful (·.length = 1) ∧ (fixedCodec 2).Lawful (·.length = 2) ∧ ShortPath tinyParams exEntry.path ∧
    decodeEntry (fixedCodec 1) (fixedCodec 1) (fixedCodec 2) tinyParams [100] []
      (encodeEntry (fixedCodec 1) (fixedCodec 1) (fixedCodec 2) tinyParams exEntry) = .ok exEntry :=
  ⟨fixedCodec_lawful 1, fixedCodec_lawful 2, ⟨⟨by decide, by decide, by decide⟩, by decide, by decide⟩, by decide +kernel⟩

/-- C25, partial: decoding returns the entry if no component is longer than its length field
is wide, or if all bytes are delivered before the first request. -/
theorem C25_returns_partial (ns ss pd : Codec) (vn vs vp : Bytes → Prop) (hn : ns.Lawful vn) (hs : ss.Lawful vs)
    (hp : pd.Lawful vp) (p : PathParams) (e : Entry)
    (h1 : vn e.namespaceId) (h2 : vs e.subspaceId) (h3 : ShortPath p e.path) (h4 : vp e.payloadDigest)
    (sched room : List Nat)
    (h : (∀ c ∈ e.path, c.length ≤ getWidthMax32Int p.cl) ∨ (encodeEntry ns ss pd p e).length ≤ sched.headD 0) :
    decodeEntry ns ss pd p sched room (encodeEntry ns ss pd p e) = .ok e := by
  have key := (decodeEntry_encode hn hs hp (p := p) h1 h2 h4 sched room).1
  generalize hrest : bigIntToBytes e.timestamp ++ bigIntToBytes e.payloadLength ++ pd.enc e.payloadDigest = rest at key
  have hlen : getWidthMax32Int p.cl ≤ rest.length := by
    have : 16 ≤ rest.length := by
      rw [← hrest, List.length_append, List.length_append]
      show 16 ≤ 8 + 8 + _
      omega
    have := getWidthMax32Int_cases p.cl
    omega
  have hg := singles_content (encodePath p e.path ++ rest) sched ⟨0, room⟩
  rcases h with h | h
  · obtain ⟨g', h5, -⟩ := decodePathStream_reads (all := false) h3 (shortPath_small h3) (.inr h) _ rest
      (by intro h; simp at h) hg hlen
    exact key g' h5
  · obtain ⟨g', h5, -⟩ := decodePathStream_reads (all := true) h3 (shortPath_small h3) (.inl rfl) _ rest
      (by
        intro _
        rw [absorb_singles, List.drop_eq_nil_of_le, List.map_nil]
        simp only [encodeEntry, List.append_assoc, List.length_append] at h
        simp only [← hrest, List.append_assoc, List.length_append]
        omega) hg hlen
    exact key g' h5

example : (fixedCodec 1).Lawful (·.length = 1) ∧ (fixedCodec 2).Lawful (·.length = 2) ∧
    ShortPath tinyParams exEntry.path ∧ exEntry.namespaceId.length = 1 ∧ exEntry.subspaceId.length = 1 ∧
    exEntry.payloadDigest.length = 2 ∧
    (encodeEntry (fixedCodec 1) (fixedCodec 1) (fixedCodec 2) tinyParams exEntry).length ≤ [100].headD 0 :=
  ⟨fixedCodec_lawful 1, fixedCodec_lawful 2, ⟨⟨by decide, by decide, by decide⟩, by decide, by decide⟩, by decide, by decide, by decide, by decide⟩

/-- C25, exact: decoding returns the entry under every schedule and whatever room the arrays have if and only if no
component of its path is longer than its length field is wide. -/
theorem C25_exact (ns ss pd : Codec) (vn vs vp : Bytes → Prop) (hn : ns.Lawful vn) (hs : ss.Lawful vs)
    (hp : pd.Lawful vp) (p : PathParams) (e : Entry)
    (h1 : vn e.namespaceId) (h2 : vs e.subspaceId) (h3 : ShortPath p e.path) (h4 : vp e.payloadDigest) :
    (∀ sched room, decodeEntry ns ss pd p sched room (encodeEntry ns ss pd p e) = .ok e) ↔
      ∀ c ∈ e.path, c.length ≤ getWidthMax32Int p.cl := by
  refine ⟨fun h c hc => Nat.le_of_not_lt fun hlt => ?_, fun h sched room =>
    C25_returns_partial ns ss pd vn vs vp hn hs hp p e h1 h2 h3 h4 sched room (.inl h)⟩
  obtain ⟨g', hg'⟩ := (decodeEntry_encode hn hs hp h1 h2 h4 [] []).2 e (h [] [])
  exact decodePathStream_slow h3 (shortPath_small h3) (k := 0)
    (rest := bigIntToBytes e.timestamp ++ bigIntToBytes e.payloadLength ++ pd.enc e.payloadDigest) (Nat.zero_le _) ⟨c, hc, hlt⟩
    _ hg'

example : (∀ sched room, decodeEntry (fixedCodec 1) (fixedCodec 1) (fixedCodec 2) tinyParams sched room
      (encodeEntry (fixedCodec 1) (fixedCodec 1) (fixedCodec 2) tinyParams { exEntry with path := [[5], [7]] }) =
        .ok { exEntry with path := [[5], [7]] }) ∧
    ¬ ∀ sched room, decodeEntry (fixedCodec 1) (fixedCodec 1) (fixedCodec 2) tinyParams sched room
      (encodeEntry (fixedCodec 1) (fixedCodec 1) (fixedCodec 2) tinyParams exEntry) = .ok exEntry := by
  have h := fun path hv => C25_exact _ _ _ _ _ _ (fixedCodec_lawful 1) (fixedCodec_lawful 1) (fixedCodec_lawful 2) tinyParams
    { exEntry with path := path } rfl rfl (shortPath_of_limits (by decide) (by decide) hv) rfl
  exact ⟨(h _ ⟨by decide, by decide, by decide⟩).2 (by decide), fun hx =>
    absurd ((h exEntry.path ⟨by decide, by decide, by decide⟩).1 hx) (by decide)⟩

/-! ## C26 -/

/-- C26 is violated: the encoder crashes exactly when the two paths share no first component, for instance
when one of them is empty. -/
theorem C26_violated (ns ss pd : Codec) (eqNs : Bytes → Bytes → Bool) (ordS : Bytes → Bytes → Ordering)
    (p : PathParams) (e ref : Entry) :
    encodeEntryRelativeEntry ns ss pd eqNs ordS p e ref = .crash ↔
      ¬ ∃ c, e.path.head? = some c ∧ ref.path.head? = some c := by
  constructor
  · intro h hsh
    obtain ⟨rel, hrel⟩ := encodeRelativePath_ok (p := p) hsh
    unfold encodeEntryRelativeEntry at h
    simp only [hrel, Res.ok_bind] at h
    cases h
  · intro h
    unfold encodeEntryRelativeEntry
    simp only [encodeRelativePath_crash (p := p) h]
    rfl

example : ¬ ∃ c : Bytes, ([] : Path).head? = some c ∧ ([[5]] : Path).head? = some c := by simp

/-- C26 is violated: the decoder crashes under some chunkings, if the array in which the bytes are gathered has no
room beyond them. -/
theorem C26_violated_chunks : ∃ enc g, encodeEntryRelativeEntry (fixedCodec 1) (fixedCodec 1) (fixedCodec 2)
      (· == ·) orderSubspace tinyParams { exEntry with path := [[5], [6, 7]] } { exEntry with path := [[5]] } = .ok enc ∧
    g.content = enc ∧
    decodeStreamEntryRelativeEntry (fixedCodec 1) (fixedCodec 1) (fixedCodec 2) tinyParams
      { exEntry with path := [[5]] } g = .crash :=
  ⟨_, ⟨[1, 1, 1, 2, 6], [[7, 0, 1, 44, 8, 9]], [], .exact⟩, rfl, by decide, by decide⟩

/-- C26 is violated: if the array has room, the decoder returns an entry that was not encoded under some
chunkings, here one with another path, another time stamp, another payload length and another digest. -/
theorem C26_violated_silent : ∃ enc g g', encodeEntryRelativeEntry (fixedCodec 1) (fixedCodec 1) (fixedCodec 2)
      (· == ·) orderSubspace tinyParams { exEntry with path := [[5], [6, 7]] } { exEntry with path := [[5]] } = .ok enc ∧
    g.content = enc ∧
    decodeStreamEntryRelativeEntry (fixedCodec 1) (fixedCodec 1) (fixedCodec 2) tinyParams { exEntry with path := [[5]] } g =
      .ok ({ exEntry with path := [[5], [6, 0]], timestamp := 69993, payloadLength := 1, payloadDigest := [44, 8] }, g') ∧
    g'.content = [9] :=
  ⟨_, ⟨[1, 1, 1, 2, 6], [[7, 0, 1, 44, 8, 9]], [], ⟨3, []⟩⟩, ⟨[9], [], [], ⟨0, []⟩⟩, rfl, by decide, by decide +kernel, by decide⟩

/-- C26 is violated: for all schemes, whenever a component after those shared with the reference is longer than
its length field is wide, there is a chunking in which the entry is not decoded such that what follows is left,
whatever follows and whatever room the arrays have. Stated for entries of the reference's namespace and subspace,
whose ids are not encoded, and digests for which no more bytes are taken than they have. -/
theorem C26_violated_slow (ns ss pd : Codec) (eqNs : Bytes → Bytes → Bool) (ordS : Bytes → Bytes → Ordering)
    (hq : ∀ a b, eqNs a b = true ↔ a = b) (ho : Decides BytesLt ordS) (hf : pd.Frugal)
    (p : PathParams) (e ref : Entry) (h3 : ShortPath p e.path)
    (h1 : e.namespaceId = ref.namespaceId) (h2 : e.subspaceId = ref.subspaceId)
    (enc : Bytes) (h : encodeEntryRelativeEntry ns ss pd eqNs ordS p e ref = .ok enc)
    (hl : ¬ ShortAfterShared (getWidthMax32Int p.cl) e.path ref.path) (rest : Bytes) (m : Mem) :
    ∃ g : GB, g.mem = m ∧ g.content = enc ++ rest ∧
      ¬ ∃ g', decodeStreamEntryRelativeEntry ns ss pd p ref g = .ok (e, g') ∧ g'.content = rest :=
  ⟨slowly m (enc ++ rest), rfl, slowly_content _ _, fun ⟨g', hx, hr⟩ =>
    entryRelative_slow hq ho hf h3 h1 h2 h hl rest m g' hr hx⟩

example : ¬ ShortAfterShared (getWidthMax32Int appParams.cl) [[104, 105], [116, 111]] [[104, 105]] := by
  rintro ⟨k, h1, h2, h3, h4⟩
  have : k = 0 ∨ k = 1 := by simp at h2; omega
  rcases this with rfl | rfl
  · exact absurd (h4 [104, 105] (by decide)) (by decide)
  · exact absurd (h4 [116, 111] (by decide)) (by decide)

example : (fixedCodec 32).Frugal := fixedCodec_frugal 32

/-- C26, partial: whenever the decoder returns on an encoding and the arrays have no room beyond their bytes, it
returns the entry and consumes exactly the encoding, under any chunking. Missing: that both encoder and decoder
return, and arrays that have room (see the violations); paths that are not short. -/
theorem C26_sound_partial (ns ss pd : Codec) (vn vs vp : Bytes → Prop) (hn : ns.Lawful vn) (hs : ss.Lawful vs)
    (hp : pd.Lawful vp) (eqNs : Bytes → Bytes → Bool) (ordS : Bytes → Bytes → Ordering)
    (hq : ∀ a b, eqNs a b = true ↔ a = b) (ho : Decides BytesLt ordS)
    (p : PathParams) (e ref : Entry)
    (h1 : vn e.namespaceId) (h2 : vs e.subspaceId) (h3 : ShortPath p e.path) (h4 : vp e.payloadDigest)
    (enc : Bytes) (h : encodeEntryRelativeEntry ns ss pd eqNs ordS p e ref = .ok enc)
    (g g' : GB) (hm : g.mem = .exact) (rest : Bytes) (hg : g.content = enc ++ rest) (x : Entry)
    (hx : decodeStreamEntryRelativeEntry ns ss pd p ref g = .ok (x, g')) : x = e ∧ g'.content = rest := by
  obtain ⟨k1, k2, -⟩ := (decodes_entryRelativeEntry hn hs hp hq ho h1 h2 h3 h4 h false).1 g rest x g' hm hg hx
  exact ⟨k1, k2⟩

/-- C26, partial: the round trip succeeds when the paths share their first component, and
either no component after the shared ones is longer than its length field is wide or everything has
arrived. -/
theorem C26_returns_partial (ns ss pd : Codec) (vn vs vp : Bytes → Prop) (hn : ns.Lawful vn) (hs : ss.Lawful vs)
    (hp : pd.Lawful vp) (eqNs : Bytes → Bytes → Bool) (ordS : Bytes → Bytes → Ordering)
    (hq : ∀ a b, eqNs a b = true ↔ a = b) (ho : Decides BytesLt ordS)
    (p : PathParams) (e ref : Entry)
    (h1 : vn e.namespaceId) (h2 : vs e.subspaceId) (h3 : ShortPath p e.path) (h4 : vp e.payloadDigest)
    (hsh : ∃ c, e.path.head? = some c ∧ ref.path.head? = some c) :
    ∃ enc, encodeEntryRelativeEntry ns ss pd eqNs ordS p e ref = .ok enc ∧
      ∀ (g : GB) (rest : Bytes), g.content = enc ++ rest →
        (ShortAfterShared (getWidthMax32Int p.cl) e.path ref.path ∨ g.rest = []) →
        getWidthMax32Int p.cl ≤ 2 + (pd.enc e.payloadDigest).length + rest.length →
        ∃ g', decodeStreamEntryRelativeEntry ns ss pd p ref g = .ok (e, g') ∧ g'.content = rest := by
  obtain ⟨rel, hrel⟩ := encodeRelativePath_ok (p := p) hsh
  obtain ⟨enc, h⟩ : ∃ enc, encodeEntryRelativeEntry ns ss pd eqNs ordS p e ref = .ok enc := by
    unfold encodeEntryRelativeEntry
    simp only [hrel, Res.ok_bind]
    exact ⟨_, rfl⟩
  refine ⟨enc, h, ?_⟩
  intro g rest hg ha hsl
  have hd := fun all => decodes_entryRelativeEntry hn hs hp hq ho h1 h2 h3 h4 h all
  rcases ha with ha | ha
  · obtain ⟨g', h5, -, h6⟩ := (hd false).2 (.inr ha) g rest (by intro h; simp at h) hg (by omega)
    exact ⟨g', h5, h6⟩
  · obtain ⟨g', h5, -, h6⟩ := (hd true).2 (.inl rfl) g rest (ready_of_nil ha) hg (by omega)
    exact ⟨g', h5, h6⟩

/-- A reference entry used in examples. -/
def exRef : Entry :=
  { namespaceId := [3], subspaceId := [2], path := [[5, 6], [9]], payloadDigest := [0, 0], payloadLength := 1,
    timestamp := 70001 }

example : (fixedCodec 1).Lawful (·.length = 1) ∧ ShortPath tinyParams exEntry.path ∧
    (do
      let enc ← encodeEntryRelativeEntry (fixedCodec 1) (fixedCodec 1) (fixedCodec 2) (· == ·) orderSubspace tinyParams exEntry exRef
      let (x, _) ← decodeStreamEntryRelativeEntry (fixedCodec 1) (fixedCodec 1) (fixedCodec 2) tinyParams exRef ⟨enc, [], [], .exact⟩
      Res.ok x) = Res.ok exEntry :=
  ⟨fixedCodec_lawful 1, ⟨⟨by decide, by decide, by decide⟩, by decide, by decide⟩, by decide +kernel⟩

example : (∀ a b : Bytes, (a == b) = true ↔ a = b) ∧ Decides BytesLt orderSubspace ∧
    (∃ c, exEntry.path.head? = some c ∧ exRef.path.head? = some c) ∧
    encodeEntryRelativeEntry (fixedCodec 1) (fixedCodec 1) (fixedCodec 2) (· == ·) orderSubspace tinyParams exEntry
      exRef = .ok [0x81, 1, 1, 1, 1, 7, 1, 1, 44, 8, 9] ∧
    (⟨[0x81, 1, 1, 1, 1, 7, 1, 1, 44, 8, 9], [], [], .exact⟩ : GB).rest = [] ∧
    getWidthMax32Int tinyParams.cl ≤ 2 + ((fixedCodec 2).enc exEntry.payloadDigest).length + 0 :=
  ⟨by simp, decides_subspace, ⟨[5, 6], by decide, by decide⟩, by decide, rfl, by decide⟩

/-! ## C27 -/

/-- C27 is violated: with an open-ended path range the encoder crashes exactly when the path shares no first
component with the start of the range, for instance when that is empty. -/
theorem C27_violated (ss pd : Codec) (ordS : Bytes → Bytes → Ordering) (p : PathParams) (e : Entry) (outer : Range3d)
    (ho : outer.path.openEnd = true) :
    encodeEntryRelativeRange3d ss pd ordS p e outer = .crash ↔
      ¬ ∃ c, e.path.head? = some c ∧ outer.path.start.head? = some c := by
  constructor
  · intro h hsh
    obtain ⟨rel, hrel⟩ := encodeRelativePath_ok (p := p) hsh
    unfold encodeEntryRelativeRange3d at h
    simp only [ho, Bool.not_true, Bool.false_eq_true, if_false, hrel, Res.ok_bind] at h
    cases h
  · intro h
    unfold encodeEntryRelativeRange3d
    simp only [ho, Bool.not_true, Bool.false_eq_true, if_false, encodeRelativePath_crash (p := p) h]
    rfl

example : (⟨⟨[1], [], true⟩, ⟨[], [], true⟩, ⟨0, 0, true⟩⟩ : Range3d).path.openEnd = true ∧
    ¬ ∃ c : Bytes, ([[5]] : Path).head? = some c ∧ ([] : Path).head? = some c := ⟨rfl, by simp⟩

/-- C27 is violated: with a closed path range the encoder returns an error exactly when the path does not share
its first component with both ends of the range. -/
theorem C27_violated_end (ss pd : Codec) (ordS : Bytes → Bytes → Ordering) (p : PathParams) (e : Entry) (outer : Range3d)
    (ho : outer.path.openEnd = false) :
    encodeEntryRelativeRange3d ss pd ordS p e outer = .err ↔
      ¬ ∃ c, e.path.head? = some c ∧ outer.path.start.head? = some c ∧ outer.path.stop.head? = some c := by
  constructor
  · rintro h ⟨c, hc1, hc2, hc3⟩
    obtain ⟨r1, hr1⟩ := encodeRelativePath_ok (p := p) ⟨c, hc1, hc2⟩
    obtain ⟨r2, hr2⟩ := encodeRelativePath_ok (p := p) ⟨c, hc1, hc3⟩
    obtain ⟨l1, hl1⟩ := commonPrefix_shared ⟨c, hc1, hc2⟩
    obtain ⟨l2, hl2⟩ := commonPrefix_shared ⟨c, hc1, hc3⟩
    unfold encodeEntryRelativeRange3d at h
    simp only [ho, Bool.not_false, if_true, hr1, hr2, hl1, hl2, Res.ok_bind] at h
    split at h <;> cases h
  · intro h
    unfold encodeEntryRelativeRange3d
    simp only [ho, Bool.not_false, if_true]
    by_cases h1 : ∃ c, e.path.head? = some c ∧ outer.path.start.head? = some c
    · obtain ⟨c, hc1, hc2⟩ := h1
      obtain ⟨l1, hl1⟩ := commonPrefix_shared ⟨c, hc1, hc2⟩
      have h2 : ¬ ∃ c, e.path.head? = some c ∧ outer.path.stop.head? = some c := by
        rintro ⟨d, hd1, hd2⟩
        rw [hc1] at hd1
        cases hd1
        exact h ⟨c, hc1, hc2, hd2⟩
      simp only [hl1, commonPrefix_unshared h2, Res.ok_bind]
      rfl
    · simp only [commonPrefix_unshared h1]
      rfl

/-- An entry inside a range whose two ends share no component. -/
example : let outer : Range3d := ⟨⟨[2], [], true⟩, ⟨[[5, 6]], [[5, 7]], false⟩, ⟨0, 0, true⟩⟩
    InRange3d outer ⟨exEntry.subspaceId, exEntry.path, exEntry.timestamp⟩ ∧
    encodeEntryRelativeRange3d (fixedCodec 1) (fixedCodec 2) orderSubspace tinyParams exEntry outer = .err :=
  ⟨by refine ⟨⟨?_, .inl rfl⟩, ⟨?_, .inr ?_⟩, ?_, .inl rfl⟩ <;>
       simp [exEntry, BytesLt, PathLt, LexLt, TimeLt], by decide⟩

/-- C27, partial: whenever the decoder returns on an encoding and the arrays have no room beyond their bytes, it
returns the entry and consumes exactly the encoding, under any chunking (also for entries outside the range).
Missing: that both encoder and decoder return, and arrays that have room (see the violations); paths that are not short. -/
theorem C27_sound_partial (ss pd : Codec) (vs vp : Bytes → Prop) (hs : ss.Lawful vs)
    (hp : pd.Lawful vp) (ordS : Bytes → Bytes → Ordering) (ho : Decides BytesLt ordS)
    (p : PathParams) (e : Entry) (outer : Range3d)
    (h2 : vs e.subspaceId) (h3 : ShortPath p e.path) (h4 : vp e.payloadDigest)
    (enc : Bytes) (h : encodeEntryRelativeRange3d ss pd ordS p e outer = .ok enc)
    (g g' : GB) (hm : g.mem = .exact) (rest : Bytes) (hg : g.content = enc ++ rest) (x : Entry)
    (hx : decodeStreamEntryRelativeRange3d ss pd p outer e.namespaceId g = .ok (x, g')) :
    x = e ∧ g'.content = rest := by
  obtain ⟨k1, k2, -⟩ := (decodes_entryRelativeRange3d hs hp ho h2 h3 h4 h false).1 g rest x g' hm hg hx
  exact ⟨k1, k2⟩

/-- C27, partial: the round trip succeeds when the path shares its first component with the
start of the path range and, if the range is closed, with its end, and either no component after those
shared with one of them is longer than its length field is wide or everything has arrived. -/
theorem C27_returns_partial (ss pd : Codec) (vs vp : Bytes → Prop) (hs : ss.Lawful vs)
    (hp : pd.Lawful vp) (ordS : Bytes → Bytes → Ordering) (ho : Decides BytesLt ordS)
    (p : PathParams) (e : Entry) (outer : Range3d)
    (h2 : vs e.subspaceId) (h3 : ShortPath p e.path) (h4 : vp e.payloadDigest)
    (hsh : ∃ c, e.path.head? = some c ∧ outer.path.start.head? = some c ∧
      (outer.path.openEnd = false → outer.path.stop.head? = some c)) :
    ∃ enc, encodeEntryRelativeRange3d ss pd ordS p e outer = .ok enc ∧
      ∀ (g : GB) (rest : Bytes), g.content = enc ++ rest →
        (ShortAfterShared (getWidthMax32Int p.cl) e.path outer.path.start ∨
          outer.path.openEnd = false ∧ ShortAfterShared (getWidthMax32Int p.cl) e.path outer.path.stop ∨ g.rest = []) →
        getWidthMax32Int p.cl ≤ 2 + (pd.enc e.payloadDigest).length + rest.length →
        ∃ g', decodeStreamEntryRelativeRange3d ss pd p outer e.namespaceId g = .ok (e, g') ∧ g'.content = rest := by
  obtain ⟨c, hc1, hc2, hc3⟩ := hsh
  obtain ⟨r1, hr1⟩ := encodeRelativePath_ok (p := p) ⟨c, hc1, hc2⟩
  have hcp : ∀ r : Path, r.head? = some c → ∃ l, commonPrefix e.path r = .ok l := by
    intro r hr
    obtain ⟨enc, he⟩ := encodeRelativePath_ok (p := p) ⟨c, hc1, hr⟩
    unfold encodeRelativePath at he
    cases hcp : commonPrefix e.path r with
    | ok l => exact ⟨l, rfl⟩
    | err => simp [hcp] at he
    | crash => simp [hcp] at he
    | block => simp [hcp] at he
  obtain ⟨enc, h⟩ : ∃ enc, encodeEntryRelativeRange3d ss pd ordS p e outer = .ok enc := by
    unfold encodeEntryRelativeRange3d
    cases hop : outer.path.openEnd with
    | true =>
      simp only [Bool.not_true, Bool.false_eq_true, if_false, hr1, Res.ok_bind]
      exact ⟨_, rfl⟩
    | false =>
      obtain ⟨r2, hr2⟩ := encodeRelativePath_ok (p := p) ⟨c, hc1, hc3 hop⟩
      obtain ⟨l1, hl1⟩ := hcp _ hc2
      obtain ⟨l2, hl2⟩ := hcp _ (hc3 hop)
      simp only [Bool.not_false, if_true, hr1, hr2, hl1, hl2, Res.ok_bind]
      by_cases hl : l1.length ≥ l2.length
      · simp only [hl, if_true, Res.ok_bind]
        exact ⟨_, rfl⟩
      · simp only [hl, if_false, Res.ok_bind]
        exact ⟨_, rfl⟩
  refine ⟨enc, h, ?_⟩
  intro g rest hg ha hsl
  have hd := fun all => decodes_entryRelativeRange3d hs hp ho h2 h3 h4 h all
  rcases ha with ha | ha | ha
  · obtain ⟨g', h5, -, h6⟩ := (hd false).2 (.inl (.inr ha)) g rest (by intro h; simp at h) hg (by omega)
    exact ⟨g', h5, h6⟩
  · obtain ⟨g', h5, -, h6⟩ := (hd false).2 (.inr ⟨ha.1, .inr ha.2⟩) g rest (by intro h; simp at h) hg (by omega)
    exact ⟨g', h5, h6⟩
  · obtain ⟨g', h5, -, h6⟩ := (hd true).2 (.inl (.inl rfl)) g rest (ready_of_nil ha) hg (by omega)
    exact ⟨g', h5, h6⟩

/-- A closed range used in examples. -/
def exOuter : Range3d := ⟨⟨[1], [3], false⟩, ⟨[[5, 6]], [[5, 6], [8]], false⟩, ⟨0, 70002, false⟩⟩

example : (fixedCodec 1).Lawful (·.length = 1) ∧ ShortPath tinyParams exEntry.path ∧
    (do
      let enc ← encodeEntryRelativeRange3d (fixedCodec 1) (fixedCodec 2) orderSubspace tinyParams exEntry exOuter
      let (x, _) ← decodeStreamEntryRelativeRange3d (fixedCodec 1) (fixedCodec 2) tinyParams exOuter exEntry.namespaceId ⟨enc, [], [], .exact⟩
      Res.ok x) = Res.ok exEntry :=
  ⟨fixedCodec_lawful 1, ⟨⟨by decide, by decide, by decide⟩, by decide, by decide⟩, by decide +kernel⟩

example : (∃ c, exEntry.path.head? = some c ∧ exOuter.path.start.head? = some c ∧
      (exOuter.path.openEnd = false → exOuter.path.stop.head? = some c)) ∧
    encodeEntryRelativeRange3d (fixedCodec 1) (fixedCodec 2) orderSubspace tinyParams exEntry exOuter =
      .ok [0xc1, 2, 1, 1, 1, 7, 2, 1, 44, 8, 9] :=
  ⟨⟨[5, 6], by decide, by decide, by decide⟩, by decide⟩

end Willow.Props
