import Verif.Lemmas.PropsErrors
import Verif.Props.MessageLoop

/-! Property C123: a message is delivered only if each of its parts was decoded. -/

namespace Willow.Props
open Spec

/-- C123: why a range cannot be decoded. Whatever the range and the one it is encoded relative to, whatever follows and
however the bytes arrive, the decoder returns an error only if the subspaces end where those of the reference begin, or if
a part is given by an end that the reference does not have; and if one of these is so, it never returns a range. -/
theorem C123_reasons (ss : Codec) (hss : NeverFails ss.decStream) (ordS : Bytes → Bytes → Ordering) (p : PathParams)
    (r ref : Range3d) (er : Bytes) (h : encodeRange3dRelative ss ordS p r ref = .ok er) (g : GB) (rest : Bytes)
    (hg : g.content = er ++ rest) :
    (decodeStreamRange3dRelative ss p ref g = .err → EndsAtStart ordS r ref ∨ NeedsEnd r ref) ∧
    (EndsAtStart ordS r ref ∨ NeedsEnd r ref → ∀ y, decodeStreamRange3dRelative ss p ref g ≠ .ok y) := by
  obtain ⟨b1, b2, bs, rfl, h1, h2, h3⟩ := encodeRange_bits h
  have hg' : g.content = b1 :: b2 :: (bs ++ rest) := by simpa using hg
  refine ⟨fun he => Classical.byContradiction fun hn => ?_, fun hx y hd => ?_⟩
  · obtain ⟨k1, k2⟩ := Classical.byContradiction fun hc => hn (.inr (h3.2 hc))
    exact range_fails hss hg' (fun hx => hn (.inl (h1.1 hx))) h2 k1 k2 he
  · obtain ⟨k1, k2, k3⟩ := range_gives hg' hd
    rcases hx with hx | hx
    · exact k1 (h1.2 hx)
    · exact h3.1 hx ⟨k2, k3⟩

/-- A range of paths without an end. -/
def exFrom : Range3d := ⟨⟨[1], [3], false⟩, ⟨[[5]], [], true⟩, ⟨2, 0, true⟩⟩

/-- Another one. -/
def exFrom' : Range3d := ⟨⟨[1], [3], false⟩, ⟨[[5], [7]], [[5]], true⟩, ⟨4, 0, true⟩⟩

example : encodeRange3dRelative (fixedCodec 1) orderSubspace tinyParams exFrom' exFrom =
      .ok [109, 196, 1, 1, 1, 7, 1, 0, 2, 255, 255, 255, 255, 255, 255, 255, 253] ∧ NeedsEnd exFrom' exFrom ∧
    ¬ EndsAtStart orderSubspace exFrom' exFrom ∧
    encodeRange3dRelative (fixedCodec 1) orderSubspace tinyParams { exFrom' with path := ⟨[[5], [7]], [[5], [9]], false⟩ } exFrom =
      .ok [107, 196, 1, 1, 1, 7, 1, 1, 1, 9, 2, 255, 255, 255, 255, 255, 255, 255, 253] ∧
    ¬ NeedsEnd { exFrom' with path := ⟨[[5], [7]], [[5], [9]], false⟩ } exFrom := by
  refine ⟨by decide +kernel, .inl ⟨rfl, .inl rfl⟩, fun h => absurd h.2.2 (by decide), by decide +kernel, ?_⟩
  rintro (⟨-, h | ⟨pre, h1, h2, h3⟩ | ⟨pre, h1, h2, h3⟩⟩ | ⟨-, h | ⟨h, -⟩⟩)
  · simp at h
  · exact h3 (by rw [List.prefix_nil.1 h2]; exact List.nil_prefix)
  · exact h3 (by rw [List.prefix_nil.1 h2]; exact List.nil_prefix)
  · exact absurd h (by unfold NearLast; decide)
  · simp [exFrom'] at h

/-- C123, partial: a range encoded relative to one that has ends is decoded without an error, whatever follows and however
the bytes arrive, unless its subspaces end where those of the reference begin; then there always is an error. Missing:
references without ends, for which the decoder may wait or crash before it comes to an error (`C123_reasons`). -/
theorem C123_range_partial (ss : Codec) (hss : NeverFails ss.decStream) (ordS : Bytes → Bytes → Ordering) (p : PathParams)
    (r ref : Range3d) (hc : Closed ref) (er : Bytes) (h : encodeRange3dRelative ss ordS p r ref = .ok er) (g : GB) (rest : Bytes)
    (hg : g.content = er ++ rest) : decodeStreamRange3dRelative ss p ref g = .err ↔ EndsAtStart ordS r ref := by
  constructor
  · intro he
    refine ((C123_reasons ss hss ordS p r ref er h g rest hg).1 he).resolve_right fun hx => ?_
    rcases hx with hx | hx
    · rw [hc.2.1] at hx; simp at hx
    · rw [hc.2.2] at hx; simp at hx
  · intro he
    obtain ⟨b1, b2, bs, rfl, h1, h2⟩ := encodeRange_head h
    exact (rangeE_invalid (bs := bs ++ rest) (by simpa using hg) (h2 he).1).1

/-- A range of subspaces that ends where `exOuter` begins. -/
def exBefore : Range3d := ⟨⟨[0], [1], false⟩, ⟨[[5, 6]], [[5, 6], [8]], false⟩, ⟨2, 70001, false⟩⟩

theorem exBefore_endsAtStart : EndsAtStart orderSubspace exBefore exOuter := ⟨rfl, rfl, by decide⟩

theorem exRange_needsNone : ¬ NeedsEnd exRange exOuter := by
  rintro (⟨h, -⟩ | ⟨h, -⟩) <;> simp [exOuter] at h

theorem exRange_notEndsAtStart : ¬ EndsAtStart orderSubspace exRange exOuter := fun h => absurd h.2.2 (by decide)

example : NeverFails (fixedCodec 1).decStream ∧ Closed exOuter ∧
    encodeRange3dRelative (fixedCodec 1) orderSubspace tinyParams exBefore exOuter =
      .ok [24, 192, 0, 1, 0, 2, 0, 2, 0, 1, 17, 113] ∧
    EndsAtStart orderSubspace exBefore exOuter ∧
    encodeRange3dRelative (fixedCodec 1) orderSubspace tinyParams exRange exOuter =
      .ok [104, 192, 1, 0, 2, 0, 2, 0, 1, 17, 113] ∧
    ¬ EndsAtStart orderSubspace exRange exOuter :=
  ⟨fixedCodec_neverFails 1, ⟨rfl, rfl, rfl⟩, by decide +kernel, exBefore_endsAtStart, by decide +kernel, exRange_notEndsAtStart⟩

/-- C123, partial: the range of a delivered send-fingerprint message was decoded from its encoding, when the range before
has the ends that its parts are given by, the subspaces do not end where those of the range before begin, and the handles are of the same width or those
of the message before. Missing: the other cases. -/
theorem C123_fingerprint_partial (s : Schemes) (vf : Bytes → Prop) (hf : s.fingerprint.Lawful vf)
    (hss : NeverFails s.ss.decStream) (privy : Privy)
    (aoiRange : UInt64 → UInt64 → Range3d) (range : Range3d) (hcl : ¬ NeedsEnd range privy.prevRange) (fingerprint : Bytes) (sender receiver covers : UInt64)
    (enc : Bytes) (h : encodeReconciliationSendFingerprint s privy range fingerprint sender receiver covers = .ok enc)
    (hs : sender.toNat < 2 ^ s.p.bits) (hr : receiver.toNat < 2 ^ s.p.bits) (hc : covers.toNat < 2 ^ s.p.bits)
    (hv : fingerprint = s.neutral ∨ vf fingerprint)
    (hw : getWidthMax64Int sender.toNat = getWidthMax64Int receiver.toNat ∨
      (sender = privy.prevSenderHandle ∧ receiver = privy.prevReceiverHandle))
    (ha : ¬ EndsAtStart s.ordS range privy.prevRange)
    (g : GB) (rest : Bytes) (hg : g.content = enc ++ rest) (m : Msg) (g' : GB)
    (hd : decodeReconciliationSendFingerprint s privy aoiRange g = .ok (m, g')) :
    ∃ er g1 range', encodeRange3dRelative s.ss s.ordS s.p range privy.prevRange = .ok er ∧ g1.content = er ++ rest ∧
      decodeStreamRange3dRelative s.ss s.p privy.prevRange g1 = .ok (range', g') ∧
      m = message (.reconciliationSendFingerprint range' fingerprint sender receiver (if covers = 1 then 0 else covers) true) := by
  obtain ⟨er, g1, range', h1, h2, h3, h4⟩ := C74_sendFingerprint_partial s vf hf privy aoiRange range fingerprint sender
    receiver covers enc h hs hr hc hv hw g rest hg m g' hd
  refine ⟨er, g1, range', h1, h2, h3.resolve_right fun hx => ha ?_, h4⟩
  exact ((C123_reasons _ hss _ _ _ _ _ h1 _ _ h2).1 hx.1).resolve_right hcl

example : exSchemes.fingerprint.Lawful (fun x => x.length = 2) ∧ NeverFails exSchemes.ss.decStream ∧ ¬ NeedsEnd exRange exPrivy.prevRange ∧
    encodeReconciliationSendFingerprint exSchemes exPrivy exRange [9, 9] 7 8 200 =
      .ok [0x44, 0x08, 200, 7, 8, 9, 9, 0x68, 0xc0, 1, 0, 2, 0, 2, 0, 1, 17, 113] ∧
    getWidthMax64Int (7 : UInt64).toNat = getWidthMax64Int (8 : UInt64).toNat ∧
    ¬ EndsAtStart exSchemes.ordS exRange exPrivy.prevRange :=
  ⟨fixedCodec_lawful 2, fixedCodec_neverFails 1, exRange_needsNone, by decide +kernel, by decide +kernel, exRange_notEndsAtStart⟩

/-- C123, partial: the same for announce-entries messages. -/
theorem C123_announce_partial (s : Schemes) (hss : NeverFails s.ss.decStream) (privy : Privy)
    (aoiRange : UInt64 → UInt64 → Range3d) (range : Range3d) (hcl : ¬ NeedsEnd range privy.prevRange)
    (count sender receiver covers : UInt64) (wantResponse willSort : Bool) (enc : Bytes)
    (h : encodeReconciliationAnnounceEntries s privy range count wantResponse willSort sender receiver covers = .ok enc)
    (hs : sender.toNat < 2 ^ s.p.bits) (hr : receiver.toNat < 2 ^ s.p.bits) (hc : covers.toNat < 2 ^ s.p.bits)
    (hn : count.toNat < 2 ^ s.p.bits) (hcov : covers < 252) (ha : ¬ EndsAtStart s.ordS range privy.prevRange)
    (g : GB) (rest : Bytes) (hg : g.content = enc ++ rest) (m : Msg) (g' : GB)
    (hd : decodeReconciliationAnnounceEntries s privy aoiRange g = .ok (m, g')) :
    ∃ er g1 range', encodeRange3dRelative s.ss s.ordS s.p range privy.prevRange = .ok er ∧ g1.content = er ++ rest ∧
      decodeStreamRange3dRelative s.ss s.p privy.prevRange g1 = .ok (range', g') ∧
      m = message (.reconciliationAnnounceEntries range' count wantResponse willSort sender receiver
        (if covers = 1 then 0 else covers) true) := by
  obtain ⟨er, g1, range', h1, h2, h3, h4⟩ := C74_announceEntries_partial s privy aoiRange range count sender
    receiver covers wantResponse willSort enc h hs hr hc hn (.inl hcov) g (.inl hcov) rest hg m g' hd
  refine ⟨er, g1, range', h1, h2, h3.resolve_right fun hx => ha ?_, h4⟩
  exact ((C123_reasons _ hss _ _ _ _ _ h1 _ _ h2).1 hx.1).resolve_right hcl

example : encodeReconciliationAnnounceEntries exSchemes exPrivy exRange 3 true false 7 8 200 =
      .ok [92, 1, 200, 7, 8, 3, 104, 192, 1, 0, 2, 0, 2, 0, 1, 17, 113] ∧ (200 : UInt64) < 252 ∧
    (decodeReconciliationAnnounceEntries exSchemes exPrivy (fun _ _ => exOuter)
      ⟨[92, 1, 200], [[7, 8, 3, 104, 192], [1, 0, 2, 0, 2, 0, 1, 17, 113]], [], .exact⟩).map' (·.2) =
      .ok ⟨[0, 1, 17, 113], [], [], .exact⟩ := by decide +kernel

/-- C123 is violated by every send-fingerprint and announce-entries message on subspaces that end where those of the message
before begin: the decoder of the range returns an error, which is not looked at, so the message is delivered with the zero
range, and the bytes of the range remain in the stream. -/
theorem C123_violated (s : Schemes) (vf : Bytes → Prop) (hf : s.fingerprint.Lawful vf) (privy : Privy)
    (aoiRange : UInt64 → UInt64 → Range3d) (range : Range3d) (sender receiver covers : UInt64)
    (hs : sender.toNat < 2 ^ s.p.bits) (hr : receiver.toNat < 2 ^ s.p.bits) (hc : covers.toNat < 2 ^ s.p.bits)
    (ha : EndsAtStart s.ordS range privy.prevRange) (g : GB) (rest : Bytes) :
    (∀ fingerprint enc m g', encodeReconciliationSendFingerprint s privy range fingerprint sender receiver covers = .ok enc →
      (fingerprint = s.neutral ∨ vf fingerprint) →
      (getWidthMax64Int sender.toNat = getWidthMax64Int receiver.toNat ∨
        (sender = privy.prevSenderHandle ∧ receiver = privy.prevReceiverHandle)) →
      g.content = enc ++ rest → decodeReconciliationSendFingerprint s privy aoiRange g = .ok (m, g') →
      ∃ er, encodeRange3dRelative s.ss s.ordS s.p range privy.prevRange = .ok er ∧ g'.content = er ++ rest ∧
        m = message (.reconciliationSendFingerprint zeroRange3d fingerprint sender receiver
          (if covers = 1 then 0 else covers) true)) ∧
    (∀ count wantResponse willSort enc m g',
      encodeReconciliationAnnounceEntries s privy range count wantResponse willSort sender receiver covers = .ok enc →
      count.toNat < 2 ^ s.p.bits → covers < 252 →
      g.content = enc ++ rest → decodeReconciliationAnnounceEntries s privy aoiRange g = .ok (m, g') →
      ∃ er, encodeRange3dRelative s.ss s.ordS s.p range privy.prevRange = .ok er ∧ g'.content = er ++ rest ∧
        m = message (.reconciliationAnnounceEntries zeroRange3d count wantResponse willSort sender receiver
          (if covers = 1 then 0 else covers) true)) := by
  have hh : ∀ x y : UInt64, (if x = y then y else x) = x := by
    intro x y
    split
    · next h => exact h.symm
    · rfl
  constructor
  · intro fingerprint enc m g' h hv hw hg hd
    obtain ⟨er, g1, range', h1, h2, h3, rfl⟩ := sendFingerprint_inv hf h hs hr hc hv hw hg hd
    obtain ⟨b1, b2, bs, rfl, -, h5⟩ := encodeRange_head h1
    obtain ⟨-, g2, e2, c2⟩ := rangeE_invalid (ss := s.ss) (p := s.p) (ref := privy.prevRange) (g := g1) (bs := bs ++ rest)
      (by simpa using h2) (h5 ha).1
    rw [e2, Res.ok.injEq, Prod.mk.injEq] at h3
    obtain ⟨rfl, rfl⟩ := h3
    exact ⟨_, h1, by simpa using c2, by rw [hh, hh]⟩
  · intro count wantResponse willSort enc m g' h hn hcov hg hd
    obtain ⟨er, g1, range', h1, h2, h3, rfl⟩ := announceEntries_inv h hs hr hc hn hcov hg hd
    obtain ⟨b1, b2, bs, rfl, -, h5⟩ := encodeRange_head h1
    obtain ⟨-, g2, e2, c2⟩ := rangeE_invalid (ss := s.ss) (p := s.p) (ref := privy.prevRange) (g := g1) (bs := bs ++ rest)
      (by simpa using h2) (h5 ha).1
    rw [e2, Res.ok.injEq, Prod.mk.injEq] at h3
    obtain ⟨rfl, rfl⟩ := h3
    exact ⟨_, h1, by simpa using c2, by rw [hh, hh]⟩

example : encodeReconciliationSendFingerprint exSchemes exPrivy exBefore [9, 9] 7 8 200 =
      .ok [68, 8, 200, 7, 8, 9, 9, 24, 192, 0, 1, 0, 2, 0, 2, 0, 1, 17, 113] ∧
    EndsAtStart exSchemes.ordS exBefore exPrivy.prevRange ∧
    decodeReconciliationSendFingerprint exSchemes exPrivy (fun _ _ => exOuter)
      ⟨[68, 8, 200, 7, 8, 9, 9, 24, 192], [[0, 1, 0, 2, 0, 2, 0, 1, 17, 113]], [], .exact⟩ =
      .ok (message (.reconciliationSendFingerprint zeroRange3d [9, 9] 7 8 200 true),
        ⟨[24, 192], [[0, 1, 0, 2, 0, 2, 0, 1, 17, 113]], [], .exact⟩) ∧
    encodeReconciliationAnnounceEntries exSchemes exPrivy exBefore 3 true false 7 8 200 =
      .ok [92, 1, 200, 7, 8, 3, 24, 192, 0, 1, 0, 2, 0, 2, 0, 1, 17, 113] ∧
    decodeReconciliationAnnounceEntries exSchemes exPrivy (fun _ _ => exOuter)
      ⟨[92, 1, 200, 7, 8, 3, 24, 192], [[0, 1, 0, 2, 0, 2, 0, 1, 17, 113]], [], .exact⟩ =
      .ok (message (.reconciliationAnnounceEntries zeroRange3d 3 true false 7 8 200 true),
        ⟨[24, 192], [[0, 1, 0, 2, 0, 2, 0, 1, 17, 113]], [], .exact⟩) :=
  ⟨by decide +kernel, exBefore_endsAtStart, by decide +kernel, by decide +kernel, by decide +kernel⟩

/-- C123 is violated by every send-fingerprint and announce-entries message of whose range a part is given by an end that the
range before does not have: the decoder of the range never returns one. If it returns an error, that is not looked at, and
the message is delivered with the zero range. So it is with every range of paths without an end that comes after another
one: the flag of the missing end is looked for at a bit that no byte has. -/
theorem C123_violated_open (s : Schemes) (vf : Bytes → Prop) (hf : s.fingerprint.Lawful vf) (privy : Privy)
    (aoiRange : UInt64 → UInt64 → Range3d) (range : Range3d) (sender receiver covers : UInt64)
    (hs : sender.toNat < 2 ^ s.p.bits) (hr : receiver.toNat < 2 ^ s.p.bits) (hc : covers.toNat < 2 ^ s.p.bits)
    (hn : NeedsEnd range privy.prevRange ∨ (range.path.openEnd = true ∧ privy.prevRange.path.openEnd = true))
    (g : GB) (rest : Bytes) :
    (∀ er y, encodeRange3dRelative s.ss s.ordS s.p range privy.prevRange = .ok er → g.content = er ++ rest →
      decodeStreamRange3dRelative s.ss s.p privy.prevRange g ≠ .ok y) ∧
    (∀ fingerprint enc m g', encodeReconciliationSendFingerprint s privy range fingerprint sender receiver covers = .ok enc →
      (fingerprint = s.neutral ∨ vf fingerprint) →
      (getWidthMax64Int sender.toNat = getWidthMax64Int receiver.toNat ∨
        (sender = privy.prevSenderHandle ∧ receiver = privy.prevReceiverHandle)) →
      g.content = enc ++ rest → decodeReconciliationSendFingerprint s privy aoiRange g = .ok (m, g') →
      m = message (.reconciliationSendFingerprint zeroRange3d fingerprint sender receiver
        (if covers = 1 then 0 else covers) true)) ∧
    (∀ count wantResponse willSort enc m g',
      encodeReconciliationAnnounceEntries s privy range count wantResponse willSort sender receiver covers = .ok enc →
      count.toNat < 2 ^ s.p.bits → covers < 252 →
      g.content = enc ++ rest → decodeReconciliationAnnounceEntries s privy aoiRange g = .ok (m, g') →
      m = message (.reconciliationAnnounceEntries zeroRange3d count wantResponse willSort sender receiver
        (if covers = 1 then 0 else covers) true)) := by
  have hh : ∀ x y : UInt64, (if x = y then y else x) = x := by
    intro x y
    split
    · next h => exact h.symm
    · rfl
  have hn : NeedsEnd range privy.prevRange := hn.elim id fun h => .inl ⟨h.2, .inl h.1⟩
  have never : ∀ er (g1 : GB) y, encodeRange3dRelative s.ss s.ordS s.p range privy.prevRange = .ok er →
      g1.content = er ++ rest → decodeStreamRange3dRelative s.ss s.p privy.prevRange g1 ≠ .ok y := by
    intro er g1 y h hg hd
    obtain ⟨b1, b2, bs, rfl, -, -, h3⟩ := encodeRange_bits h
    exact h3.1 hn (range_gives (by simpa using hg) hd).2
  have key : ∀ er (g1 : GB) range' g', encodeRange3dRelative s.ss s.ordS s.p range privy.prevRange = .ok er →
      g1.content = er ++ rest →
      (decodeStreamRange3dRelativeE s.ss s.p privy.prevRange).ignoring zeroRange3d g1 = .ok (range', g') →
      range' = zeroRange3d := by
    intro er g1 range' g' h1 h2 h3
    rcases DecE.ignoring_inv h3 with h | ⟨-, -, h⟩
    · rw [decodeStreamRange3dRelativeE_strict] at h
      exact absurd h (never _ _ _ h1 h2)
    · exact h
  refine ⟨fun er y h hg => never er g y h hg, ?_, ?_⟩
  · intro fingerprint enc m g' h hv hw hg hd
    obtain ⟨er, g1, range', h1, h2, h3, rfl⟩ := sendFingerprint_inv hf h hs hr hc hv hw hg hd
    rw [key _ _ _ _ h1 h2 h3, hh, hh]
  · intro count wantResponse willSort enc m g' h hn hcov hg hd
    obtain ⟨er, g1, range', h1, h2, h3, rfl⟩ := announceEntries_inv h hs hr hc hn hcov hg hd
    rw [key _ _ _ _ h1 h2 h3, hh, hh]

example : exFrom.path.openEnd = true ∧ { exPrivy with prevRange := exFrom }.prevRange.path.openEnd = true ∧
    encodeReconciliationSendFingerprint exSchemes { exPrivy with prevRange := exFrom }
      exFrom' [9, 9] 7 8 200 =
      .ok [68, 8, 200, 7, 8, 9, 9, 109, 196, 1, 1, 1, 7, 1, 0, 2, 255, 255, 255, 255, 255, 255, 255, 253] ∧
    (decodeReconciliationSendFingerprint exSchemes { exPrivy with prevRange := exFrom } (fun _ _ => exOuter)
      ⟨[68, 8, 200, 7, 8, 9, 9, 109, 196, 1], [[1, 1, 7, 1, 0, 2, 255, 255], [255, 255, 255, 255, 255, 253]], [], .exact⟩).map' (·.1) =
      .ok (message (.reconciliationSendFingerprint zeroRange3d [9, 9] 7 8 200 true)) := by decide +kernel

/-- C123 is violated in the message loop: after such a fingerprint the loop takes the bytes of the range for a message that
replies with a subspace capability, whatever either side remembers. -/
theorem C123_violated_loop (s : Schemes) (vf : Bytes → Prop) (hf : s.fingerprint.Lawful vf) (h2n : UInt64 → Bytes)
    (current : Entry) (t t' : Tracker) (range : Range3d) (fingerprint : Bytes) (sender receiver covers : UInt64)
    (doesCover : Bool) (ch : Channel) (enc : Bytes)
    (h : encodeMessage s h2n current t (message (.reconciliationSendFingerprint range fingerprint sender receiver covers doesCover)) =
      .ok ((ch, enc), t'))
    (hs : sender.toNat < 2 ^ s.p.bits) (hr : receiver.toNat < 2 ^ s.p.bits) (hc : covers.toNat < 2 ^ s.p.bits)
    (hv : fingerprint = s.neutral ∨ vf fingerprint)
    (hw : getWidthMax64Int sender.toNat = getWidthMax64Int receiver.toNat ∨
      (sender = t.prevSenderHandle ∧ receiver = t.prevReceiverHandle))
    (ha : EndsAtStart s.ordS range t.prevRange) (o : LoopOpts) (hos : o.schemes = s) (tr tr' : Tracker) (g g' : GB)
    (rest : Bytes) (hg : g.content = enc ++ rest) (out : List (Option Msg))
    (hl : loopIteration o tr g = .ok ((out, tr'), g')) :
    (∃ sender' receiver' covers', out =
      [some (message (.reconciliationSendFingerprint zeroRange3d fingerprint sender' receiver' covers' true)), none]) ∧
    (∃ er, encodeRange3dRelative s.ss s.ordS s.p range t.prevRange = .ok er ∧ g'.content = er ++ rest) ∧
    ∃ g'', loopIteration o tr' g' = loopBranch o tr' (.decoder .paiReplySubspaceCapability) g'' := by
  obtain ⟨h1, -⟩ := encodeMessage_ok.1 h
  have hmem : ∀ b bs, enc = b :: bs → branch tr.isExpectingPayloadOrTermination tr.isExpectingReconciliationSendEntry b =
      .decoder .reconciliationSendFingerprint := by
    rintro b bs rfl
    exact routed_byte _ _ _ (by simp) b (firstByte_mem (body := .reconciliationSendFingerprint ..) h1 (by simp [kindOf]))
  obtain ⟨_, h2, h1⟩ := Res.bind_eq_ok.1 h1
  simp only [Res.ok.injEq, Prod.mk.injEq] at h1
  obtain ⟨rfl, -⟩ := h1
  obtain ⟨b1, b2, er, her, henc, -⟩ := sendFingerprint_parts h2 hs hr hc
  obtain ⟨g1, c1, e1⟩ := loopIteration_eq (o := o) (t := tr) (b := b1) (by rw [hg, henc]; rfl)
  rw [e1, hmem _ _ henc] at hl
  unfold loopBranch at hl
  obtain ⟨m, g2, hd, hl⟩ := Dec.bind_ok.1 hl
  simp only [Dec.pure_apply, Res.ok.injEq, Prod.mk.injEq] at hl
  obtain ⟨⟨rfl, -⟩, rfl⟩ := hl
  unfold loopDecoder at hd
  rw [hos] at hd
  obtain ⟨er', g3, range', h5, h6, h7, rfl⟩ := sendFingerprint_inv hf h2 hs hr hc hv hw (g := g1) (rest := rest)
    (by rw [c1, henc]; rfl) hd
  obtain ⟨c1, c2, bs, rfl, -, h8⟩ := encodeRange_head h5
  obtain ⟨-, g4, e4, c4⟩ := rangeE_invalid (ss := s.ss) (p := s.p) (ref := zeroTracker.getPrivy.prevRange) (g := g3)
    (bs := bs ++ rest) (by simpa using h6) (h8 ha).1
  rw [e4, Res.ok.injEq, Prod.mk.injEq] at h7
  obtain ⟨rfl, rfl⟩ := h7
  refine ⟨⟨_, _, _, rfl⟩, ⟨_, h5, by simpa using c4⟩, ?_⟩
  obtain ⟨g5, c5, e5⟩ := loopIteration_eq (o := o) (t := tr') (b := c1) c4
  refine ⟨g5, ?_⟩
  rw [e5, (h8 ha).2]

example : (encodeMessage exSchemes (fun _ => []) exRef exTracker
      (message (.reconciliationSendFingerprint exBefore [9, 9] 7 8 200 true))).map' (·.1.2) =
      .ok [71, 8, 200, 9, 9, 24, 192, 0, 1, 0, 2, 0, 2, 0, 1, 17, 113] ∧
    EndsAtStart exSchemes.ordS exBefore exTracker.prevRange ∧
    (7 : UInt64) = exTracker.prevSenderHandle ∧ (8 : UInt64) = exTracker.prevReceiverHandle ∧
    (loopIteration exLoop exTracker ⟨[71, 8, 200, 9, 9, 24, 192], [[0, 1, 0, 2, 0, 2, 0, 1, 17, 113]], [], .exact⟩).map'
      (fun r => (r.1.1, r.2)) =
      .ok ([some (message (.reconciliationSendFingerprint zeroRange3d [9, 9] 0 0 200 true)), none],
        ⟨[24, 192], [[0, 1, 0, 2, 0, 2, 0, 1, 17, 113]], [], .exact⟩) :=
  ⟨by decide +kernel, exBefore_endsAtStart, rfl, rfl, by decide +kernel⟩

/-- C123 is violated by the entry of a data message that is sent relative to an area for any subspace with a header that says
that the subspace is not encoded: the error is not looked at, the message is delivered with the zero entry, and what follows
the header remains in the stream. -/
theorem C123_violated_entry (s : Schemes) (aois : AoiLookup) (current : Entry) (sender receiver : UInt64)
    (ha : (aois.area sender receiver).anySubspace = true) (b : UInt8) (bs : Bytes) (hb : b < 128) (g : GB)
    (hg : g.content = encodeIntMax64 sender.toNat ++ encodeIntMax64 receiver.toNat ++ b :: bs) :
    ∃ g', decodeDataEntry s aois current false (getWidthMax64Int sender.toNat) (getWidthMax64Int receiver.toNat) g =
      .ok ({ namespaceId := [], subspaceId := [], path := [], timestamp := 0, payloadLength := 0, payloadDigest := [] }, g') ∧ g'.content = bs :=
  dataEntry_invalid ha hb (by rw [hg, List.append_assoc])

/-- Areas for any subspace. -/
def exAnyAois : AoiLookup := ⟨fun _ _ => ⟨[], true, [[5, 6]], ⟨0, 0, true⟩⟩, fun _ _ => [3]⟩

example : (decodeDataSendEntry exSchemes exAnyAois exRef ⟨[0x60, 0, 9, 1, 2, 7, 8, 0x40, 1, 1, 1, 7, 5, 6, 8, 9], [], [], .exact⟩) =
    .ok (message (.dataSendEntry ⟨[], [], [], [], 0, 0⟩ 9 [1, 2] 0), ⟨[1, 1, 1, 7, 5, 6, 8, 9], [], [], .exact⟩) := by decide +kernel

end Willow.Props
