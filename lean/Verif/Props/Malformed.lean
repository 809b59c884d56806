import Verif.Lemmas.PropsMalformed
import Verif.Props.MessageLoop

/-! Property C112: bytes that no encoder made. -/

namespace Willow.Props

open Willow Spec

/-- C112, partial: these decoders never panic nor read past the bytes received, whatever arrives and
however it is cut, if the decoders of tokens, capabilities and signatures do not: control
messages, replies for payloads, metadata, commitments, bound fragments, tokens and read
capabilities. Missing: the other decoders (`C112_violated`). -/
theorem C112_decoders_partial (s : Schemes) (challengeLength : Nat) (h1 : NeverPanics s.groupMember.decStream)
    (h2 : NeverPanics s.staticToken.decStream) (h3 : NeverPanics s.readCap.decStream) (h4 : NeverPanics s.syncSig.decStream) :
    ∀ d ∈ [decodeControlIssueGuarantee, decodeControlAbsolve, decodeControlPlead, decodeControlAnnounceDropping,
      decodeControlApologise, decodeControlFree, decodeDataReplyPayload, decodeDataSetEagerness,
      decodeCommitmentReveal challengeLength, decodePaiBindFragment s, decodeSetupBindStaticToken s,
      decodeSetupBindReadCapability s], NeverPanics d := by
  intro d hd
  simp only [List.mem_cons, List.not_mem_nil, or_false] at hd
  rcases hd with rfl | rfl | rfl | rfl | rfl | rfl | rfl | rfl | rfl | rfl | rfl | rfl
  · exact controlIssueGuarantee_never
  · exact controlAbsolve_never
  · exact controlPlead_never
  · exact controlAnnounceDropping_never
  · exact controlApologise_never
  · exact controlFree_never
  · exact dataReplyPayload_never
  · exact dataSetEagerness_never
  · exact commitmentReveal_never _
  · exact paiBindFragment_never h1
  · exact setupBindStaticToken_never h2
  · exact setupBindReadCapability_never h3 h4

example : NeverPanics exSchemes.groupMember.decStream ∧ NeverPanics exSchemes.staticToken.decStream ∧
    NeverPanics exSchemes.readCap.decStream ∧ NeverPanics exSchemes.syncSig.decStream ∧
    decodeControlFree ⟨[0x8e], [[0xff, 1], [2, 3, 4]], [0, 1, 0], .exact⟩ =
      .ok (⟨.controlFree, .controlFree 0x01020304 true .staticToken⟩, ⟨[], [], [], .exact⟩) :=
  ⟨fixedCodec_never _, fixedCodec_never _, fixedCodec_never _, fixedCodec_never _, by decide +kernel⟩

/-- C112, partial: whatever bytes a peer sends, in whatever chunks, the receiving loop panics only
when the next byte is a harmful one: everything before has been decoded. Missing: that it does
not panic then (`C112_violated`). -/
theorem C112_partial (o : LoopOpts) (hg : NeverPanics o.schemes.groupMember.decStream) (n : Nat) (t : Tracker) (g : GB)
    (h : loopRun o n t g = .crash) :
    ∃ k, k < n ∧ ∃ out t' g', loopRun o k t g = .ok ((out, t'), g') ∧
      ∃ b, g'.content.head? = some b ∧ harmless t'.isExpectingPayloadOrTermination b = false :=
  loopRun_crash hg n t g h

example : loopRun exLoop 2 zeroTracker ⟨[0x70, 5], [[0x0c], [1]], [], .exact⟩ = .crash ∧
    loopRun exLoop 1 zeroTracker ⟨[0x70, 5], [[0x0c], [1]], [], .exact⟩ =
      .ok (([some (message (.dataReplyPayload 5)), none], zeroTracker), ⟨[], [[0x0c], [1]], [], .exact⟩) ∧
    harmless zeroTracker.isExpectingPayloadOrTermination 0x0c = false := by decide +kernel

/-- C112 is violated: after every harmful byte, whatever the state of the loop, there are bytes
which end the process if the array has no room after them (and if the decoders of fingerprints and of dynamic
tokens decode anything at all). With `C112_partial`, the harmful bytes are exactly 0x08 to 0x1f and 0x40 to 0x6f, of which
0x50 to 0x5f except 0x53 and 0x57 are harmless while a payload is expected. -/
theorem C112_violated (o : LoopOpts) (t : Tracker) (b : UInt8) {valid valid' : Bytes → Prop} {x y : Bytes}
    (hf : o.schemes.fingerprint.Lawful valid) (hx : valid x) (hd : o.schemes.dynamicToken.Lawful valid') (hy : valid' y)
    (h : harmless t.isExpectingPayloadOrTermination b = false) :
    ∃ bytes : Bytes, bytes.head? = some b ∧ ∀ g : GB, g.buf = bytes → g.rest = [] → g.mem = .exact →
      loopIteration o t g = .crash :=
  ⟨deadly o t x y b, deadly_head o t x y b, fun g h1 h2 hm => (loopIteration_panics hf hx hd hy h).on g hm h2 h1⟩

example : (∃ valid, exLoop.schemes.fingerprint.Lawful valid ∧ ∃ x, valid x) ∧
    (∃ valid, exLoop.schemes.dynamicToken.Lawful valid ∧ ∃ x, valid x) ∧
    harmless zeroTracker.isExpectingPayloadOrTermination 0x44 = false ∧
    loopIteration exLoop zeroTracker ⟨[0x4f, 0, 0x48, 0x80, 0, 1, 0xff, 0], [], [], .exact⟩ = .crash :=
  ⟨⟨_, fixedCodec_lawful _, [0, 0], rfl⟩, ⟨_, fixedCodec_lawful _, [0, 0], rfl⟩, by decide +kernel, by decide +kernel⟩

end Willow.Props
