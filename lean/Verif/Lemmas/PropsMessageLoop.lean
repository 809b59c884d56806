import Verif.Spec.MessageLoop
import Verif.Lemmas.PropsMessages
import Verif.Lemmas.PropsMessagesReconciliation

/-! Lemmas for the theorems of `Verif/Props/MessageLoop.lean`. -/

namespace Willow.Props

open Willow Spec

theorem widthHeader_cases (n : Nat) (h1 h2 h4 h8 : UInt8) :
    widthHeader (getWidthMax64Int n) h1 h2 h4 h8 ∈ [h1, h2, h4, h8] := by
  unfold widthHeader
  rcases width64 n with h | h | h | h <;> rw [h] <;> simp

theorem encodeMessage_ok {s : Schemes} {h2n : UInt64 → Bytes} {current : Entry} {t t' : Tracker} {m : Msg} {ch : Channel}
    {bs : Bytes} : encodeMessage s h2n current t m = .ok ((ch, bs), t') ↔
      encodeBody s h2n current t m.body = .ok (bs, t') ∧ ch = msgLogicalChannel m.kind := by
  unfold encodeMessage
  rw [Res.bind_eq_ok]
  constructor
  · rintro ⟨⟨x, y⟩, h1, h2⟩
    simp only [Res.ok.injEq, Prod.mk.injEq] at h2
    obtain ⟨⟨rfl, rfl⟩, rfl⟩ := h2
    exact ⟨h1, rfl⟩
  · rintro ⟨h1, rfl⟩
    exact ⟨_, h1, rfl⟩

/-- The first bytes of encoded messages of each kind; none for a nonce, which has no header. -/
def firstBytes : MsgKind → List UInt8
  | .controlIssueGuarantee => [0x80, 0x81, 0x82, 0x83]
  | .controlAbsolve => [0x84, 0x85, 0x86, 0x87]
  | .controlPlead => [0x88, 0x89, 0x8a, 0x8b]
  | .controlAnnounceDropping => [0x90, 0x91, 0x92, 0x93, 0x94, 0x95, 0x96]
  | .controlApologise => [0x98, 0x99, 0x9a, 0x9b, 0x9c, 0x9d, 0x9e]
  | .controlFree => [0x8c, 0x8d, 0x8e, 0x8f]
  | .dataReplyPayload => [0x70, 0x71, 0x72, 0x73]
  | .dataBindPayloadRequest => [0x6c, 0x6d, 0x6e, 0x6f]
  | .dataSendEntry => [0x60, 0x61, 0x62, 0x63]
  | .dataSendPayload => [0x64, 0x65, 0x66, 0x67]
  | .dataSetMetadata => [0x68, 0x6a]
  | .paiBindFragment => [4, 6]
  | .paiReplyFragment => [0x8, 0x9, 0xa, 0xb]
  | .paiRequestSubspaceCapability => [0xc, 0xd, 0xe, 0xf]
  | .paiReplySubspaceCapability => [0x10, 0x11, 0x12, 0x13]
  | .reconciliationSendFingerprint => [0x44, 0x45, 0x46, 0x47, 0x4c, 0x4d, 0x4e, 0x4f]
  | .reconciliationAnnounceEntries => [0x54, 0x55, 0x56, 0x57, 0x5c, 0x5d, 0x5e, 0x5f]
  | .reconciliationSendEntry => [0x54, 0x55, 0x56, 0x57, 0x5c, 0x5d, 0x5e, 0x5f]
  | .reconciliationSendPayload => [0x50, 0x51, 0x52, 0x53]
  | .reconciliationTerminatePayload => [0x50]
  | .setupBindStaticToken => [0x30]
  | .setupBindReadCapability | .setupBindAreaOfInterest | .commitmentReveal => []

theorem width_mem {P : Nat → Prop} (h1 : P 1) (h2 : P 2) (h4 : P 4) (h8 : P 8) (n : Nat) : P (getWidthMax64Int n) := by
  rcases width64 n with h | h | h | h <;> rw [h] <;> assumption

theorem firstByte_mem {s : Schemes} {h2n : UInt64 → Bytes} {current : Entry} {t t' : Tracker} {body : Body}
    {b : UInt8} {bs : Bytes} (h : encodeBody s h2n current t body = .ok (b :: bs, t')) (hc : kindOf body ≠ .commitmentReveal) :
    b ∈ firstBytes (kindOf body) := by
  cases body <;> dsimp only [kindOf] at hc ⊢
  case commitmentReveal => exact absurd rfl hc
  case controlIssueGuarantee | controlAbsolve | controlPlead | controlFree | paiReplyFragment |
      paiRequestSubspaceCapability | paiReplySubspaceCapability =>
    simp only [encodeBody, Res.ok.injEq, Prod.mk.injEq] at h
    obtain ⟨h, -⟩ := h
    have := (List.cons.inj h).1
    rw [← this]
    exact widthHeader_cases _ _ _ _ _
  case controlAnnounceDropping ch | controlApologise ch =>
    simp only [encodeBody, Res.ok.injEq, Prod.mk.injEq] at h
    rw [← (List.cons.inj h.1).1]
    cases ch <;> decide
  case dataReplyPayload | dataSendPayload | reconciliationSendPayload =>
    simp only [encodeBody, Res.ok.injEq, Prod.mk.injEq] at h
    rw [← (List.cons.inj h.1).1]
    exact width_mem (P := fun w => byteOf (compactWidthOr _ w) ∈ firstBytes _) (by decide) (by decide) (by decide) (by decide) _
  case dataSetMetadata e _ _ =>
    simp only [encodeBody, Res.ok.injEq, Prod.mk.injEq] at h
    rw [← (List.cons.inj h.1).1]
    cases e <;> decide
  case paiBindFragment _ e =>
    simp only [encodeBody, Res.ok.injEq, Prod.mk.injEq] at h
    rw [← (List.cons.inj h.1).1]
    cases e <;> decide
  case setupBindReadCapability | setupBindAreaOfInterest =>
    simp [encodeBody] at h
  case setupBindStaticToken | reconciliationTerminatePayload =>
    simp only [encodeBody, Res.ok.injEq, Prod.mk.injEq] at h
    rw [← (List.cons.inj h.1).1]
    decide
  case dataBindPayloadRequest =>
    obtain ⟨_, h1, h⟩ := Res.bind_eq_ok.1 h
    simp only [Res.ok.injEq, Prod.mk.injEq] at h
    obtain ⟨rfl, rfl⟩ := h
    unfold encodeDataBindPayloadRequest at h1
    dsimp only at h1
    obtain ⟨_, -, h1⟩ := Res.bind_eq_ok.1 h1
    simp only [Res.ok.injEq] at h1
    rw [← (List.cons.inj h1).1]
    exact width_mem (P := fun w => byteOf (compactWidthOr _ w) ∈ firstBytes _) (by decide) (by decide) (by decide) (by decide) _
  case dataSendEntry _ handle _ _ =>
    obtain ⟨_, h1, h⟩ := Res.bind_eq_ok.1 h
    simp only [Res.ok.injEq, Prod.mk.injEq] at h
    obtain ⟨rfl, rfl⟩ := h
    unfold encodeDataSendEntry at h1
    dsimp only at h1
    obtain ⟨_, -, h1⟩ := Res.bind_eq_ok.1 h1
    simp only [Res.ok.injEq] at h1
    rw [← (List.cons.inj h1).1]
    have : ∀ n, byteOf (0x60 ||| compactWidthOr 0 n) ∈ firstBytes .dataSendEntry := by
      intro n
      unfold compactWidthOr compactWidthEndMask
      repeat' split
      all_goals decide
    exact this _
  case reconciliationSendFingerprint =>
    obtain ⟨_, h1, h⟩ := Res.bind_eq_ok.1 h
    simp only [Res.ok.injEq, Prod.mk.injEq] at h
    obtain ⟨rfl, rfl⟩ := h
    unfold encodeReconciliationSendFingerprint at h1
    dsimp only at h1
    obtain ⟨_, -, h1⟩ := Res.bind_eq_ok.1 h1
    simp only [Res.ok.injEq] at h1
    rw [← (List.cons.inj h1).1]
    have : ∀ n a b : Bool, (0x40 ||| (0x40 ||| (if n then 0x8 else 0x0) ||| 0x4 ||| (if a then 0x2 else 0x0) |||
      (if b then 0x1 else 0x0)) : UInt8) ∈ firstBytes .reconciliationSendFingerprint := by decide
    exact this _ _ _
  case reconciliationAnnounceEntries =>
    obtain ⟨_, h1, h⟩ := Res.bind_eq_ok.1 h
    simp only [Res.ok.injEq, Prod.mk.injEq] at h
    obtain ⟨rfl, rfl⟩ := h
    unfold encodeReconciliationAnnounceEntries at h1
    dsimp only at h1
    obtain ⟨_, -, h1⟩ := Res.bind_eq_ok.1 h1
    simp only [Res.ok.injEq] at h1
    rw [← (List.cons.inj h1).1]
    have : ∀ n a b : Bool, (0x50 ||| (if n then 0x8 else 0x0) ||| 0x4 ||| (if a then 0x2 else 0x0) |||
      (if b then 0x1 else 0x0) : UInt8) ∈ firstBytes .reconciliationAnnounceEntries := by decide
    exact this _ _ _
  case reconciliationSendEntry =>
    obtain ⟨_, h1, h⟩ := Res.bind_eq_ok.1 h
    simp only [Res.ok.injEq, Prod.mk.injEq] at h
    obtain ⟨rfl, rfl⟩ := h
    unfold encodeReconciliationSendEntry at h1
    dsimp only at h1
    obtain ⟨_, -, h1⟩ := Res.bind_eq_ok.1 h1
    simp only [Res.ok.injEq] at h1
    rw [← (List.cons.inj h1).1]
    have : ∀ (n : Bool) (w : Nat), (0x50 ||| (if n then 0x8 else 0x0) ||| 0x4 ||| byteOf (compactWidthOr 0 w) : UInt8) ∈
        firstBytes .reconciliationSendEntry := by
      intro n w
      unfold compactWidthOr compactWidthEndMask
      cases n <;> repeat' split
      all_goals decide
    exact this _ _

/-- The bytes that are passed to a decoder, by kind. -/
theorem routed_byte : ∀ (ep ee : Bool) (k : MsgKind), k ∉ [.dataSendEntry, .dataSendPayload, .dataSetMetadata,
      .reconciliationTerminatePayload, .setupBindStaticToken, .reconciliationAnnounceEntries, .reconciliationSendEntry,
      .reconciliationSendPayload] → ∀ b ∈ firstBytes k, branch ep ee b = .decoder k := by
  intro ep ee k
  cases k <;> revert ep ee <;> decide

/-- One iteration on a stream that starts with `b`. -/
theorem loopIteration_eq {o : LoopOpts} {t : Tracker} {g : GB} {b : UInt8} {bs : Bytes} (hg : g.content = b :: bs) :
    ∃ g' : GB, g'.content = b :: bs ∧ loopIteration o t g =
      loopBranch o t (branch t.isExpectingPayloadOrTermination t.isExpectingReconciliationSendEntry b) g' := by
  obtain ⟨g', e, c, l⟩ := nextAbsolute_ok 1 g (by rw [hg]; simp)
  refine ⟨g', by rw [c, hg], ?_⟩
  unfold loopIteration
  rw [Dec.bind_apply, e]
  show (Dec.lift (byteAt g'.buf 0) >>= _) g' = _
  rw [step_byte (b := b) (c := b :: bs) (by rw [c, hg]) (by omega) rfl]

/-- An iteration never takes back that the termination of a payload is awaited. -/
theorem loopIteration_awaiting {o : LoopOpts} {t t' : Tracker} {g g' : GB} {out : List (Option Msg)}
    (ht : t.isAwaitingTermination = true) (h : loopIteration o t g = .ok ((out, t'), g')) : t'.isAwaitingTermination = true := by
  unfold loopIteration at h
  obtain ⟨_, _, -, h⟩ := Dec.bind_ok.1 h
  obtain ⟨_, _, -, h⟩ := Dec.bind_ok.1 h
  generalize branch _ _ _ = br at h
  cases br <;> unfold loopBranch at h
  · obtain ⟨m, _, -, h⟩ := Dec.bind_ok.1 h
    simp only [Dec.pure_apply, Res.ok.injEq, Prod.mk.injEq] at h
    obtain ⟨⟨-, rfl⟩, -⟩ := h
    unfold trackDecoded
    split <;> first | exact ht | rfl
  · simp only [Dec.pure_apply, Res.ok.injEq, Prod.mk.injEq] at h
    obtain ⟨⟨-, rfl⟩, -⟩ := h
    exact ht
  · obtain ⟨_, _, -, h⟩ := Dec.bind_ok.1 h
    simp only [Dec.pure_apply, Res.ok.injEq, Prod.mk.injEq] at h
    obtain ⟨⟨-, rfl⟩, -⟩ := h
    exact ht
  · simp only [Dec.pure_apply, Res.ok.injEq, Prod.mk.injEq] at h
    obtain ⟨⟨-, rfl⟩, -⟩ := h
    exact ht

theorem loopRun_awaiting {o : LoopOpts} : ∀ {n : Nat} {t t' : Tracker} {g g' : GB} {out : List (Option Msg)},
    t.isAwaitingTermination = true → loopRun o n t g = .ok ((out, t'), g') → t'.isAwaitingTermination = true
  | 0, t, t', g, g', out, ht, h => by
    simp only [loopRun, Dec.pure_apply, Res.ok.injEq, Prod.mk.injEq] at h
    obtain ⟨⟨-, rfl⟩, -⟩ := h
    exact ht
  | n + 1, t, t', g, g', out, ht, h => by
    unfold loopRun at h
    obtain ⟨⟨_, t1⟩, _, h1, h⟩ := Dec.bind_ok.1 h
    obtain ⟨⟨_, t2⟩, _, h2, h⟩ := Dec.bind_ok.1 h
    simp only [Dec.pure_apply, Res.ok.injEq, Prod.mk.injEq] at h
    obtain ⟨⟨-, rfl⟩, -⟩ := h
    exact loopRun_awaiting (loopIteration_awaiting ht h1) h2

/-- A relative path starts with a positive number of shared components. -/
theorem encodeRelativePath_pos {p : PathParams} {a r : Path} {enc : Bytes} (h : encodeRelativePath p a r = .ok enc) :
    ∃ k tl, 1 ≤ k ∧ k ≤ a.length ∧ enc = encodeIntMax32 (p.conv k) p.cc ++ tl := by
  unfold encodeRelativePath at h
  obtain ⟨h1, h2, h3⟩ := commonPrefixIndex_spec a r
  cases hcp : commonPrefix a r with
  | ok l =>
    have hpos : commonPrefixIndex a r ≠ 0 := by
      intro h0
      simp [commonPrefix, h0] at hcp
    have : l = a.take (commonPrefixIndex a r) := by
      unfold commonPrefix at hcp
      rw [if_neg hpos, slice_take _ _ h1] at hcp
      simpa using hcp.symm
    subst this
    rw [hcp] at h
    have hl : (a.take (commonPrefixIndex a r)).length = commonPrefixIndex a r := by simp [h1]
    simp only [hl, sliceFrom_drop _ _ h1, Res.ok_bind, Res.ok.injEq] at h
    exact ⟨_, _, by omega, h1, h.symm⟩
  | err => simp [hcp] at h
  | crash => simp [hcp] at h
  | block => simp [hcp] at h

/-- A relative path is never decoded relative to the empty path. -/
theorem decodeRelPathStream_empty {p : PathParams} {a r : Path} {enc rest : Bytes} {g : GB} {x : Path × GB}
    (h : encodeRelativePath p a r = .ok enc) (hv : ShortPath p a) (hg : g.content = enc ++ rest) :
    decodeRelPathStream p [] g ≠ .ok x := by
  intro hd
  obtain ⟨k, tl, hk, hka, rfl⟩ := encodeRelativePath_pos h
  have hc := hv.count
  rw [List.append_assoc] at hg
  unfold decodeRelPathStream at hd
  obtain ⟨g1, m1, c1, l1, hd⟩ := inv_next hg hd
  have hl := encodeIntMax32_length (p.conv k) p.cc
  have hsl : slice g1.buf 0 (getWidthMax32Int p.cc) = .ok (encodeIntMax32 (p.conv k) p.cc) := by
    rw [slice_buf _ _ _ l1, c1, slice_append_left _ _ _ hl.symm]
  rw [Dec.bind_apply, sliceArray_ok hsl, conv_of_le (by omega) p.hcc] at hd
  dsimp only at hd
  rw [decode_encodeIntMax32 (by omega) (Nat.lt_of_le_of_lt hka hv.few)] at hd
  obtain ⟨_, _, hk', hd⟩ := Dec.bind_ok.1 hd
  simp only [Dec.liftD_ok, Res.ok.injEq, Prod.mk.injEq] at hk'
  obtain ⟨rfl, rfl⟩ := hk'
  obtain ⟨_, _, hs', hd⟩ := Dec.bind_ok.1 hd
  rw [show slice ([] : Path) 0 k = .crash by simp [slice]; omega] at hs'
  exact absurd hs' (by simp [Dec.lift, Res.map', Res.bind])

/-- A range on the same subspaces as the reference, of which there are some, is never decoded relative to the zero
range. -/
theorem decodeRange_zero {ss : Codec} {ordS : Bytes → Bytes → Ordering} {p : PathParams} {r ref : Range3d} {enc rest : Bytes}
    {g : GB} {x : Range3d × GB} (ho : ∀ a, ordS a a = .eq) (hsub : r.subspace = ref.subspace)
    (hsome : r.subspace.openEnd = true ∨ ordS r.subspace.stop r.subspace.start ≠ .eq) (hv : ShortPath p r.path.start)
    (h : encodeRange3dRelative ss ordS p r ref = .ok enc) (hg : g.content = enc ++ rest) :
    (decodeStreamRange3dRelativeE ss p zeroRange3d).ignoring zeroRange3d g ≠ .ok x := by
  intro hd
  have eqs : ∀ b, isEqualRangeValue ordS ref.subspace b ref.subspace b = true := by
    intro b
    unfold isEqualRangeValue
    cases b <;> cases ref.subspace.openEnd <;> simp [ho]
  unfold encodeRange3dRelative at h
  rw [hsub] at h
  simp only [eqs, if_true] at h
  obtain ⟨ps, hps, h⟩ := Res.bind_eq_ok.1 h
  obtain ⟨pe, -, h⟩ := Res.bind_eq_ok.1 h
  simp only [Res.ok.injEq] at h
  have hnil : (if ref.subspace.openEnd = true then ((64 : UInt8), ([] : Bytes))
      else if isEqualRangeValue ordS ref.subspace false ref.subspace true = true then (16, []) else (64 ||| 32, [])).snd = [] := by
    split <;> (try split) <;> rfl
  have hx1 : (!ref.subspace.openEnd && isEqualRangeValue ordS ref.subspace false ref.subspace true) = false := by
    rw [hsub] at hsome
    unfold isEqualRangeValue
    cases hs : ref.subspace.openEnd
    · simpa [hs] using hsome
    · rfl
  obtain ⟨b1, b2, tl, ⟨hn, hb1⟩, hb⟩ : ∃ b1 b2 tl, (startBound b1 ≠ .none ∧ (endBound b1 = .none ∨ endBound b1 = .refEnd)) ∧
      enc = b1 :: b2 :: (ps ++ tl) := by
    rw [hnil] at h
    simp only [List.append_nil, List.append_assoc, List.cons_append, List.nil_append] at h
    refine ⟨_, _, _, ?_, h.symm⟩
    generalize isEqualRangeValue ordS ref.subspace false ref.subspace true = x1 at hx1
    generalize decide (commonPrefixLen r.path.start ref.path.start ≥ commonPrefixLen r.path.start ref.path.stop) = x2
    generalize decide (commonPrefixLen r.path.stop ref.path.start ≥ commonPrefixLen r.path.stop ref.path.stop) = x3
    generalize ref.subspace.openEnd = x4 at hx1
    generalize r.path.openEnd = x5
    generalize r.time.openEnd = x6
    revert x1 x4 x2 x3 x5 x6
    decide +kernel
  subst hb
  obtain ⟨y, hd, -⟩ := DecE.run_of_ignoring hd
  unfold decodeStreamRange3dRelativeE at hd
  rw [DecE.run_liftM_bind] at hd
  unfold peekTwo at hd
  rw [Dec.bind_assoc] at hd
  obtain ⟨g1, m1, c1, l1, hd⟩ := inv_next hg hd
  have hbuf : ∃ tl', g1.buf = b1 :: b2 :: tl' := by
    have := c1
    unfold GB.content at this
    match hb : g1.buf, l1 with
    | x :: y :: tl', _ =>
      rw [hb] at this
      simp only [List.cons_append, List.cons.injEq] at this
      exact ⟨tl', by rw [this.1, this.2.1]⟩
  obtain ⟨tl', hbuf⟩ := hbuf
  rw [hbuf] at hd
  simp only [Dec.pure_bind, if_neg hn] at hd
  rw [DecE.run_liftM_bind] at hd
  obtain ⟨g2, m2, c2, hd⟩ := inv_prune (a := [b1, b2]) (b := ps ++ tl ++ rest) c1 l1 rfl rfl hd
  have hcrash : ∀ x, decodeRelPathStream p [] g2 ≠ .ok x := fun x =>
    decodeRelPathStream_empty (rest := tl ++ rest) hps hv (by rw [c2, List.append_assoc])
  have path : ∀ (c : Bool) {β : Type} (f : Path → DecE β) (r : Option β × GB),
      ((if c = true then OptionT.lift (decodeRelPathStream p zeroRange3d.path.start)
        else if zeroRange3d.path.openEnd = true then failure
        else OptionT.lift (decodeRelPathStream p zeroRange3d.path.stop)) >>= f).run g2 ≠ .ok r := by
    intro c β f r hr
    have e : (if c = true then OptionT.lift (decodeRelPathStream p zeroRange3d.path.start)
        else if zeroRange3d.path.openEnd = true then failure
        else (OptionT.lift (decodeRelPathStream p zeroRange3d.path.stop) : DecE Path)) =
        OptionT.lift (decodeRelPathStream p []) := by
      cases c <;> rfl
    rw [e, DecE.run_lift_bind] at hr
    obtain ⟨_, _, h1, -⟩ := Dec.bind_ok.1 hr
    exact hcrash _ h1
  rcases hb1 with h | h
  · rw [h] at hd
    exact path _ _ _ hd
  · rw [h] at hd
    exact path _ _ _ hd

theorem inv_peekByte {α : Type} {b : UInt8} {bs : Bytes} {g : GB} {f : UInt8 → Dec α} {r : α × GB} (hg : g.content = b :: bs)
    (h : (peekByte >>= f) g = .ok r) : ∃ g' : GB, g'.content = b :: bs ∧ 1 ≤ g'.buf.length ∧ f b g' = .ok r := by
  unfold peekByte at h
  rw [Dec.bind_assoc] at h
  obtain ⟨g1, m1, c1, l1, h⟩ := inv_next hg h
  have hbuf : ∃ tl, g1.buf = b :: tl := by
    have := c1
    unfold GB.content at this
    match hb : g1.buf, l1 with
    | x :: tl, _ =>
      rw [hb] at this
      simp only [List.cons_append, List.cons.injEq] at this
      exact ⟨tl, by rw [this.1]⟩
  obtain ⟨tl, hbuf⟩ := hbuf
  rw [hbuf] at h
  exact ⟨g1, c1, l1, h⟩

/-- An entry is never decoded relative to one with the empty path. -/
theorem decodeEntry_empty {s : Schemes} {vn vs vp vt : Bytes → Prop} (hL : LawfulSchemes s vn vs vp vt) {e ref ref' : Entry}
    (hv : ValidEntry s vn vs vp e) {enc rest : Bytes} {g : GB} {x : Entry × GB} (hp : ref'.path = [])
    (h : encodeEntryRelativeEntry s.ns s.ss s.pd s.eqNs s.ordS s.p e ref = .ok enc) (hg : g.content = enc ++ rest) :
    decodeStreamEntryRelativeEntry s.ns s.ss s.pd s.p ref' g ≠ .ok x := by
  intro hd
  unfold encodeEntryRelativeEntry at h
  dsimp only at h
  obtain ⟨ep, hep, h⟩ := Res.bind_eq_ok.1 h
  simp only [Res.ok.injEq] at h
  subst h
  have hh := header_entry (!s.eqNs e.namespaceId ref.namespaceId) (s.ordS e.subspaceId ref.subspaceId != .eq)
    (decide (e.timestamp > ref.timestamp)) (width64 (absDiffUint64 e.timestamp ref.timestamp).toNat) (width64 e.payloadLength.toNat)
  simp only [decide_eq_true_eq] at hh
  generalize byteOf _ = b at hh hg
  have e1 : (if (if (!s.eqNs e.namespaceId ref.namespaceId) = true then 0x80 else 0) = 0 then [] else s.ns.enc e.namespaceId) =
      (if (!s.eqNs e.namespaceId ref.namespaceId) = true then s.ns.enc e.namespaceId else []) := by
    split <;> simp_all
  have e2 : (if (if (s.ordS e.subspaceId ref.subspaceId != .eq) = true then 0x40 else 0) = 0 then [] else s.ss.enc e.subspaceId) =
      (if (s.ordS e.subspaceId ref.subspaceId != .eq) = true then s.ss.enc e.subspaceId else []) := by
    split <;> simp_all
  rw [e1, e2] at hg
  simp only [List.append_assoc, List.cons_append, List.nil_append] at hg
  unfold decodeStreamEntryRelativeEntry at hd
  obtain ⟨g1, c1, l1, hd⟩ := inv_peekByte hg hd
  dsimp only at hd
  rw [hh.1, hh.2.1] at hd
  obtain ⟨g2, m2, c2, hd⟩ := inv_prune (a := [b]) c1 l1 rfl rfl hd
  have step : ∀ (c : Codec) (v : Bytes → Prop) (_ : c.Lawful v) (y d : Bytes) (_ : v y) (cond : Bool) (g : GB) (b : Bytes)
      (_ : g.content = (if cond = true then c.enc y else []) ++ b) (z : Bytes) (g' : GB)
      (_ : (if cond = true then c.decStream else pure d) g = .ok (z, g')), g'.content = b := by
    intro c v hc y d hy cond g b hg z g' h
    cases cond
    · simp only [Bool.false_eq_true, if_false, List.nil_append, Dec.pure_apply, Res.ok.injEq, Prod.mk.injEq] at hg h
      rw [← h.2]; exact hg
    · simp only [if_true] at hg h
      obtain ⟨g1, e, -, c1⟩ := hc.reads y false hy g b (fun h => by simp at h) hg (Nat.zero_le _)
      rw [e, Res.ok.injEq, Prod.mk.injEq] at h
      rw [← h.2]; exact c1
  obtain ⟨_, g3, h3, hd⟩ := Dec.bind_ok.1 hd
  have c3 := step _ _ hL.ns _ _ hv.ns _ _ _ c2 _ _ h3
  obtain ⟨_, g4, h4, hd⟩ := Dec.bind_ok.1 hd
  have c4 := step _ _ hL.ss _ _ hv.ss _ _ _ c3 _ _ h4
  obtain ⟨p1, g5, h5, -⟩ := Dec.bind_ok.1 hd
  rw [hp] at h5
  exact decodeRelPathStream_empty hep hv.path c4 h5

/-- Without a decoder of payload digests no entry is decoded relative to another. -/
theorem decodeDataEntry_noDigest {s : Schemes} {aois : AoiLookup} {current : Entry} {ws wr : Nat} {g : GB}
    {r : Entry × GB} (hp : s.pd.decStream = Dec.lift .crash) : decodeDataEntry s aois current true ws wr g ≠ .ok r := by
  intro hd
  unfold decodeDataEntry at hd
  split at hd
  · unfold decodeStreamEntryRelativeEntry at hd
    obtain ⟨_, _, -, hd⟩ := Dec.bind_ok.1 hd
    obtain ⟨_, _, -, hd⟩ := Dec.bind_ok.1 hd
    obtain ⟨_, _, -, hd⟩ := Dec.bind_ok.1 hd
    obtain ⟨_, _, -, hd⟩ := Dec.bind_ok.1 hd
    obtain ⟨_, _, -, hd⟩ := Dec.bind_ok.1 hd
    obtain ⟨_, _, -, hd⟩ := Dec.bind_ok.1 hd
    obtain ⟨_, _, -, hd⟩ := Dec.bind_ok.1 hd
    obtain ⟨_, _, hd, -⟩ := Dec.bind_ok.1 hd
    rw [hp] at hd
    exact absurd hd (by simp [Dec.lift, Res.map', Res.bind])
  · rename_i h
    exact absurd rfl h

/-- What is remembered after tracking messages one after the other. -/
theorem trackDecoded_last (o : LoopOpts) (t : Tracker) (ms : List Msg) :
    ((ms.foldl (trackDecoded o) t).prevRange, (ms.foldl (trackDecoded o) t).prevSenderHandle,
        (ms.foldl (trackDecoded o) t).prevReceiverHandle) =
      (latest rangeOf ms).getD (t.prevRange, t.prevSenderHandle, t.prevReceiverHandle) ∧
    ((ms.foldl (trackDecoded o) t).announcedRange, (ms.foldl (trackDecoded o) t).announcedNamespace) =
      ((latest announcedOf ms).map fun x => (x.1, o.handleToNamespace x.2)).getD (t.announcedRange, t.announcedNamespace) ∧
    ((ms.foldl (trackDecoded o) t).prevEntry, (ms.foldl (trackDecoded o) t).prevToken) =
      (latest entryOf ms).getD (t.prevEntry, t.prevToken) := by
  induction ms generalizing t with
  | nil => simp [latest]
  | cons m ms ih =>
    obtain ⟨h1, h2, h3⟩ := ih (trackDecoded o t m)
    have e : ∀ {α : Type} (f : Msg → Option α), latest f (m :: ms) = (latest f ms).or (f m) := by
      intro α f
      simp only [latest, List.reverse_cons, List.findSome?_append, List.findSome?]
      cases f m <;> rfl
    rw [List.foldl_cons, h1, h2, h3, e, e, e]
    cases latest rangeOf ms <;> cases latest announcedOf ms <;> cases latest entryOf ms <;>
      cases hb : m.body <;>
      simp [rangeOf, announcedOf, entryOf, trackDecoded, hb, Tracker.onSendFingerprint, Tracker.onAnnounceEntries,
        Tracker.onSendEntry]

/-- What is expected after tracking messages of which none is an announcement. -/
theorem trackDecoded_remaining (o : LoopOpts) (t : Tracker) (ms : List Msg) (ha : ∀ x ∈ ms, announcedOf x = none) :
    (ms.foldl (trackDecoded o) t).announcedEntriesRemaining =
      t.announcedEntriesRemaining - UInt64.ofNat (ms.countP fun x => (entryOf x).isSome) ∧
    (ms.foldl (trackDecoded o) t).isExpectingPayloadOrTermination =
      (t.isExpectingPayloadOrTermination || ms.any fun x => (entryOf x).isSome) := by
  induction ms generalizing t with
  | nil => simp
  | cons m ms ih =>
    obtain ⟨h1, h2⟩ := ih (trackDecoded o t m) fun x hx => ha x (List.mem_cons_of_mem _ hx)
    have hm := ha m List.mem_cons_self
    rw [List.foldl_cons, h1, h2, List.countP_cons, List.any_cons]
    cases hb : m.body <;> simp [entryOf, announcedOf, trackDecoded, hb, Tracker.onSendFingerprint,
      Tracker.onSendEntry, Tracker.isExpectingPayloadOrTermination] at hm ⊢
    grind

end Willow.Props
