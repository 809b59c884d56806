import Verif.Lemmas.Malformed

/-! Which decoders of the message loop can be made to panic, and by what. -/

namespace Willow
open Spec

theorem Dec.liftD_bind {α β : Type} (a z : α) (f : α → Dec β) : (Dec.liftD (.ok a) z >>= f) = f a := rfl

/-! ### Decoders that never panic -/

theorem controlIssueGuarantee_never : NeverPanics decodeControlIssueGuarantee :=
  .next fun a1 h1 => .byte (by omega) <| .next fun a2 h2 => .byte (by omega) <| .next fun a3 h3 =>
    .compact h3 fun _ => .prune (.pure _)

theorem controlAbsolve_never : NeverPanics decodeControlAbsolve :=
  .next fun a1 h1 => .byte (by omega) <| .next fun a2 h2 => .byte (by omega) <| .next fun a3 h3 =>
    .compact h3 fun _ => .prune (.pure _)

theorem controlPlead_never : NeverPanics decodeControlPlead :=
  .next fun a1 h1 => .byte (by omega) <| .next fun a2 h2 => .byte (by omega) <| .next fun a3 h3 =>
    .compact h3 fun _ => .prune (.pure _)

theorem controlFree_never : NeverPanics decodeControlFree :=
  .next fun a1 h1 => .byte (by omega) <| .next fun a2 h2 => .byte (by omega) <| .next fun a3 h3 =>
    .compact h3 fun _ => .prune (.pure _)

theorem controlAnnounceDropping_never : NeverPanics decodeControlAnnounceDropping :=
  .next fun a1 h1 => .byte (by omega) <| .prune (.pure _)

theorem controlApologise_never : NeverPanics decodeControlApologise :=
  .next fun a1 h1 => .byte (by omega) <| .prune (.pure _)

theorem dataReplyPayload_never : NeverPanics decodeDataReplyPayload :=
  .next fun a1 h1 => .byte (by omega) <| .next fun a2 h2 => .compact h2 fun _ => .prune (.pure _)

theorem dataSetEagerness_never : NeverPanics decodeDataSetEagerness :=
  .next fun a1 h1 => .byte (by omega) <| .byte (by omega) <| .next fun a2 h2 =>
    .compact (by omega) fun _ => .compact h2 fun _ => .prune (.pure _)

theorem commitmentReveal_never (n : Nat) : NeverPanics (decodeCommitmentReveal n) := by
  refine .next fun a h => .prune ?_
  have : slice a 1 (1 + n) = .ok ((a.drop 1).take (1 + n - 1)) := by unfold slice; rw [if_pos ⟨by omega, h⟩]
  intro g hc
  rw [Dec.bind_apply, sliceArray_ok this] at hc
  exact NeverPanics.pure _ _ hc

theorem paiBindFragment_never {s : Schemes} (hg : NeverPanics s.groupMember.decStream) :
    NeverPanics (decodePaiBindFragment s) :=
  .next fun a1 h1 => .byte (by omega) <| .prune <| .bind hg fun _ => .pure _

theorem setupBindStaticToken_never {s : Schemes} (hg : NeverPanics s.staticToken.decStream) :
    NeverPanics (decodeSetupBindStaticToken s) :=
  .next fun a1 h1 => .prune <| .bind hg fun _ => .pure _

theorem setupBindReadCapability_never {s : Schemes} (h1 : NeverPanics s.readCap.decStream)
    (h2 : NeverPanics s.syncSig.decStream) : NeverPanics (decodeSetupBindReadCapability s) :=
  .next fun a1 _ => .byte (by omega) <| .next fun a2 h => .compact h fun _ => .prune <| .bind h1 fun _ =>
    .bind h2 fun _ => .pure _

/-- A payload whose length takes less than eight bytes is waited for. -/
theorem sendPayload_narrow {g : GB} {b : UInt8} (hb : g.content.head? = some b) (hw : compactWidthFromEndOfByte b ≤ 4) :
    decodeReconciliationSendPayload g ≠ .crash := by
  intro hc
  unfold decodeReconciliationSendPayload at hc
  rcases Dec.bind_crash hc with hc | ⟨a, g1, h1, hc⟩
  · exact nextAbsolute_never _ _ hc
  obtain ⟨rfl, c1, l1⟩ := nextAbsolute_inv h1
  have hx : g1.content[0]? = some b := by rw [c1, ← hb, List.head?_eq_getElem?]
  rw [step_byte rfl (by omega) hx] at hc
  rcases Dec.bind_crash hc with hc | ⟨a, g2, h2, hc⟩
  · exact nextAbsolute_never _ _ hc
  obtain ⟨rfl, c2, l2⟩ := nextAbsolute_inv h2
  have hww : Width (compactWidthFromEndOfByte b) := by
    unfold Width compactWidthFromEndOfByte
    repeat' split
    all_goals simp
  rw [compactAt_eq rfl l2 hww] at hc
  generalize hv : getBE ((g2.content.drop 1).take (compactWidthFromEndOfByte b)) = v at hc
  have hlt : v < 2 ^ 32 := by
    rw [← hv]
    refine Nat.lt_of_lt_of_le (getBE_lt _) ?_
    have hl : ((g2.content.drop 1).take (compactWidthFromEndOfByte b)).length ≤ 4 := by
      rw [List.length_take]; omega
    calc 256 ^ _ ≤ 256 ^ 4 := Nat.pow_le_pow_right (by decide) hl
      _ = 2 ^ 32 := by decide
  have ht : (UInt64.ofNat v).toNat = v := by simp; omega
  have hc : ((if (UInt64.ofNat v).toNat ≥ 2 ^ 63 then Dec.lift .crash else _) : Dec Msg) _ = .crash := hc
  rw [if_neg (by omega)] at hc
  revert hc
  exact NeverPanics.next (fun acc h => by
    have : slice acc 0 (UInt64.ofNat v).toNat = .ok ((acc.drop 0).take ((UInt64.ofNat v).toNat - 0)) := by
      unfold slice; rw [if_pos ⟨by omega, h⟩]
    intro g hc
    rw [Dec.bind_apply, sliceArray_ok this] at hc
    exact NeverPanics.prune (f := fun _ => Pure.pure _) (.pure _) _ hc) _

/-! ### Bytes that make a decoder panic -/

/-- A path of one component whose announced length is not there. -/
def badPath (p : PathParams) : Bytes :=
  encodeIntMax32 1 p.cc ++ (List.replicate (getWidthMax32Int p.cl) 0xff ++ List.replicate (getWidthMax32Int p.cl) 0)

theorem width32_cases (n : Nat) : getWidthMax32Int n = 1 ∨ getWidthMax32Int n = 2 ∨ getWidthMax32Int n = 3 ∨ getWidthMax32Int n = 4 := by
  unfold getWidthMax32Int
  repeat' split
  all_goals simp

theorem decode_small {n : Nat} (hn : n ≤ 1) (max : Nat) : decodeIntMax32 (encodeIntMax32 n max) max = .ok n := by
  rcases width32_cases max with h | h | h | h <;> unfold decodeIntMax32 encodeIntMax32 <;> simp only [h] <;>
    (rcases (by omega : n = 0 ∨ n = 1) with rfl | rfl) <;> rfl

theorem decode_big (max : Nat) : decodeIntMax32 (List.replicate (getWidthMax32Int max) 0xff) max =
    .ok (256 ^ getWidthMax32Int max - 1) := by
  rcases width32_cases max with h | h | h | h <;> unfold decodeIntMax32 <;> simp only [h] <;> rfl

theorem badPath_panics (p : PathParams) : PanicsNext (decodePathStream p) (badPath p) := by
  unfold decodePathStream badPath
  dsimp only
  have hl := encodeIntMax32_length 1 p.cc
  refine PanicsOn.next (by simp; omega) ?_
  refine PanicsOn.slice (slice_append_left _ _ _ hl.symm) ?_
  rw [decode_small (by decide)]
  rw [Dec.liftD_bind]
  refine PanicsOn.prune ?_
  rw [List.drop_left' hl]
  unfold decodePathStreamLoop
  dsimp only
  have hw := width32_cases p.cl
  generalize hww : getWidthMax32Int p.cl = w at hw
  refine (PanicsOn.next (by simp) ?_).on
  refine PanicsOn.slice (slice_append_left _ _ _ (by simp)) ?_
  rw [← hww, decode_big]
  rw [Dec.liftD_bind]
  refine (PanicsOn.next (by simp) ?_).on
  have : slice (List.replicate (getWidthMax32Int p.cl) (0xff : UInt8) ++ List.replicate (getWidthMax32Int p.cl) 0)
      (getWidthMax32Int p.cl) (getWidthMax32Int p.cl + (256 ^ getWidthMax32Int p.cl - 1)) = .crash := by
    unfold slice
    rw [if_neg]
    rw [List.length_append, List.length_replicate, List.length_replicate, hww]
    rcases hw with rfl | rfl | rfl | rfl <;> decide
  exact PanicsOn.beyond this

/-- The same path relative to whatever path. -/
def badRelPath (p : PathParams) : Bytes := encodeIntMax32 0 p.cc ++ badPath p

theorem badRelPath_panics (p : PathParams) (r : Path) : PanicsNext (decodeRelPathStream p r) (badRelPath p) := by
  unfold decodeRelPathStream badRelPath
  dsimp only
  have hl := encodeIntMax32_length 0 p.cc
  refine PanicsOn.next (by simp; omega) ?_
  refine PanicsOn.slice (slice_append_left _ _ _ hl.symm) ?_
  rw [decode_small (by decide)]
  rw [Dec.liftD_bind, show slice r 0 0 = .ok [] by unfold slice; rw [if_pos ⟨Nat.le_refl _, Nat.zero_le _⟩]; rfl, Dec.lift_bind]
  refine PanicsOn.prune ?_
  rw [List.drop_left' hl]
  exact (badPath_panics p).on.bind

/-- An entry relative to another with a header of zero. -/
theorem badEntry_panics (ns ss pd : Codec) (p : PathParams) (ref : Entry) :
    PanicsNext (decodeStreamEntryRelativeEntry ns ss pd p ref) (0 :: badRelPath p) := by
  unfold decodeStreamEntryRelativeEntry peekByte
  rw [Dec.bind_assoc]
  refine PanicsOn.next (by simp) ?_
  rw [Dec.pure_bind]
  exact PanicsOn.prune (badRelPath_panics p _).on.bind

/-- An entry relative to a range with a header of 0x40. -/
theorem badRangeEntry_panics (ss pd : Codec) (p : PathParams) (outer : Range3d) (n : Bytes) :
    PanicsNext (decodeStreamEntryRelativeRange3d ss pd p outer n) (0x40 :: badRelPath p) := by
  unfold decodeStreamEntryRelativeRange3d peekByte
  rw [Dec.bind_assoc]
  refine PanicsOn.next (by simp) ?_
  rw [Dec.pure_bind]
  exact PanicsOn.prune (badRelPath_panics p _).on.bind

/-- A range relative to another. -/
theorem badRange_panics (ss : Codec) (p : PathParams) (ref : Range3d) :
    PanicsNext (decodeStreamRange3dRelative ss p ref) (0x48 :: 0x80 :: badRelPath p) := by
  unfold decodeStreamRange3dRelative peekTwo
  rw [Dec.bind_assoc]
  refine PanicsOn.next (by simp) ?_
  rw [Dec.pure_bind]
  exact PanicsOn.prune (badRelPath_panics p _).on.bind

theorem PanicsOn.byte {β : Type} {acc bytes : Bytes} {i : Nat} {b : UInt8} {f : UInt8 → Dec β} (hb : acc[i]? = some b)
    (h : PanicsOn (f b) bytes) : PanicsOn (Dec.lift (byteAt acc i) >>= f) bytes := by
  unfold byteAt
  rw [hb]
  exact h

theorem cwfe_pos (b : UInt8) : 0 < compactWidthFromEndOfByte b := by
  unfold compactWidthFromEndOfByte
  repeat' split
  all_goals simp

theorem alone_panics {β : Type} (b : UInt8) (w : Nat) (hw : 0 < w) (f : UInt64 → Dec β) :
    PanicsOn (compactAt [b] 1 w >>= f) [b] := by
  have : slice [b] 1 (1 + w) = .crash := by unfold slice; rw [if_neg]; simp; omega
  unfold compactAt
  exact .bind (.beyond this)

/-- A reply to a fragment, a request or a reply for a subspace capability of which only the first
byte has arrived. -/
theorem paiReplyFragment_panics (s : Schemes) (b : UInt8) : PanicsNext (decodePaiReplyFragment s) [b] :=
  PanicsOn.next (by simp) (alone_panics b _ (cwfe_pos b) _)

theorem paiRequest_panics (b : UInt8) : PanicsNext decodePaiRequestSubspaceCapability [b] :=
  PanicsOn.next (by simp) (alone_panics b _ (cwfe_pos b) _)

theorem paiReplyCapability_panics (s : Schemes) (b : UInt8) : PanicsNext (decodePaiReplySubspaceCapability s) [b] :=
  PanicsOn.next (by simp) (alone_panics b _ (cwfe_pos b) _)

theorem PanicsOn.compact {acc bytes : Bytes} {i w : Nat} {β : Type} {f : UInt64 → Dec β} (hi : i + w ≤ acc.length)
    (hw : Width w) (h : PanicsOn (f (UInt64.ofNat (getBE ((acc.drop i).take w)))) bytes) :
    PanicsOn (compactAt acc i w >>= f) bytes := by
  intro g hm h1 h2
  have := compactAt_eq (g := ⟨acc, [], [], .exact⟩) (g' := g) (c := acc) (f := f) (by simp [GB.content]) hi hw
  rw [show compactAt acc i w = compactAt (GB.mk acc [] [] .exact).buf i w from rfl, this]
  exact h g hm h1 h2

theorem cwfe_width (b : UInt8) : Width (compactWidthFromEndOfByte b) := by
  unfold Width compactWidthFromEndOfByte
  repeat' split
  all_goals simp

/-- A payload of more than half the address space. -/
theorem sendPayload_panics (b : UInt8) (hb : compactWidthFromEndOfByte b = 8) :
    PanicsNext decodeReconciliationSendPayload (b :: List.replicate 8 0xff) := by
  refine PanicsOn.next (by simp) ?_
  show PanicsOn (nextAbsolute (1 + compactWidthFromEndOfByte b) >>= _) _
  rw [hb]
  refine (PanicsOn.next (by simp) ?_).on
  refine PanicsOn.compact (by simp) (by unfold Width; simp) ?_
  refine PanicsOn.prune ?_
  rw [if_pos (by simp only [List.drop_succ_cons, List.drop_zero]; decide)]
  exact .crash

/-- The bytes that make the decoder of payload requests panic. -/
def badRequest (p : PathParams) (b : UInt8) : Bytes :=
  b :: 0x10 :: (List.replicate (compactWidthFromEndOfByte b) 0 ++ 0 :: badRelPath p)

theorem bindPayloadRequest_panics (s : Schemes) (aois : AoiLookup) (current : Entry) (b : UInt8) :
    PanicsNext (decodeDataBindPayloadRequest s aois current) (badRequest s.p b) := by
  unfold badRequest
  refine PanicsOn.next (by simp) ?_
  refine .byte rfl ?_
  refine .byte rfl ?_
  refine (PanicsOn.next (by simp; try omega) ?_).on
  refine PanicsOn.compact (by simp; try omega) (cwfe_width b) ?_
  rw [if_neg (by decide), Dec.bind_assoc]
  refine PanicsOn.prune ?_
  rw [show (b :: 0x10 :: (List.replicate (compactWidthFromEndOfByte b) 0 ++ 0 :: badRelPath s.p)).drop
      (2 + compactWidthFromEndOfByte b) = 0 :: badRelPath s.p by
    rw [Nat.add_comm]
    simp [List.drop_left']]
  rw [Dec.pure_bind]
  exact PanicsOn.bind (PanicsNext.on (badEntry_panics _ _ _ _ _))

theorem Reads.ite {α : Type} {all : Bool} {c : Prop} [Decidable c] {d e : Dec α} {s : Nat} {x y : Bytes} {v w : α}
    (h1 : Reads all s d x v) (h2 : Reads all s e y w) :
    Reads all s (if c then d else e) (if c then x else y) (if c then v else w) := by
  split <;> assumption

theorem Sound.ite {α : Type} {c : Prop} [Decidable c] {d e : Dec α} {x y : Bytes} {v w : α}
    (h1 : Sound d x v) (h2 : Sound e y w) : Sound (if c then d else e) (if c then x else y) (if c then v else w) := by
  split <;> assumption

/-- The bytes that make the decoder of fingerprints panic. -/
def badFingerprint (s : Schemes) (x : Bytes) (b : UInt8) : Bytes :=
  b :: 0 :: ((if (!(b &&& 0x2 == 0x2)) then [0] else []) ++ ((if (!(b &&& 0x1 == 0x1)) then [0] else []) ++
    ((if b &&& 0x8 == 0x8 then [] else s.fingerprint.enc x) ++ (0x48 :: 0x80 :: badRelPath s.p))))

theorem sendFingerprint_panics (s : Schemes) (privy : Privy) (aoiRange : UInt64 → UInt64 → Range3d)
    {valid : Bytes → Prop} (hf : s.fingerprint.Lawful valid) {x : Bytes} (hx : valid x) (b : UInt8) :
    PanicsNext (decodeReconciliationSendFingerprint s privy aoiRange) (badFingerprint s x b) := by
  unfold badFingerprint
  refine PanicsOn.next (by simp) ?_
  refine .byte rfl ?_
  refine .byte rfl ?_
  refine PanicsOn.prune ?_
  refine PanicsNext.on ?_
  rw [if_neg (by decide), Dec.pure_bind]
  refine PanicsNext.after (.ite (takeCompact_zero _ rfl) (.pure _)) (.ite (takeCompact_zero_sound _ rfl) (.pure _)) ?_
  refine PanicsNext.after (.ite (takeCompact_zero _ rfl) (.pure _)) (.ite (takeCompact_zero_sound _ rfl) (.pure _)) ?_
  refine PanicsNext.after (.ite (.pure _) (hf.reads x true hx)) (.ite (.pure _) (hf.sound x hx)) ?_
  refine PanicsNext.bind fun g h1 h2 h3 => DecE.ignoring_crash ?_
  rw [decodeStreamRange3dRelativeE_strict]
  exact badRange_panics _ _ _ g h1 h2 h3

/-- The bytes that make the decoder of entries panic. -/
def badSendEntry (s : Schemes) (x : Bytes) (b : UInt8) : Bytes :=
  b :: ((if b &&& 0x8 == 0x8 then [] else [0, 0]) ++ (List.replicate (2 ^ (b &&& 0x3).toNat) 0 ++
    (s.dynamicToken.enc x ++ ((if b &&& 0x4 == 0x4 then 0 else 0x40) :: badRelPath s.p))))

theorem width_pow (b : UInt8) : Width (2 ^ (b &&& 0x3).toNat) := by
  have key : ∀ i : Fin 256, 2 ^ (UInt8.ofNat i &&& 0x3).toNat = 1 ∨ 2 ^ (UInt8.ofNat i &&& 0x3).toNat = 2 ∨
      2 ^ (UInt8.ofNat i &&& 0x3).toNat = 4 ∨ 2 ^ (UInt8.ofNat i &&& 0x3).toNat = 8 := by decide +kernel
  have := key ⟨b.toNat, b.toNat_lt⟩
  simpa [Width] using this

theorem takeCompact_panics {β : Type} {w : Nat} (hw : Width w) {bytes : Bytes} {f : UInt64 → Dec β}
    (h : ∀ v, PanicsNext (f v) bytes) : PanicsNext (takeCompact w >>= f) (List.replicate w 0 ++ bytes) := by
  unfold takeCompact
  rw [Dec.bind_assoc]
  refine PanicsOn.next (by simp) ?_
  rw [Dec.bind_assoc]
  refine PanicsOn.compact (by simp) hw ?_
  rw [Dec.bind_assoc]
  refine PanicsOn.prune ?_
  rw [List.drop_left' (List.length_replicate ..)]
  exact (h _).on

theorem sendEntry_panics (s : Schemes) (privy : Privy)
    {valid : Bytes → Prop} (hf : s.dynamicToken.Lawful valid) {x : Bytes} (hx : valid x) (b : UInt8) :
    PanicsNext (decodeReconciliationSendEntry s privy) (badSendEntry s x b) := by
  have tail : ∀ v : UInt64, PanicsNext (do
      let available ← takeCompact (2 ^ (b &&& 0x3).toNat)
      let dynamicToken ← s.dynamicToken.decStream
      let entry ←
        (if b &&& 0x4 == 0x4 then decodeStreamEntryRelativeEntry s.ns s.ss s.pd s.p privy.prevEntry
         else do
           let _ ← (decodeStreamEntryRelativeRange3dE s.ss s.pd s.p privy.announcedRange privy.announcedNamespace).ignoring zeroEntry
           return zeroEntry)
      return (⟨.reconciliationSendEntry, .reconciliationSendEntry entry available v dynamicToken⟩ : Msg))
      (List.replicate (2 ^ (b &&& 0x3).toNat) 0 ++
        (s.dynamicToken.enc x ++ ((if b &&& 0x4 == 0x4 then 0 else 0x40) :: badRelPath s.p))) := by
    intro v
    refine takeCompact_panics (width_pow b) fun a => ?_
    refine PanicsNext.after (hf.reads x true hx) (hf.sound x hx) ?_
    split
    · exact PanicsNext.bind (badEntry_panics _ _ _ _ _)
    · rw [Dec.bind_assoc]
      refine PanicsNext.bind fun g h1 h2 h3 => DecE.ignoring_crash ?_
      rw [decodeStreamEntryRelativeRange3dE_strict]
      exact badRangeEntry_panics _ _ _ _ _ g h1 h2 h3
  unfold badSendEntry
  refine PanicsOn.next (by simp) ?_
  dsimp only
  show PanicsOn ((if b &&& 0x8 == 0x8 then _ else _) >>= _) _
  split
  · rw [Dec.bind_assoc]
    refine PanicsOn.prune ?_
    exact (tail _).on
  · rw [Dec.bind_assoc]
    refine (PanicsOn.next (by simp) ?_).on
    rw [Dec.bind_assoc]
    show PanicsOn (nextAbsolute 3 >>= _ >>= _) _
    rw [Dec.bind_assoc]
    have hp : 0 < 2 ^ (b &&& 0x3).toNat := Nat.pow_pos (by decide)
    refine (PanicsOn.next (by simp) ?_).on
    rw [if_pos (by decide), Dec.bind_assoc, Dec.pure_bind, Dec.bind_assoc]
    refine PanicsOn.prune ?_
    exact (tail _).on

/-! ### The loop -/

/-- The branches that can do no harm. -/
def calmBranches : List Branch :=
  [.commentedOut .commitmentReveal, .commentedOut .setupBindStaticToken, .commentedOut .setupBindAreaOfInterest,
    .commentedOut .setupBindReadCapability, .unknown, .emptySendPayload, .decoder .controlApologise,
    .decoder .controlAnnounceDropping, .decoder .controlFree, .decoder .controlPlead, .decoder .controlAbsolve,
    .decoder .controlIssueGuarantee, .decoder .dataReplyPayload, .decoder .paiBindFragment]

theorem harmless_branch (ep ee : Bool) (b : UInt8) (h : harmless ep b = true) :
    branch ep ee b ∈ calmBranches ∨
      (branch ep ee b = .decoder .reconciliationSendPayload ∧ compactWidthFromEndOfByte b ≤ 4) := by
  have key : ∀ (ep ee : Bool) (i : Fin 256), harmless ep (UInt8.ofNat i) = true →
      branch ep ee (UInt8.ofNat i) ∈ calmBranches ∨ (branch ep ee (UInt8.ofNat i) = .decoder .reconciliationSendPayload ∧
        compactWidthFromEndOfByte (UInt8.ofNat i) ≤ 4) := by decide +kernel
  have := key ep ee ⟨b.toNat, b.toNat_lt⟩
  simp only [UInt8.ofNat_toNat] at this
  exact this h

theorem harmful_branch (ep ee : Bool) (b : UInt8) (h : harmless ep b = false) :
    branch ep ee b ∈ [Branch.decoder .dataBindPayloadRequest, .decoder .reconciliationSendEntry,
        .decoder .reconciliationAnnounceEntries, .decoder .reconciliationSendFingerprint,
        .decoder .paiReplySubspaceCapability, .decoder .paiRequestSubspaceCapability, .decoder .paiReplyFragment] ∨
      (branch ep ee b = .decoder .reconciliationSendPayload ∧ compactWidthFromEndOfByte b = 8) := by
  have key : ∀ (ep ee : Bool) (i : Fin 256), harmless ep (UInt8.ofNat i) = false →
      branch ep ee (UInt8.ofNat i) ∈ [Branch.decoder .dataBindPayloadRequest, .decoder .reconciliationSendEntry,
        .decoder .reconciliationAnnounceEntries, .decoder .reconciliationSendFingerprint,
        .decoder .paiReplySubspaceCapability, .decoder .paiRequestSubspaceCapability, .decoder .paiReplyFragment] ∨
      (branch ep ee (UInt8.ofNat i) = .decoder .reconciliationSendPayload ∧
        compactWidthFromEndOfByte (UInt8.ofNat i) = 8) := by decide +kernel
  have := key ep ee ⟨b.toNat, b.toNat_lt⟩
  simp only [UInt8.ofNat_toNat] at this
  exact this h

theorem calm_never {o : LoopOpts} (hg : NeverPanics o.schemes.groupMember.decStream) (t : Tracker) {br : Branch}
    (h : br ∈ calmBranches) : NeverPanics (loopBranch o t br) := by
  simp only [calmBranches, List.mem_cons, List.not_mem_nil, or_false] at h
  rcases h with rfl | rfl | rfl | rfl | rfl | rfl | rfl | rfl | rfl | rfl | rfl | rfl | rfl | rfl
  · exact .pure _
  · exact .pure _
  · exact .pure _
  · exact .pure _
  · exact .pure _
  · exact .prune (.pure _)
  · exact .bind controlApologise_never fun _ => .pure _
  · exact .bind controlAnnounceDropping_never fun _ => .pure _
  · exact .bind controlFree_never fun _ => .pure _
  · exact .bind controlPlead_never fun _ => .pure _
  · exact .bind controlAbsolve_never fun _ => .pure _
  · exact .bind controlIssueGuarantee_never fun _ => .pure _
  · exact .bind dataReplyPayload_never fun _ => .pure _
  · exact .bind (paiBindFragment_never hg) fun _ => .pure _

/-- An iteration that panics has seen a harmful byte. -/
theorem loopIteration_crash {o : LoopOpts} (hg : NeverPanics o.schemes.groupMember.decStream) {t : Tracker} {g : GB}
    (h : loopIteration o t g = .crash) :
    ∃ b, g.content.head? = some b ∧ harmless t.isExpectingPayloadOrTermination b = false := by
  unfold loopIteration at h
  rcases Dec.bind_crash h with h | ⟨a, g1, h1, h⟩
  · exact absurd h (nextAbsolute_never _ _)
  obtain ⟨rfl, c1, l1⟩ := nextAbsolute_inv h1
  have hl : 0 < g1.content.length := by simp [GB.content]; omega
  obtain ⟨b, hb⟩ : ∃ b, g1.content[0]? = some b := ⟨_, List.getElem?_eq_getElem hl⟩
  rw [step_byte rfl (by omega) hb] at h
  refine ⟨b, by rw [← c1, List.head?_eq_getElem?, hb], ?_⟩
  cases hh : harmless t.isExpectingPayloadOrTermination b
  · rfl
  · rcases harmless_branch _ t.isExpectingReconciliationSendEntry _ hh with hm | ⟨hm, hw⟩
    · exact absurd h (calm_never hg t hm g1)
    · rw [hm] at h
      rcases Dec.bind_crash h with h | ⟨a, g2, h2, h⟩
      · exact absurd h (sendPayload_narrow (by rw [List.head?_eq_getElem?, hb]) hw)
      · exact absurd h (NeverPanics.pure _ _)

/-- The bytes that end the process, after the first. -/
def deadly (o : LoopOpts) (t : Tracker) (x y : Bytes) (b : UInt8) : Bytes :=
  match branch t.isExpectingPayloadOrTermination t.isExpectingReconciliationSendEntry b with
  | .decoder .dataBindPayloadRequest => badRequest o.schemes.p b
  | .decoder .reconciliationSendEntry => badSendEntry o.schemes y b
  | .decoder .reconciliationSendFingerprint => badFingerprint o.schemes x b
  | .decoder .reconciliationSendPayload => b :: List.replicate 8 0xff
  | _ => [b]

theorem deadly_head (o : LoopOpts) (t : Tracker) (x y : Bytes) (b : UInt8) : (deadly o t x y b).head? = some b := by
  unfold deadly
  split <;> rfl

theorem loopIteration_panics {o : LoopOpts} {t : Tracker} {x y : Bytes} {b : UInt8} {valid valid' : Bytes → Prop}
    (hf : o.schemes.fingerprint.Lawful valid) (hx : valid x) (hd : o.schemes.dynamicToken.Lawful valid') (hy : valid' y)
    (h : harmless t.isExpectingPayloadOrTermination b = false) : PanicsNext (loopIteration o t) (deadly o t x y b) := by
  have hh := deadly_head o t x y b
  obtain ⟨bs, hbs⟩ : ∃ bs, deadly o t x y b = b :: bs := by
    cases hl : deadly o t x y b with
    | nil => rw [hl] at hh; simp at hh
    | cons c cs => rw [hl] at hh; simp at hh; exact ⟨cs, by rw [hh]⟩
  unfold loopIteration
  refine PanicsOn.next (by rw [hbs]; simp) ?_
  refine PanicsOn.byte (b := b) (by rw [hbs]; rfl) ?_
  refine PanicsNext.on ?_
  unfold deadly
  rcases harmful_branch _ t.isExpectingReconciliationSendEntry _ h with hm | ⟨hm, hw⟩
  · simp only [List.mem_cons, List.not_mem_nil, or_false] at hm
    rcases hm with hm | hm | hm | hm | hm | hm | hm <;> rw [hm]
    · exact PanicsNext.bind (bindPayloadRequest_panics _ _ _ b)
    · exact PanicsNext.bind (sendEntry_panics _ _ hd hy b)
    · exact fun g _ _ _ => rfl
    · exact PanicsNext.bind (sendFingerprint_panics _ _ _ hf hx b)
    · exact PanicsNext.bind (paiReplyCapability_panics _ b)
    · exact PanicsNext.bind (paiRequest_panics b)
    · exact PanicsNext.bind (paiReplyFragment_panics _ b)
  · rw [hm]
    exact PanicsNext.bind (sendPayload_panics b hw)

theorem loopRun_crash {o : LoopOpts} (hg : NeverPanics o.schemes.groupMember.decStream) : ∀ (n : Nat) (t : Tracker) (g : GB),
    loopRun o n t g = .crash → ∃ k, k < n ∧ ∃ out t' g', loopRun o k t g = .ok ((out, t'), g') ∧
      ∃ b, g'.content.head? = some b ∧ harmless t'.isExpectingPayloadOrTermination b = false
  | 0, _, _, h => by simp [loopRun] at h
  | n + 1, t, g, h => by
    rw [loopRun] at h
    rcases Dec.bind_crash h with h | ⟨⟨out, t1⟩, g1, h1, h⟩
    · exact ⟨0, by omega, [], t, g, rfl, loopIteration_crash hg h⟩
    · dsimp only at h
      rcases Dec.bind_crash h with h | ⟨a, g2, h2, h⟩
      · obtain ⟨k, hk, out', t', g', hr, hb⟩ := loopRun_crash hg n t1 g1 h
        refine ⟨k + 1, by omega, out ++ out', t', g', ?_, hb⟩
        rw [loopRun, Dec.bind_apply, h1]
        dsimp only
        rw [Dec.bind_apply, hr]
        rfl
      · simp at h

/-- The codecs of the examples do not panic: they wait for the bytes that they take. -/
theorem fixedCodec_never (n : Nat) : NeverPanics (fixedCodec n).decStream := by
  refine .next fun a h => ?_
  have : slice a 0 n = .ok ((a.drop 0).take (n - 0)) := by unfold slice; rw [if_pos ⟨by omega, h⟩]
  rw [this, Dec.lift_bind]
  exact .prune (.pure _)

end Willow
