import Verif.Lemmas.PropsMessagesSetup
import Verif.Lemmas.PropsRelativeRanges

/-! Lemmas for the theorems of `Verif/Props/MessagesReconciliation.lean`. -/

namespace Willow.Props

open Willow Spec

theorem width_recSendPayload (n : Nat) :
    compactWidthFromEndOfByte (byteOf (compactWidthOr 0x50 (getWidthMax64Int n))) = getWidthMax64Int n := by
  rcases width64 n with h | h | h | h <;> rw [h] <;> decide

/-- The first byte of a send-entry message. -/
theorem firstByte_recSendEntry (isPrev : Bool) (n : Nat) (b : UInt8)
    (hb : b = 0x50 ||| (if isPrev then 0x8 else 0x0) ||| 0x4 ||| byteOf (compactWidthOr 0 (getWidthMax64Int n))) :
    (b &&& 0x8 == 0x8) = isPrev ∧ (b &&& 0x4 == 0x4) = true ∧ 2 ^ (b &&& 0x3).toNat = getWidthMax64Int n := by
  subst hb
  cases isPrev <;> rcases width64 n with h | h | h | h <;> rw [h] <;> decide

/-- The byte that carries the width of a static token handle. -/
theorem size_recSendEntry (n : Nat) (b : UInt8) (hb : b = widthHeader (getWidthMax64Int n) 0x3f 0x7f 0xbf 0xff) :
    (if b &&& 0xff == 0xff then 8 else if b &&& 0xbf == 0xbf then 4 else if b &&& 0x7f == 0x7f then 2 else 1) =
      getWidthMax64Int n ∧ ¬ b < 63 := by
  subst hb
  unfold widthHeader
  rcases width64 n with h | h | h | h <;> rw [h] <;> decide

theorem sendEntry_reads {s : Schemes} {vn vs vp vt : Bytes → Prop} (hL : LawfulSchemes s vn vs vp vt) {privy : Privy}
    {e : Entry} (hv : ValidEntry s vn vs vp e) {available handle : UInt64} {token enc : Bytes} (ht : vt token)
    (h : encodeReconciliationSendEntry s privy e available handle token = .ok enc) {all : Bool} {g : GB} {rest : Bytes}
    (hr : g.ready all) (hg : g.content = enc ++ rest)
    (hh : handle = privy.prevStaticTokenHandle ∨ (63 < handle ∧ handle.toNat < 2 ^ s.p.bits))
    (hav : available.toNat < 2 ^ s.p.bits)
    (ha : all = true ∨ ∀ c ∈ e.path, c.length ≤ getWidthMax32Int s.p.cl)
    (hs : getWidthMax32Int s.p.cl ≤ 2 + (s.pd.enc e.payloadDigest).length + rest.length) :
    GivesR all (message (.reconciliationSendEntry e available handle token)) rest
      (decodeReconciliationSendEntry s privy g) := by
  unfold encodeReconciliationSendEntry at h
  dsimp only at h
  obtain ⟨ee, hee, h⟩ := Res.bind_eq_ok.1 h
  simp only [Res.ok.injEq] at h
  subst h
  rw [conv_of_lt hav] at hg
  have hf := firstByte_recSendEntry (handle == privy.prevStaticTokenHandle) available.toNat _ rfl
  generalize (0x50 ||| _ ||| 0x4 ||| _ : UInt8) = b1 at hf hg
  obtain ⟨f1, f2, f3⟩ := hf
  unfold decodeReconciliationSendEntry
  refine step_next hr hg (by simp) fun g1 r1 c1 l1 _ => ?_
  rw [step_byte (b := b1) c1 (by omega) rfl]
  dsimp only
  rw [f1, f2, f3]
  have fin : ∀ g2 : GB, g2.ready all → g2.content = encodeIntMax64 available.toNat ++ (s.dynamicToken.enc token ++ (ee ++ rest)) →
      GivesR all (message (.reconciliationSendEntry e available handle token)) rest
        ((do
          let available ← takeCompact (getWidthMax64Int available.toNat)
          let dynamicToken ← s.dynamicToken.decStream
          let entry ← decodeStreamEntryRelativeEntry s.ns s.ss s.pd s.p privy.prevEntry
          return ⟨.reconciliationSendEntry, .reconciliationSendEntry entry available handle dynamicToken⟩ : Dec Msg) g2) := by
    intro g2 r2 c2
    refine step_take r2 c2 rfl fun g3 r3 c3 => ?_
    refine step_codec hL.dynamicToken ht r3 c3 fun g4 r4 c4 => ?_
    refine step_dec (entry_reads hL hv hee r4 c4 ha hs) fun g5 r5 c5 => ?_
    exact step_pure r5 c5
  by_cases hp : handle = privy.prevStaticTokenHandle
  · simp only [hp, beq_self_eq_true, if_true, Bool.not_true, Bool.false_eq_true, false_and, if_false] at c1 ⊢
    rw [Dec.bind_assoc]
    refine step_prune (a := [b1]) (b := encodeIntMax64 available.toNat ++ (s.dynamicToken.enc token ++ (ee ++ rest)))
      r1 c1 l1 (by simp) rfl fun g2 r2 c2 => ?_
    rw [Dec.pure_bind, ← hp]
    exact fin g2 r2 c2
  · obtain ⟨h63, hK⟩ := hh.resolve_left hp
    have hbf : (handle == privy.prevStaticTokenHandle) = false := by simpa using hp
    have hlt : ¬ handle < 63 := by
      simp only [UInt64.lt_iff_toNat_lt] at *; omega
    have hz := size_recSendEntry handle.toNat _ rfl
    simp only [hbf, Bool.false_eq_true, if_false, hlt, Bool.not_false, gt_iff_lt, h63, and_self, if_true, conv_of_lt hK] at c1 ⊢
    generalize widthHeader _ _ _ _ _ = b2 at hz c1
    have hl := encodeIntMax64_length handle.toNat
    rw [Dec.bind_assoc]
    refine step_next r1 c1 (by simp) fun g2 r2 c2 l2 _ => ?_
    rw [Dec.bind_assoc, step_byte (b := b2) c2 (by omega) rfl, hz.1]
    simp only [hz.2, if_false]
    rw [Dec.bind_assoc]
    refine step_next r2 c2 (by simp; omega) fun g3 r3 c3 l3 _ => ?_
    rw [Dec.bind_assoc, step_compact (i := 2) (x := handle) (a := [b1, b2])
      (b := encodeIntMax64 available.toNat ++ (s.dynamicToken.enc token ++ (ee ++ rest))) c3 (by simp) rfl rfl l3, Dec.bind_assoc]
    refine step_prune (a := [b1, b2] ++ encodeIntMax64 handle.toNat)
      (b := encodeIntMax64 available.toNat ++ (s.dynamicToken.enc token ++ (ee ++ rest)))
      r3 c3 l3 (by simp) (by simp; omega) fun g4 r4 c4 => ?_
    rw [Dec.pure_bind]
    exact fin g4 r4 c4

/-- The two bytes that a small static token handle starts with, and the width read for it. -/
theorem size_small {n : Nat} (h : n < 64) :
    (if byteOf n &&& 0xff == 0xff then 8 else if byteOf n &&& 0xbf == 0xbf then 4
      else if byteOf n &&& 0x7f == 0x7f then 2 else 1) = 1 ∧ (byteOf n < 63 ↔ n < 63) ∧ (byteOf n).toNat = n :=
  (by decide : ∀ n : Fin 64, (if byteOf n &&& 0xff == 0xff then 8 else if byteOf n &&& 0xbf == 0xbf then 4
      else if byteOf n &&& 0x7f == 0x7f then 2 else 1) = 1 ∧ (byteOf n < 63 ↔ n.1 < 63) ∧ (byteOf n).toNat = n.1) ⟨n, h⟩

theorem encodeIntMax64_one {n : Nat} (h : n < 2 ^ 8) : encodeIntMax64 n = [byteOf n] := by
  unfold encodeIntMax64 getWidthMax64Int
  rw [if_pos h]
  rfl

theorem byteOf_toNat {n : Nat} (h : n < 2 ^ 8) : (byteOf n).toNat = n := by
  unfold byteOf
  rw [UInt8.toNat_ofNat']
  exact Nat.mod_eq_of_lt h

/-- The first byte of a send-fingerprint message. -/
theorem firstByte_fingerprint (n a b : Bool) (h : UInt8)
    (hh : h = 0x40 ||| (0x40 ||| (if n then 0x8 else 0x0) ||| 0x4 ||| (if a then 0x2 else 0x0) ||| (if b then 0x1 else 0x0))) :
    (h &&& 0x8 == 0x8) = n ∧ (h &&& 0x4 == 0x4) = true ∧ (h &&& 0x2 == 0x2) = a ∧ (h &&& 0x1 == 0x1) = b := by
  subst hh
  cases n <;> cases a <;> cases b <;> decide

/-- The second byte of a send-fingerprint message: the width of the receiver handle is where the
decoder looks for that of the sender handle and vice versa. -/
theorem secondByte_fingerprint (a b : Bool) (covers : UInt64) {ws wr wc : Nat} (hs : Width ws) (hr : Width wr) (hc : Width wc)
    (l1 l2 l3 : UInt8) (h1 : l1 = if !a then (0x0 : UInt8) ||| byteOf (compactWidthOr 0x0 wr <<< 6) else 0x0)
    (h2 : l2 = if !b then l1 ||| byteOf (compactWidthOr 0x0 ws <<< 4) else l1)
    (h3 : l3 = if covers ≠ 1 then byteOf (compactWidthOr (l2 ||| 0x8).toNat wc) else l2) :
    (l3 &&& 0x8 == 0x8) = decide (covers ≠ 1) ∧ (a = false → 2 ^ (l3 >>> 6).toNat = wr) ∧
    (b = false → 2 ^ ((l3 >>> 4) &&& 0x3).toNat = ws) ∧ (covers ≠ 1 → 2 ^ (l3 &&& 0x3).toNat = wc) := by
  by_cases hcov : covers = 1
  · subst hcov
    rw [if_neg (by simp)] at h3
    subst h3 h2 h1
    simp only [ne_eq, not_true_eq_false, decide_false, false_implies, and_true]
    cases a <;> cases b <;> rcases hs with rfl | rfl | rfl | rfl <;> rcases hr with rfl | rfl | rfl | rfl <;> decide
  · rw [if_pos hcov] at h3
    rw [decide_eq_true hcov]
    subst h3 h2 h1
    simp only [ne_eq, hcov, not_false_eq_true, true_implies]
    cases a <;> cases b <;> rcases hs with rfl | rfl | rfl | rfl <;> rcases hr with rfl | rfl | rfl | rfl <;>
      rcases hc with rfl | rfl | rfl | rfl <;> decide

/-- The parts of an encoded send-fingerprint message. -/
theorem sendFingerprint_parts {s : Schemes} {privy : Privy} {range : Range3d} {fingerprint : Bytes}
    {sender receiver covers : UInt64} {enc : Bytes}
    (h : encodeReconciliationSendFingerprint s privy range fingerprint sender receiver covers = .ok enc)
    (hs : sender.toNat < 2 ^ s.p.bits) (hr : receiver.toNat < 2 ^ s.p.bits) (hc : covers.toNat < 2 ^ s.p.bits) :
    ∃ b1 b2 er, encodeRange3dRelative s.ss s.ordS s.p range privy.prevRange = .ok er ∧
      enc = b1 :: b2 :: ((if covers = 1 then [] else encodeIntMax64 covers.toNat) ++
        ((if sender = privy.prevSenderHandle then [] else encodeIntMax64 sender.toNat) ++
        ((if receiver = privy.prevReceiverHandle then [] else encodeIntMax64 receiver.toNat) ++
        ((if fingerprint = s.neutral then [] else s.fingerprint.enc fingerprint) ++ er)))) ∧
      ((b1 &&& 0x8 == 0x8) = decide (fingerprint = s.neutral) ∧ (b1 &&& 0x4 == 0x4) = true ∧
        (b1 &&& 0x2 == 0x2) = decide (sender = privy.prevSenderHandle) ∧
        (b1 &&& 0x1 == 0x1) = decide (receiver = privy.prevReceiverHandle)) ∧
      (b2 &&& 0x8 == 0x8) = decide (covers ≠ 1) ∧
      (sender ≠ privy.prevSenderHandle → 2 ^ (b2 >>> 6).toNat = getWidthMax64Int receiver.toNat) ∧
      (receiver ≠ privy.prevReceiverHandle → 2 ^ ((b2 >>> 4) &&& 0x3).toNat = getWidthMax64Int sender.toNat) ∧
      (covers ≠ 1 → 2 ^ (b2 &&& 0x3).toNat = getWidthMax64Int covers.toNat) := by
  unfold encodeReconciliationSendFingerprint at h
  dsimp only at h
  obtain ⟨er, her, h⟩ := Res.bind_eq_ok.1 h
  simp only [Res.ok.injEq, conv_of_lt hs, conv_of_lt hr, conv_of_lt hc] at h
  have h1 := firstByte_fingerprint (fingerprint == s.neutral) (sender == privy.prevSenderHandle)
    (receiver == privy.prevReceiverHandle) _ rfl
  have h2 := secondByte_fingerprint (sender == privy.prevSenderHandle) (receiver == privy.prevReceiverHandle) covers
    (width64 sender.toNat) (width64 receiver.toNat) (width64 covers.toNat) _ _ _ rfl rfl rfl
  generalize (0x40 ||| (0x40 ||| _ ||| _ ||| _ ||| _) : UInt8) = b1 at h1 h
  generalize (if covers ≠ 1 then byteOf _ else _ : UInt8) = b2 at h2 h
  refine ⟨b1, b2, er, her, ?_, by simpa [Bool.beq_eq_decide_eq] using h1, by simpa using h2⟩
  rw [← h]
  simp only [List.append_assoc, List.cons_append, List.nil_append, beq_iff_eq]

theorem steady_covers {covers : UInt64} {w : Nat} (hw : covers ≠ 1 → w = getWidthMax64Int covers.toNat) :
    Steady (if decide (covers ≠ 1) = true then takeCompact w else pure 0)
      (if covers = 1 then [] else encodeIntMax64 covers.toNat) (if covers = 1 then 0 else covers) := by
  intro g rest y g' hg h
  by_cases hc : covers = 1
  · simp only [hc, if_true, ne_eq, not_true_eq_false, decide_false, Bool.false_eq_true, if_false, List.nil_append,
      Dec.pure_apply, Res.ok.injEq, Prod.mk.injEq] at hg h ⊢
    obtain ⟨rfl, rfl⟩ := h
    exact ⟨rfl, hg, id⟩
  · simp only [hc, if_false, ne_eq, not_false_eq_true, decide_true, if_true] at hg h ⊢
    have := steady_handle (x := covers) (prev := 1) hw
    simp only [hc, decide_false, Bool.not_false, if_true, if_false] at this
    exact this _ _ _ _ hg h

/-- The first byte of an announce-entries message. -/
theorem firstByte_announce (n a b : Bool) (h : UInt8)
    (hh : h = 0x50 ||| (if n then 0x8 else 0x0) ||| 0x4 ||| (if a then 0x2 else 0x0) ||| (if b then 0x1 else 0x0)) :
    (h &&& 0x8 == 0x8) = n ∧ (h &&& 0x4 == 0x4) = true ∧ (h &&& 0x2 == 0x2) = a ∧ (h &&& 0x1 == 0x1) = b := by
  subst hh
  cases n <;> cases a <;> cases b <;> decide

theorem width_pow {w : Nat} (h : Width w) : ∃ i : Fin 4, w = 2 ^ i.1 := by
  rcases h with rfl | rfl | rfl | rfl
  · exact ⟨0, rfl⟩
  · exact ⟨1, rfl⟩
  · exact ⟨2, rfl⟩
  · exact ⟨3, rfl⟩

/-- The second byte of an announce-entries message. -/
theorem secondByte_announce (a b c : Bool) (covers : UInt64) {ws wr wc : Nat} (hs : Width ws) (hr : Width wr) (hc : Width wc)
    (l : UInt8) (hl : l = (if (!a && !b) = true then
        byteOf (compactWidthOr (byteOf (compactWidthOr 0x0 ws) <<< 2).toNat wr) <<< 4
      else if (!a && b) = true then byteOf (compactWidthOr 0x0 ws) <<< 6
      else if (a && !b) = true then byteOf (compactWidthOr 0x0 wr) <<< 4
      else 0x0) ||| byteOf (compactWidthOr 0 wc) <<< 2 ||| (if c then 0x2 else 0x0) ||| (if covers ≠ 1 then 0x1 else 0x0)) :
    (l &&& 0x2 == 0x2) = c ∧ (l &&& 0x1 == 0x1) = decide (covers ≠ 1) ∧ (a = false → 2 ^ (l >>> 6).toNat = ws) ∧
    (b = false → 2 ^ ((l >>> 4) &&& 0x3).toNat = wr) ∧ 2 ^ ((l &&& 0xc) >>> 2).toNat = wc ∧
    (covers ≠ 1 → 2 ^ (l &&& 0x3).toNat = if c then 8 else 2) := by
  obtain ⟨i, rfl⟩ := width_pow hs
  obtain ⟨j, rfl⟩ := width_pow hr
  obtain ⟨k, rfl⟩ := width_pow hc
  have key : ∀ (a b c d : Bool) (i j k : Fin 4), ∀ l : UInt8, l = (if (!a && !b) = true then
        byteOf (compactWidthOr (byteOf (compactWidthOr 0x0 (2 ^ i.1)) <<< 2).toNat (2 ^ j.1)) <<< 4
      else if (!a && b) = true then byteOf (compactWidthOr 0x0 (2 ^ i.1)) <<< 6
      else if (a && !b) = true then byteOf (compactWidthOr 0x0 (2 ^ j.1)) <<< 4
      else 0x0) ||| byteOf (compactWidthOr 0 (2 ^ k.1)) <<< 2 ||| (if c then 0x2 else 0x0) ||| (if d then 0x1 else 0x0) →
      (l &&& 0x2 == 0x2) = c ∧ (l &&& 0x1 == 0x1) = d ∧ (a = false → 2 ^ (l >>> 6).toNat = 2 ^ i.1) ∧
      (b = false → 2 ^ ((l >>> 4) &&& 0x3).toNat = 2 ^ j.1) ∧ 2 ^ ((l &&& 0xc) >>> 2).toNat = 2 ^ k.1 ∧
      (d = true → 2 ^ (l &&& 0x3).toNat = if c then 8 else 2) := by
    simp only [forall_eq]
    decide +kernel
  have := key a b c (decide (covers ≠ 1)) i j k l (by rw [hl]; simp only [decide_eq_true_eq])
  simpa only [decide_eq_true_eq] using this

theorem covers_byte {n : Nat} (h : n < 252) : (byteOf n &&& 0xfc == 0xfc) = false ∧ (byteOf n).toNat = n :=
  (by decide +kernel : ∀ n : Fin 252, (byteOf n.1 &&& 0xfc == 0xfc) = false ∧ (byteOf n.1).toNat = n.1) ⟨n, h⟩

theorem covers_long (n : Nat) : (byteOf (compactWidthOr 0xfc (getWidthMax64Int n)) &&& 0xfc == 0xfc) = true := by
  rcases width64 n with h | h | h | h <;> rw [h] <;> decide

/-- The parts of an encoded announce-entries message. -/
theorem announceEntries_parts {s : Schemes} {privy : Privy} {range : Range3d} {count sender receiver covers : UInt64}
    {wantResponse willSort : Bool} {enc : Bytes}
    (h : encodeReconciliationAnnounceEntries s privy range count wantResponse willSort sender receiver covers = .ok enc)
    (hs : sender.toNat < 2 ^ s.p.bits) (hr : receiver.toNat < 2 ^ s.p.bits) (hc : covers.toNat < 2 ^ s.p.bits)
    (hn : count.toNat < 2 ^ s.p.bits) :
    ∃ b1 b2 er, encodeRange3dRelative s.ss s.ordS s.p range privy.prevRange = .ok er ∧
      enc = b1 :: b2 :: ((if covers = 1 then [] else if covers ≥ 252 then
          [byteOf (compactWidthOr 0xfc (getWidthMax64Int covers.toNat))] ++ encodeIntMax64 covers.toNat
          else [byteOf covers.toNat]) ++
        ((if sender = privy.prevSenderHandle then [] else encodeIntMax64 sender.toNat) ++
        ((if receiver = privy.prevReceiverHandle then [] else encodeIntMax64 receiver.toNat) ++
        (encodeIntMax64 count.toNat ++ er)))) ∧
      ((b1 &&& 0x8 == 0x8) = wantResponse ∧ (b1 &&& 0x4 == 0x4) = true ∧
        (b1 &&& 0x2 == 0x2) = decide (sender = privy.prevSenderHandle) ∧
        (b1 &&& 0x1 == 0x1) = decide (receiver = privy.prevReceiverHandle)) ∧
      (b2 &&& 0x2 == 0x2) = willSort ∧ (b2 &&& 0x1 == 0x1) = decide (covers ≠ 1) ∧
      (sender ≠ privy.prevSenderHandle → 2 ^ (b2 >>> 6).toNat = getWidthMax64Int sender.toNat) ∧
      (receiver ≠ privy.prevReceiverHandle → 2 ^ ((b2 >>> 4) &&& 0x3).toNat = getWidthMax64Int receiver.toNat) ∧
      2 ^ ((b2 &&& 0xc) >>> 2).toNat = getWidthMax64Int count.toNat ∧
      (covers ≠ 1 → 2 ^ (b2 &&& 0x3).toNat = if willSort then 8 else 2) := by
  unfold encodeReconciliationAnnounceEntries at h
  dsimp only at h
  obtain ⟨er, her, h⟩ := Res.bind_eq_ok.1 h
  simp only [Res.ok.injEq, conv_of_lt hs, conv_of_lt hr, conv_of_lt hc, conv_of_lt hn] at h
  have h1 := firstByte_announce wantResponse (sender == privy.prevSenderHandle) (receiver == privy.prevReceiverHandle) _ rfl
  have h2 := secondByte_announce (sender == privy.prevSenderHandle) (receiver == privy.prevReceiverHandle) willSort covers
    (width64 sender.toNat) (width64 receiver.toNat) (width64 count.toNat) _ rfl
  generalize (0x50 ||| _ ||| _ ||| _ ||| _ : UInt8) = b1 at h1 h
  generalize (_ ||| _ ||| _ ||| (if covers ≠ 1 then 0x1 else 0x0) : UInt8) = b2 at h2 h
  refine ⟨b1, b2, er, her, ?_, by simpa [Bool.beq_eq_decide_eq] using h1, by simpa using h2⟩
  rw [← h]
  simp only [List.append_assoc, List.cons_append, List.nil_append, Bool.not_eq_true', beq_eq_false_iff_ne, ite_not, ne_eq]

/-- The decoder of `Covers` in announce-entries messages, applied to the second byte. -/
def readCovers (covers : UInt64) (b2 : UInt8) : Dec UInt64 :=
  if decide (covers ≠ 1) = true then do
    let width1 ← nextAbsolute 1
    let coversLength ← Dec.lift (byteAt width1 0)
    if coversLength &&& 0xfc == 0xfc then do
      let wc := 2 ^ (b2 &&& 0x3).toNat
      let width2 ← nextAbsolute wc
      let covers ← compactAt width2 1 wc
      prune (1 + wc)
      return covers
    else do
      prune 1
      return UInt64.ofNat coversLength.toNat
  else pure 0

/-- What becomes of a long `Covers`. -/
theorem readCovers_long {covers : UInt64} {b2 : UInt8} {willSort : Bool} (hc : 252 ≤ covers)
    (hb : covers ≠ 1 → 2 ^ (b2 &&& 0x3).toNat = if willSort then 8 else 2) {g g' : GB} {rest : Bytes} {y : UInt64} (hm : g.mem = .exact)
    (hg : g.content = [byteOf (compactWidthOr 0xfc (getWidthMax64Int covers.toNat))] ++ encodeIntMax64 covers.toNat ++ rest)
    (h : readCovers covers b2 g = .ok (y, g')) :
    (if willSort then 8 else 2) ≤ (encodeIntMax64 covers.toNat ++ rest).length ∧
    y = UInt64.ofNat (getBE ((encodeIntMax64 covers.toNat ++ rest).take (if willSort then 8 else 2))) ∧
    g'.content = (encodeIntMax64 covers.toNat ++ rest).drop (if willSort then 8 else 2) ∧ g'.mem = .exact := by
  have h1 : covers ≠ 1 := by rintro rfl; exact absurd hc (by decide)
  unfold readCovers at h
  rw [if_pos (decide_eq_true h1), hb h1] at h
  have hf := covers_long covers.toNat
  have hw : Width (if willSort then 8 else 2) := by cases willSort; exact .inr (.inl rfl); exact .inr (.inr (.inr rfl))
  generalize (if willSort then 8 else 2) = w at hw h ⊢
  generalize byteOf _ = b at hf hg
  obtain ⟨g1, m1, c1, l1, h⟩ := inv_next hg h
  rw [step_byte (b := b) c1 (by omega) rfl] at h
  dsimp only at h
  rw [if_pos hf] at h
  obtain ⟨g2, m2, c2, l2, h⟩ := inv_next c1 h
  have h' := h
  have lb := (inv_compact h').1 (m2 (m1 hm))
  rw [compactAt_eq c2 lb hw] at h
  have hlen : g2.content.length = g2.buf.length + g2.rest.flatten.length := by rw [GB.content, List.length_append]
  rw [c2] at hlen
  simp only [List.append_assoc, List.length_append, List.length_cons, List.length_nil] at hlen
  have hle : w ≤ (encodeIntMax64 covers.toNat ++ rest).length := by rw [List.length_append]; omega
  have h : (.ok (UInt64.ofNat (getBE _), g2.pruned (1 + w)) : Res (UInt64 × GB)) = .ok (y, g') := h
  simp only [Res.ok.injEq, Prod.mk.injEq] at h
  obtain ⟨rfl, rfl⟩ := h
  refine ⟨hle, by simp, ?_, GB.pruned_exact (m2 (m1 hm)) _⟩
  rw [prune_content _ _ lb, c2, Nat.add_comm, List.append_assoc, List.cons_append, List.nil_append, List.drop_succ_cons]

theorem readCovers_right {covers : UInt64} {b2 : UInt8} {willSort : Bool}
    (hb : covers ≠ 1 → 2 ^ (b2 &&& 0x3).toNat = if willSort then 8 else 2)
    (hc : covers < 252 ∨ (256 ≤ covers ∧ covers < 65536 ∧ willSort = false) ∨ (4294967296 ≤ covers ∧ willSort = true)) :
    ∀ (g : GB) (rest : Bytes) (y : UInt64) (g' : GB), covers < 252 ∨ g.mem = .exact →
      g.content = (if covers = 1 then [] else if covers ≥ 252 then
          [byteOf (compactWidthOr 0xfc (getWidthMax64Int covers.toNat))] ++ encodeIntMax64 covers.toNat
          else [byteOf covers.toNat]) ++ rest → readCovers covers b2 g = .ok (y, g') →
      (y = if covers = 1 then 0 else covers) ∧ g'.content = rest := by
  intro g rest y g' hm hg h
  by_cases h1 : covers = 1
  · unfold readCovers at h
    simp only [h1, if_true, ne_eq, not_true_eq_false, decide_false, Bool.false_eq_true, if_false, List.nil_append,
      Dec.pure_apply, Res.ok.injEq, Prod.mk.injEq] at hg h ⊢
    obtain ⟨rfl, rfl⟩ := h
    exact ⟨rfl, hg⟩
  rw [if_neg h1] at hg ⊢
  by_cases h2 : covers < 252
  · have h3 : covers.toNat < 252 := by simpa [UInt64.lt_iff_toNat_lt] using h2
    rw [if_neg (by simp only [ge_iff_le, UInt64.le_iff_toNat_le]; simp; omega)] at hg
    obtain ⟨z1, z2⟩ := covers_byte h3
    generalize byteOf _ = b at z1 z2 hg
    unfold readCovers at h
    rw [if_pos (decide_eq_true h1)] at h
    obtain ⟨g1, m1, c1, l1, h⟩ := inv_next hg h
    rw [step_byte (b := b) c1 (by omega) rfl] at h
    dsimp only at h
    rw [z1] at h
    simp only [Bool.false_eq_true, if_false] at h
    obtain ⟨g2, m2, c2, h⟩ := inv_prune (a := [b]) (b := rest) c1 l1 rfl rfl h
    simp only [Dec.pure_apply, Res.ok.injEq, Prod.mk.injEq] at h
    obtain ⟨rfl, rfl⟩ := h
    refine ⟨?_, c2⟩
    rw [z2, UInt64.ofNat_toNat]
  · have h3 : 252 ≤ covers := by simp only [UInt64.le_iff_toNat_le, UInt64.lt_iff_toNat_lt] at *; omega
    rw [if_pos h3] at hg
    obtain ⟨hle, rfl, c, -⟩ := readCovers_long h3 hb (hm.resolve_left h2) hg h
    have hw : (if willSort then 8 else 2) = (encodeIntMax64 covers.toNat).length := by
      rw [encodeIntMax64_length]
      unfold getWidthMax64Int
      have hlt := covers.toNat_lt
      rcases hc with hc | ⟨hc1, hc2, rfl⟩ | ⟨hc1, rfl⟩
      · exact absurd hc h2
      · simp [UInt64.le_iff_toNat_le, UInt64.lt_iff_toNat_lt] at hc1 hc2 ⊢; grind
      · simp [UInt64.le_iff_toNat_le] at hc1 ⊢; grind
    rw [hw] at c ⊢
    rw [List.drop_left' rfl] at c
    rw [List.take_left' rfl]
    refine ⟨?_, c⟩
    have hd := decode_encodeIntMax64 covers.toNat_lt
    unfold decodeIntMax64 at hd
    split at hd
    · simp only [Res.ok.injEq] at hd
      rw [hd, UInt64.ofNat_toNat]
    · simp at hd

/-- The zero range is empty, and no valid range is. -/
theorem zeroRange3d_invalid : ¬ ValidRange3d zeroRange3d := by
  rintro ⟨-, -, h⟩
  simp [ValidRange, zeroRange3d, TimeLt] at h

end Willow.Props
