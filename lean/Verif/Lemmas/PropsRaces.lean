import Verif.Model.Races
import Verif.Lemmas.PropsMessagesReconciliation
import Verif.Lemmas.PropsMessageLoop

/-! Lemmas for the theorems of `Verif/Props/Races.lean`. -/

namespace Willow.Props
open Willow Spec

/-- The run in which every goroutine reads at once. -/
theorem sendEntryRun_soon (s : Schemes) (privy : Privy) :
    decodeReconciliationSendEntryRun s privy true true = decodeReconciliationSendEntry s privy := by
  funext g
  unfold decodeReconciliationSendEntryRun decodeReconciliationSendEntry sendEntryHead sendEntryEntry
  simp only [Dec.bind_assoc, Dec.pure_bind, if_true]

/-- The first part of a message that was encoded. -/
theorem sendEntryHead_reads {s : Schemes} {privy : Privy} {e : Entry} {available handle : UInt64} {token enc : Bytes}
    (h : encodeReconciliationSendEntry s privy e available handle token = .ok enc) {g : GB} {rest : Bytes}
    (hg : g.content = enc ++ rest)
    (hh : handle = privy.prevStaticTokenHandle ∨ (63 < handle ∧ handle.toNat < 2 ^ s.p.bits))
    (hav : available.toNat < 2 ^ s.p.bits) :
    ∃ ee g', encodeEntryRelativeEntry s.ns s.ss s.pd s.eqNs s.ordS s.p e privy.prevEntry = .ok ee ∧
      sendEntryHead privy g = .ok ((handle, available, true), g') ∧
      g'.content = s.dynamicToken.enc token ++ (ee ++ rest) := by
  unfold encodeReconciliationSendEntry at h
  dsimp only at h
  obtain ⟨ee, hee, h⟩ := Res.bind_eq_ok.1 h
  simp only [Res.ok.injEq] at h
  subst h
  suffices hx : GivesR false (handle, available, true) (s.dynamicToken.enc token ++ (ee ++ rest)) (sendEntryHead privy g) by
    obtain ⟨g', h1, -, h2⟩ := hx
    exact ⟨ee, g', hee, h1, h2⟩
  have hr : g.ready false := by intro h; simp at h
  rw [conv_of_lt hav] at hg
  have hf := firstByte_recSendEntry (handle == privy.prevStaticTokenHandle) available.toNat _ rfl
  generalize (0x50 ||| _ ||| 0x4 ||| _ : UInt8) = b1 at hf hg
  obtain ⟨f1, f2, f3⟩ := hf
  unfold sendEntryHead
  refine step_next hr hg (by simp) fun g1 r1 c1 l1 _ => ?_
  rw [step_byte (b := b1) c1 (by omega) rfl]
  dsimp only
  rw [f1, f2, f3]
  by_cases hp : handle = privy.prevStaticTokenHandle
  · simp only [hp, beq_self_eq_true, if_true, Bool.not_true, Bool.false_eq_true, false_and, if_false] at c1 ⊢
    rw [Dec.bind_assoc]
    refine step_prune (a := [b1]) (b := encodeIntMax64 available.toNat ++ (s.dynamicToken.enc token ++ (ee ++ rest)))
      r1 c1 l1 (by simp) rfl fun g2 r2 c2 => ?_
    rw [Dec.pure_bind, ← hp]
    exact step_take r2 c2 rfl fun g3 r3 c3 => step_pure r3 c3
  · obtain ⟨h63, hK⟩ := hh.resolve_left hp
    have hbf : (handle == privy.prevStaticTokenHandle) = false := by simpa using hp
    have hlt : ¬ handle < 63 := by
      simp only [UInt64.lt_iff_toNat_lt] at *; omega
    have hz := size_recSendEntry handle.toNat _ rfl
    simp only [hbf, Bool.false_eq_true, if_false, hlt, Bool.not_false, gt_iff_lt, h63, and_self, if_true, conv_of_lt hK] at c1 ⊢
    generalize widthHeader _ _ _ _ _ = b2 at hz c1
    have hl := encodeIntMax64_length handle.toNat
    rw [Dec.bind_assoc]
    refine step_next r1 c1 (by simp) fun g2 r2 c2 l2 _ => ?_
    rw [Dec.bind_assoc, step_byte (b := b2) c2 (by omega) rfl, hz.1]
    simp only [hz.2, if_false]
    rw [Dec.bind_assoc]
    refine step_next r2 c2 (by simp; omega) fun g3 r3 c3 l3 _ => ?_
    rw [Dec.bind_assoc, step_compact (i := 2) (x := handle) (a := [b1, b2])
      (b := encodeIntMax64 available.toNat ++ (s.dynamicToken.enc token ++ (ee ++ rest))) c3 (by simp) rfl rfl l3, Dec.bind_assoc]
    refine step_prune (a := [b1, b2] ++ encodeIntMax64 handle.toNat)
      (b := encodeIntMax64 available.toNat ++ (s.dynamicToken.enc token ++ (ee ++ rest)))
      r3 c3 l3 (by simp) (by simp; omega) fun g4 r4 c4 => ?_
    rw [Dec.pure_bind]
    exact step_take r4 c4 rfl fun g3 r3 c3 => step_pure r3 c3

/-- The same for an entry in the announced range, with the handle of the message before. -/
theorem sendEntryHead_range {privy : Privy} {available : UInt64} {g : GB} {tail : Bytes}
    (hg : g.content = (0x58 ||| byteOf (compactWidthOr 0 (getWidthMax64Int available.toNat))) ::
      (encodeIntMax64 available.toNat ++ tail)) :
    GivesR false (privy.prevStaticTokenHandle, available, false) tail (sendEntryHead privy g) := by
  have hr : g.ready false := by intro h; simp at h
  have hf : ∀ b : UInt8, b = 0x58 ||| byteOf (compactWidthOr 0 (getWidthMax64Int available.toNat)) →
      (b &&& 0x8 == 0x8) = true ∧ (b &&& 0x4 == 0x4) = false ∧ 2 ^ (b &&& 0x3).toNat = getWidthMax64Int available.toNat := by
    rintro b rfl
    rcases width64 available.toNat with h | h | h | h <;> rw [h] <;> decide
  replace hf := hf _ rfl
  generalize (0x58 ||| _ : UInt8) = b1 at hf hg
  obtain ⟨f1, f2, f3⟩ := hf
  unfold sendEntryHead
  refine step_next hr hg (by simp) fun g1 r1 c1 l1 _ => ?_
  rw [step_byte (b := b1) c1 (by omega) rfl]
  dsimp only
  rw [f1, f2, f3]
  simp only [if_true]
  rw [Dec.bind_assoc]
  refine step_prune (a := [b1]) (b := encodeIntMax64 available.toNat ++ tail) r1 c1 l1 (by simp) rfl fun g2 r2 c2 => ?_
  rw [Dec.pure_bind]
  exact step_take r2 c2 rfl fun g3 r3 c3 => step_pure r3 c3

/-- A byte from 128 on says that a namespace follows. -/
theorem high_byte {b : UInt8} (hb : 128 ≤ b) : (b &&& 0x80 == 0x80) = true := by
  have key : ∀ n : Fin 128, (UInt8.ofNat (128 + n.val) &&& 0x80 == 0x80) = true := by decide
  have h1 : 128 ≤ b.toNat := hb
  have h2 := b.toNat_lt
  have h := key ⟨b.toNat - 128, by omega⟩
  rw [show 128 + (b.toNat - 128) = b.toNat by omega] at h
  simpa using h

/-- Bytes from 128 on are control messages. -/
theorem branch_high (ep ee : Bool) {b : UInt8} (hb : 128 ≤ b) : branch ep ee b ∈
    [.decoder .controlApologise, .decoder .controlAnnounceDropping, .decoder .controlFree, .decoder .controlPlead,
      .decoder .controlAbsolve, .decoder .controlIssueGuarantee] := by
  have h := high_byte hb
  have h0 : (b == 0) = false := by
    cases hz : b == 0 with
    | false => rfl
    | true =>
      have : b = 0 := by simpa using hz
      subst this
      revert hb
      decide
  unfold branch
  rw [h0, h]
  simp only [Bool.false_eq_true, if_false, if_true]
  repeat' split
  all_goals simp

/-- The namespace of an entry whose header says that it follows. -/
theorem relativeEntry_namespace {ns ss pd : Codec} {p : PathParams} {ref x : Entry} {vn : Bytes → Prop} (hn : ns.Lawful vn)
    {n : Bytes} (hv : vn n) {b : UInt8} (hb : 128 ≤ b) {g g' : GB} {bs : Bytes} (hg : g.content = b :: (ns.enc n ++ bs))
    (h : decodeStreamEntryRelativeEntry ns ss pd p ref g = .ok (x, g')) : x.namespaceId = n := by
  unfold decodeStreamEntryRelativeEntry at h
  obtain ⟨g1, c1, l1, h⟩ := inv_peekByte hg h
  simp only [high_byte hb, if_true] at h
  obtain ⟨g2, -, c2, h⟩ := inv_prune (a := [b]) (b := ns.enc n ++ bs) c1 l1 rfl rfl h
  obtain ⟨v, g3, h3, h⟩ := Dec.bind_ok.1 h
  obtain ⟨g4, h4, -⟩ := hn.reads n false hv g2 bs (by intro h; simp at h) c2 (Nat.zero_le _)
  rw [h4, Res.ok.injEq, Prod.mk.injEq] at h3
  obtain ⟨rfl, rfl⟩ := h3
  obtain ⟨_, _, -, h⟩ := Dec.bind_ok.1 h
  obtain ⟨_, _, -, h⟩ := Dec.bind_ok.1 h
  obtain ⟨_, _, -, h⟩ := Dec.bind_ok.1 h
  obtain ⟨_, _, -, h⟩ := Dec.bind_ok.1 h
  obtain ⟨_, _, -, h⟩ := Dec.bind_ok.1 h
  simp only [Dec.pure_apply, Res.ok.injEq, Prod.mk.injEq] at h
  rw [← h.1]

theorem byteOf_high (n : Nat) : 128 ≤ byteOf (0x80 ||| n) := by
  show 128 ≤ (byteOf (0x80 ||| n)).toNat
  unfold byteOf
  rw [UInt8.toNat_ofNat', Nat.or_mod_two_pow]
  exact Nat.left_le_or

/-- The header of an entry in a range: from 128 on if the subspace is not the one the range starts with. -/
theorem relativeRange_head {ss pd : Codec} {ordS : Bytes → Bytes → Ordering} {p : PathParams} {e : Entry} {outer : Range3d}
    {ee : Bytes} (h : encodeEntryRelativeRange3d ss pd ordS p e outer = .ok ee)
    (hd : ordS e.subspaceId outer.subspace.start ≠ .eq) : ∃ b bs, ee = b :: bs ∧ 128 ≤ b := by
  unfold encodeEntryRelativeRange3d at h
  dsimp only at h
  obtain ⟨⟨pf, ep⟩, hp, h⟩ := Res.bind_eq_ok.1 h
  simp only [Res.ok.injEq] at h
  subst h
  refine ⟨_, _, rfl, ?_⟩
  have hne : (ordS e.subspaceId outer.subspace.start != .eq) = true := by simpa using hd
  rw [hne]
  simp only [if_true]
  simp only [Nat.or_assoc]
  exact byteOf_high _

/-- Tokens of no bytes. -/
def noToken : Codec := ⟨fun _ => [], fun _ => .ok [], fun _ => 0, pure []⟩

theorem noToken_lawful : noToken.Lawful (· = []) where
  dec := by rintro _ rest rfl; rfl
  len := by rintro _ rfl; rfl
  sound := by
    rintro _ rfl g rest x g' hm hg h
    cases h
    exact ⟨rfl, by simpa [noToken] using hg, hm⟩
  reads := by
    rintro _ all rfl g rest hr hg -
    exact ⟨g, rfl, hr, by simpa [noToken] using hg⟩

end Willow.Props
