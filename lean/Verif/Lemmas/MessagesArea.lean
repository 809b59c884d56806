import Verif.Props.MessagesData
import Verif.Props.RelativeArea2

/-! Lemmas about data messages whose entry is encoded in an area. -/

namespace Willow

open Spec Props

theorem header_dataEntry {first : Nat} (hf : first = 0x60 ∨ first = 0x6c) (o : Option UInt64) (len : Bool) {wh ws wr : Nat} (hh : Width wh) (hs : Width ws) (hr : Width wr) :
    let b1 := byteOf (first ||| compactWidthEndMask wh)
    let b2 := byteOf ((match o with
      | some x => 0x80 ||| compactWidthEndMask (getWidthMax64Int x.toNat) <<< 5
      | none => if len then 0x20 else 0x0) ||| compactWidthEndMask ws <<< 2 ||| compactWidthEndMask wr)
    compactWidthFromEndOfByte b1 = wh ∧ (b2 &&& 0x80 == 0x80) = o.isSome ∧ (b2 &&& 0x10 == 0x10) = false ∧
    compactWidthFromEndOfByte ((b2 &&& 0xc) >>> 2) = ws ∧ compactWidthFromEndOfByte (b2 >>> 2) = ws ∧
    compactWidthFromEndOfByte b2 = wr ∧ (o = none → (b2 &&& 0x20 == 0x20) = len) ∧
    ∀ x, o = some x → compactWidthFromEndOfByte ((b2 &&& 0x60) >>> 5) = getWidthMax64Int x.toNat := by
  cases o with
  | none =>
    rcases hf with rfl | rfl <;> rcases hh with rfl | rfl | rfl | rfl <;> rcases hs with rfl | rfl | rfl | rfl <;> rcases hr with rfl | rfl | rfl | rfl <;>
      cases len <;> simp <;> decide
  | some x =>
    have hx := width64 x.toNat
    simp only [Option.some.injEq, forall_eq']
    generalize getWidthMax64Int x.toNat = w at hx
    rcases hf with rfl | rfl <;> rcases hh with rfl | rfl | rfl | rfl <;> rcases hs with rfl | rfl | rfl | rfl <;> rcases hr with rfl | rfl | rfl | rfl <;>
      rcases hx with rfl | rfl | rfl | rfl <;> simp <;> decide

/-- Reading the handles and the entry. -/
theorem dataEntry_area {s : Schemes} {vn vs vp vt : Bytes → Prop} (hL : LawfulSchemes s vn vs vp vt) {aois : AoiLookup}
    {e current : Entry} (hv : ValidEntry s vn vs vp e) {sender receiver : UInt64} {rel : Bytes} {withSubspace fromStart : Bool}
    {timeDiff : Nat} (hns : aois.namespaceId sender receiver = e.namespaceId)
    (hrel : encodeRelativePath s.p e.path (aois.area sender receiver).path = .ok rel) (htd : timeDiff < 2 ^ 64)
    (hss : withSubspace = true ∨ ((aois.area sender receiver).anySubspace = false ∧ e.subspaceId = (aois.area sender receiver).subspace))
    (htime : (fromStart = true ∧ e.timestamp = (aois.area sender receiver).times.start + UInt64.ofNat timeDiff) ∨
      (fromStart = false ∧ (aois.area sender receiver).times.openEnd = false ∧
        e.timestamp = (aois.area sender receiver).times.stop - UInt64.ofNat timeDiff))
    {g : GB} {rest : Bytes} (hr : g.ready true) (hg : g.content = encodeIntMax64 sender.toNat ++ (encodeIntMax64 receiver.toNat ++
      (wireEntryInArea s.ss s.pd e rel withSubspace fromStart timeDiff ++ rest)))
    (hl : getWidthMax32Int s.p.cl ≤ 2 + (s.pd.enc e.payloadDigest).length + rest.length) :
    GivesR true e rest (decodeDataEntry s aois current false (getWidthMax64Int sender.toNat) (getWidthMax64Int receiver.toNat) g) := by
  have h1 := encodeIntMax64_length sender.toNat
  have h2 := encodeIntMax64_length receiver.toNat
  unfold decodeDataEntry
  simp only [Bool.false_eq_true, if_false]
  refine step_next hr hg (by simp; omega) fun g1 r1 c1 l1 b1 => ?_
  rw [step_compact (i := 0) (x := sender) (a := []) c1 rfl rfl rfl (by omega),
    step_compact (i := getWidthMax64Int sender.toNat) (x := receiver) (a := encodeIntMax64 sender.toNat) c1 rfl h1.symm rfl (by omega)]
  refine step_prune (a := encodeIntMax64 sender.toNat ++ encodeIntMax64 receiver.toNat) (b := wireEntryInArea s.ss s.pd e rel withSubspace fromStart timeDiff ++ rest) r1 c1 l1 (by simp) (by simp; omega)
    fun g2 r2 c2 => ?_
  rw [hns]
  have key := inArea_decodes hL.ss hL.pd (outer := aois.area sender receiver) hv.ss hv.path hv.digest hrel htd hss htime
  obtain ⟨g3, e3, k3⟩ := key.2 trivial g2 rest r2 c2 (by omega)
  refine ⟨g3, DecE.ignoring_ok ?_, k3⟩
  rw [decodeStreamEntryInNamespaceAreaE_strict]
  exact e3

end Willow
