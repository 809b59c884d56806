import Verif.Lemmas.Messages

/-! Lemmas for the theorems of `Verif/Props/Messages.lean`. -/

namespace Willow.Props

open Willow Spec

/-- A decoder that reads a header, a second byte and a compact integer. -/
theorem roundTrips_two {mk : UInt64 → UInt8 → Msg} {h c : UInt8} {x : UInt64}
    (hw : compactWidthFromEndOfByte h = getWidthMax64Int x.toNat) :
    RoundTrips (do
      let width1 ← nextAbsolute 1
      let b ← Dec.lift (byteAt width1 0)
      let w := compactWidthFromEndOfByte b
      let width2 ← nextAbsolute 2
      let c ← Dec.lift (byteAt width2 1)
      let width3 ← nextAbsolute (2 + w)
      let v ← compactAt width3 2 w
      prune (2 + w)
      return mk v c) ([h, c] ++ encodeIntMax64 x.toNat) (mk x c) := by
  refine roundTrips_of_reads fun g rest hr hg => ?_
  have hlen := encodeIntMax64_length x.toNat
  refine step_next hr hg (by simp) fun g1 r1 c1 l1 _ => ?_
  rw [step_byte (b := h) c1 (by omega) rfl, hw]
  refine step_next r1 c1 (by simp) fun g2 r2 c2 l2 _ => ?_
  rw [step_byte (b := c) c2 (by omega) rfl]
  refine step_next r2 c2 (by simp; omega) fun g3 r3 c3 l3 _ => ?_
  rw [step_compact (i := 2) (x := x) (a := [h, c]) (b := rest) c3 (by simp) rfl rfl l3]
  exact step_prune (a := [h, c] ++ encodeIntMax64 x.toNat) (b := rest) r3 c3 l3 rfl (by simp; omega)
    fun g4 r4 c4 => step_pure r4 c4

/-- A decoder that reads one byte. -/
theorem roundTrips_one {mk : UInt8 → Msg} {h : UInt8} :
    RoundTrips (do
      let width1 ← nextAbsolute 1
      let b ← Dec.lift (byteAt width1 0)
      prune 1
      return mk b) [h] (mk h) := by
  refine roundTrips_of_reads fun g rest hr hg => ?_
  refine step_next hr hg (by simp) fun g1 r1 c1 l1 _ => ?_
  rw [step_byte (b := h) c1 (by omega) rfl]
  exact step_prune (a := [h]) (b := rest) r1 c1 l1 rfl rfl fun g4 r4 c4 => step_pure r4 c4

end Willow.Props
