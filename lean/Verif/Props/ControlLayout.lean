import Verif.Lemmas.PropsControlLayout

/-! # The layout of control messages (C128) -/

namespace Willow.Props

open Spec

/-- C128: every control message for a logical channel has the layout of the protocol. -/
theorem C128_layout (m : Control) (h : m.Logical) : m.HasLayout (m.bytes.map UInt8.toNat) := control_layout m h

example : (Control.plead 300 .capability).Logical ∧ (Control.plead 300 .capability).bytes = [0x89, 0x60, 0x01, 0x2c] := by
  refine ⟨by simp [Control.Logical], by decide⟩

/-- C128: the layout is that of one message only, whatever follows. -/
theorem C128_one (m m' : Control) (bytes bytes' rest rest' : List Nat) (h : m.HasLayout bytes) (h' : m'.HasLayout bytes')
    (he : bytes ++ rest = bytes' ++ rest') : m = m' ∧ rest = rest' := layout_apart h h' he

example : (Control.free 7 true .staticToken).HasLayout [0x8c, 0x90, 7] := ⟨0, ⟨by decide, by decide, by simp⟩, by decide⟩

/-- C128: different control messages have different encodings, and the encoding of none begins with that of another. -/
theorem C128_apart (m m' : Control) (h : m.Logical) (h' : m'.Logical) (rest rest' : Bytes) (he : m.bytes ++ rest = m'.bytes ++ rest') :
    m = m' ∧ rest = rest' := by
  have := congrArg (List.map UInt8.toNat) he
  rw [List.map_append, List.map_append] at this
  obtain ⟨h1, h2⟩ := layout_apart (control_layout m h) (control_layout m' h') this
  exact ⟨h1, List.map_inj_right (fun a b h => UInt8.toNat_inj.1 h) |>.1 h2⟩

example : (Control.free 7 true .staticToken).bytes ≠ (Control.free 7 false .staticToken).bytes := by decide

end Willow.Props
