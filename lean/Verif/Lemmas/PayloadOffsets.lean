import Verif.Model.PayloadOffsets
import Verif.Spec.PayloadOffsets
import Verif.Lemmas.PropsTransfer

/-! Lemmas for C134. -/

namespace Willow.Props

open Willow Spec

theorem openPayload_crash (maxAlloc : Nat) (hm : maxAlloc < 2 ^ 63) (bytes : Bytes) (hb : bytes.length ≤ maxAlloc) (offset : UInt64) :
    openPayload maxAlloc (some bytes) offset = .crash ↔
      2 ^ 63 ≤ offset.toNat ∧ offset.toNat + maxAlloc < 2 ^ 64 + bytes.length := by
  have ho := offset.toNat_lt
  unfold openPayload
  dsimp only
  generalize offset.toNat = o at ho ⊢
  by_cases h : o < 2 ^ 63
  · have hg : goInt o = o := if_pos h
    rw [hg]
    constructor
    · intro hc
      exfalso
      by_cases h1 : (o : Int) ≥ bytes.length
      · rw [if_pos h1] at hc; cases hc
      · rw [if_neg h1] at hc
        have e1 : (((bytes.length : Int) - o).toNat) = bytes.length - o := by omega
        have e2 : goInt (bytes.length - o) = ((bytes.length - o : Nat) : Int) := if_pos (by omega)
        rw [e1, e2, if_neg (by omega), if_neg (by omega)] at hc
        cases hc
    · intro hc; omega
  · have hg : goInt o = (o : Int) - 2 ^ 64 := if_neg h
    rw [hg, if_neg (by omega)]
    have e1 : (((bytes.length : Int) - ((o : Int) - 2 ^ 64)).toNat) = bytes.length + 2 ^ 64 - o := by omega
    rw [e1]
    unfold goInt
    by_cases h2 : bytes.length + 2 ^ 64 - o < 2 ^ 63
    · rw [if_pos h2]
      by_cases h3 : maxAlloc < bytes.length + 2 ^ 64 - o
      · rw [if_pos (by omega)]
        constructor
        · intro _; omega
        · intro _; rfl
      · rw [if_neg (by omega), if_pos (by omega)]
        constructor
        · intro hc; cases hc
        · intro _; omega
    · rw [if_neg h2, if_pos (by omega)]
      constructor
      · intro _; omega
      · intro _; rfl

theorem openPayload_ok (maxAlloc : Nat) (hm : maxAlloc < 2 ^ 63) (bytes : Bytes) (hb : bytes.length ≤ maxAlloc) (offset : UInt64)
    (h : offset.toNat < bytes.length) : openPayload maxAlloc (some bytes) offset = .ok (bytes.drop offset.toNat) := by
  unfold openPayload
  dsimp only
  have hg : goInt offset.toNat = offset.toNat := if_pos (by omega)
  have e1 : (((bytes.length : Int) - offset.toNat).toNat) = bytes.length - offset.toNat := by omega
  have e2 : goInt (bytes.length - offset.toNat) = ((bytes.length - offset.toNat : Nat) : Int) := if_pos (by omega)
  rw [hg, if_neg (by omega), e1, e2, if_neg (by omega), if_neg (by omega)]
  rfl

/-- What opening yields if it does not panic. -/
theorem openPayload_cases (maxAlloc : Nat) (hm : maxAlloc < 2 ^ 63) (w : SenderWorld) (hw : PayloadsWithin maxAlloc w) (e : Entry) (offset : UInt64) :
    (FarBack maxAlloc w e offset ∧ openPayload maxAlloc (w.payload e) offset = .crash) ∨
    (¬ FarBack maxAlloc w e offset ∧ ∃ bytes, w.payload e = some bytes ∧ offset.toNat < bytes.length ∧
      openPayload maxAlloc (w.payload e) offset = .ok (bytes.drop offset.toNat)) ∨
    (¬ FarBack maxAlloc w e offset ∧ ¬ CanSend w e offset ∧ openPayload maxAlloc (w.payload e) offset = .err) := by
  unfold FarBack CanSend
  rw [show payloadOf w e = w.payload e from rfl]
  cases h : w.payload e with
  | none =>
    refine .inr (.inr ⟨?_, ?_, rfl⟩)
    · rintro ⟨b, hb, _⟩; cases hb
    · rintro ⟨b, hb, _⟩; cases hb
  | some bytes =>
    have hb := hw e bytes h
    by_cases h1 : 2 ^ 63 ≤ offset.toNat ∧ offset.toNat + maxAlloc < 2 ^ 64 + bytes.length
    · exact .inl ⟨⟨bytes, rfl, h1⟩, (openPayload_crash maxAlloc hm bytes hb offset).mpr h1⟩
    · have hn : ¬ ∃ b, some bytes = some b ∧ 2 ^ 63 ≤ offset.toNat ∧ offset.toNat + maxAlloc < 2 ^ 64 + b.length := by
        rintro ⟨b, hb, h2⟩
        cases hb
        exact h1 h2
      by_cases h2 : offset.toNat < bytes.length
      · exact .inr (.inl ⟨hn, bytes, rfl, h2, openPayload_ok maxAlloc hm bytes hb offset h2⟩)
      · refine .inr (.inr ⟨hn, ?_, ?_⟩)
        · rintro ⟨b, hb, h3⟩
          cases hb
          exact h2 h3
        · have hc := mt (openPayload_crash maxAlloc hm bytes hb offset).mp h1
          have ho := offset.toNat_lt
          revert hc
          unfold openPayload
          dsimp only
          by_cases h3 : goInt offset.toNat ≥ bytes.length
          · intro _; rw [if_pos h3]
          · rw [if_neg h3]
            intro hc
            by_cases h4 : goInt ((bytes.length : Int) - goInt offset.toNat).toNat < 0 ∨
                goInt ((bytes.length : Int) - goInt offset.toNat).toNat > maxAlloc
            · rw [if_pos h4] at hc; exact absurd rfl hc
            · rw [if_neg h4]
              refine if_pos ?_
              unfold goInt at h3 ⊢
              by_cases h5 : offset.toNat < 2 ^ 63
              · rw [if_pos h5] at h3; omega
              · rw [if_neg h5]; omega

/-- What the other model of the payload yields in the same cases. -/
theorem bytesFrom_payload (maxAlloc : Nat) (hm : maxAlloc < 2 ^ 63) (w : SenderWorld) (hw : PayloadsWithin maxAlloc w) (e : Entry) (offset : UInt64) :
    (∀ bytes, w.payload e = some bytes → offset.toNat < bytes.length → bytesFrom ((w.payload e).getD []) offset = some (bytes.drop offset.toNat)) ∧
    (¬ CanSend w e offset → bytesFrom ((w.payload e).getD []) offset = none) := by
  constructor
  · intro bytes h1 h2
    have := hw e bytes h1
    rw [h1, Option.getD_some, bytesFrom_eq _ _ (by omega), if_pos h2]
  · intro h
    cases hp : w.payload e with
    | none => rw [Option.getD_none, bytesFrom_eq _ _ (by decide)]; rfl
    | some bytes =>
      have := hw e bytes hp
      rw [Option.getD_some, bytesFrom_eq _ _ (by omega), if_neg]
      intro h2
      exact h ⟨bytes, hp, h2⟩

/-- One element that is no nil. -/
theorem sendPayloadOf_cases (maxAlloc : Nat) (hm : maxAlloc < 2 ^ 63) (transform : Bytes → Bytes) (w : SenderWorld)
    (hw : PayloadsWithin maxAlloc w) (header : DataMsg) (e : Entry) (offset : UInt64) (more : Res (List DataMsg × Bool)) :
    (FarBack maxAlloc w e offset ∧ sendPayloadOf maxAlloc transform header (w.payload e) offset more = .crash) ∨
    (¬ FarBack maxAlloc w e offset ∧ CanSend w e offset ∧ ∃ bytes, bytesFrom ((w.payload e).getD []) offset = some bytes ∧
      sendPayloadOf maxAlloc transform header (w.payload e) offset more =
        more.bind fun r => .ok (header :: (payloadMessages transform bytes ++ r.1), r.2)) ∨
    (¬ FarBack maxAlloc w e offset ∧ ¬ CanSend w e offset ∧ bytesFrom ((w.payload e).getD []) offset = none ∧
      sendPayloadOf maxAlloc transform header (w.payload e) offset more = .ok ([header], true)) := by
  obtain ⟨hb1, hb2⟩ := bytesFrom_payload maxAlloc hm w hw e offset
  rcases openPayload_cases maxAlloc hm w hw e offset with ⟨h1, h2⟩ | ⟨h1, bytes, h2, h3, h4⟩ | ⟨h1, h2, h3⟩
  · exact .inl ⟨h1, by unfold sendPayloadOf; rw [h2]⟩
  · refine .inr (.inl ⟨h1, ⟨bytes, h2, h3⟩, _, hb1 bytes h2 h3, ?_⟩)
    unfold sendPayloadOf; rw [h4]; rfl
  · refine .inr (.inr ⟨h1, h2, hb2 h2, ?_⟩)
    unfold sendPayloadOf; rw [h3]

end Willow.Props
