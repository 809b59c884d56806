import Verif.Lemmas.Reads
import Verif.Lemmas.Ranges

/-! Lemmas on the header bytes and time differences of relative encodings. -/

namespace Willow
open Spec

theorem flatten_singles (l : Bytes) : (l.map fun b => [b]).flatten = l := by
  induction l with
  | nil => rfl
  | cons b bs ih => simp [ih]

theorem absorb_singles : ∀ (k : Nat) (b l : Bytes) (s : List Nat) (m : Mem),
    (GB.absorb k ⟨b, l.map fun b => [b], s, m⟩).rest = (l.drop k).map fun b => [b]
  | 0, _, _, _, _ => rfl
  | _ + 1, _, [], _, _ => rfl
  | k + 1, _, c :: cs, s, m => by
    rw [List.map_cons, GB.absorb, absorb_singles k _ cs s _]
    rfl

/-- The four widths of a compact integer. -/
def Width (w : Nat) : Prop := w = 1 ∨ w = 2 ∨ w = 4 ∨ w = 8

theorem width64 (n : Nat) : Width (getWidthMax64Int n) := getWidthMax64Int_cases n

/-- Reading back the fields of the header of an entry relative to an entry. -/
theorem header_entry (a b c : Bool) {wt wl : Nat} (ht : Width wt) (hl : Width wl) :
    let h := byteOf ((if a then 0x80 else 0x00) ||| (if b then 0x40 else 0x00) ||| (if c then 0x20 else 0x0) |||
      compactWidthEndMask wl ||| compactWidthEndMask wt <<< 2)
    ((h &&& 0x80) == 0x80) = a ∧ ((h &&& 0x40) == 0x40) = b ∧ ((h &&& 0x20) == 0x20) = c ∧
      2 ^ ((h &&& 0xc) >>> 2).toNat = wt ∧ 2 ^ (h &&& 0x3).toNat = wl := by
  rcases ht with rfl | rfl | rfl | rfl <;> rcases hl with rfl | rfl | rfl | rfl <;>
    cases a <;> cases b <;> cases c <;> decide

/-- Reading back the fields of the header of an entry relative to a range. -/
theorem header_range (a b c d : Bool) {wt wl : Nat} (ht : Width wt) (hl : Width wl) :
    let h := byteOf ((if a then 0x80 else 0x00) ||| (if b then 0x40 else 0x0) ||| (if c then 0x20 else 0x0) |||
      (if d then 0x10 else 0x0) ||| compactWidthEndMask wt <<< 2 ||| compactWidthEndMask wl)
    ((h &&& 0x80) == 0x80) = a ∧ ((h &&& 0x40) == 0x40) = b ∧ ((h &&& 0x20) == 0x20) = c ∧
      ((h &&& 0x10) == 0x10) = d ∧
      2 ^ ((h &&& 0xc) >>> 2).toNat = wt ∧ 2 ^ (h &&& 0x3).toNat = wl := by
  rcases ht with rfl | rfl | rfl | rfl <;> rcases hl with rfl | rfl | rfl | rfl <;>
    cases a <;> cases b <;> cases c <;> cases d <;> decide

theorem add_absDiff {a b : UInt64} (h : a > b) : b + absDiffUint64 a b = a := by
  unfold absDiffUint64
  rw [if_neg (by simp only [UInt64.lt_iff_toNat_lt, gt_iff_lt] at *; omega)]
  simp [UInt64.add_comm b]

theorem add_absDiff_of_ge {a b : UInt64} (h : a ≥ b) : b + absDiffUint64 a b = a := by
  unfold absDiffUint64
  rw [if_neg (by simp only [UInt64.lt_iff_toNat_lt, ge_iff_le, UInt64.le_iff_toNat_le] at *; omega)]
  simp [UInt64.add_comm b]

theorem sub_absDiff {a b : UInt64} (h : ¬ a > b) : b - absDiffUint64 a b = a := by
  unfold absDiffUint64
  split
  · grind
  · have : a = b := by
      apply UInt64.toNat_inj.mp
      simp only [UInt64.lt_iff_toNat_lt, gt_iff_lt] at *
      omega
    subst this
    simp

/-- Both facts together; `P` is what returning needs. -/
def Decodes {α : Type} (P : Prop) (all : Bool) (slack : Nat) (d : Dec α) (enc : Bytes) (v : α) : Prop :=
  Sound d enc v ∧ (P → Reads all slack d enc v)

section
variable {α β : Type} {P : Prop} {all : Bool}

theorem Decodes.bind {s1 s2 s : Nat} {d : Dec α} {f : α → Dec β} {e1 e2 : Bytes} {a : α} {b : β}
    (h1 : Decodes P all s1 d e1 a) (h2 : Decodes P all s2 (f a) e2 b) (hs1 : s1 ≤ e2.length + s) (hs2 : s2 ≤ s) :
    Decodes P all s (d >>= f) (e1 ++ e2) b :=
  ⟨h1.1.bind h2.1, fun hp => (h1.2 hp).bind (h2.2 hp) hs1 hs2⟩

theorem Decodes.pure {w v : α} (h : w = v) : Decodes P all 0 (pure w : Dec α) [] v := by
  subst h; exact ⟨Sound.pure _, fun _ => Reads.pure _⟩

theorem Decodes.peek {s : Nat} {f : UInt8 → Dec α} {k : Unit → Dec α} {b : UInt8} {enc : Bytes} {v : α}
    (hf : f b = (prune 1 >>= k)) (h : Decodes P all s (k ()) enc v) : Decodes P all s (peekByte >>= f) (b :: enc) v :=
  ⟨Sound.peek hf h.1, fun hp => Reads.peek hf (h.2 hp)⟩

theorem Decodes.compact {n w : Nat} (h : n < 2 ^ 64) (hw : w = getWidthMax64Int n) :
    Decodes P all 0 (readCompact w) (encodeIntMax64 n) n :=
  ⟨(readCompact_encode h hw).1, fun _ => (readCompact_encode h hw).2 all⟩

theorem Decodes.codec {c : Codec} {valid : Bytes → Prop} (hc : c.Lawful valid) {x : Bytes} (hx : valid x) :
    Decodes P all 0 c.decStream (c.enc x) x := ⟨hc.sound x hx, fun _ => hc.reads x all hx⟩

theorem Decodes.mono {Q : Prop} {s : Nat} {d : Dec α} {enc : Bytes} {v : α} (h : Decodes P all s d enc v) (hi : Q → P) :
    Decodes Q all s d enc v := ⟨h.1, fun hq => h.2 (hi hq)⟩

theorem Decodes.relPath {p : PathParams} {a r : Path} {enc : Bytes}
    (ha : ShortPath p a) (h : encodeRelativePath p a r = .ok enc) :
    Decodes (RelArrives p all a r) all (getWidthMax32Int p.cl) (decodeRelPathStream p r) enc a :=
  ⟨decodeRelPathStream_sound ha h, decodeRelPathStream_reads ha h⟩

end

theorem ofNat_toNat64 (x : UInt64) : UInt64.ofNat x.toNat = x := by simp

end Willow
