import Verif.Lemmas.Messages
import Verif.Lemmas.PropsRelativeArea2

/-! Lemmas for the theorems of `Verif/Props/RelativeRanges.lean`. -/

namespace Willow.Props

open Willow Spec

/-- How the encoder describes the start of the subspace range: equal to the start or the end of
the reference, or given explicitly. -/
inductive StartCode where
  | refStart | refEnd | given

inductive EndCode where
  | none | overwritten | refEnd | given

def startBits : StartCode → UInt8
  | .refStart => 0x40
  | .refEnd => 0x80
  | .given => 0xC0

def withEnd (b : UInt8) : EndCode → UInt8
  | .none => b
  | .overwritten => 0x10
  | .refEnd => b ||| 0x20
  | .given => b ||| 0x30

/-- The first byte. -/
def firstByte (s : StartCode) (e : EndCode) (startRel pathOpen endRel timeOpen : Bool) : UInt8 :=
  let b := withEnd (startBits s) e
  let b := if startRel then b ||| 0x08 else b
  let b := if pathOpen then b ||| 0x04 else b
  let b := if endRel then b ||| 0x02 else b
  let b := if pathOpen then b &&& 0xFD else b
  if timeOpen then b ||| 0x01 else b

/-- The fields both decoders find in the first byte. -/
theorem firstByte_fields (s : StartCode) (e : EndCode) (startRel pathOpen endRel timeOpen : Bool) :
    let b := firstByte s e startRel pathOpen endRel timeOpen
    startBound b = (match e, s with
      | .overwritten, _ => .none
      | _, .refStart => .refStart
      | _, .refEnd => .refEnd
      | _, .given => .yes) ∧
    endBound b = (match e with
      | .none => .none
      | .overwritten => .refStart
      | .refEnd => .refEnd
      | .given => .yes) ∧
    ((b &&& 0x8) == 0x8) = startRel ∧ ((b &&& 0x4) == 0x4) = pathOpen ∧ ((b &&& 0x4) == 0x40) = false ∧
    ((b &&& 0x2) == 0x2) = (endRel && !pathOpen) ∧ ((b &&& 0x1) == 0x1) = timeOpen := by
  cases s <;> cases e <;> cases startRel <;> cases pathOpen <;> cases endRel <;> cases timeOpen <;> decide

/-- The second byte. -/
def secondByte (startRel addStart endRel addEnd : Bool) (ws we : Nat) : UInt8 :=
  let b : UInt8 := if startRel then 0x80 else 0
  let b := if addStart then b ||| 0x40 else b
  let b := b ||| widthBits ws 0x10 0x20 0x30
  let b := if endRel then b ||| 0x08 else b
  let b := if addEnd then b ||| 0x04 else b
  b ||| widthBits we 0x01 0x02 0x03

theorem secondByte_fields (startRel addStart endRel addEnd : Bool) {ws we : Nat} (hs : Width ws) (he : Width we) :
    let b := secondByte startRel addStart endRel addEnd ws we
    ((b &&& 0x80) == 0x80) = startRel ∧ ((b &&& 0x40) == 0x40) = addStart ∧ 2 ^ ((b &&& 0x30) >>> 4).toNat = ws ∧
    ((b &&& 0x8) == 0x8) = endRel ∧ ((b &&& 0x4) == 0x4) = addEnd ∧ 2 ^ (b &&& 0x3).toNat = we := by
  rcases hs with rfl | rfl | rfl | rfl <;> rcases he with rfl | rfl | rfl | rfl <;>
    cases startRel <;> cases addStart <;> cases endRel <;> cases addEnd <;> decide

theorem rangeSecondByte_exact (rs refS refE rE : UInt64) : rangeSecondByte rs refS refE rE =
      secondByte (decide (absDiffUint64 rs refS ≤ absDiffUint64 rs refE))
        (decide (rs ≥ if decide (absDiffUint64 rs refS ≤ absDiffUint64 rs refE) then refS else refE))
        (decide (absDiffUint64 rE refS ≤ absDiffUint64 rE refE))
        (decide (rE ≥ if decide (absDiffUint64 rE refS ≤ absDiffUint64 rE refE) then refS else refE))
        (getWidthMax64Int (minU64 (absDiffUint64 rs refS) (absDiffUint64 rs refE)).toNat)
        (getWidthMax64Int (minU64 (absDiffUint64 rE refS) (absDiffUint64 rE refE)).toNat) := by
  unfold rangeSecondByte secondByte
  dsimp only
  have h1 := width64 (minU64 (absDiffUint64 rs refS) (absDiffUint64 rs refE)).toNat
  have h2 := width64 (minU64 (absDiffUint64 rE refS) (absDiffUint64 rE refE)).toNat
  generalize getWidthMax64Int (minU64 (absDiffUint64 rs refS) (absDiffUint64 rs refE)).toNat = w1 at *
  generalize getWidthMax64Int (minU64 (absDiffUint64 rE refS) (absDiffUint64 rE refE)).toNat = w2 at *
  by_cases c1 : absDiffUint64 rs refS ≤ absDiffUint64 rs refE <;>
  by_cases c2 : absDiffUint64 rE refS ≤ absDiffUint64 rE refE <;>
  by_cases c3 : rs ≥ refS <;> by_cases c4 : rs ≥ refE <;> by_cases c5 : rE ≥ refS <;> by_cases c6 : rE ≥ refE <;>
  simp only [c1, c2, c3, c4, c5, c6, decide_true, decide_false, if_true, if_false, Bool.false_eq_true] <;>
  rcases h1 with rfl | rfl | rfl | rfl <;> rcases h2 with rfl | rfl | rfl | rfl <;> rfl

theorem minU64_eq (a b : UInt64) : minU64 a b = if a ≤ b then a else b := by
  unfold minU64
  split <;> split <;> try rfl
  · rename_i h1 h2
    exfalso
    simp only [UInt64.le_iff_toNat_le, UInt64.lt_iff_toNat_lt] at *; omega
  · rename_i h1 h2
    apply UInt64.toNat_inj.mp
    simp only [UInt64.le_iff_toNat_le, UInt64.lt_iff_toNat_lt] at *; omega

/-- The subspace ids the encoder writes. -/
def startIds (ss : Codec) (r : Range3d) : StartCode → Bytes
  | .given => ss.enc r.subspace.start
  | _ => []

def endIds (ss : Codec) (r : Range3d) : EndCode → Bytes
  | .given => ss.enc r.subspace.stop
  | _ => []

/-- The end of a time range, or the largest number. -/
def lastOf (t : GRange UInt64) : UInt64 := if t.openEnd then UInt64.ofNat (2 ^ 64 - 1) else t.stop

/-- The end of a time range, or the largest number if the reference has no end either. -/
def lastIn (t ref : GRange UInt64) : UInt64 :=
  if ref.openEnd && t.openEnd then UInt64.ofNat (2 ^ 64 - 1) else t.stop

/-- What the encoder writes, all of it, and when the start of the subspaces is taken to be the end of the reference. -/
theorem encodeRange3dRelative_full' {ss : Codec} {ordS : Bytes → Bytes → Ordering} {p : PathParams} {r ref : Range3d}
    {enc : Bytes} (h : encodeRange3dRelative ss ordS p r ref = .ok enc) :
    ∃ (s : StartCode) (e : EndCode) (startRel endRel : Bool) (tsRel tsAdd teRel teAdd : Bool)
      (ps pe endEnc : Bytes) (startDiff : UInt64),
      startRel = decide (commonPrefixLen r.path.start ref.path.start ≥ commonPrefixLen r.path.start ref.path.stop) ∧
      endRel = decide (commonPrefixLen r.path.stop ref.path.start ≥ commonPrefixLen r.path.stop ref.path.stop) ∧
      tsRel = decide (absDiffUint64 r.time.start ref.time.start ≤ absDiffUint64 r.time.start (lastOf ref.time)) ∧
      (match s with
        | .refStart => isEqualRangeValue ordS r.subspace true ref.subspace true = true
        | .refEnd => isEqualRangeValue ordS r.subspace true ref.subspace false = true
        | .given => isEqualRangeValue ordS r.subspace true ref.subspace true = false ∧
          isEqualRangeValue ordS r.subspace true ref.subspace false = false) ∧
      (match e with
        | .none => r.subspace.openEnd = true
        | .overwritten => r.subspace.openEnd = false ∧ isEqualRangeValue ordS r.subspace false ref.subspace true = true
        | .refEnd => r.subspace.openEnd = false ∧ isEqualRangeValue ordS r.subspace false ref.subspace false = true
        | .given => r.subspace.openEnd = false) ∧
      encodeRelativePath p r.path.start (if startRel then ref.path.start else ref.path.stop) = .ok ps ∧
      encodeRelativePath p r.path.stop (if endRel then ref.path.start else ref.path.stop) = .ok pe ∧
      startDiff = absDiffUint64 r.time.start (if tsRel then ref.time.start else lastOf ref.time) ∧
      tsAdd = decide (r.time.start ≥ (if tsRel then ref.time.start else lastOf ref.time)) ∧
      teRel = decide (absDiffUint64 (lastIn r.time ref.time) ref.time.start ≤
        absDiffUint64 (lastIn r.time ref.time) (lastOf ref.time)) ∧
      teAdd = decide (lastIn r.time ref.time ≥ (if teRel then ref.time.start else lastOf ref.time)) ∧
      endEnc = encodeIntMax64 (if !r.time.openEnd && ref.time.openEnd then
          absDiffUint64 (lastIn r.time ref.time) (if teRel then ref.time.start else lastOf ref.time)
        else absDiffUint64 (lastIn r.time ref.time) ref.time.start).toNat ∧
      enc = firstByte s e startRel r.path.openEnd endRel r.time.openEnd ::
        secondByte tsRel tsAdd teRel teAdd (getWidthMax64Int startDiff.toNat)
          (getWidthMax64Int (absDiffUint64 (lastIn r.time ref.time) (if teRel then ref.time.start else lastOf ref.time)).toNat) ::
        (startIds ss r s ++ (endIds ss r e ++ (ps ++ (pe ++ (encodeIntMax64 startDiff.toNat ++ endEnc))))) ∧
      (isEqualRangeValue ordS r.subspace true ref.subspace true = true → s = .refStart) ∧
      (r.subspace.openEnd = false → isEqualRangeValue ordS r.subspace false ref.subspace true = true → e = .overwritten) := by
  unfold encodeRange3dRelative at h
  dsimp only at h
  obtain ⟨s, hs, hs1, hs2, hs3⟩ : ∃ s : StartCode, (match s with
        | .refStart => isEqualRangeValue ordS r.subspace true ref.subspace true = true
        | .refEnd => isEqualRangeValue ordS r.subspace true ref.subspace false = true
        | .given => isEqualRangeValue ordS r.subspace true ref.subspace true = false ∧
          isEqualRangeValue ordS r.subspace true ref.subspace false = false) ∧
      (if isEqualRangeValue ordS r.subspace true ref.subspace true = true then ((0x40 : UInt8), ([] : Bytes))
        else if isEqualRangeValue ordS r.subspace true ref.subspace false = true then (0x80, [])
        else (0xC0, ss.enc r.subspace.start)).1 = startBits s ∧
      (if isEqualRangeValue ordS r.subspace true ref.subspace true = true then ((0x40 : UInt8), ([] : Bytes))
        else if isEqualRangeValue ordS r.subspace true ref.subspace false = true then (0x80, [])
        else (0xC0, ss.enc r.subspace.start)).2 = startIds ss r s ∧
      (isEqualRangeValue ordS r.subspace true ref.subspace true = true → s = .refStart) := by
    split
    · exact ⟨.refStart, by assumption, rfl, rfl, fun _ => rfl⟩
    · split
      · exact ⟨.refEnd, by assumption, rfl, rfl, fun h => absurd h ‹_›⟩
      · exact ⟨.given, ⟨by simpa using (‹¬ isEqualRangeValue ordS r.subspace true ref.subspace true = true›),
          by simpa using (‹¬ isEqualRangeValue ordS r.subspace true ref.subspace false = true›)⟩, rfl, rfl, fun h => absurd h ‹_›⟩
  rw [hs1, hs2] at h
  obtain ⟨e, he, he1, he2, he3⟩ : ∃ e : EndCode, (match e with
        | .none => r.subspace.openEnd = true
        | .overwritten => r.subspace.openEnd = false ∧ isEqualRangeValue ordS r.subspace false ref.subspace true = true
        | .refEnd => r.subspace.openEnd = false ∧ isEqualRangeValue ordS r.subspace false ref.subspace false = true
        | .given => r.subspace.openEnd = false) ∧
      (if r.subspace.openEnd = true then (startBits s, ([] : Bytes))
        else if isEqualRangeValue ordS r.subspace false ref.subspace true = true then ((0x10 : UInt8), [])
        else if isEqualRangeValue ordS r.subspace false ref.subspace false = true then (startBits s ||| 0x20, [])
        else (startBits s ||| 0x30, ss.enc r.subspace.stop)).1 = withEnd (startBits s) e ∧
      (if r.subspace.openEnd = true then (startBits s, ([] : Bytes))
        else if isEqualRangeValue ordS r.subspace false ref.subspace true = true then ((0x10 : UInt8), [])
        else if isEqualRangeValue ordS r.subspace false ref.subspace false = true then (startBits s ||| 0x20, [])
        else (startBits s ||| 0x30, ss.enc r.subspace.stop)).2 = endIds ss r e ∧
      (r.subspace.openEnd = false → isEqualRangeValue ordS r.subspace false ref.subspace true = true → e = .overwritten) := by
    clear h
    split
    · exact ⟨.none, by assumption, rfl, rfl, fun h => by simp_all⟩
    · rename_i ho
      have ho : r.subspace.openEnd = false := by simpa using ho
      split
      · exact ⟨.overwritten, ⟨ho, by assumption⟩, rfl, rfl, fun _ _ => rfl⟩
      · split
        · exact ⟨.refEnd, ⟨ho, by assumption⟩, rfl, rfl, fun _ h => absurd h ‹_›⟩
        · exact ⟨.given, ho, rfl, rfl, fun _ h => absurd h ‹_›⟩
  rw [he1, he2] at h
  clear hs1 hs2 he1 he2
  generalize hsr : decide (commonPrefixLen r.path.start ref.path.start ≥ commonPrefixLen r.path.start ref.path.stop) =
    startRel at h
  generalize her : decide (commonPrefixLen r.path.stop ref.path.start ≥ commonPrefixLen r.path.stop ref.path.stop) =
    endRel at h
  obtain ⟨ps, hps, h⟩ := Res.bind_eq_ok.1 h
  obtain ⟨pe, hpe, h⟩ := Res.bind_eq_ok.1 h
  rw [Res.ok.injEq] at h
  change [firstByte s e startRel r.path.openEnd endRel r.time.openEnd,
    rangeSecondByte r.time.start ref.time.start (lastOf ref.time) _] ++ _ ++ _ ++ _ ++ _ ++
      encodeIntMax64 (minU64 (absDiffUint64 r.time.start ref.time.start)
        (absDiffUint64 r.time.start (lastOf ref.time))).toNat ++ _ = _ at h
  rw [rangeSecondByte_exact] at h
  have hmin : ∀ x : UInt64, minU64 (absDiffUint64 x ref.time.start) (absDiffUint64 x (lastOf ref.time)) =
      absDiffUint64 x (if decide (absDiffUint64 x ref.time.start ≤ absDiffUint64 x (lastOf ref.time)) = true
        then ref.time.start else lastOf ref.time) := by
    intro x
    rw [minU64_eq]
    simp only [decide_eq_true_eq]
    split <;> rfl
  have hif : ∀ (c : Bool) (a b : UInt64), (if c = true then encodeIntMax64 a.toNat else encodeIntMax64 b.toNat) =
      encodeIntMax64 (if c = true then a else b).toNat := by
    intro c a b; cases c <;> rfl
  change _ ++ _ ++ _ ++ _ ++ _ ++ _ ++ (if (!r.time.openEnd && ref.time.openEnd) = true then
    encodeIntMax64 (minU64 (absDiffUint64 (lastIn r.time ref.time) ref.time.start)
      (absDiffUint64 (lastIn r.time ref.time) (lastOf ref.time))).toNat
    else encodeIntMax64 (absDiffUint64 (lastIn r.time ref.time) ref.time.start).toNat) = _ at h
  rw [hif] at h
  simp only [hmin, List.append_assoc, List.cons_append, List.nil_append] at h
  exact ⟨s, e, startRel, endRel, _, _, _, _, ps, pe, _, _, rfl, rfl, rfl, hs, he, hps, hpe, rfl, rfl, rfl, rfl, rfl, h.symm, hs3, he3⟩

/-- What the encoder writes, all of it. -/
theorem encodeRange3dRelative_full {ss : Codec} {ordS : Bytes → Bytes → Ordering} {p : PathParams} {r ref : Range3d}
    {enc : Bytes} (h : encodeRange3dRelative ss ordS p r ref = .ok enc) :
    ∃ (s : StartCode) (e : EndCode) (startRel endRel : Bool) (tsRel tsAdd teRel teAdd : Bool)
      (ps pe endEnc : Bytes) (startDiff : UInt64),
      startRel = decide (commonPrefixLen r.path.start ref.path.start ≥ commonPrefixLen r.path.start ref.path.stop) ∧
      endRel = decide (commonPrefixLen r.path.stop ref.path.start ≥ commonPrefixLen r.path.stop ref.path.stop) ∧
      tsRel = decide (absDiffUint64 r.time.start ref.time.start ≤ absDiffUint64 r.time.start (lastOf ref.time)) ∧
      (match s with
        | .refStart => isEqualRangeValue ordS r.subspace true ref.subspace true = true
        | .refEnd => isEqualRangeValue ordS r.subspace true ref.subspace false = true
        | .given => isEqualRangeValue ordS r.subspace true ref.subspace true = false ∧
          isEqualRangeValue ordS r.subspace true ref.subspace false = false) ∧
      (match e with
        | .none => r.subspace.openEnd = true
        | .overwritten => r.subspace.openEnd = false ∧ isEqualRangeValue ordS r.subspace false ref.subspace true = true
        | .refEnd => r.subspace.openEnd = false ∧ isEqualRangeValue ordS r.subspace false ref.subspace false = true
        | .given => r.subspace.openEnd = false) ∧
      encodeRelativePath p r.path.start (if startRel then ref.path.start else ref.path.stop) = .ok ps ∧
      encodeRelativePath p r.path.stop (if endRel then ref.path.start else ref.path.stop) = .ok pe ∧
      startDiff = absDiffUint64 r.time.start (if tsRel then ref.time.start else lastOf ref.time) ∧
      tsAdd = decide (r.time.start ≥ (if tsRel then ref.time.start else lastOf ref.time)) ∧
      teRel = decide (absDiffUint64 (lastIn r.time ref.time) ref.time.start ≤
        absDiffUint64 (lastIn r.time ref.time) (lastOf ref.time)) ∧
      teAdd = decide (lastIn r.time ref.time ≥ (if teRel then ref.time.start else lastOf ref.time)) ∧
      endEnc = encodeIntMax64 (if !r.time.openEnd && ref.time.openEnd then
          absDiffUint64 (lastIn r.time ref.time) (if teRel then ref.time.start else lastOf ref.time)
        else absDiffUint64 (lastIn r.time ref.time) ref.time.start).toNat ∧
      enc = firstByte s e startRel r.path.openEnd endRel r.time.openEnd ::
        secondByte tsRel tsAdd teRel teAdd (getWidthMax64Int startDiff.toNat)
          (getWidthMax64Int (absDiffUint64 (lastIn r.time ref.time) (if teRel then ref.time.start else lastOf ref.time)).toNat) ::
        (startIds ss r s ++ (endIds ss r e ++ (ps ++ (pe ++ (encodeIntMax64 startDiff.toNat ++ endEnc))))) := by
  obtain ⟨s, e, a1, a2, a3, a4, a5, a6, a7, a8, a9, a10, h1, h2, h3, h4, h5, h6, h7, h8, h9, h10, h11, h12, h13, -, -⟩ := encodeRange3dRelative_full' h
  exact ⟨s, e, a1, a2, a3, a4, a5, a6, a7, a8, a9, a10, h1, h2, h3, h4, h5, h6, h7, h8, h9, h10, h11, h12, h13⟩

/-- What the encoder writes, and which bounds of the reference it chooses. -/
theorem encodeRange3dRelative_inv' {ss : Codec} {ordS : Bytes → Bytes → Ordering} {p : PathParams} {r ref : Range3d}
    {enc : Bytes} (h : encodeRange3dRelative ss ordS p r ref = .ok enc) :
    ∃ (s : StartCode) (e : EndCode) (startRel endRel : Bool) (tsRel tsAdd teRel teAdd : Bool) (we : Nat)
      (ps pe endEnc : Bytes) (startDiff : UInt64),
      startRel = decide (commonPrefixLen r.path.start ref.path.start ≥ commonPrefixLen r.path.start ref.path.stop) ∧
      endRel = decide (commonPrefixLen r.path.stop ref.path.start ≥ commonPrefixLen r.path.stop ref.path.stop) ∧
      tsRel = decide (absDiffUint64 r.time.start ref.time.start ≤ absDiffUint64 r.time.start (lastOf ref.time)) ∧
      (match s with
        | .refStart => isEqualRangeValue ordS r.subspace true ref.subspace true = true
        | .refEnd => isEqualRangeValue ordS r.subspace true ref.subspace false = true
        | .given => isEqualRangeValue ordS r.subspace true ref.subspace true = false) ∧
      (match e with
        | .none => r.subspace.openEnd = true
        | .overwritten => True
        | .refEnd => r.subspace.openEnd = false ∧ isEqualRangeValue ordS r.subspace false ref.subspace false = true
        | .given => r.subspace.openEnd = false) ∧
      encodeRelativePath p r.path.start (if startRel then ref.path.start else ref.path.stop) = .ok ps ∧
      encodeRelativePath p r.path.stop (if endRel then ref.path.start else ref.path.stop) = .ok pe ∧
      startDiff = absDiffUint64 r.time.start (if tsRel then ref.time.start else lastOf ref.time) ∧
      tsAdd = decide (r.time.start ≥ (if tsRel then ref.time.start else lastOf ref.time)) ∧ Width we ∧
      endEnc ≠ [] ∧
      enc = firstByte s e startRel r.path.openEnd endRel r.time.openEnd ::
        secondByte tsRel tsAdd teRel teAdd (getWidthMax64Int startDiff.toNat) we ::
        (startIds ss r s ++ (endIds ss r e ++ (ps ++ (pe ++ (encodeIntMax64 startDiff.toNat ++ endEnc))))) := by
  obtain ⟨s, e, startRel, endRel, tsRel, tsAdd, teRel, teAdd, ps, pe, endEnc, sd, a1, a2, a3, hs, he, a4, a5, a6, a7,
    -, -, hen, h⟩ := encodeRange3dRelative_full h
  refine ⟨s, e, startRel, endRel, tsRel, tsAdd, teRel, teAdd, _, ps, pe, endEnc, sd, a1, a2, a3, ?_, ?_, a4, a5, a6, a7,
    width64 _, ?_, h⟩
  · cases s
    · exact hs
    · exact hs
    · exact hs.1
  · cases e
    · exact he
    · trivial
    · exact he
    · exact he
  · rw [hen]
    exact List.ne_nil_of_length_pos (by
      rw [encodeIntMax64_length]
      rcases width64 _ with h | h | h | h <;> rw [h] <;> decide)

/-- What the encoder writes. -/
theorem encodeRange3dRelative_inv {ss : Codec} {ordS : Bytes → Bytes → Ordering} {p : PathParams} {r ref : Range3d}
    {enc : Bytes} (h : encodeRange3dRelative ss ordS p r ref = .ok enc) :
    ∃ (s : StartCode) (e : EndCode) (startRel endRel : Bool) (tsRel tsAdd teRel teAdd : Bool) (we : Nat)
      (ps pe endEnc : Bytes) (startDiff : UInt64),
      (match s with
        | .refStart => isEqualRangeValue ordS r.subspace true ref.subspace true = true
        | .refEnd => isEqualRangeValue ordS r.subspace true ref.subspace false = true
        | .given => isEqualRangeValue ordS r.subspace true ref.subspace true = false) ∧
      (match e with
        | .none => r.subspace.openEnd = true
        | .overwritten => True
        | .refEnd => r.subspace.openEnd = false ∧ isEqualRangeValue ordS r.subspace false ref.subspace false = true
        | .given => r.subspace.openEnd = false) ∧
      encodeRelativePath p r.path.start (if startRel then ref.path.start else ref.path.stop) = .ok ps ∧
      encodeRelativePath p r.path.stop (if endRel then ref.path.start else ref.path.stop) = .ok pe ∧
      startDiff = absDiffUint64 r.time.start (if tsRel then ref.time.start else lastOf ref.time) ∧
      tsAdd = decide (r.time.start ≥ (if tsRel then ref.time.start else lastOf ref.time)) ∧ Width we ∧
      endEnc ≠ [] ∧
      enc = firstByte s e startRel r.path.openEnd endRel r.time.openEnd ::
        secondByte tsRel tsAdd teRel teAdd (getWidthMax64Int startDiff.toNat) we ::
        (startIds ss r s ++ (endIds ss r e ++ (ps ++ (pe ++ (encodeIntMax64 startDiff.toNat ++ endEnc))))) := by
  obtain ⟨s, e, a, b, c, d, f, i, w, x, y, z, t, -, -, -, h⟩ := encodeRange3dRelative_inv' h
  exact ⟨s, e, a, b, c, d, f, i, w, x, y, z, t, h⟩

theorem absDiff_toNat (a b : UInt64) : (absDiffUint64 a b).toNat = (a.toNat - b.toNat) + (b.toNat - a.toNat) := by
  have ha := a.toNat_lt
  have hb := b.toNat_lt
  unfold absDiffUint64
  split
  · rename_i h
    rw [UInt64.lt_iff_toNat_lt] at h
    rw [UInt64.toNat_sub_of_le _ _ (by rw [UInt64.le_iff_toNat_le]; omega)]
    omega
  · rename_i h
    rw [UInt64.lt_iff_toNat_lt] at h
    rw [UInt64.toNat_sub_of_le _ _ (by rw [UInt64.le_iff_toNat_le]; omega)]
    omega

/-- Which of two paths shares more with a third. -/
theorem shares_more (a b c : Path) :
    (commonPrefixLen a b ≥ commonPrefixLen a c) ↔ ∀ pre, pre <+: a → pre <+: c → pre <+: b := by
  unfold commonPrefixLen
  obtain ⟨h1, h2, h3⟩ := commonPrefixIndex_spec a b
  obtain ⟨k1, k2, k3⟩ := commonPrefixIndex_spec a c
  constructor
  · intro h pre ha hc
    have e1 : pre = a.take pre.length := List.prefix_iff_eq_take.1 ha
    have e2 : pre = c.take pre.length := List.prefix_iff_eq_take.1 hc
    have hl := commonPrefixIndex_max a c pre.length ha.length_le hc.length_le (e1.symm.trans e2)
    have : a.take pre.length = b.take pre.length := by
      have := congrArg (List.take pre.length) h3
      rwa [List.take_take, List.take_take, Nat.min_eq_left (by omega)] at this
    rw [e1, this]
    exact List.take_prefix _ _
  · intro h
    have hb := h (a.take (commonPrefixIndex a c)) (List.take_prefix _ _) (k3 ▸ List.take_prefix _ _)
    have hl : (a.take (commonPrefixIndex a c)).length = commonPrefixIndex a c := by simp [k1]
    have hle := hb.length_le
    rw [hl] at hle
    refine commonPrefixIndex_max a b _ k1 hle ?_
    have := List.prefix_iff_eq_take.1 hb
    rwa [hl] at this

/-- What the stream decoder makes of a range that starts at the subspace where the reference starts. -/
theorem decodeStreamRange3dRelative_same {ss : Codec} {vs : Bytes → Prop} (hs : ss.Lawful vs)
    {ordS : Bytes → Bytes → Ordering} (ho : Decides BytesLt ordS) {p : PathParams} {r ref x : Range3d}
    (h1 : r.subspace.start = ref.subspace.start) (h2 : r.subspace.openEnd = ref.subspace.openEnd)
    (h3 : r.subspace.openEnd = false → vs r.subspace.stop)
    (h4 : ShortPath p r.path.start) (h5 : ShortPath p r.path.stop) (h6 : r.path.openEnd = false)
    {enc rest : Bytes} {g g' : GB} (he : encodeRange3dRelative ss ordS p r ref = .ok enc) (hm : g.mem = .exact)
    (hg : g.content = enc ++ rest) (hx : decodeStreamRange3dRelative ss p ref g = .ok (x, g')) :
    x.path = r.path ∧ x.time.start = r.time.start ∧ x.time.openEnd = r.time.openEnd ∧
      ∃ left, left ≠ [] ∧ g'.content = left ++ rest := by
  obtain ⟨s, e, startRel, endRel, tsRel, tsAdd, teRel, teAdd, we, ps, pe, endEnc, sd, hsc, hec, hps, hpe, hsd, hta, hwe, hne', hen⟩ :=
    encodeRange3dRelative_inv he
  have hsame : isEqualRangeValue ordS r.subspace true ref.subspace true = true := by
    unfold isEqualRangeValue
    rw [h1, h2]
    cases ref.subspace.openEnd <;> simp [(ho.eq_iff _ _).2]
  have hst : startIds ss r s = [] := by
    cases s with
    | given => rw [hsame] at hsc; simp at hsc
    | _ => rfl
  obtain ⟨f1, f2, f3, f4, f5, f6, f7⟩ := firstByte_fields s e startRel r.path.openEnd endRel r.time.openEnd
  obtain ⟨k1, k2, k3, -, -, -⟩ := secondByte_fields tsRel tsAdd teRel teAdd (width64 sd.toNat) hwe
  rw [hst, List.nil_append] at hen
  generalize firstByte s e startRel r.path.openEnd endRel r.time.openEnd = b1 at *
  generalize secondByte tsRel tsAdd teRel teAdd (getWidthMax64Int sd.toNat) we = b2 at *
  subst hen
  unfold decodeStreamRange3dRelative peekTwo at hx
  rw [Dec.bind_assoc] at hx
  obtain ⟨g1, m1, c1, l1, hx⟩ := inv_next hg hx
  have hbuf : ∃ tl', g1.buf = b1 :: b2 :: tl' := by
    have := c1
    unfold GB.content at this
    match hb : g1.buf, l1 with
    | x :: y :: tl', _ =>
      rw [hb] at this
      simp only [List.cons_append, List.cons.injEq] at this
      exact ⟨tl', by rw [this.1, this.2.1]⟩
  obtain ⟨tl', hbuf⟩ := hbuf
  rw [hbuf] at hx
  simp only [Dec.pure_bind] at hx
  split at hx
  · exact absurd hx (by simp [Dec.lift, Res.map', Res.bind])
  rename_i hne
  simp only [f3, f5, f6, f7, k1, k2, k3, h6, Bool.not_false, Bool.and_true, Bool.false_eq_true, if_false] at hx
  obtain ⟨g2, m2, c2, hx⟩ := inv_prune (a := [b1, b2])
    (b := endIds ss r e ++ (ps ++ (pe ++ (encodeIntMax64 sd.toNat ++ endEnc))) ++ rest) c1 l1 rfl rfl hx
  obtain ⟨sub, g3, hsub, hx⟩ := Dec.bind_ok.1 hx
  have hm2 := m2 (m1 hm)
  obtain ⟨c3, m3⟩ : g3.content = ps ++ (pe ++ (encodeIntMax64 sd.toNat ++ endEnc)) ++ rest ∧ g3.mem = .exact := by
    rw [f2] at hsub
    rw [List.append_assoc] at c2
    cases e with
    | none =>
      simp only [Dec.pure_apply, Res.ok.injEq, Prod.mk.injEq] at hsub
      rw [← hsub.2]
      exact ⟨c2, hm2⟩
    | overwritten => exact absurd f1 hne
    | refEnd =>
      dsimp only at hsub
      split at hsub
      · simp only [Dec.pure_apply, Res.ok.injEq, Prod.mk.injEq] at hsub
        rw [← hsub.2]
        exact ⟨c2, hm2⟩
      · exact absurd hsub (by simp [Dec.lift, Res.map', Res.bind])
    | given => exact (hs.sound _ (h3 hec) _ _ _ _ hm2 c2 hsub).2
  obtain ⟨p1, g4, hp1, hx⟩ := Dec.bind_ok.1 hx
  rw [List.append_assoc] at c3
  obtain ⟨rfl, c4, m4⟩ : p1 = r.path.start ∧ g4.content = pe ++ (encodeIntMax64 sd.toNat ++ endEnc) ++ rest ∧ g4.mem = .exact := by
    have hd := decodeRelPathStream_sound h4 hps
    cases startRel with
    | true => exact hd _ _ _ _ m3 c3 hp1
    | false =>
      simp only [Bool.false_eq_true, if_false] at hp1
      split at hp1
      · exact absurd hp1 (by simp [Dec.lift, Res.map', Res.bind])
      · exact hd _ _ _ _ m3 c3 hp1
  obtain ⟨p2, g5, hp2, hx⟩ := Dec.bind_ok.1 hx
  rw [List.append_assoc] at c4
  obtain ⟨rfl, c5, m5⟩ : p2 = r.path.stop ∧ g5.content = encodeIntMax64 sd.toNat ++ endEnc ++ rest ∧ g5.mem = .exact := by
    have hd := decodeRelPathStream_sound h5 hpe
    cases endRel with
    | true => exact hd _ _ _ _ m4 c4 hp2
    | false =>
      simp only [Bool.false_eq_true, if_false] at hp2
      split at hp2
      · exact absurd hp2 (by simp [Dec.lift, Res.map', Res.bind])
      · exact hd _ _ _ _ m4 c4 hp2
  obtain ⟨d, g6, hd, hx⟩ := Dec.bind_ok.1 hx
  rw [List.append_assoc] at c5
  obtain ⟨rfl, c6, m6⟩ := (readCompact_encode sd.toNat_lt rfl).1 _ _ _ _ m5 c5 hd
  obtain ⟨ts, g7, hts, hx⟩ := Dec.bind_ok.1 hx
  have hback : ∀ b : UInt64, (if decide (r.time.start ≥ b) = true then b + absDiffUint64 r.time.start b
      else b - absDiffUint64 r.time.start b) = r.time.start := by
    intro b
    unfold absDiffUint64
    have hl := r.time.start.toNat_lt
    have hb := b.toNat_lt
    by_cases hlt : r.time.start < b
    · rw [if_neg (by simpa using hlt), if_pos hlt]
      have hlt := UInt64.lt_iff_toNat_lt.1 hlt
      apply UInt64.toNat_inj.1
      simp only [UInt64.toNat_sub]
      omega
    · rw [if_pos (by simpa using hlt), if_neg hlt]
      rw [UInt64.lt_iff_toNat_lt] at hlt
      apply UInt64.toNat_inj.1
      simp only [UInt64.toNat_sub, UInt64.toNat_add]
      omega
  obtain ⟨hts', rfl⟩ : ts = r.time.start ∧ g7 = g6 := by
    rw [UInt64.ofNat_toNat] at hts
    cases tsRel with
    | true =>
      simp only [if_true] at hts hsd hta
      simp only [Dec.pure_apply, Res.ok.injEq, Prod.mk.injEq] at hts
      rw [← hts.1, hsd, hta]
      exact ⟨hback _, hts.2.symm⟩
    | false =>
      simp only [Bool.false_eq_true, if_false] at hts hsd hta
      split at hts
      · exact absurd hts (by simp [Dec.lift, Res.map', Res.bind])
      · rename_i hop
        simp only [Dec.pure_apply, Res.ok.injEq, Prod.mk.injEq] at hts
        rw [← hts.1, hsd, hta]
        unfold lastOf
        rw [if_neg hop]
        exact ⟨hback _, hts.2.symm⟩
  subst hts'
  split at hx
  · rename_i ht
    simp only [Dec.pure_apply, Res.ok.injEq, Prod.mk.injEq] at hx
    rw [← hx.1]
    exact ⟨by rw [← h6], rfl, ht.symm, endEnc, hne', by rw [← hx.2, c6]⟩
  · rename_i ht
    obtain ⟨_, g8, hn, hx⟩ := Dec.bind_ok.1 hx
    obtain ⟨_, c8, -⟩ := nextAbsolute_inv hn
    obtain ⟨_, g9, hsl, hx⟩ := Dec.bind_ok.1 hx
    have e9 := sliceArray_same hsl
    obtain ⟨_, g10, hlift, hx⟩ := Dec.bind_ok.1 hx
    obtain ⟨_, g11, hte, hx⟩ := Dec.bind_ok.1 hx
    have hk : ∀ {β : Type} {y : Res β} {z : β} {a b : GB}, Dec.lift y a = .ok (z, b) → b = a := by
      intro β y z a b h
      cases y <;> simp [Dec.lift, Res.map', Res.bind] at h
      exact h.2.symm
    have e10 := hk hlift
    have hte' : g11 = g10 := by
      split at hte
      · exact (Prod.mk.inj (Res.ok.inj hte)).2.symm
      · split at hte
        · exact absurd hte (by simp [Dec.lift, Res.map', Res.bind])
        · exact (Prod.mk.inj (Res.ok.inj hte)).2.symm
    simp only [Dec.pure_apply, Res.ok.injEq, Prod.mk.injEq] at hx
    rw [← hx.1]
    exact ⟨by rw [← h6], rfl, by simpa using ht, endEnc, hne', by rw [← hx.2, hte', e10, e9, c8, c6]⟩

theorem commonPrefixIndex_shared {a b : Path} : 0 < commonPrefixIndex a b ↔ SameFirst a b := by
  constructor
  · intro h
    obtain ⟨h1, h2, h3⟩ := commonPrefixIndex_spec a b
    cases a with
    | nil => simp [commonPrefixIndex] at h
    | cons x xs =>
      cases b with
      | nil => simp [commonPrefixIndex] at h
      | cons y ys =>
        unfold commonPrefixIndex at h
        split at h
        · simp at h
        · next hxy =>
          have := (decides_bytes.eq_iff x y).1 (by simpa using hxy)
          exact ⟨x, rfl, by rw [this]; rfl⟩
  · rintro ⟨c, h1, h2⟩
    cases a with
    | nil => simp at h1
    | cons x xs =>
      cases b with
      | nil => simp at h2
      | cons y ys =>
        simp only [List.head?_cons, Option.some.injEq] at h1 h2
        subst h1 h2
        exact commonPrefixIndex_pos

/-- Encoding relative to the nearer of two paths. -/
theorem encodeRelativePath_nearer {p : PathParams} {a s t : Path} :
    (∃ x, encodeRelativePath p a (if decide (commonPrefixLen a s ≥ commonPrefixLen a t) = true then s else t) = .ok x) ∧
      (SameFirst a s ∨ SameFirst a t) ∨
    (encodeRelativePath p a (if decide (commonPrefixLen a s ≥ commonPrefixLen a t) = true then s else t) = .crash ∧
      ¬ (SameFirst a s ∨ SameFirst a t)) := by
  unfold commonPrefixLen
  simp only [decide_eq_true_eq]
  have k1 := @commonPrefixIndex_shared a s
  have k2 := @commonPrefixIndex_shared a t
  split
  · by_cases h : SameFirst a s
    · exact .inl ⟨encodeRelativePath_ok h, .inl h⟩
    · refine .inr ⟨encodeRelativePath_crash h, ?_⟩
      have : ¬ SameFirst a t := fun ht => by have := k2.2 ht; exact h (k1.1 (by omega))
      simp [h, this]
  · have h : SameFirst a t := k2.1 (by omega)
    exact .inl ⟨encodeRelativePath_ok h, .inr h⟩

/-- A path relative to itself: two numbers of components, the second of them none; but the length is taken to be that of one. -/
theorem relativeToItself {p : PathParams} {a : Path} {ps : Bytes} (h : encodeRelativePath p a a = .ok ps) :
    (∃ first more, ps = first ++ 0 :: more ∧ first.length = getWidthMax32Int p.cc) ∧
      encodePathRelativeLength p a a = .ok (getWidthMax32Int p.cc) := by
  have hi : commonPrefixIndex a a = a.length :=
    Nat.le_antisymm (commonPrefixIndex_spec a a).1 (commonPrefixIndex_max _ _ _ (Nat.le_refl _) (Nat.le_refl _) rfl)
  by_cases h0 : a.length = 0
  · unfold encodeRelativePath commonPrefix at h
    simp only [hi, h0, if_true] at h
    cases h
  have hc : commonPrefix a a = .ok a := by
    unfold commonPrefix
    simp only [hi, if_neg h0]
    rw [slice_take _ _ (Nat.le_refl _), List.take_length]
  have hd : sliceFrom a a.length = .ok ([] : Path) := by
    rw [sliceFrom_drop _ _ (Nat.le_refl _), List.drop_length]
  constructor
  · unfold encodeRelativePath at h
    simp only [hc, hd, Res.ok_bind, Res.ok.injEq] at h
    refine ⟨encodeIntMax32 (p.conv a.length) p.cc, List.replicate (getWidthMax32Int p.cc - 1) 0, ?_, encodeIntMax32_length _ _⟩
    rw [← h]
    congr 1
    have hz : p.conv ([] : Path).length = 0 := Nat.zero_mod _
    unfold encodePath
    rw [hz]
    unfold encodeIntMax32
    rcases getWidthMax32Int_cases p.cc with h | h | h | h <;> rw [h] <;> rfl
  · unfold encodePathRelativeLength
    simp only [hc, hd, Res.ok_bind]
    rfl

end Willow.Props
