import Verif.Spec.Errors
import Verif.Lemmas.PropsMessageLoop

/-! Lemmas for the theorems of `Verif/Props/Errors.lean`. -/

namespace Willow
open Spec Props

section
variable {α β : Type}

theorem Dec.bind_err {d : Dec α} {f : α → Dec β} {g : GB} (h : (d >>= f) g = .err) :
    d g = .err ∨ ∃ a g1, d g = .ok (a, g1) ∧ f a g1 = .err := by
  rw [Dec.bind_apply] at h
  cases hd : d g with
  | ok r => obtain ⟨a, g1⟩ := r; rw [hd] at h; exact .inr ⟨a, g1, rfl, h⟩
  | err => exact .inl rfl
  | crash => rw [hd] at h; simp at h
  | block => rw [hd] at h; simp at h

theorem Spec.NeverFails.pure (a : α) : NeverFails (pure a : Dec α) := fun g h => by simp at h

theorem Spec.NeverFails.bind {d : Dec α} {f : α → Dec β} (h1 : NeverFails d) (h2 : ∀ a, NeverFails (f a)) :
    NeverFails (d >>= f) := by
  intro g h
  rcases Dec.bind_err h with h | ⟨a, g1, -, h⟩
  · exact h1 g h
  · exact h2 a g1 h

theorem Spec.NeverFails.ite {c : Prop} [Decidable c] {d e : Dec α} (h1 : NeverFails d) (h2 : NeverFails e) :
    NeverFails (if c then d else e) := by
  split <;> assumption

theorem nextAbsolute_fails (n : Nat) : NeverFails (nextAbsolute n) := by
  intro g h
  unfold nextAbsolute at h
  dsimp only at h
  split at h <;> simp at h

theorem sliceArray_fails (acc : Bytes) (i j : Nat) : NeverFails (sliceArray acc i j) := by
  intro g h
  unfold sliceArray at h
  split at h <;> simp at h

theorem prune_fails (n : Nat) : NeverFails (prune n) := by
  intro g h
  simp [prune] at h

theorem liftD_fails (r : Res α) (z : α) : NeverFails (Dec.liftD r z) := by
  intro g h
  unfold Dec.liftD at h
  split at h <;> simp at h

theorem slice_fails (l : List α) (i j : Nat) : NeverFails (Dec.lift (slice l i j)) := by
  intro g h
  unfold slice at h
  split at h <;> simp [Dec.lift, Res.map', Res.bind] at h

end

theorem fixedCodec_neverFails (n : Nat) : NeverFails (fixedCodec n).decStream :=
  .bind (nextAbsolute_fails _) fun _ => .bind (slice_fails _ _ _) fun _ => .bind (prune_fails _) fun _ => .pure _

theorem decodePathStreamLoop_fails (p : PathParams) : ∀ (n : Nat) (path : Path), NeverFails (decodePathStreamLoop p n path)
  | 0, path => .pure _
  | n + 1, path => by
    unfold decodePathStreamLoop
    refine .bind (nextAbsolute_fails _) fun _ => .bind (sliceArray_fails _ _ _) fun _ => .bind (liftD_fails _ _) fun _ =>
      .bind (nextAbsolute_fails _) fun _ => .bind (sliceArray_fails _ _ _) fun _ => .bind (prune_fails _) fun _ => ?_
    exact decodePathStreamLoop_fails p n _

/-- Decoding a relative path waits or panics, but returns no error. -/
theorem decodeRelPathStream_fails (p : PathParams) (ref : Path) : NeverFails (decodeRelPathStream p ref) := by
  unfold decodeRelPathStream decodePathStream
  exact .bind (nextAbsolute_fails _) fun _ => .bind (sliceArray_fails _ _ _) fun _ => .bind (liftD_fails _ _) fun _ =>
    .bind (slice_fails _ _ _) fun _ => .bind (prune_fails _) fun _ =>
    .bind (.bind (nextAbsolute_fails _) fun _ => .bind (sliceArray_fails _ _ _) fun _ => .bind (liftD_fails _ _) fun _ =>
      .bind (prune_fails _) fun _ => decodePathStreamLoop_fails _ _ _) fun _ => .pure _

/-- Nor does decoding a number of one of the four widths. -/
theorem compact_fails {w : Nat} (hw : Width w) (acc : Bytes) {β : Type} {f : Nat → Dec β} (h : ∀ v, NeverFails (f v)) :
    NeverFails (sliceArray acc 0 w >>= fun bs => Dec.lift (decodeIntMax64 bs) >>= f) := by
  intro g hg
  rcases Dec.bind_err hg with hg | ⟨bs, g1, h1, hg⟩
  · exact sliceArray_fails _ _ _ _ hg
  · unfold sliceArray at h1
    split at h1
    · rename_i hle
      simp only [Res.ok.injEq, Prod.mk.injEq] at h1
      have hl : bs.length = w := by
        rw [← h1.1]
        simp
        omega
      have hd : decodeIntMax64 bs = .ok (getBE bs) := by
        unfold decodeIntMax64
        rw [if_pos (by rw [hl]; exact hw)]
      rw [hd] at hg
      exact h _ _ hg
    · simp at h1

theorem readCompact_fails {w : Nat} (hw : Width w) : NeverFails (readCompact w) := by
  unfold readCompact
  exact .bind (nextAbsolute_fails _) fun _ => compact_fails hw _ fun _ => .bind (prune_fails _) fun _ => .pure _

theorem peekTwo_fails : NeverFails peekTwo := by
  unfold peekTwo
  refine .bind (nextAbsolute_fails _) fun acc => ?_
  split
  · exact .pure _
  · intro g h
    simp [Dec.lift, Res.map', Res.bind] at h

/-- No byte has the flag 0x40 where 0x4 is looked for. -/
theorem never_pathOpen (b : UInt8) : ((b &&& 0x4) == 0x40) = false := by
  have key : ∀ i : Fin 256, ((UInt8.ofNat i &&& 0x4) == 0x40) = false := by decide +kernel
  have := key ⟨b.toNat, b.toNat_lt⟩
  simpa using this

/-- An error is returned only for want of a start code or of an end of the reference. -/
theorem range_fails {ss : Codec} (hss : NeverFails ss.decStream) {p : PathParams} {ref : Range3d} {g : GB}
    {b1 b2 : UInt8} {bs : Bytes} (hg : g.content = b1 :: b2 :: bs) (hn : startBound b1 ≠ .none)
    (o1 : endBound b1 = .refEnd → ref.subspace.openEnd = false)
    (o2 : ref.path.openEnd = true → ((b1 &&& 0x8) == 0x8) = true ∧ ((b1 &&& 0x2) == 0x2) = true)
    (o3 : ref.time.openEnd = true → ((b2 &&& 0x80) == 0x80) = true ∧
      (((b1 &&& 0x1) == 0x1) = true ∨ ((b2 &&& 0x8) == 0x8) = true)) :
    decodeStreamRange3dRelative ss p ref g ≠ .err := by
  intro h
  unfold decodeStreamRange3dRelative at h
  rcases Dec.bind_err h with h | ⟨⟨c1, c2⟩, g1, h1, h⟩
  · exact peekTwo_fails _ h
  have hb : c1 = b1 ∧ c2 = b2 := by
    unfold peekTwo at h1
    obtain ⟨g2, m2, hc2, hl2, h1⟩ := inv_next hg h1
    unfold GB.content at hc2
    match hb : g2.buf, hl2 with
    | x :: y :: tl, _ =>
      rw [hb] at h1 hc2
      simp only [Dec.pure_apply, Res.ok.injEq, Prod.mk.injEq, List.cons_append, List.cons.injEq] at h1 hc2
      exact ⟨by rw [← h1.1.1, hc2.1], by rw [← h1.1.2, hc2.2.1]⟩
  obtain ⟨rfl, rfl⟩ := hb
  dsimp only at h
  rw [if_neg hn] at h
  have hw1 : Width (2 ^ ((c2 &&& 0x30) >>> 4).toNat) := by
    have key : ∀ i : Fin 256, 2 ^ ((UInt8.ofNat i &&& 0x30) >>> 4).toNat = 1 ∨ 2 ^ ((UInt8.ofNat i &&& 0x30) >>> 4).toNat = 2 ∨
      2 ^ ((UInt8.ofNat i &&& 0x30) >>> 4).toNat = 4 ∨ 2 ^ ((UInt8.ofNat i &&& 0x30) >>> 4).toNat = 8 := by decide +kernel
    have := key ⟨c2.toNat, c2.toNat_lt⟩
    simpa [Width] using this
  have hw2 : Width (2 ^ (c2 &&& 0x3).toNat) := by
    have key : ∀ i : Fin 256, 2 ^ (UInt8.ofNat i &&& 0x3).toNat = 1 ∨ 2 ^ (UInt8.ofNat i &&& 0x3).toNat = 2 ∨
      2 ^ (UInt8.ofNat i &&& 0x3).toNat = 4 ∨ 2 ^ (UInt8.ofNat i &&& 0x3).toNat = 8 := by decide +kernel
    have := key ⟨c2.toNat, c2.toNat_lt⟩
    simpa [Width] using this
  refine NeverFails.bind (prune_fails _) (fun _ => NeverFails.bind ?_ fun _ => NeverFails.bind ?_ fun _ => NeverFails.bind ?_ fun _ =>
    NeverFails.bind (readCompact_fails hw1) fun _ => NeverFails.bind ?_ fun _ => ?_) g1 h
  · split
    · exact .pure _
    · next he =>
      rw [o1 he]
      exact .pure _
    · exact hss
    · exact .pure _
  · cases hp : ref.path.openEnd with
    | false => exact .ite (decodeRelPathStream_fails _ _) (decodeRelPathStream_fails _ _)
    | true =>
      rw [(o2 hp).1]
      exact decodeRelPathStream_fails _ _
  · cases hp : ref.path.openEnd with
    | false => exact .ite (.pure _) (.ite (decodeRelPathStream_fails _ _) (decodeRelPathStream_fails _ _))
    | true =>
      rw [(o2 hp).2]
      exact .ite (.pure _) (decodeRelPathStream_fails _ _)
  · cases hp : ref.time.openEnd with
    | false => exact .ite (.pure _) (.pure _)
    | true =>
      rw [(o3 hp).1]
      exact .pure _
  · cases hp : ref.time.openEnd with
    | false =>
      refine .ite (.pure _) (.bind (nextAbsolute_fails _) fun _ => ?_)
      exact compact_fails hw2 _ fun _ => .bind (.ite (.pure _) (.pure _)) fun _ => .pure _
    | true =>
      rcases (o3 hp).2 with ht | ht
      · rw [ht]
        exact .pure _
      · rw [ht]
        refine .ite (.pure _) (.bind (nextAbsolute_fails _) fun _ => ?_)
        exact compact_fails hw2 _ fun _ => .bind (.pure _) fun _ => .pure _

/-- What is decoded needed no end that the reference does not have. -/
theorem range_gives {ss : Codec} {p : PathParams} {ref : Range3d} {g : GB} {b1 b2 : UInt8} {bs : Bytes} {y : Range3d × GB}
    (hg : g.content = b1 :: b2 :: bs) (h : decodeStreamRange3dRelative ss p ref g = .ok y) :
    startBound b1 ≠ .none ∧ (ref.path.openEnd = true → ((b1 &&& 0x8) == 0x8) = true ∧ ((b1 &&& 0x2) == 0x2) = true) ∧
    (ref.time.openEnd = true → ((b2 &&& 0x80) == 0x80) = true ∧
      (((b1 &&& 0x1) == 0x1) = true ∨ ((b2 &&& 0x8) == 0x8) = true)) := by
  unfold decodeStreamRange3dRelative at h
  obtain ⟨⟨c1, c2⟩, g1, h1, h⟩ := Dec.bind_ok.1 h
  have hb : c1 = b1 ∧ c2 = b2 := by
    unfold peekTwo at h1
    obtain ⟨g2, m2, hc2, hl2, h1⟩ := inv_next hg h1
    unfold GB.content at hc2
    match hb : g2.buf, hl2 with
    | x :: y :: tl, _ =>
      rw [hb] at h1 hc2
      simp only [Dec.pure_apply, Res.ok.injEq, Prod.mk.injEq, List.cons_append, List.cons.injEq] at h1 hc2
      exact ⟨by rw [← h1.1.1, hc2.1], by rw [← h1.1.2, hc2.2.1]⟩
  obtain ⟨rfl, rfl⟩ := hb
  dsimp only at h
  split at h
  · simp at h
  next hn =>
  obtain ⟨_, _, -, h⟩ := Dec.bind_ok.1 h
  obtain ⟨_, _, -, h⟩ := Dec.bind_ok.1 h
  obtain ⟨_, _, hs, h⟩ := Dec.bind_ok.1 h
  obtain ⟨_, _, he, h⟩ := Dec.bind_ok.1 h
  obtain ⟨_, _, -, h⟩ := Dec.bind_ok.1 h
  obtain ⟨_, _, ht, h⟩ := Dec.bind_ok.1 h
  refine ⟨hn, fun ho => ?_, fun ho => ?_⟩
  · rw [ho] at hs he
    rw [never_pathOpen] at he
    constructor
    · cases hx : ((c1 &&& 0x8) == 0x8) with
      | true => rfl
      | false => simp [hx] at hs
    · cases hx : ((c1 &&& 0x2) == 0x2) with
      | true => rfl
      | false => simp [hx] at he
  · rw [ho] at ht h
    constructor
    · cases hx : ((c2 &&& 0x80) == 0x80) with
      | true => rfl
      | false => simp [hx] at ht
    · cases hx : ((c1 &&& 0x1) == 0x1) with
      | true => exact .inl rfl
      | false =>
        rw [hx] at h
        simp only [Bool.false_eq_true, if_false] at h
        obtain ⟨_, _, -, h⟩ := Dec.bind_ok.1 h
        obtain ⟨_, _, -, h⟩ := Dec.bind_ok.1 h
        obtain ⟨_, _, -, h⟩ := Dec.bind_ok.1 h
        obtain ⟨_, _, hl, -⟩ := Dec.bind_ok.1 h
        cases hy : ((c2 &&& 0x8) == 0x8) with
        | true => exact .inr rfl
        | false => simp [hy] at hl

/-- Without a start code the decoder returns an error and leaves the bytes. -/
theorem rangeE_invalid {ss : Codec} {p : PathParams} {ref : Range3d} {g : GB} {b1 b2 : UInt8} {bs : Bytes}
    (hg : g.content = b1 :: b2 :: bs) (hn : startBound b1 = .none) :
    decodeStreamRange3dRelative ss p ref g = .err ∧
    ∃ g', (decodeStreamRange3dRelativeE ss p ref).ignoring zeroRange3d g = .ok (zeroRange3d, g') ∧
      g'.content = b1 :: b2 :: bs := by
  obtain ⟨g1, e, c, l⟩ := nextAbsolute_ok 2 g (by rw [hg]; simp)
  have hr : (decodeStreamRange3dRelativeE ss p ref).run g = .ok (none, g1) := by
    unfold decodeStreamRange3dRelativeE
    rw [DecE.run_liftM_bind]
    unfold peekTwo
    rw [Dec.bind_assoc, Dec.bind_apply, e]
    rw [hg] at c
    unfold GB.content at c
    match hb : g1.buf, l with
    | x :: y :: tl, _ =>
      rw [hb] at c
      simp only [List.cons_append, List.cons.injEq] at c
      dsimp only
      rw [Dec.pure_bind]
      dsimp only
      rw [c.1, if_pos hn]
      rfl
  refine ⟨?_, g1, ?_, by rw [c, hg]⟩
  · rw [← decodeStreamRange3dRelativeE_strict]
    unfold DecE.strict
    rw [Dec.bind_apply, hr]
    rfl
  · unfold DecE.ignoring
    rw [Dec.bind_apply, hr]
    rfl

/-- The first byte of an encoded range: it has a start code unless the subspaces end where those of the reference begin. -/
theorem encodeRange_head {ss : Codec} {ordS : Bytes → Bytes → Ordering} {p : PathParams} {r ref : Range3d} {er : Bytes}
    (h : encodeRange3dRelative ss ordS p r ref = .ok er) : ∃ b1 b2 bs, er = b1 :: b2 :: bs ∧
      (¬ EndsAtStart ordS r ref → startBound b1 ≠ .none) ∧
      (EndsAtStart ordS r ref → startBound b1 = .none ∧ ∀ ep ee, branch ep ee b1 = .decoder .paiReplySubspaceCapability) := by
  unfold encodeRange3dRelative at h
  dsimp only at h
  obtain ⟨ps, -, h⟩ := Res.bind_eq_ok.1 h
  obtain ⟨pe, -, h⟩ := Res.bind_eq_ok.1 h
  simp only [Res.ok.injEq, List.append_assoc, List.cons_append, List.nil_append] at h
  refine ⟨_, _, _, h.symm, ?_⟩
  have hx : EndsAtStart ordS r ref ↔ (r.subspace.openEnd = false ∧ isEqualRangeValue ordS r.subspace false ref.subspace true = true) := by
    unfold EndsAtStart isEqualRangeValue
    cases r.subspace.openEnd <;> simp
  rw [hx]
  generalize isEqualRangeValue ordS r.subspace false ref.subspace true = x1
  generalize isEqualRangeValue ordS r.subspace true ref.subspace true = x2
  generalize isEqualRangeValue ordS r.subspace true ref.subspace false = x3
  generalize isEqualRangeValue ordS r.subspace false ref.subspace false = x4
  generalize decide (commonPrefixLen r.path.start ref.path.start ≥ commonPrefixLen r.path.start ref.path.stop) = x5
  generalize decide (commonPrefixLen r.path.stop ref.path.start ≥ commonPrefixLen r.path.stop ref.path.stop) = x6
  generalize r.subspace.openEnd = x7
  generalize r.path.openEnd = x8
  generalize r.time.openEnd = x9
  generalize ss.enc r.subspace.start = y1
  generalize ss.enc r.subspace.stop = y2
  simp only [apply_ite Prod.fst]
  clear hx h y1 y2
  revert x1 x2 x3 x4 x5 x6 x7 x8 x9
  decide +kernel

/-- The two bytes of an encoded range and the ends that it needs. -/
theorem encodeRange_bits {ss : Codec} {ordS : Bytes → Bytes → Ordering} {p : PathParams} {r ref : Range3d} {er : Bytes}
    (h : encodeRange3dRelative ss ordS p r ref = .ok er) : ∃ b1 b2 bs, er = b1 :: b2 :: bs ∧
      (startBound b1 = .none ↔ EndsAtStart ordS r ref) ∧ (endBound b1 = .refEnd → ref.subspace.openEnd = false) ∧
      (NeedsEnd r ref ↔ ¬ ((ref.path.openEnd = true → ((b1 &&& 0x8) == 0x8) = true ∧ ((b1 &&& 0x2) == 0x2) = true) ∧
        (ref.time.openEnd = true → ((b2 &&& 0x80) == 0x80) = true ∧
          (((b1 &&& 0x1) == 0x1) = true ∨ ((b2 &&& 0x8) == 0x8) = true)))) := by
  obtain ⟨d1, d2, ds, hd, k1, k2⟩ := encodeRange_head h
  obtain ⟨s, e, startRel, endRel, tsRel, tsAdd, teRel, teAdd, ps, pe, endEnc, sd, hsr, her, htr, -, hend, -, -, -, -, hte, -, -, hen⟩ :=
    encodeRange3dRelative_full h
  obtain ⟨-, f2, f3, -, -, f6, f7⟩ := firstByte_fields s e startRel r.path.openEnd endRel r.time.openEnd
  obtain ⟨m1, -, -, m4, -⟩ := secondByte_fields tsRel tsAdd teRel teAdd (width64 sd.toNat) (width64
    (absDiffUint64 (lastIn r.time ref.time) (if teRel then ref.time.start else lastOf ref.time)).toNat)
  rw [hen] at hd
  simp only [List.cons.injEq] at hd
  obtain ⟨rfl, rfl, rfl⟩ := hd
  refine ⟨_, _, _, hen, ⟨fun hx => Classical.byContradiction fun hc => k1 hc hx, fun hx => (k2 hx).1⟩, ?_, ?_⟩
  · intro hx
    rw [f2] at hx
    cases e <;> simp at hx
    unfold isEqualRangeValue at hend
    rw [hend.1] at hend
    simp at hend
    exact hend.1
  · rw [f3, f6, f7, m1, m4, hsr, her, htr, hte]
    simp only [decide_eq_true_eq, Bool.and_eq_true, Bool.not_eq_true']
    rw [shares_more, shares_more]
    have near : ∀ x : Path, NearEnd x ref.path ↔ ¬ ∀ pre, pre <+: x → pre <+: ref.path.stop → pre <+: ref.path.start := by
      intro x
      unfold NearEnd
      constructor
      · rintro ⟨pre, h1, h2, h3⟩ hx
        exact h3 (hx pre h1 h2)
      · intro hx
        refine Classical.byContradiction fun hc => hx fun pre h1 h2 => Classical.byContradiction fun h3 => hc ⟨pre, h1, h2, h3⟩
    have last : ref.time.openEnd = true → ∀ t : UInt64, NearLast t ref.time ↔
        ¬ absDiffUint64 t ref.time.start ≤ absDiffUint64 t (lastOf ref.time) := by
      intro ho t
      unfold NearLast lastOf
      rw [ho, UInt64.le_iff_toNat_le, absDiff_toNat, absDiff_toNat]
      have := t.toNat_lt
      have hm : (UInt64.ofNat (2 ^ 64 - 1)).toNat = 2 ^ 64 - 1 := by decide
      rw [if_pos rfl, hm]
      omega
    have sub : ref.time.openEnd = true → r.time.openEnd = false → lastIn r.time ref.time = r.time.stop := by
      intro h1 h2
      unfold lastIn
      simp [h2]
    unfold NeedsEnd
    rw [near, near]
    generalize (∀ pre, pre <+: r.path.start → pre <+: ref.path.stop → pre <+: ref.path.start) = A
    generalize (∀ pre, pre <+: r.path.stop → pre <+: ref.path.stop → pre <+: ref.path.start) = B
    cases h1 : ref.path.openEnd <;> cases h2 : ref.time.openEnd
    · simp
    · have l1 := last h2 r.time.start
      have l2 := last h2 r.time.stop
      rw [l1, l2]
      cases h3 : r.time.openEnd
      · rw [sub h2 h3]
        by_cases c1 : absDiffUint64 r.time.start ref.time.start ≤ absDiffUint64 r.time.start (lastOf ref.time) <;> simp [c1]
      · by_cases c1 : absDiffUint64 r.time.start ref.time.start ≤ absDiffUint64 r.time.start (lastOf ref.time) <;> simp [c1]
    · by_cases a : A <;> by_cases b : B <;> cases r.path.openEnd <;> simp [a, b]
    · have l1 := last h2 r.time.start
      have l2 := last h2 r.time.stop
      rw [l1, l2]
      cases h3 : r.time.openEnd
      · rw [sub h2 h3]
        by_cases c1 : absDiffUint64 r.time.start ref.time.start ≤ absDiffUint64 r.time.start (lastOf ref.time) <;>
          by_cases a : A <;> by_cases b : B <;> cases r.path.openEnd <;> simp [a, b, c1]
      · by_cases c1 : absDiffUint64 r.time.start ref.time.start ≤ absDiffUint64 r.time.start (lastOf ref.time) <;>
          by_cases a : A <;> by_cases b : B <;> cases r.path.openEnd <;> simp [a, b, c1]

/-- A handle read by a receiver that remembers another one. -/
theorem inv_handle {α : Type} {x prev q : UInt64} {w : Nat} (hw : x ≠ prev → w = getWidthMax64Int x.toNat) {g : GB}
    {rest : Bytes} {f : UInt64 → Dec α} {r : α × GB} (hg : g.content = (if x = prev then [] else encodeIntMax64 x.toNat) ++ rest)
    (h : ((if (!decide (x = prev)) = true then takeCompact w else pure q) >>= f) g = .ok r) :
    ∃ g' : GB, g'.content = rest ∧ f (if x = prev then q else x) g' = .ok r := by
  by_cases hp : x = prev
  · simp only [hp, if_true, decide_true, Bool.not_true, Bool.false_eq_true, if_false, List.nil_append, Dec.pure_bind] at hg h ⊢
    exact ⟨g, hg, h⟩
  · simp only [hp, if_false, decide_false, Bool.not_false, if_true] at hg h ⊢
    obtain ⟨g1, -, c1, h⟩ := inv_take hg (hw hp) h
    exact ⟨g1, c1, h⟩

/-- What the decoder of send-fingerprint messages makes of an encoded message, whatever the receiver remembers. -/
theorem sendFingerprint_inv {s : Schemes} {vf : Bytes → Prop} (hf : s.fingerprint.Lawful vf) {privy q : Privy}
    {aoiRange : UInt64 → UInt64 → Range3d} {range : Range3d} {fingerprint : Bytes} {sender receiver covers : UInt64}
    {enc : Bytes} (h : encodeReconciliationSendFingerprint s privy range fingerprint sender receiver covers = .ok enc)
    (hs : sender.toNat < 2 ^ s.p.bits) (hr : receiver.toNat < 2 ^ s.p.bits) (hc : covers.toNat < 2 ^ s.p.bits)
    (hv : fingerprint = s.neutral ∨ vf fingerprint)
    (hw : getWidthMax64Int sender.toNat = getWidthMax64Int receiver.toNat ∨
      (sender = privy.prevSenderHandle ∧ receiver = privy.prevReceiverHandle))
    {g : GB} {rest : Bytes} (hg : g.content = enc ++ rest) {m : Msg} {g' : GB}
    (hd : decodeReconciliationSendFingerprint s q aoiRange g = .ok (m, g')) :
    ∃ er g1 range', encodeRange3dRelative s.ss s.ordS s.p range privy.prevRange = .ok er ∧ g1.content = er ++ rest ∧
      (decodeStreamRange3dRelativeE s.ss s.p q.prevRange).ignoring zeroRange3d g1 = .ok (range', g') ∧
      m = message (.reconciliationSendFingerprint range' fingerprint
        (if sender = privy.prevSenderHandle then q.prevSenderHandle else sender)
        (if receiver = privy.prevReceiverHandle then q.prevReceiverHandle else receiver) (if covers = 1 then 0 else covers) true) := by
  obtain ⟨b1, b2, er, her, rfl, ⟨f1, f2, f3, f4⟩, k1, k2, k3, k4⟩ := sendFingerprint_parts h hs hr hc
  refine ⟨er, ?_⟩
  unfold decodeReconciliationSendFingerprint at hd
  obtain ⟨g1, m1, c1, l1, hd⟩ := inv_next hg hd
  rw [step_byte (b := b1) c1 (by omega) rfl, step_byte (b := b2) c1 (by omega) rfl] at hd
  dsimp only at hd
  rw [f1, f2, f3, f4, k1] at hd
  obtain ⟨g2, m2, c2, hd⟩ := inv_prune (a := [b1, b2]) (b := _ ++ rest) c1 l1 rfl rfl hd
  simp only [List.append_assoc] at c2
  have hfp : Steady (if decide (fingerprint = s.neutral) = true then pure s.neutral else s.fingerprint.decStream)
      (if fingerprint = s.neutral then [] else s.fingerprint.enc fingerprint) fingerprint := by
    intro g rest y g' hg h
    by_cases hp : fingerprint = s.neutral
    · simp only [hp, if_true, decide_true, List.nil_append, Dec.pure_apply, Res.ok.injEq, Prod.mk.injEq] at hg h
      obtain ⟨rfl, rfl⟩ := h
      exact ⟨hp.symm, hg, id⟩
    · simp only [hp, if_false, decide_false, Bool.false_eq_true] at hg h
      exact hf.steady (hv.resolve_left hp) _ _ _ _ hg h
  obtain ⟨g3, m3, c3, hd⟩ := inv_steady (steady_covers k4) c2 hd
  obtain ⟨g4, c4, hd⟩ := inv_handle (fun hp => by rw [k2 hp, hw.resolve_right fun h => hp h.1]) c3 hd
  obtain ⟨g5, c5, hd⟩ := inv_handle (fun hp => by rw [k3 hp, hw.resolve_right fun h => hp h.2]) c4 hd
  obtain ⟨g6, m6, c6, hd⟩ := inv_steady hfp c5 hd
  obtain ⟨range', g7, h7, hd⟩ := Dec.bind_ok.1 hd
  simp only [Dec.pure_apply, Res.ok.injEq, Prod.mk.injEq] at hd
  obtain ⟨rfl, rfl⟩ := hd
  exact ⟨g6, range', her, c6, h7, rfl⟩

/-- The same for announce-entries messages. -/
theorem announceEntries_inv {s : Schemes} {privy q : Privy} {aoiRange : UInt64 → UInt64 → Range3d} {range : Range3d}
    {count sender receiver covers : UInt64} {wantResponse willSort : Bool} {enc : Bytes}
    (h : encodeReconciliationAnnounceEntries s privy range count wantResponse willSort sender receiver covers = .ok enc)
    (hs : sender.toNat < 2 ^ s.p.bits) (hr : receiver.toNat < 2 ^ s.p.bits) (hc : covers.toNat < 2 ^ s.p.bits)
    (hn : count.toNat < 2 ^ s.p.bits) (hcov : covers < 252) {g : GB} {rest : Bytes} (hg : g.content = enc ++ rest) {m : Msg}
    {g' : GB} (hd : decodeReconciliationAnnounceEntries s q aoiRange g = .ok (m, g')) :
    ∃ er g1 range', encodeRange3dRelative s.ss s.ordS s.p range privy.prevRange = .ok er ∧ g1.content = er ++ rest ∧
      (decodeStreamRange3dRelativeE s.ss s.p q.prevRange).ignoring zeroRange3d g1 = .ok (range', g') ∧
      m = message (.reconciliationAnnounceEntries range' count wantResponse willSort
        (if sender = privy.prevSenderHandle then q.prevSenderHandle else sender)
        (if receiver = privy.prevReceiverHandle then q.prevReceiverHandle else receiver) (if covers = 1 then 0 else covers) true) := by
  obtain ⟨b1, b2, er, her, rfl, ⟨f1, f2, f3, f4⟩, k1, k2, k3, k4, k5, k6⟩ := announceEntries_parts h hs hr hc hn
  refine ⟨er, ?_⟩
  unfold decodeReconciliationAnnounceEntries at hd
  obtain ⟨g1, m1, c1, l1, hd⟩ := inv_next hg hd
  rw [step_byte (b := b1) c1 (by omega) rfl, step_byte (b := b2) c1 (by omega) rfl] at hd
  dsimp only at hd
  rw [f1, f2, f3, f4, k1, k2, k5] at hd
  obtain ⟨g2, m2, c2, hd⟩ := inv_prune (a := [b1, b2]) (b := _ ++ rest) c1 l1 rfl rfl hd
  rw [List.append_assoc, List.append_assoc, List.append_assoc, List.append_assoc] at c2
  obtain ⟨y, g3, hy, hd⟩ := Dec.bind_ok.1 hd
  obtain ⟨rfl, c3⟩ := readCovers_right k6 (.inl hcov) g2 _ _ _ (.inl hcov) c2 hy
  obtain ⟨g4, c4, hd⟩ := inv_handle k3 c3 hd
  obtain ⟨g5, c5, hd⟩ := inv_handle k4 c4 hd
  obtain ⟨g6, m6, c6, hd⟩ := inv_take c5 rfl hd
  obtain ⟨range', g7, h7, hd⟩ := Dec.bind_ok.1 hd
  simp only [Dec.pure_apply, Res.ok.injEq, Prod.mk.injEq] at hd
  obtain ⟨rfl, rfl⟩ := hd
  exact ⟨g6, range', her, c6, h7, rfl⟩

/-- An entry in an area for any subspace, whose header says that the subspace is not encoded. -/
theorem entryE_invalid {ss pd : Codec} {p : PathParams} {outer : Area} {ns : Bytes} {g : GB} {b : UInt8} {bs : Bytes}
    (hg : g.content = b :: bs) (ha : outer.anySubspace = true) (hb : b < 128) :
    ∃ g', (decodeStreamEntryInNamespaceAreaE ss pd p outer ns).ignoring zeroEntry g = .ok (zeroEntry, g') ∧ g'.content = bs := by
  have h0 : (b &&& 0x80 == 0x80) = false := by
    have key : ∀ n : Fin 128, (UInt8.ofNat n.val &&& 0x80 == 0x80) = false := by decide
    have h := key ⟨b.toNat, hb⟩
    simpa using h
  obtain ⟨g1, e, c, l⟩ := nextAbsolute_ok 1 g (by rw [hg]; simp)
  have hc := hg
  rw [← c] at hc
  unfold GB.content at hc
  match hbuf : g1.buf, l with
  | x :: tl, _ =>
    rw [hbuf] at hc
    simp only [List.cons_append, List.cons.injEq] at hc
    obtain ⟨rfl, hc⟩ := hc
    have hr : (decodeStreamEntryInNamespaceAreaE ss pd p outer ns).run g = .ok (none, g1.pruned 1) := by
      unfold decodeStreamEntryInNamespaceAreaE
      rw [DecE.run_liftM_bind]
      unfold peekByte
      rw [Dec.bind_assoc, Dec.bind_apply, e]
      dsimp only
      rw [hbuf]
      dsimp only
      rw [Dec.pure_bind]
      simp only [h0, ha]
      rfl
    refine ⟨g1.pruned 1, ?_, ?_⟩
    · unfold DecE.ignoring
      rw [Dec.bind_apply, hr]
      rfl
    · rw [prune_content _ _ (by rw [hbuf]; simp), c, hg]
      rfl

theorem dataEntry_invalid {s : Schemes} {aois : AoiLookup} {current : Entry} {sender receiver : UInt64}
    (ha : (aois.area sender receiver).anySubspace = true) {b : UInt8} {bs : Bytes} (hb : b < 128) {g : GB}
    (hg : g.content = encodeIntMax64 sender.toNat ++ (encodeIntMax64 receiver.toNat ++ b :: bs)) :
    ∃ g', decodeDataEntry s aois current false (getWidthMax64Int sender.toNat) (getWidthMax64Int receiver.toNat) g =
      .ok (zeroEntry, g') ∧ g'.content = bs := by
  have h1 := encodeIntMax64_length sender.toNat
  have h2 := encodeIntMax64_length receiver.toNat
  unfold decodeDataEntry
  simp only [Bool.false_eq_true, if_false]
  obtain ⟨g1, e1, c1, l1, -⟩ := nextAbsolute_ok (getWidthMax64Int sender.toNat + getWidthMax64Int receiver.toNat) g
    (by rw [hg]; simp; omega)
  rw [Dec.bind_apply, e1]
  rw [hg] at c1
  dsimp only
  rw [step_compact (i := 0) (x := sender) (a := []) c1 rfl rfl rfl (by omega),
    step_compact (i := getWidthMax64Int sender.toNat) (x := receiver) (a := encodeIntMax64 sender.toNat) c1 rfl h1.symm rfl (by omega)]
  refine entryE_invalid (g := g1.pruned _) (b := b) (bs := bs) ?_ ha hb
  rw [prune_content _ _ l1, c1, ← List.append_assoc, List.drop_left' (by simp; omega)]

end Willow
