import Verif.Lemmas.Relative
import Verif.Props.Successor

/-! Lemmas for the theorems of `Verif/Props/Relative.lean`. -/

namespace Willow.Props

open Willow Spec

/-- Decoding an entry depends on what becomes of its path. -/
theorem decodeEntry_encode {ns ss pd : Codec} {vn vs vp : Bytes → Prop} (hn : ns.Lawful vn) (hs : ss.Lawful vs)
    (hp : pd.Lawful vp) {p : PathParams} {e : Entry}
    (h1 : vn e.namespaceId) (h2 : vs e.subspaceId) (h4 : vp e.payloadDigest)
    (sched room : List Nat) :
    let rest := bigIntToBytes e.timestamp ++ bigIntToBytes e.payloadLength ++ pd.enc e.payloadDigest
    let got := decodePathStream p ⟨[], (encodePath p e.path ++ rest).map fun b => [b], sched, ⟨0, room⟩⟩
    let res := decodeEntry ns ss pd p sched room (encodeEntry ns ss pd p e)
    (∀ g', got = .ok (e.path, g') → res = .ok e) ∧ (∀ y, res = .ok y → ∃ g', got = .ok (y.path, g')) := by
  intro rest
  have hle : ∀ x : UInt64, (bigIntToBytes x).length = 8 := fun x => rfl
  have hb : ∀ (x : UInt64) (t : Bytes), beUint64 (bigIntToBytes x ++ t) = .ok x.toNat := by
    intro x t
    unfold beUint64
    rw [if_pos (by simp [hle]), List.take_left' (hle x)]
    unfold bigIntToBytes
    rw [putU64_eq, getBE_beBytes, Nat.mod_eq_of_lt x.toNat_lt]
  have e0 : encodeEntry ns ss pd p e = ns.enc e.namespaceId ++ (ss.enc e.subspaceId ++ (encodePath p e.path ++ rest)) := by
    simp [encodeEntry, rest]
  have e1 : sliceFrom (encodeEntry ns ss pd p e) (ns.len e.namespaceId) =
      .ok (ss.enc e.subspaceId ++ (encodePath p e.path ++ rest)) := by
    rw [e0, sliceFrom_append _ _ _ (hn.len _ h1)]
  have e2 : sliceFrom (encodeEntry ns ss pd p e) (ns.len e.namespaceId + ss.len e.subspaceId) =
      .ok (encodePath p e.path ++ rest) := by
    rw [e0, ← List.append_assoc, sliceFrom_append _ _ _ (by simp [hn.len _ h1, hs.len _ h2])]
  have e3 : ∀ n (a b : Bytes), rest = a ++ b → n = a.length →
      sliceFrom (encodeEntry ns ss pd p e)
        (ns.len e.namespaceId + ss.len e.subspaceId + encodePathLength p e.path + n) = .ok b := by
    intro n a b hab hna
    rw [e0, hab, ← List.append_assoc, ← List.append_assoc, ← List.append_assoc,
      sliceFrom_append _ _ _ (by
        simp only [List.length_append, hn.len _ h1, hs.len _ h2, encodePathLength_eq, hna])]
  intro got res
  have e4 : res = got >>= fun x => (do
      let timestampPos := ns.len e.namespaceId + ss.len e.subspaceId + encodePathLength p x.1
      let timestamp ← (← sliceFrom (encodeEntry ns ss pd p e) timestampPos) |> beUint64
      let payloadLength ← (← sliceFrom (encodeEntry ns ss pd p e) (timestampPos + 8)) |> beUint64
      let payloadDigest ← pd.dec (← sliceFrom (encodeEntry ns ss pd p e) (timestampPos + 8 + 8))
      .ok { namespaceId := e.namespaceId, subspaceId := e.subspaceId, path := x.1, payloadDigest := payloadDigest,
            payloadLength := UInt64.ofNat payloadLength, timestamp := UInt64.ofNat timestamp }) := by
    show decodeEntry ns ss pd p sched room (encodeEntry ns ss pd p e) = _
    unfold decodeEntry
    rw [show ns.dec (encodeEntry ns ss pd p e) = .ok e.namespaceId by rw [e0]; exact hn.dec _ _ h1]
    simp only [Res.ok_bind, e1, hs.dec _ _ h2, e2]
    rfl
  constructor
  · intro g' hg'
    rw [e4, hg']
    simp only [Res.ok_bind]
    have f1 := e3 0 [] rest (by simp) rfl
    have f2 := e3 8 (bigIntToBytes e.timestamp) (bigIntToBytes e.payloadLength ++ pd.enc e.payloadDigest)
      (by simp [rest]) rfl
    have f3 := e3 16 (bigIntToBytes e.timestamp ++ bigIntToBytes e.payloadLength) (pd.enc e.payloadDigest)
      (by simp [rest]) rfl
    have f4 : beUint64 rest = .ok e.timestamp.toNat := by
      simp only [rest, List.append_assoc]; exact hb _ _
    have f5 := hp.dec _ [] h4
    simp only [List.append_nil] at f5
    simp only [Nat.add_zero] at f1
    rw [show ∀ a : Nat, a + 16 = a + 8 + 8 from fun _ => rfl] at f3
    simp only [f1, f2, f3, f4, f5, hb, Res.ok_bind, ofNat_toNat64]
  · intro y hy
    rw [e4] at hy
    obtain ⟨x, hx, hy⟩ := Res.bind_eq_ok.1 hy
    obtain ⟨_, -, hy⟩ := Res.bind_eq_ok.1 hy
    obtain ⟨_, -, hy⟩ := Res.bind_eq_ok.1 hy
    obtain ⟨_, -, hy⟩ := Res.bind_eq_ok.1 hy
    obtain ⟨_, -, hy⟩ := Res.bind_eq_ok.1 hy
    obtain ⟨_, -, hy⟩ := Res.bind_eq_ok.1 hy
    obtain ⟨_, -, hy⟩ := Res.bind_eq_ok.1 hy
    simp only [Res.ok.injEq] at hy
    exact ⟨x.2, by rw [hx, ← hy]⟩

/-- The encoding of an entry relative to an entry is decoded. -/
theorem decodes_entryRelativeEntry {ns ss pd : Codec} {vn vs vp : Bytes → Prop} (hn : ns.Lawful vn) (hs : ss.Lawful vs)
    (hp : pd.Lawful vp) {eqNs : Bytes → Bytes → Bool} {ordS : Bytes → Bytes → Ordering}
    (hq : ∀ a b, eqNs a b = true ↔ a = b) (ho : Decides BytesLt ordS)
    {p : PathParams} {e ref : Entry}
    (h1 : vn e.namespaceId) (h2 : vs e.subspaceId) (h3 : ShortPath p e.path) (h4 : vp e.payloadDigest)
    {enc : Bytes} (h : encodeEntryRelativeEntry ns ss pd eqNs ordS p e ref = .ok enc) (all : Bool) :
    Decodes (RelArrives p all e.path ref.path) all (getWidthMax32Int p.cl - 2 - (pd.enc e.payloadDigest).length)
      (decodeStreamEntryRelativeEntry ns ss pd p ref) enc e := by
  unfold encodeEntryRelativeEntry at h
  dsimp only at h
  obtain ⟨rel, hrel, h⟩ := Res.bind_eq_ok.1 h
  simp only [Res.ok.injEq] at h
  subst h
  have hwt := width64 (absDiffUint64 e.timestamp ref.timestamp).toNat
  have hwl := width64 e.payloadLength.toNat
  have key := header_entry (!eqNs e.namespaceId ref.namespaceId) (ordS e.subspaceId ref.subspaceId != .eq)
    (decide (e.timestamp > ref.timestamp)) hwt hwl
  simp only [decide_eq_true_eq] at key
  generalize byteOf _ = hdr at key ⊢
  obtain ⟨k1, k2, k3, k4, k5⟩ := key
  simp only [List.append_assoc, List.cons_append, List.nil_append]
  unfold decodeStreamEntryRelativeEntry
  refine Decodes.peek rfl ?_
  simp only [k1, k2, k3, k4, k5]
  have hlt := encodeIntMax64_length (absDiffUint64 e.timestamp ref.timestamp).toNat
  have hll := encodeIntMax64_length e.payloadLength.toNat
  have pos1 : 1 ≤ getWidthMax64Int (absDiffUint64 e.timestamp ref.timestamp).toNat := by
    rcases hwt with h | h | h | h <;> omega
  have pos2 : 1 ≤ getWidthMax64Int e.payloadLength.toNat := by
    rcases hwl with h | h | h | h <;> omega
  refine Decodes.bind (s1 := 0) (a := e.namespaceId) ?_ ?_ (by omega) (Nat.le_refl _)
  · cases hb : eqNs e.namespaceId ref.namespaceId with
    | true =>
      simp only [Bool.not_true, Bool.false_eq_true, if_false, if_true]
      exact Decodes.pure ((hq _ _).1 hb).symm
    | false =>
      simp only [Bool.not_false, if_true, Nat.reduceEqDiff, if_false]
      exact Decodes.codec hn h1
  refine Decodes.bind (s1 := 0) (a := e.subspaceId) ?_ ?_ (by omega) (Nat.le_refl _)
  · by_cases hb : e.subspaceId = ref.subspaceId
    · rw [show (ordS e.subspaceId ref.subspaceId != .eq) = false by simpa using (ho.eq_iff _ _).2 hb]
      simp only [Bool.false_eq_true, if_false, if_true]
      exact Decodes.pure hb.symm
    · rw [show (ordS e.subspaceId ref.subspaceId != .eq) = true from (ho.bne_eq _ _).2 hb]
      simp only [if_true, Nat.reduceEqDiff, if_false]
      exact Decodes.codec hs h2
  refine Decodes.bind (Decodes.relPath h3 hrel) ?_
    (by simp only [List.length_append, hlt, hll]; omega) (Nat.le_refl _)
  refine Decodes.bind (s1 := 0) (Decodes.compact (UInt64.toNat_lt _) rfl) ?_ (by omega) (Nat.le_refl _)
  refine Decodes.bind (s1 := 0) (Decodes.compact (UInt64.toNat_lt _) rfl) ?_ (by omega) (Nat.le_refl _)
  rw [← List.append_nil (pd.enc e.payloadDigest)]
  refine Decodes.bind (s1 := 0) (s2 := 0) (Decodes.codec hp h4) (Decodes.pure ?_) (by omega) (by omega)
  simp only [ofNat_toNat64]
  by_cases hc : e.timestamp > ref.timestamp
  · simp only [hc, decide_true, if_true, add_absDiff hc]
  · simp only [hc, decide_false, Bool.false_eq_true, if_false, sub_absDiff hc]

theorem commonPrefix_length {a r l : Path} (h : commonPrefix a r = .ok l) : l.length = commonPrefixIndex a r := by
  obtain ⟨h1, -, -⟩ := commonPrefixIndex_spec a r
  unfold commonPrefix at h
  dsimp only at h
  split at h
  · simp at h
  · rw [slice_take _ _ h1] at h
    simp only [Res.ok.injEq] at h
    rw [← h]
    simp [h1]

theorem shortAfterShared_longer {n : Nat} {a r r' : Path} (h : ShortAfterShared n a r)
    (hl : commonPrefixIndex a r ≤ commonPrefixIndex a r') : ShortAfterShared n a r' := by
  obtain ⟨j, h1, h2, h3, h4⟩ := h
  obtain ⟨k1, k2, k3⟩ := commonPrefixIndex_spec a r'
  have hj := Nat.le_trans (commonPrefixIndex_max a r j h1 h2 h3) hl
  refine ⟨_, k1, k2, k3, fun c hc => h4 c ?_⟩
  rw [← Nat.add_sub_cancel' hj, ← List.drop_drop] at hc
  exact List.mem_of_mem_drop hc

/-- The encoding of an entry relative to a range is decoded. -/
theorem decodes_entryRelativeRange3d {ss pd : Codec} {vs vp : Bytes → Prop} (hs : ss.Lawful vs)
    (hp : pd.Lawful vp) {ordS : Bytes → Bytes → Ordering} (ho : Decides BytesLt ordS)
    {p : PathParams} {e : Entry} {outer : Range3d}
    (h2 : vs e.subspaceId) (h3 : ShortPath p e.path) (h4 : vp e.payloadDigest)
    {enc : Bytes} (h : encodeEntryRelativeRange3d ss pd ordS p e outer = .ok enc) (all : Bool) :
    Decodes (RelArrives p all e.path outer.path.start ∨ outer.path.openEnd = false ∧ RelArrives p all e.path outer.path.stop)
      all (getWidthMax32Int p.cl - 2 - (pd.enc e.payloadDigest).length)
      (decodeStreamEntryRelativeRange3d ss pd p outer e.namespaceId) enc e := by
  unfold encodeEntryRelativeRange3d at h
  dsimp only at h
  obtain ⟨⟨pathFlag, rel⟩, hpath, h⟩ := Res.bind_eq_ok.1 h
  -- the reference path chosen
  have hsel : ∃ b : Bool, pathFlag = (if b then 0x40 else 0x0) ∧
      encodeRelativePath p e.path (if b then outer.path.start else outer.path.stop) = .ok rel ∧
      (b = false → outer.path.openEnd = false) ∧
      ∀ n, (ShortAfterShared n e.path outer.path.start ∨ outer.path.openEnd = false ∧ ShortAfterShared n e.path outer.path.stop) →
        ShortAfterShared n e.path (if b then outer.path.start else outer.path.stop) := by
    cases hopen : outer.path.openEnd with
    | true =>
      simp only [hopen, Bool.not_true, Bool.false_eq_true, if_false] at hpath
      obtain ⟨b, hb, hpath⟩ := Res.bind_eq_ok.1 hpath
      simp only [Res.ok.injEq, Prod.mk.injEq] at hpath
      obtain ⟨rfl, rfl⟩ := hpath
      exact ⟨true, rfl, hb, by simp, by simp⟩
    | false =>
      simp only [hopen, Bool.not_false, if_true] at hpath
      obtain ⟨cs, hcs, hpath⟩ := Res.bind_eq_ok.1 hpath
      obtain ⟨ce, hce, hpath⟩ := Res.bind_eq_ok.1 hpath
      have hls := commonPrefix_length hcs
      have hle := commonPrefix_length hce
      split at hpath
      · obtain ⟨b, hb, hpath⟩ := Res.bind_eq_ok.1 hpath
        simp only [Res.ok.injEq, Prod.mk.injEq] at hpath
        obtain ⟨rfl, rfl⟩ := hpath
        refine ⟨true, rfl, hb, by simp, fun n hn => ?_⟩
        show ShortAfterShared n e.path outer.path.start
        rcases hn with hn | ⟨-, hn⟩
        · exact hn
        · exact shortAfterShared_longer hn (by omega)
      · obtain ⟨b, hb, hpath⟩ := Res.bind_eq_ok.1 hpath
        simp only [Res.ok.injEq, Prod.mk.injEq] at hpath
        obtain ⟨rfl, rfl⟩ := hpath
        refine ⟨false, rfl, hb, by simp, fun n hn => ?_⟩
        show ShortAfterShared n e.path outer.path.stop
        rcases hn with hn | ⟨-, hn⟩
        · exact shortAfterShared_longer hn (by omega)
        · exact hn
  obtain ⟨bp, rfl, hrel, hbp, hshort⟩ := hsel
  have harr : (RelArrives p all e.path outer.path.start ∨ outer.path.openEnd = false ∧ RelArrives p all e.path outer.path.stop) →
      RelArrives p all e.path (if bp then outer.path.start else outer.path.stop) := by
    rintro ((h | h) | ⟨ho, h | h⟩)
    · exact .inl h
    · exact .inr (hshort _ (.inl h))
    · exact .inl h
    · exact .inr (hshort _ (.inr ⟨ho, h⟩))
  simp only [Res.ok.injEq] at h
  generalize htd : (if (!outer.time.openEnd) = true then
      minU64 (absDiffUint64 e.timestamp outer.time.start) (absDiffUint64 e.timestamp outer.time.stop)
    else absDiffUint64 e.timestamp outer.time.start) = td at h
  have hwt := width64 td.toNat
  have hwl := width64 e.payloadLength.toNat
  -- the two time flags
  obtain ⟨bs, hbs⟩ : ∃ b : Bool, b = decide (td = absDiffUint64 e.timestamp outer.time.start) := ⟨_, rfl⟩
  have hstart : (if td = absDiffUint64 e.timestamp outer.time.start then 0x20 else 0x0) = if bs then 0x20 else 0x0 := by
    rw [hbs]; simp
  obtain ⟨ba, hba⟩ : ∃ b : Bool, b = (if bs then decide (e.timestamp ≥ outer.time.start)
    else (!outer.time.openEnd && decide (e.timestamp ≥ outer.time.stop))) := ⟨_, rfl⟩
  rw [hstart] at h
  have hadd : (if (!outer.time.openEnd) = true then
        if (if bs = true then 0x20 else 0x0) = 0x20 ∧ e.timestamp ≥ outer.time.start ∨
            (if bs = true then 0x20 else 0x0) = 0x0 ∧ e.timestamp ≥ outer.time.stop then 0x10 else 0x0
      else if (if bs = true then 0x20 else 0x0) = 0x20 ∧ e.timestamp ≥ outer.time.start then 0x10 else 0x0) =
      if ba then 0x10 else 0x0 := by
    rw [hba]
    cases bs <;> cases outer.time.openEnd <;> simp
  rw [hadd] at h
  subst h
  have key := header_range (ordS e.subspaceId outer.subspace.start != .eq) bp bs ba hwt hwl
  generalize byteOf _ = hdr at key ⊢
  obtain ⟨k1, k2, k3, k4, k5, k6⟩ := key
  simp only [List.append_assoc, List.cons_append, List.nil_append]
  unfold decodeStreamEntryRelativeRange3d
  refine Decodes.peek rfl ?_
  simp only [k1, k2, k3, k4, k5, k6]
  have hlt := encodeIntMax64_length td.toNat
  have hll := encodeIntMax64_length e.payloadLength.toNat
  have pos1 : 1 ≤ getWidthMax64Int td.toNat := by
    rcases hwt with h | h | h | h <;> omega
  have pos2 : 1 ≤ getWidthMax64Int e.payloadLength.toNat := by
    rcases hwl with h | h | h | h <;> omega
  refine Decodes.bind (s1 := 0) (a := e.subspaceId) ?_ ?_ (by omega) (Nat.le_refl _)
  · by_cases hb : e.subspaceId = outer.subspace.start
    · rw [show (ordS e.subspaceId outer.subspace.start != .eq) = false by simpa using (ho.eq_iff _ _).2 hb]
      simp only [Bool.false_eq_true, if_false]
      exact Decodes.pure hb.symm
    · rw [show (ordS e.subspaceId outer.subspace.start != .eq) = true from (ho.bne_eq _ _).2 hb]
      simp only [if_true]
      exact Decodes.codec hs h2
  refine Decodes.bind (s1 := getWidthMax32Int p.cl) (a := e.path) ?_ ?_
    (by simp only [List.length_append, hlt, hll]; omega) (Nat.le_refl _)
  · cases bp with
    | true =>
      simp only [Bool.not_true, Bool.false_eq_true, if_false]
      exact (Decodes.relPath h3 hrel).mono harr
    | false =>
      have := (Decodes.relPath (all := all) h3 hrel).mono harr
      simp only [Bool.not_false, if_true, hbp rfl, Bool.false_eq_true, if_false] at this ⊢
      exact this
  refine Decodes.bind (s1 := 0) (Decodes.compact (UInt64.toNat_lt _) rfl) ?_ (by omega) (Nat.le_refl _)
  simp only [ofNat_toNat64]
  have hmin : td = absDiffUint64 e.timestamp outer.time.start ∨
      (outer.time.openEnd = false ∧ td = absDiffUint64 e.timestamp outer.time.stop) := by
    rw [← htd]
    cases outer.time.openEnd with
    | true => left; simp
    | false =>
      simp only [Bool.not_false, if_true, minU64]
      split
      · left; rfl
      · right; exact ⟨trivial, rfl⟩
  refine Decodes.bind (s1 := 0) (e1 := []) (a := e.timestamp) ?_ ?_ (by omega) (Nat.le_refl _)
  · cases bs with
    | true =>
      have htd' : td = absDiffUint64 e.timestamp outer.time.start := by simpa using hbs.symm
      simp only [if_true] at hba
      by_cases hc : e.timestamp ≥ outer.time.start
      · simp only [hba, hc, decide_true, Bool.and_self, if_true]
        exact Decodes.pure (by rw [htd', add_absDiff_of_ge hc])
      · simp only [hba, hc, decide_false, Bool.and_false, Bool.false_eq_true, if_false, Bool.not_false, Bool.and_self,
          if_true]
        refine Decodes.pure ?_
        rw [htd']
        refine sub_absDiff fun h => hc ?_
        simp only [UInt64.le_iff_toNat_le, UInt64.lt_iff_toNat_lt, ge_iff_le, gt_iff_lt] at *
        omega
    | false =>
      have hne : td ≠ absDiffUint64 e.timestamp outer.time.start := by simpa using hbs.symm
      obtain ⟨hop, htd'⟩ := hmin.resolve_left hne
      simp only [hop, Bool.not_false, Bool.true_and, Bool.false_eq_true, if_false] at hba
      by_cases hc : e.timestamp ≥ outer.time.stop
      · simp only [hba, hc, hop, decide_true, Bool.and_true, Bool.false_eq_true, if_false, Bool.not_true,
          Bool.not_false, if_true]
        exact Decodes.pure (by rw [htd', add_absDiff_of_ge hc])
      · simp only [hba, hc, hop, decide_false, Bool.and_false, Bool.false_eq_true, if_false, Bool.not_false,
          Bool.and_true]
        refine Decodes.pure ?_
        rw [htd']
        refine sub_absDiff fun h => hc ?_
        simp only [UInt64.le_iff_toNat_le, UInt64.lt_iff_toNat_lt, ge_iff_le, gt_iff_lt] at *
        omega
  refine Decodes.bind (s1 := 0) (Decodes.compact (UInt64.toNat_lt _) rfl) ?_ (by omega) (Nat.le_refl _)
  rw [← List.append_nil (pd.enc e.payloadDigest)]
  refine Decodes.bind (s1 := 0) (s2 := 0) (Decodes.codec hp h4) (Decodes.pure ?_) (by omega) (by omega)
  simp only [ofNat_toNat64]

end Willow.Props
