import Verif.Model.Iterator
import Verif.Lemmas.Encoding
import Verif.Lemmas.Listing

/-! Lemmas for listings that keep slices of the iterator's buffer. -/

namespace Willow

open Spec

theorem componentWindows_shape (p : PathParams) : ∀ (a b : Path) (off : Nat), a.map List.length = b.map List.length →
    componentWindows p a off = componentWindows p b off
  | [], [], _, _ => rfl
  | [], _ :: _, _, h => by simp at h
  | _ :: _, [], _, h => by simp at h
  | c :: cs, d :: ds, off, h => by
    simp only [List.map_cons, List.cons.injEq] at h
    simp only [componentWindows, h.1, componentWindows_shape p cs ds _ h.2]

theorem componentWindows_read (p : PathParams) (mem : Bytes) : ∀ (path : Path) (off : Nat) (tail : Bytes),
    mem.drop off = encodeComponents p path ++ tail → (componentWindows p path off).map (·.read mem) = path
  | [], _, _, _ => rfl
  | c :: cs, off, tail, h => by
    have hl := encodeIntMax32_length (p.conv c.length) p.cl
    simp only [encodeComponents, List.append_assoc] at h
    have h1 : mem.drop (off + getWidthMax32Int p.cl) = c ++ (encodeComponents p cs ++ tail) := by
      rw [← List.drop_drop, h, ← hl, List.drop_left]
    simp only [componentWindows, List.map_cons, Window.read, h1, List.take_left]
    congr 1
    refine componentWindows_read p mem cs _ tail ?_
    rw [← List.drop_drop, h1, List.drop_left]

/-- Reading the slices of a key while the buffer holds it. -/
theorem keyWindows_read (p : PathParams) (pos : Position) (value : Values) (ns tail : Bytes) :
    (keyWindows p (encodeKey p pos) pos value).read (encodeKey p pos ++ tail) ns =
      ⟨ns, pos.subspace, pos.path, value.payloadDigest, value.payloadLength, pos.time⟩ := by
  have h8 : (bigIntToBytes pos.time).length = 8 := by simp [bigIntToBytes, putU64]
  have hl := encodeIntMax32_length (p.conv pos.path.length) p.cc
  have h1 : (componentWindows p pos.path (8 + getWidthMax32Int p.cc)).map (·.read (encodeKey p pos ++ tail)) = pos.path := by
    refine componentWindows_read p _ pos.path _ (pos.subspace ++ tail) ?_
    rw [← List.drop_drop, ← h8]
    simp only [encodeKey, List.append_assoc, List.drop_left, encodePath]
    rw [← hl, List.drop_left]
  have h2 : (⟨(encodeKey p pos).length - pos.subspace.length, pos.subspace.length⟩ : Window).read (encodeKey p pos ++ tail) = pos.subspace := by
    have : (encodeKey p pos).length - pos.subspace.length = (bigIntToBytes pos.time ++ encodePath p pos.path).length := by
      simp [encodeKey]; omega
    simp only [Window.read]
    rw [this]
    simp only [encodeKey, List.append_assoc]
    rw [← List.append_assoc (bigIntToBytes pos.time), List.drop_left, List.take_left]
  simp only [keyWindows, Listed.read, h1, h2]

/-- What does not depend on the buffer. -/
theorem listValuesMemLoop_kept (p : PathParams) (aoi : AreaOfInterest) (ns : Bytes) :
    ∀ (kv : List (Bytes × Bytes)) (buffer : Bytes) (ls : List Listed) (es : List Entry) (n : UInt64) (out : List Entry),
      ls.map (fun l => (l.timestamp, l.value.payloadDigest, l.value.payloadLength)) =
        es.map (fun e => (e.timestamp, e.payloadDigest, e.payloadLength)) →
      listValuesLoop p aoi ns kv es n = .ok out →
      ∃ ls' mem, listValuesMemLoop p aoi kv buffer ls n = .ok (ls', mem) ∧
        ls'.map (fun l => (l.timestamp, l.value.payloadDigest, l.value.payloadLength)) =
          out.map (fun e => (e.timestamp, e.payloadDigest, e.payloadLength))
  | [], buffer, ls, es, n, out, h, hr => by
    simp only [listValuesLoop, Res.ok.injEq] at hr
    exact ⟨ls, buffer, rfl, hr ▸ h⟩
  | (key, val) :: rest, buffer, ls, es, n, out, h, hr => by
    have hlen : ls.length = es.length := by simpa using congrArg List.length h
    simp only [listValuesLoop] at hr
    obtain ⟨pos, h1, hr⟩ := Res.bind_eq_ok.1 hr
    simp only [listValuesMemLoop, h1, Res.ok_bind]
    split at hr
    · rename_i hc
      rw [if_pos hc]
      exact listValuesMemLoop_kept p aoi ns rest _ ls es n out h hr
    · rename_i hc
      rw [if_neg hc]
      split at hr
      · rename_i hc
        rw [if_pos hc]
        exact listValuesMemLoop_kept p aoi ns rest _ ls es n out h hr
      · rename_i hc
        rw [if_neg hc, hlen]
        split at hr
        · rename_i hc
          rw [if_pos hc]
          simp only [Res.ok.injEq] at hr
          exact ⟨ls, _, rfl, hr ▸ h⟩
        · rename_i hc
          rw [if_neg hc]
          obtain ⟨value, h2, hr⟩ := Res.bind_eq_ok.1 hr
          simp only [h2, Res.ok_bind]
          split at hr
          · rename_i hc
            rw [if_pos hc]
            simp only [Res.ok.injEq] at hr
            exact ⟨ls, _, rfl, hr ▸ h⟩
          · rename_i hc
            rw [if_neg hc]
            refine listValuesMemLoop_kept p aoi ns rest _ _ _ _ out ?_ hr
            simp [h, keyWindows]

theorem encodeComponents_shape (p : PathParams) : ∀ (a b : Path), a.map List.length = b.map List.length →
    (encodeComponents p a).length = (encodeComponents p b).length
  | [], [], _ => rfl
  | [], _ :: _, h => by simp at h
  | _ :: _, [], h => by simp at h
  | c :: cs, d :: ds, h => by
    simp only [List.map_cons, List.cons.injEq] at h
    simp only [encodeComponents, List.length_append, encodeIntMax32_length, h.1, encodeComponents_shape p cs ds h.2]

/-- Keys of the same shape have the same windows. -/
theorem keyWindows_shape (p : PathParams) (a b : Position) (value : Values)
    (hp : a.path.map List.length = b.path.map List.length) (hs : a.subspace.length = b.subspace.length) (ns mem : Bytes) :
    (keyWindows p (encodeKey p a) a value).read mem ns =
      { (keyWindows p (encodeKey p b) b value).read mem ns with timestamp := a.time } := by
  have hl : (encodeKey p a).length = (encodeKey p b).length := by
    simp [encodeKey, encodePath, encodeIntMax32_length, encodeComponents_shape p _ _ hp, hs, bigIntToBytes, putU64]
  simp only [keyWindows, Listed.read, componentWindows_shape p _ _ _ hp, hl, hs]

/-- The loop lists everything if everything is wanted. -/
theorem listValuesMemLoop_all (p : PathParams) (aoi : AreaOfInterest) (hc : aoi.maxCount = 0) (hz : aoi.maxSize = 0) :
    ∀ (items : List Item) (buffer : Bytes) (ls : List Listed) (n : UInt64),
      (∀ i ∈ items, decodeKey p (encodeKey p i.pos) = .ok i.pos ∧ decodeValues (encodeValues i.val) = .ok i.val ∧
        i.pos.subspace = aoi.area.subspace ∧ aoi.area.path <+: i.pos.path ∧
        aoi.area.times.start ≤ i.pos.time ∧ i.pos.time ≤ aoi.area.times.stop) →
      listValuesMemLoop p aoi (items.map fun i => (encodeKey p i.pos, encodeValues i.val)) buffer ls n =
        .ok (ls ++ items.map (fun i => keyWindows p (encodeKey p i.pos) i.pos i.val),
          items.foldl (fun old i => encodeKey p i.pos ++ old.drop (encodeKey p i.pos).length) buffer)
  | [], buffer, ls, n, _ => by simp [listValuesMemLoop]
  | i :: rest, buffer, ls, n, h => by
    obtain ⟨h1, h2, h3, h4, h5, h6⟩ := h i (by simp)
    have h7 : orderSubspace i.pos.subspace aoi.area.subspace = .eq := (decides_subspace.eq_iff _ _).2 h3
    have h8 : orderPath (i.pos.path.take aoi.area.path.length) aoi.area.path = .eq := by
      rw [decides_path.eq_iff]
      obtain ⟨t, ht⟩ := h4
      rw [← ht, List.take_left]
    have h9 := h4.length_le
    have ha : ¬ (i.pos.time > aoi.area.times.stop ∨ orderSubspace i.pos.subspace aoi.area.subspace ≠ .eq ∨
        i.pos.path.length < aoi.area.path.length) := by
      rintro (h | h | h)
      · exact absurd h6 (UInt64.not_le.2 h)
      · exact h h7
      · omega
    have hb : ¬ ((aoi.maxCount > 0 ∧ (ls.length : Int) ≥ goInt aoi.maxCount.toNat) ∨ i.pos.time < aoi.area.times.start) := by
      rintro (h | h)
      · rw [hc] at h; exact absurd h.1 (by decide)
      · exact absurd h5 (UInt64.not_le.2 h)
    have hd : ¬ (aoi.maxSize > 0 ∧ n + i.val.payloadLength ≥ aoi.maxSize) := by
      rw [hz]
      rintro ⟨h, -⟩
      exact absurd h (by decide)
    simp only [List.map_cons, listValuesMemLoop, h1, Res.ok_bind, if_neg ha, if_neg (fun h : orderPath _ _ ≠ .eq => h h8), if_neg hb, h2, if_neg hd]
    rw [listValuesMemLoop_all p aoi hc hz rest _ _ _ fun j hj => h j (by simp [hj])]
    simp [List.append_assoc]

end Willow
