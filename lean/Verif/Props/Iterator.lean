import Verif.Lemmas.Iterator
import Verif.Props.Listing

/-! Property C118: listings and the iterator's buffer. -/

namespace Willow.Props

open Willow Spec

/-- C118 is violated: if the iterator reuses its buffer for the key, as pebble is allowed to, then all
entries that are listed have the path of the last one visited, when the paths have components of the
same lengths. -/
theorem C118_violated (p : PathParams) (first : Item) (others : List Item)
    (ns buffer : Bytes) (aoi : AreaOfInterest) (hc : aoi.maxCount = 0) (hz : aoi.maxSize = 0)
    (hitems : ∀ i ∈ first :: others, ShortPath p i.pos.path ∧ i.val.payloadDigest.length < 2 ^ 64 ∧ i.val.authDigest.length < 2 ^ 64)
    (hin : ∀ i ∈ first :: others, i.pos.subspace = aoi.area.subspace ∧ aoi.area.path <+: i.pos.path ∧
      aoi.area.times.start ≤ i.pos.time ∧ i.pos.time ≤ aoi.area.times.stop)
    (hshape : ∀ i ∈ others, i.pos.path.map List.length = first.pos.path.map List.length) :
    listValuesMem p ((first :: others).map fun i => (encodeKey p i.pos, encodeValues i.val)) aoi ns buffer =
      .ok ((first :: others).reverse.map fun i => { i.entry ns with path := first.pos.path }) := by
  unfold listValuesMem
  rw [← List.map_reverse, listValuesMemLoop_all p aoi hc hz _ _ _ _ fun i hi => by
    have hi := List.mem_reverse.1 hi
    obtain ⟨h1, h2, h3⟩ := hitems i hi
    exact ⟨C23_roundtrip_partial p _ h1, C24_roundtrip _ h2 h3, hin i hi⟩]
  simp only [Res.ok_bind, List.nil_append, List.map_map, Res.ok.injEq]
  refine List.map_congr_left fun i hi => ?_
  have hi := List.mem_reverse.1 hi
  have hsh : i.pos.path.map List.length = first.pos.path.map List.length := by
    rcases List.mem_cons.1 hi with rfl | hi
    · rfl
    · exact hshape i hi
  have hss : i.pos.subspace = first.pos.subspace := (hin i hi).1.trans (hin first (by simp)).1.symm
  simp only [Function.comp, List.reverse_cons, List.foldl_append, List.foldl_cons, List.foldl_nil]
  rw [keyWindows_shape p i.pos first.pos i.val hsh (by rw [hss]), keyWindows_read]
  simp [Item.entry, hss]

/-- C118, partial: times, digests and lengths of payloads are right, and so is the number of entries
listed. Missing: paths and subspaces (see `C118_violated`). -/
theorem C118_kept_partial (p : PathParams) (kv : KV) (aoi : AreaOfInterest) (ns buffer : Bytes) (es : List Entry)
    (h : listValues p kv aoi ns = .ok es) :
    ∃ seen, listValuesMem p kv aoi ns buffer = .ok seen ∧
      seen.map (fun e => (e.timestamp, e.payloadDigest, e.payloadLength)) =
        es.map (fun e => (e.timestamp, e.payloadDigest, e.payloadLength)) := by
  obtain ⟨ls, mem, h1, h2⟩ := listValuesMemLoop_kept p aoi ns kv.reverse buffer [] [] 0 es rfl h
  refine ⟨ls.map (Listed.read mem ns), ?_, ?_⟩
  · simp [listValuesMem, h1]
  · rw [← h2, List.map_map]
    rfl

/-- Two entries for examples. -/
def twoListed : List Item := [⟨⟨[7], [[1]], 5⟩, ⟨1, [1, 9], [1, 7]⟩⟩, ⟨⟨[7], [[2]], 6⟩, ⟨3, [1, 8], [1, 7]⟩⟩]

example : (∀ i ∈ twoListed, ValidPath tinyParams i.pos.path ∧ i.val.payloadDigest.length < 2 ^ 64 ∧ i.val.authDigest.length < 2 ^ 64) ∧
    listValues tinyParams (twoListed.map fun i => (encodeKey tinyParams i.pos, encodeValues i.val)) ⟨⟨[7], false, [], ⟨0, 9, false⟩⟩, 0, 0⟩ [42] =
      .ok [⟨[42], [7], [[2]], [1, 8], 3, 6⟩, ⟨[42], [7], [[1]], [1, 9], 1, 5⟩] ∧
    listValuesMem tinyParams (twoListed.map fun i => (encodeKey tinyParams i.pos, encodeValues i.val)) ⟨⟨[7], false, [], ⟨0, 9, false⟩⟩, 0, 0⟩ [42] [] =
      .ok [⟨[42], [7], [[1]], [1, 8], 3, 6⟩, ⟨[42], [7], [[1]], [1, 9], 1, 5⟩] := by
  refine ⟨?_, by decide +kernel, by decide +kernel⟩
  intro i hi
  simp only [twoListed, List.mem_cons, List.not_mem_nil, or_false] at hi
  rcases hi with rfl | rfl <;> exact ⟨⟨by decide, by decide, by decide⟩, by decide, by decide⟩

end Willow.Props
