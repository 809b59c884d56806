import Verif.Lemmas.ClosedValues
import Verif.Props.Helpers

/-! Property C135: values read from the database stay as they were read. -/

namespace Willow.Props

open Willow Spec

/-- C135, partial: if the library never uses memory again, then reading several keys gives the values of each, and listing
everything gives every pair. Missing: a library that does, as it is allowed to (see `C135_violated_multiple`,
`C135_violated_all`, `C135_violated_count`). -/
theorem C135_fresh_partial (kv : KV) (h : Heap) :
    (∀ keys values, getMultipleSeen false kv keys h = some values ↔ keys.map kv.get = values.map some) ∧
    ((kv.map Prod.fst).Nodup → ∀ buffer, listAllSeen false kv buffer h = some kv) := by
  constructor
  · intro keys values
    rw [← C102_multiple]
    rcases getMultiple_fresh (kv := kv) keys h with ⟨e1, e2⟩ | ⟨rs, more, vs, e1, e2, e3, _⟩
    · simp [getMultipleSeen, e1, e2]
    · simp [getMultipleSeen, e1, e2, e3]
  · intro hn buffer
    obtain ⟨found, last, h', e1, e2, _⟩ := listAll_fresh kv (get_of_nodup hn) buffer h
    simp only [listAllSeen, e1, Option.map_some, Bool.false_eq_true, if_false]
    exact congrArg some e2

example : getMultipleSeen false [([1], [7]), ([2], [8, 8])] [[2], [1]] ⟨[], []⟩ = some [[8, 8], [7]] ∧
    listAllSeen false [([1], [7]), ([2], [8, 8])] [] ⟨[], []⟩ = some [([1], [7]), ([2], [8, 8])] := by decide +kernel

/-- C135, partial: whether or not memory is used again, a value is right until something else is read, and an increment
between whose reading and writing nothing else is read is the increment. Missing: as above. -/
theorem C135_alone_partial (reuse : Bool) (kv : KV) (key : Bytes) (h : Heap) (ok : HeapOk h) :
    (driverGetMem reuse kv key h).map (fun x => x.2.read x.1) = kv.get key ∧
    incrementEnd kv key (incrementBegin reuse kv key h).1 (incrementBegin reuse kv key h).2 = refIncrement kv key := by
  cases hv : kv.get key with
  | none =>
    have e : driverGetMem reuse kv key h = none := by simp only [driverGetMem, hv]
    simp [e, incrementBegin, incrementEnd, refIncrement, hv]
  | some v =>
    obtain ⟨r, h', e, _, hl, _, hp, _⟩ := driverGetMem_ok (reuse := reuse) ok hv
    have hr := read_prefix hl hp
    simp [e, incrementBegin, incrementEnd, refIncrement, hv, hr]

example : (driverGetMem true [([1], [7])] [1] ⟨[[9, 9, 9]], [0]⟩).map (fun x => x.2.read x.1) = some [7] ∧
    (driverGetMem true [([1], [7])] [1] ⟨[[9, 9, 9]], [0]⟩).map (fun x => x.2) = some ⟨[[7, 9, 9]], [0]⟩ ∧
    refIncrement [([1], putU64 4)] [1] = .ok (5, [([1], putU64 5)]) := by decide +kernel

/-- C135 is violated: if the library uses memory again once it was given back, then reading several keys whose values have
the same length gives the value of the last for each. -/
theorem C135_violated_multiple (kv : KV) (h : Heap) (ok : HeapOk h) (keys : List Bytes) (last value : Bytes)
    (hlast : kv.get last = some value) (hkeys : ∀ k ∈ keys, ∃ v, kv.get k = some v ∧ v.length = value.length) :
    getMultipleSeen true kv (keys ++ [last]) h = some (List.replicate (keys.length + 1) value) := by
  obtain ⟨s, rs, h', e, hrs, hp, _⟩ := getMultiple_reuse hlast keys hkeys h ok
  simp only [getMultipleSeen, e, Option.map_some, hrs, List.map_replicate]
  rw [read_prefix rfl hp]

example : HeapOk ⟨[[9, 9, 9]], [0]⟩ ∧
    getMultipleSeen true [([1], [7]), ([2], [8])] [[2], [1]] ⟨[[9, 9, 9]], [0]⟩ = some [[7], [7]] ∧
    getMultipleSeen true [([1], [7]), ([2], [8, 5])] [[2], [1]] ⟨[], []⟩ = some [[7, 5], [7]] ∧
    getMultipleSeen false [([1], [7]), ([2], [8])] [[2], [1]] ⟨[[9, 9, 9]], [0]⟩ = some [[8], [7]] :=
  ⟨fun s hs => by simp at hs; simp [hs], by decide, by decide, by decide⟩

/-- C135 is violated: if the library uses memory again, then listing a database whose keys have one length, and whose values
have one length, gives the last pair as often as there are pairs. -/
theorem C135_violated_all (init : KV) (key value : Bytes) (hn : ((init ++ [(key, value)]).map Prod.fst).Nodup)
    (hsame : ∀ x ∈ init, x.1.length = key.length ∧ x.2.length = value.length) (buffer : Bytes) (h : Heap) (ok : HeapOk h) :
    listAllSeen true (init ++ [(key, value)]) buffer h = some (List.replicate (init.length + 1) (key, value)) := by
  have hget := get_of_nodup hn
  obtain ⟨s, found, last, h', e, hf, hb, hp, _⟩ := listAll_reuse (hget (key, value) (by simp)) init
    (fun x hx => ⟨hget x (List.mem_append_left _ hx), hsame x hx⟩) buffer h ok
  simp only [listAllSeen, e, Option.map_some, if_true]
  have : found.map (fun x => ((last.take x.1.2, h'.read x.2) : Bytes × Bytes)) =
      (found.map (fun x => (x.1.2, x.2))).map fun y => (last.take y.1, h'.read y.2) := by
    rw [List.map_map]; rfl
  refine congrArg some (this.trans ?_)
  rw [hf, List.map_replicate]
  dsimp only
  rw [read_prefix rfl hp, ← List.prefix_iff_eq_take.1 hb]

example : ((([([1], [7])] : KV) ++ [([2], [8])]).map Prod.fst).Nodup ∧
    listAllSeen true [([1], [7]), ([2], [8])] [] ⟨[], []⟩ = some [([2], [8]), ([2], [8])] ∧
    listAllSeen false [([1], [7]), ([2], [8])] [] ⟨[], []⟩ = some [([1], [7]), ([2], [8])] := by decide

/-- C135 is violated: if the library uses memory again and the count of one digest is read while that of another is
incremented, after its count was read, then the other gets the successor of the wrong count. -/
theorem C135_violated_count (refs : KV) (h : Heap) (ok : HeapOk h) (digest other : Bytes) (mine theirs : UInt64)
    (hm : refs.get digest = some (putU64 mine.toNat)) (ht : refs.get other = some (putU64 theirs.toNat)) :
    incrementAround true refs digest other h = .ok (theirs + 1, refs.set digest (putU64 (theirs + 1).toNat)) ∧
    incrementAround false refs digest other h = .ok (mine + 1, refs.set digest (putU64 (mine + 1).toNat)) := by
  have hlen : ∀ n, (putU64 n).length = 8 := fun n => rfl
  constructor
  · obtain ⟨r, h1, e1, ok1, l1, f1, _, _⟩ := driverGetMem_ok (reuse := true) ok hm
    obtain ⟨r2, h2, e2, _, l2, _, p2, s2⟩ := driverGetMem_ok (reuse := true) ok1 ht
    have hs : r2.slot = r.slot := s2 rfl _ f1
    have hr : h2.read r = putU64 theirs.toNat := read_prefix (l1.trans ((hlen _).trans (hlen _).symm)) (hs ▸ p2)
    simp only [incrementAround, incrementBegin, e1, e2, incrementEnd, hr, bigEndianUint64_putU64]
    rfl
  · obtain ⟨rs, more, vs, e1, e2, e3, _⟩ := (getMultiple_fresh (kv := refs) [digest, other] h).resolve_left
      fun hc => by simp [getMultipleValues, hm, ht] at hc
    simp only [getMultipleValues, hm, ht, Option.some.injEq] at e2
    simp only [getMultipleValuesMem] at e1
    cases g1 : driverGetMem false refs digest h with
    | none => simp [g1] at e1
    | some x =>
      obtain ⟨r, h1⟩ := x
      simp only [g1] at e1
      cases g2 : driverGetMem false refs other h1 with
      | none => simp [g2] at e1
      | some y =>
        obtain ⟨r2, h2⟩ := y
        simp only [g2, Option.some.injEq, Prod.mk.injEq] at e1
        obtain ⟨rfl, rfl⟩ := e1
        rw [← e2] at e3
        have hr : h2.read r = putU64 mine.toNat := (List.cons.inj e3).1
        simp only [incrementAround, incrementBegin, g1, g2, incrementEnd, hr, bigEndianUint64_putU64]
        rfl

example : (incrementAround true [([1], putU64 4), ([2], putU64 9)] [1] [2] ⟨[], []⟩) =
      .ok (10, [([1], putU64 10), ([2], putU64 9)]) ∧
    (incrementAround false [([1], putU64 4), ([2], putU64 9)] [1] [2] ⟨[], []⟩) =
      .ok (5, [([1], putU64 5), ([2], putU64 9)]) := by decide +kernel

end Willow.Props
