import Verif.Spec.ClosedValues
import Verif.Lemmas.Kv
import Verif.Model.Helpers

/-! Lemmas about the memory of values. -/

namespace Willow.Props

open Willow Spec

theorem load_ok {reuse : Bool} {h : Heap} (ok : HeapOk h) (v : Bytes) :
    ∃ r h', h.load reuse v = (r, h') ∧ HeapOk (h'.close r) ∧ r.len = v.length ∧ r.slot < h'.bufs.length ∧
      v <+: h'.bufs.getD r.slot [] ∧ (reuse = true → ∀ s, h.free.head? = some s → r.slot = s) := by
  unfold Heap.load
  have new : ∀ h0 : h.free = [] ∨ reuse = false, ∃ r h', ((⟨h.bufs.length, v.length⟩, { h with bufs := h.bufs ++ [v] }) : Ref × Heap) = (r, h') ∧
      HeapOk (h'.close r) ∧ r.len = v.length ∧ r.slot < h'.bufs.length ∧
      v <+: h'.bufs.getD r.slot [] ∧ (reuse = true → ∀ s, h.free.head? = some s → r.slot = s) := by
    intro h0
    refine ⟨_, _, rfl, ?_, rfl, by simp, by simp [List.getD], ?_⟩
    · intro s hs
      simp only [Heap.close, List.length_append, List.length_singleton] at hs ⊢
      rcases List.mem_cons.1 hs with rfl | hs
      · simp
      · exact Nat.lt_succ_of_lt (ok s hs)
    · intro hr s hs
      rcases h0 with h0 | h0
      · rw [h0] at hs; cases hs
      · rw [hr] at h0; cases h0
  cases reuse with
  | false => exact new (.inr rfl)
  | true =>
    rw [if_pos rfl]
    cases hf : h.free with
    | nil => rw [hf] at new; exact new (.inl rfl)
    | cons slot rest =>
      have hlt : slot < h.bufs.length := ok slot (hf ▸ List.mem_cons_self)
      refine ⟨_, _, rfl, ?_, rfl, by simpa using hlt, ?_, ?_⟩
      · intro s hs
        simp only [Heap.close, List.length_set] at hs ⊢
        rcases List.mem_cons.1 hs with rfl | hs
        · exact hlt
        · exact ok s (hf ▸ List.mem_cons_of_mem _ hs)
      · simp [List.getD, List.getElem?_set, hlt]
      · intro _ s hs
        simpa using hs

theorem driverGetMem_ok {reuse : Bool} {kv : KV} {key v : Bytes} {h : Heap} (ok : HeapOk h) (hv : kv.get key = some v) :
    ∃ r h', driverGetMem reuse kv key h = some (r, h') ∧ HeapOk h' ∧ r.len = v.length ∧ h'.free.head? = some r.slot ∧
      v <+: h'.bufs.getD r.slot [] ∧ (reuse = true → ∀ s, h.free.head? = some s → r.slot = s) := by
  obtain ⟨r, h', e, ok', hl, _, hp, hs⟩ := load_ok (reuse := reuse) ok v
  exact ⟨r, h'.close r, by simp only [driverGetMem, hv, e], ok', hl, rfl, hp, hs⟩

theorem read_prefix {h : Heap} {r : Ref} {v : Bytes} (hl : r.len = v.length) (hp : v <+: h.bufs.getD r.slot []) : h.read r = v := by
  rw [Heap.read, hl]
  exact (List.prefix_iff_eq_take.1 hp).symm

theorem getMultiple_reuse {kv : KV} {last value : Bytes} (hlast : kv.get last = some value) :
    ∀ (keys : List Bytes), (∀ k ∈ keys, ∃ v, kv.get k = some v ∧ v.length = value.length) → ∀ h, HeapOk h →
    ∃ s rs h', getMultipleValuesMem true kv (keys ++ [last]) h = some (rs, h') ∧ rs = List.replicate (keys.length + 1) ⟨s, value.length⟩ ∧
      value <+: h'.bufs.getD s [] ∧ ∀ s0, h.free.head? = some s0 → s = s0 := by
  intro keys
  induction keys with
  | nil =>
    intro _ h ok
    obtain ⟨r, h', e, _, hl, _, hp, hs⟩ := driverGetMem_ok (reuse := true) ok hlast
    refine ⟨r.slot, [r], h', by simp only [List.nil_append, getMultipleValuesMem, e], ?_, hp, hs rfl⟩
    rw [← hl]; rfl
  | cons k keys ih =>
    intro hk h ok
    obtain ⟨v, hv, hlen⟩ := hk k List.mem_cons_self
    obtain ⟨r, h1, e, ok1, hl, hf, _, hs⟩ := driverGetMem_ok (reuse := true) ok hv
    obtain ⟨s, rs, h', e', hrs, hp, hs'⟩ := ih (fun x hx => hk x (List.mem_cons_of_mem _ hx)) h1 ok1
    have := hs' _ hf
    subst this
    refine ⟨r.slot, r :: rs, h', by simp only [List.cons_append, getMultipleValuesMem, e, e'], ?_, hp, hs rfl⟩
    rw [hrs, ← hlen, ← hl]; rfl

theorem getMultiple_fresh {kv : KV} (keys : List Bytes) :
    ∀ h : Heap, (getMultipleValuesMem false kv keys h = none ∧ getMultipleValues kv keys = none) ∨
      ∃ rs more values, getMultipleValuesMem false kv keys h = some (rs, more) ∧ getMultipleValues kv keys = some values ∧
        rs.map more.read = values ∧ h.bufs <+: more.bufs := by
  induction keys with
  | nil => exact fun h => .inr ⟨[], h, [], rfl, rfl, rfl, List.prefix_rfl⟩
  | cons k keys ih =>
    intro h
    cases hv : kv.get k with
    | none => exact .inl ⟨by simp only [getMultipleValuesMem, driverGetMem, hv], by simp only [getMultipleValues, hv]⟩
    | some v =>
      have e : driverGetMem false kv k h = some (⟨h.bufs.length, v.length⟩, ⟨h.bufs ++ [v], h.bufs.length :: h.free⟩) := by
        simp only [driverGetMem, hv]; rfl
      rcases ih ⟨h.bufs ++ [v], h.bufs.length :: h.free⟩ with ⟨e1, e2⟩ | ⟨rs, more, values, e1, e2, e3, e4⟩
      · exact .inl ⟨by simp only [getMultipleValuesMem, e, e1], by simp only [getMultipleValues, hv, e2]⟩
      · refine .inr ⟨⟨h.bufs.length, v.length⟩ :: rs, more, v :: values, by simp only [getMultipleValuesMem, e, e1], by simp only [getMultipleValues, hv, e2], ?_, ?_⟩
        · rw [List.map_cons, e3]
          congr 1
          obtain ⟨t, ht⟩ := e4
          rw [Heap.read, ← ht]
          simp [List.getD]
        · exact (List.prefix_append _ _).trans e4

theorem listAll_reuse {kv : KV} {key value : Bytes} (hlast : kv.get key = some value) :
    ∀ (init : List (Bytes × Bytes)), (∀ x ∈ init, kv.get x.1 = some x.2 ∧ x.1.length = key.length ∧ x.2.length = value.length) →
    ∀ buffer h, HeapOk h →
    ∃ s found last h', listAllValuesMem true kv (init ++ [(key, value)]) buffer h = some (found, last, h') ∧
      found.map (fun x => (x.1.2, x.2)) = List.replicate (init.length + 1) (key.length, ⟨s, value.length⟩) ∧
      key <+: last ∧ value <+: h'.bufs.getD s [] ∧ ∀ s0, h.free.head? = some s0 → s = s0 := by
  intro init
  induction init with
  | nil =>
    intro _ buffer h ok
    obtain ⟨r, h', e, _, hl, _, hp, hs⟩ := driverGetMem_ok (reuse := true) ok hlast
    refine ⟨r.slot, [((key ++ buffer.drop key.length, key.length), r)], key ++ buffer.drop key.length, h', by simp only [List.nil_append, listAllValuesMem, e], ?_, List.prefix_append _ _, hp, hs rfl⟩
    rw [← hl]; rfl
  | cons x init ih =>
    intro hk buffer h ok
    obtain ⟨hv, hlk, hlen⟩ := hk x List.mem_cons_self
    obtain ⟨r, h1, e, ok1, hl, hf, _, hs⟩ := driverGetMem_ok (reuse := true) ok hv
    obtain ⟨s, found, last, h', e', hrs, hb, hp, hs'⟩ :=
      ih (fun x hx => hk x (List.mem_cons_of_mem _ hx)) (x.1 ++ buffer.drop x.1.length) h1 ok1
    have := hs' _ hf
    subst this
    refine ⟨r.slot, ((x.1 ++ buffer.drop x.1.length, x.1.length), r) :: found, last, h', by simp only [List.cons_append, listAllValuesMem, e, e'], ?_, hb, hp, hs rfl⟩
    rw [List.map_cons, hrs, ← hlen, ← hl, ← hlk]; rfl

theorem listAll_fresh {kv : KV} : ∀ (l : List (Bytes × Bytes)), (∀ x ∈ l, kv.get x.1 = some x.2) → ∀ buffer (h : Heap),
    ∃ found last h', listAllValuesMem false kv l buffer h = some (found, last, h') ∧
      found.map (fun x => (x.1.1.take x.1.2, h'.read x.2)) = l ∧ h.bufs <+: h'.bufs := by
  intro l
  induction l with
  | nil => exact fun _ buffer h => ⟨[], buffer, h, rfl, rfl, List.prefix_rfl⟩
  | cons x l ih =>
    intro hk buffer h
    have hv := hk x List.mem_cons_self
    have e : driverGetMem false kv x.1 h = some (⟨h.bufs.length, x.2.length⟩, ⟨h.bufs ++ [x.2], h.bufs.length :: h.free⟩) := by
      simp only [driverGetMem, hv]; rfl
    obtain ⟨found, last, h', e1, e2, e3⟩ := ih (fun x hx => hk x (List.mem_cons_of_mem _ hx)) (x.1 ++ buffer.drop x.1.length)
      ⟨h.bufs ++ [x.2], h.bufs.length :: h.free⟩
    refine ⟨((x.1 ++ buffer.drop x.1.length, x.1.length), ⟨h.bufs.length, x.2.length⟩) :: found, last, h', by simp only [listAllValuesMem, e, e1], ?_, (List.prefix_append _ _).trans e3⟩
    rw [List.map_cons, e2]
    obtain ⟨t, ht⟩ := e3
    have : h'.read ⟨h.bufs.length, x.2.length⟩ = x.2 := by
      rw [Heap.read, ← ht]
      simp [List.getD]
    rw [this]
    simp

theorem get_of_nodup {kv : KV} (hn : (kv.map Prod.fst).Nodup) : ∀ x ∈ kv, kv.get x.1 = some x.2 := by
  induction kv with
  | nil => exact fun x hx => by cases hx
  | cons y kv ih =>
    rw [List.map_cons, List.nodup_cons] at hn
    intro x hx
    rcases List.mem_cons.1 hx with rfl | hx
    · simp [KV.get]
    · have hne : y.1 ≠ x.1 := fun e => hn.1 (e ▸ List.mem_map_of_mem hx)
      show (if y.1 = x.1 then some y.2 else KV.get kv x.1) = some x.2
      rw [if_neg hne]
      exact ih hn.2 x hx

end Willow.Props
