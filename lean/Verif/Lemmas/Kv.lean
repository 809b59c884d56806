import Verif.Model.Store
import Verif.Spec.Store
import Verif.Lemmas.KdTree
import Verif.Lemmas.Successor
import Verif.Lemmas.Paths
import Verif.Lemmas.Encoding

/-! Lemmas about the key-value store, the k-d tree contract and the path ranges. -/

namespace Willow

open Spec

/-! ### Finite maps -/

theorem KV.get_set_self (kv : KV) (k v : Bytes) : (kv.set k v).get k = some v := by
  induction kv with
  | nil => simp [KV.set, KV.get]
  | cons e rest ih =>
    obtain ⟨k', v'⟩ := e
    unfold KV.set
    split
    · simp [KV.get]
    · simp [KV.get]
    · rename_i h
      have hne : k' ≠ k := by
        intro h'; rw [h', decides_bytes.gt_iff] at h; exact bytesLt_strictTotal.irrefl _ h
      simp [KV.get, hne, ih]

theorem KV.get_set_ne (kv : KV) {k j : Bytes} (v : Bytes) (h : j ≠ k) : (kv.set k v).get j = kv.get j := by
  induction kv with
  | nil => simp [KV.set, KV.get, Ne.symm h]
  | cons e rest ih =>
    obtain ⟨k', v'⟩ := e
    unfold KV.set
    split
    · simp [KV.get, Ne.symm h]
    · rename_i h'
      rw [decides_bytes.eq_iff] at h'
      subst h'
      simp [KV.get, Ne.symm h]
    · simp only [KV.get, ih]

theorem KV.get_set (kv : KV) (k j v : Bytes) : (kv.set k v).get j = if j = k then some v else kv.get j := by
  split
  · rename_i h; rw [h, KV.get_set_self]
  · rename_i h; rw [KV.get_set_ne _ _ h]

theorem KV.get_delete (kv : KV) (k j : Bytes) : (kv.delete k).get j = if j = k then none else kv.get j := by
  induction kv with
  | nil => simp [KV.delete, KV.get]
  | cons e rest ih =>
    obtain ⟨k', v'⟩ := e
    unfold KV.delete at ih ⊢
    rw [List.filter_cons]
    by_cases h : k' = k
    · simp only [h, ne_eq, not_true_eq_false, decide_false, Bool.false_eq_true, if_false, ih]
      by_cases hj : j = k
      · simp [hj]
      · simp [hj, KV.get, Ne.symm hj]
    · simp only [ne_eq, h, not_false_eq_true, decide_true, if_true, KV.get, ih]
      by_cases hj : j = k
      · subst hj; simp [h]
      · simp [hj]

/-- Keys in strictly ascending order. -/
def KV.Sorted (kv : KV) : Prop := kv.Pairwise fun a b => BytesLt a.1 b.1

theorem KV.mem_set {kv : KV} {k v : Bytes} {e : Bytes × Bytes} (h : e ∈ kv.set k v) : e = (k, v) ∨ e ∈ kv := by
  induction kv with
  | nil => simpa [KV.set] using h
  | cons e' rest ih =>
    obtain ⟨k', v'⟩ := e'
    unfold KV.set at h
    split at h
    · simpa using h
    · simp at h ⊢; rcases h with h | h <;> simp [h]
    · simp only [List.mem_cons] at h ⊢
      rcases h with h | h
      · exact .inr (.inl h)
      · rcases ih h with h | h
        · exact .inl h
        · exact .inr (.inr h)

theorem KV.sorted_set {kv : KV} (h : kv.Sorted) (k v : Bytes) : (kv.set k v).Sorted := by
  induction kv with
  | nil => simp [KV.set, KV.Sorted]
  | cons e rest ih =>
    obtain ⟨k', v'⟩ := e
    have hs := h
    unfold KV.Sorted at h
    rw [List.pairwise_cons] at h
    unfold KV.set
    split
    · rename_i ho
      rw [decides_bytes.lt_iff] at ho
      refine List.pairwise_cons.2 ⟨?_, hs⟩
      intro a ha
      rcases List.mem_cons.1 ha with rfl | ha
      · exact ho
      · exact bytesLt_strictTotal.trans _ _ _ ho (h.1 a ha)
    · rename_i ho
      rw [decides_bytes.eq_iff] at ho
      subst ho
      exact List.pairwise_cons.2 ⟨h.1, h.2⟩
    · rename_i ho
      rw [decides_bytes.gt_iff] at ho
      refine List.pairwise_cons.2 ⟨?_, ih h.2⟩
      intro a ha
      rcases KV.mem_set ha with rfl | ha
      · exact ho
      · exact h.1 a ha

theorem KV.sorted_delete {kv : KV} (h : kv.Sorted) (k : Bytes) : (kv.delete k).Sorted := List.Pairwise.filter _ h

theorem KV.get_eq_none {kv : KV} {k : Bytes} : kv.get k = none ↔ ∀ e ∈ kv, e.1 ≠ k := by
  induction kv with
  | nil => simp [KV.get]
  | cons e rest ih =>
    obtain ⟨k', v'⟩ := e
    simp only [KV.get, List.mem_cons, forall_eq_or_imp]
    split
    · simp_all
    · simp_all

theorem KV.get_mem {kv : KV} {k v : Bytes} (h : kv.get k = some v) : (k, v) ∈ kv := by
  induction kv with
  | nil => simp [KV.get] at h
  | cons e rest ih =>
    obtain ⟨k', v'⟩ := e
    simp only [KV.get] at h
    split at h
    · simp_all
    · exact List.mem_cons_of_mem _ (ih h)

theorem KV.get_of_mem {kv : KV} (hs : kv.Sorted) {k v : Bytes} (h : (k, v) ∈ kv) : kv.get k = some v := by
  induction kv with
  | nil => simp at h
  | cons e rest ih =>
    obtain ⟨k', v'⟩ := e
    unfold KV.Sorted at hs
    rw [List.pairwise_cons] at hs
    simp only [KV.get]
    rcases List.mem_cons.1 h with h | h
    · simp at h; simp [h]
    · have : k' ≠ k := bytesLt_strictTotal.ne (hs.1 _ h)
      rw [if_neg this, ih hs.2 h]

theorem KV.set_perm {kv : KV} {k : Bytes} (v : Bytes) (h : ∀ e ∈ kv, e.1 ≠ k) : (kv.set k v).Perm ((k, v) :: kv) := by
  induction kv with
  | nil => simp [KV.set]
  | cons e rest ih =>
    obtain ⟨k', v'⟩ := e
    unfold KV.set
    split
    · exact List.Perm.refl _
    · rename_i ho
      rw [decides_bytes.eq_iff] at ho
      exact absurd ho.symm (h _ List.mem_cons_self)
    · exact ((ih fun e he => h e (List.mem_cons_of_mem _ he)).cons _).trans (List.Perm.swap _ _ _)

/-! ### Counts -/

theorem bigEndianUint64_putU64 (c : UInt64) : bigEndianUint64 (putU64 c.toNat) = .ok c := by
  unfold bigEndianUint64
  have hl : (putU64 c.toNat).length = 8 := by rw [putU64_eq, beBytes_length]
  rw [if_neg (by omega), List.take_of_length_le (by omega), putU64_eq, getBE_beBytes,
    Nat.mod_eq_of_lt c.toNat_lt]
  simp

/-! ### Ranges of the store -/

theorem subspaceRange_iff (s t : Bytes) :
    InRange BytesLt ⟨s, successorSubspaceId s, false⟩ t ↔ t = s := by
  constructor
  · rintro ⟨h1, h2 | h2⟩
    · simp at h2
    · rcases bytesLt_strictTotal.tri t s with h' | h' | h'
      · exact absurd h' h1
      · exact h'
      · exact absurd h2 (bytesLt_snoc_zero_imm s t h')
  · rintro rfl
    exact ⟨bytesLt_strictTotal.irrefl _, .inr (lexLt_append _ (by simp))⟩

theorem anyTime_iff (t : UInt64) : InRange TimeLt ⟨0, 2, true⟩ t := by
  refine ⟨?_, .inl rfl⟩
  simp [TimeLt, UInt64.lt_iff_toNat_lt]

theorem pathPoint_iff (path q : Path) : InRange PathLt ⟨path, path ++ [[]], false⟩ q ↔ q = path := by
  constructor
  · rintro ⟨h1, h2 | h2⟩
    · simp at h2
    · rcases pathLt_strictTotal.tri q path with h' | h' | h'
      · exact absurd h' h1
      · exact h'
      · exact absurd h2 (snoc_nil_imm h')
  · rintro rfl
    exact ⟨pathLt_strictTotal.irrefl _, .inr (lexLt_append _ (by simp))⟩

/-! ### Comfortable paths -/

theorem Spec.Comfortable.of_last {p : PathParams} {path : Path} (hv : ValidPath p path) (hne : path ≠ [])
    (ht : pathBytes path < p.pl) (hl : ∀ c, path.getLast? = some c → c.length < p.cl) : Comfortable p path := by
  obtain ⟨pre, c, hpc⟩ : ∃ pre c, path = pre ++ [c] := by
    rcases List.eq_nil_or_concat path with h | ⟨a, b, h⟩
    · exact absurd h hne
    · exact ⟨a, b, by simpa using h⟩
  exact ⟨hv, pre, c, [], hpc, hl c (by simp [hpc]), hpc ▸ ht, by simp⟩

theorem Spec.Comfortable.ne {p : PathParams} {path : Path} (h : Comfortable p path) : path ≠ [] := by
  obtain ⟨pre, c, post, rfl, _⟩ := h.room
  simp

theorem tryAppendZeroByte_full (p : PathParams) : tryAppendZeroByte (List.replicate p.cl 255) p = none := by
  unfold tryAppendZeroByte
  rw [List.length_replicate, conv_of_le (Nat.le_refl _) p.hcl, if_pos rfl]

theorem prefixSuccessorLoop_255 (n : Nat) : ∀ i, prefixSuccessorLoop (List.replicate n 255) i = none
  | 0 => rfl
  | i + 1 => by
    unfold prefixSuccessorLoop
    by_cases h : i < n
    · simp only [List.getElem?_replicate, h, if_true]
      simpa using prefixSuccessorLoop_255 n i
    · simp only [List.getElem?_replicate, h, if_false]

theorem successorBytesLoop_255 (n : Nat) : ∀ i ≤ n, ∀ l : Bytes, l.length = n → (∀ j < i, l[j]? = some 255) →
    successorBytesLoop l i = none
  | 0, _, _, _, _ => rfl
  | i + 1, hi, l, hl, h => by
    unfold successorBytesLoop
    rw [h i (by omega)]
    simp only [ge_iff_le, UInt8.le_refl, if_true]
    refine successorBytesLoop_255 n i (by omega) _ (by simpa using hl) fun j hj => ?_
    rw [List.getElem?_set_ne (by omega)]
    exact h j (by omega)

theorem successorBytes_255 (n : Nat) : successorBytesFixedWidth (List.replicate n 255) = none := by
  unfold successorBytesFixedWidth
  refine successorBytesLoop_255 n _ (by simp) _ (by simp) fun j hj => ?_
  simp at hj
  simp [hj]

section
variable {p : PathParams} {pre : Path} {c : Bytes} {post : Path}

/-- The loops over the components skip the largest ones. -/
theorem loops_skip (hpost : ∀ d ∈ post, d = List.replicate p.cl 255) : ∀ k ≤ post.length,
    successorPathLoop (pre ++ c :: post) p (pre.length + 1 + k) =
      successorPathLoop (pre ++ c :: post) p (pre.length + 1) ∧
    successorPrefixLoop (pre ++ c :: post) p (pre.length + 1 + k) =
      successorPrefixLoop (pre ++ c :: post) p (pre.length + 1) ∧
    successorPrefixMutatedLoop (pre ++ c :: post) p (pre.length + 1 + k) =
      successorPrefixMutatedLoop (pre ++ c :: post) p (pre.length + 1)
  | 0, _ => ⟨rfl, rfl, rfl⟩
  | k + 1, hk => by
    have hget : (pre ++ c :: post)[pre.length + 1 + k]? = some (List.replicate p.cl 255) := by
      rw [List.getElem?_append_right (by omega), show pre.length + 1 + k - pre.length = k + 1 by omega,
        List.getElem?_cons_succ, List.getElem?_eq_getElem (by omega), hpost _ (List.getElem_mem _)]
    obtain ⟨h1, h2, h3⟩ := loops_skip hpost k (by omega)
    have hp : prefixSuccessor (List.replicate p.cl 255) = none := prefixSuccessorLoop_255 _ _
    refine ⟨?_, ?_, ?_⟩
    · rw [← h1, ← Nat.add_assoc]
      conv => lhs; unfold successorPathLoop
      rw [hget]
      simp only [tryAppendZeroByte_full, successorBytes_255]
    · rw [← h2, ← Nat.add_assoc]
      conv => lhs; unfold successorPrefixLoop
      rw [hget]
      simp only [tryAppendZeroByte_full, hp]
    · rw [← h3, ← Nat.add_assoc]
      conv => lhs; unfold successorPrefixMutatedLoop
      rw [hget]
      simp only [tryAppendZeroByte_full, hp]

variable (hv : ValidPath p (pre ++ c :: post)) (hc : c.length < p.cl) (ht : pathBytes (pre ++ [c]) < p.pl)
  (hpost : ∀ d ∈ post, d = List.replicate p.cl 255)
include hv hc ht hpost

omit hv ht hpost in
theorem tryAppend_room : tryAppendZeroByte c p = some (c ++ [0]) := by
  unfold tryAppendZeroByte
  rw [conv_of_le (Nat.le_of_lt hc) p.hcl, if_neg (by omega)]

omit hc hpost in
theorem append_room : pathAppend pre (c ++ [0]) p = .ok (pre ++ [c ++ [0]]) := by
  apply pathAppend_succeeds
  · have := hv.count
    simp at this
    omega
  · rw [pathBytes_append] at ht
    simp [pathBytes] at ht ⊢
    omega

theorem successorPrefix_room : successorPrefix (pre ++ c :: post) p = .ok (some (pre ++ [c ++ [0]])) := by
  unfold successorPrefix
  have := (loops_skip (pre := pre) (c := c) hpost post.length (Nat.le_refl _)).2.1
  rw [show (pre ++ c :: post).length = pre.length + 1 + post.length by simp; omega, this]
  unfold successorPrefixLoop
  rw [List.getElem?_append_right (Nat.le_refl _), Nat.sub_self, List.getElem?_cons_zero]
  simp only [tryAppend_room hc]
  rw [List.take_left, append_room hv ht]
  rfl

omit hv ht in
theorem successorPrefixMutated_room : successorPrefixMutated (pre ++ c :: post) p = pre ++ c :: post := by
  unfold successorPrefixMutated
  have := (loops_skip (pre := pre) (c := c) hpost post.length (Nat.le_refl _)).2.2
  rw [show (pre ++ c :: post).length = pre.length + 1 + post.length by simp; omega, this]
  unfold successorPrefixMutatedLoop
  rw [List.getElem?_append_right (Nat.le_refl _), Nat.sub_self, List.getElem?_cons_zero]
  simp only [tryAppend_room hc]

theorem successorPath_room (hl : (pre ++ c :: post).length = p.cc) :
    successorPath (pre ++ c :: post) p = .ok (some (pre ++ [c ++ [0]])) := by
  unfold successorPath
  rw [if_neg (by simp), conv_of_le hv.count p.hcc, if_neg (by omega)]
  have := (loops_skip (pre := pre) (c := c) hpost post.length (Nat.le_refl _)).1
  rw [show (pre ++ c :: post).length = pre.length + 1 + post.length by simp; omega, this]
  unfold successorPathLoop
  rw [List.getElem?_append_right (Nat.le_refl _), Nat.sub_self, List.getElem?_cons_zero]
  simp only [tryAppend_room hc]
  rw [List.take_left, append_room hv ht]
  rfl

end

theorem pointRange_short {p : PathParams} {path : Path} (hv : ValidPath p path) (hl : path.length < p.cc) (s : Bytes) :
    ∃ r, pointRange p s path = .ok r ∧ ∀ x : Position, InRange3d r x ↔ x.subspace = s ∧ x.path = path := by
  refine ⟨_, by unfold pointRange; rw [successorPath_short hv hl]; rfl, fun x => ?_⟩
  unfold InRange3d
  simp only [Option.getD_some, subspaceRange_iff, pathPoint_iff, anyTime_iff, and_true]

theorem pointRange_ok {p : PathParams} {path : Path} (hv : ValidPath p path)
    (hl : path.length < p.cc ∨ Comfortable p path) (s : Bytes) :
    ∃ r, pointRange p s path = .ok r ∧ ∀ x : Position, ValidPath p x.path →
      (InRange3d r x ↔ x.subspace = s ∧ x.path = path) := by
  by_cases hlt : path.length < p.cc
  · obtain ⟨r, h1, h2⟩ := pointRange_short hv hlt s
    exact ⟨r, h1, fun x _ => h2 x⟩
  · have hlen : path.length = p.cc := by have := hv.count; omega
    obtain ⟨pre, c, post, rfl, hc, ht, hpost⟩ := (hl.resolve_left hlt).room
    have hsu := successorPath_room hv hc ht hpost hlen
    refine ⟨_, by unfold pointRange; rw [hsu]; rfl, fun x hx => ?_⟩
    unfold InRange3d
    simp only [Option.getD_some, subspaceRange_iff, anyTime_iff, and_true]
    have key : InRange PathLt ⟨pre ++ c :: post, pre ++ [c ++ [0]], false⟩ x.path ↔ x.path = pre ++ c :: post := by
      have hmax : ∀ d ∈ post, Maximal p.cl d := fun d hd => by
        rw [hpost d hd]; exact replicate_255_maximal _
      have hs := immSucc_snoc_zero hc
      constructor
      · rintro ⟨h1, h2 | h2⟩
        · simp at h2
        · exact ((between_succ hs hmax hx.comp h1 h2).eq_of_length_le
            (by have := hx.count; omega)).symm
      · rintro h
        rw [h]
        exact ⟨pathLt_strictTotal.irrefl _, .inr (ext_lt_succ hs.lt (List.prefix_refl _))⟩
    rw [key]

/-- Members of the range of `PrefixedBy`: the proper extensions. -/
theorem belowRange_comfortable {p : PathParams} {path : Path} (hcf : Comfortable p path) (s : Bytes) :
    ∃ r, belowRange p s path = .ok r ∧ ∀ x : Position, ValidPath p x.path →
      (InRange3d r x ↔ x.subspace = s ∧ path <+: x.path ∧ x.path ≠ path) := by
  have hv := hcf.valid
  obtain ⟨pre, c, post, rfl, hc, ht, hpost⟩ := hcf.room
  have hsp := successorPrefix_room hv hc ht hpost
  have hmax : ∀ d ∈ post, Maximal p.cl d := fun d hd => by
    rw [hpost d hd]; exact replicate_255_maximal _
  have hs := immSucc_snoc_zero hc
  have hmut := successorPrefixMutated_room (pre := pre) hc hpost
  by_cases hlt : (pre ++ c :: post).length < p.cc
  · have hb : belowRange p s (pre ++ c :: post) =
        .ok ⟨⟨s, successorSubspaceId s, false⟩, ⟨pre ++ c :: post ++ [[]], pre ++ [c ++ [0]], false⟩, ⟨0, 2, true⟩⟩ := by
      unfold belowRange
      rw [successorPath_short hv hlt, hsp, hmut]
      simp only [Res.ok_bind, Option.getD_some, List.length_append, List.length_singleton, if_true]
      rw [← List.length_append, List.drop_left]
    refine ⟨_, hb, fun x hx => ?_⟩
    unfold InRange3d
    simp only [subspaceRange_iff, anyTime_iff, and_true]
    have key : InRange PathLt ⟨pre ++ c :: post ++ [[]], pre ++ [c ++ [0]], false⟩ x.path ↔
        (pre ++ c :: post) <+: x.path ∧ x.path ≠ pre ++ c :: post := by
      constructor
      · rintro ⟨h1, h2 | h2⟩
        · simp at h2
        · have hlt : PathLt (pre ++ c :: post) x.path := by
            rcases pathLt_strictTotal.tri (pre ++ c :: post) x.path with h | h | h
            · exact h
            · exfalso; apply h1; rw [← h]; exact lexLt_append _ (by simp)
            · exfalso; apply h1
              exact pathLt_strictTotal.trans _ _ _ h (lexLt_append _ (by simp))
          exact ⟨between_succ hs hmax hx.comp (pathLt_strictTotal.asymm hlt) h2, (pathLt_strictTotal.ne hlt).symm⟩
      · rintro ⟨h1, h2⟩
        refine ⟨?_, .inr (ext_lt_succ hs.lt h1)⟩
        have hlt : PathLt (pre ++ c :: post) x.path := by
          obtain ⟨t, ht⟩ := h1
          rw [← ht]
          apply lexLt_append
          rintro rfl
          rw [List.append_nil] at ht
          exact h2 ht.symm
        exact snoc_nil_imm hlt
    rw [key]
  · have hlen : (pre ++ c :: post).length = p.cc := by have := hv.count; omega
    have hb : belowRange p s (pre ++ c :: post) =
        .ok ⟨⟨s, successorSubspaceId s, false⟩, ⟨pre ++ [c ++ [0]], pre ++ [c ++ [0]], false⟩, ⟨0, 2, true⟩⟩ := by
      unfold belowRange
      rw [successorPath_room hv hc ht hpost hlen, hsp]
      simp only [Res.ok_bind, Option.getD_some]
      rw [if_neg (by simp)]
    refine ⟨_, hb, fun x hx => ?_⟩
    constructor
    · rintro ⟨_, ⟨h1, h2⟩, _⟩
      simp at h2
      exact absurd h2 h1
    · rintro ⟨_, h1, h2⟩
      exact absurd (h1.eq_of_length_le (by have := hx.count; omega)).symm h2

end Willow
