import Verif.Lemmas.PropsSubspaces
import Verif.Lemmas.PropsCommands
import Verif.Lemmas.Limits
import Verif.Spec.InvalidPaths
import Verif.Spec.StoreOps

/-! Writes at paths beyond the limits. -/

namespace Willow
open Spec Props

theorem maximal_replicate {c : Bytes} (h : successorBytesFixedWidth c = none) : c = List.replicate c.length 255 := by
  have h1 := successorBytesLoop_none c.length c (Nat.le_refl _) h
  apply List.ext_getElem?
  intro j
  by_cases hj : j < c.length
  · rw [h1 j hj]; simp [hj]
  · simp [hj]

theorem pathAppend_many {p : PathParams} {path : Path} (c : Bytes) (h : p.cc < path.length + 1) (hw : path.length + 1 < 2 ^ p.bits) :
    pathAppend path c p = .crash := by
  unfold pathAppend
  rw [conv_of_le (Nat.le_refl _) hw, if_pos h]

theorem pathAppend_big {p : PathParams} {path : Path} (c : Bytes) (h : p.pl < c.length + pathBytes path)
    (hw : c.length + pathBytes path < 2 ^ p.bits) : pathAppend path c p = .crash := by
  unfold pathAppend
  split
  · rfl
  · rw [totalLength_eq, conv_of_le (Nat.le_refl _) hw, if_pos h]

theorem successorPath_tooBig {p : PathParams} {path : Path} (hb : TooBig p path) (he : PlainEnd p path)
    (hw : path.length + 1 < 2 ^ p.bits) (hw' : pathBytes path + 1 < 2 ^ p.bits) : successorPath path p = .crash := by
  have hne : path ≠ [] := by
    rintro rfl
    rcases hb with hb | hb
    · simp at hb
    · simp [pathBytes] at hb
  unfold successorPath
  rw [if_neg (by simpa using hne), conv_of_le (Nat.le_succ _) hw]
  split
  · rename_i hl
    have hb' : p.pl < pathBytes path := by
      rcases hb with hb | hb
      · omega
      · exact hb
    rw [pathAppend_big [] (by simpa using hb') (by simp; omega)]
    rfl
  · rename_i hl
    have hlast : path.getLast? ≠ some (List.replicate p.cl 255) := he.resolve_left hl
    obtain ⟨pre, c, rfl⟩ : ∃ pre c, path = pre ++ [c] := ⟨_, _, (List.dropLast_concat_getLast hne).symm⟩
    rw [List.length_append, List.length_singleton] at hw hl ⊢
    unfold successorPathLoop
    simp only [List.getElem?_append_right (Nat.le_refl _), Nat.sub_self, List.getElem?_cons_zero]
    have hpb : pathBytes (pre ++ [c]) = pathBytes pre + c.length := by
      rw [pathBytes_lengths, pathBytes_lengths]; simp
    have hcl : c.length < 2 ^ p.bits := by omega
    unfold tryAppendZeroByte
    rw [conv_of_le (Nat.le_refl _) hcl]
    by_cases hc : c.length = p.cl
    · rw [if_pos hc]
      dsimp only
      split
      · rw [pathAppend_many]
        · rfl
        · simp; omega
        · simp; omega
      · rename_i hn
        exfalso
        refine hlast ?_
        rw [List.getLast?_concat, maximal_replicate hn, hc]
    · rw [if_neg hc]
      dsimp only
      rw [List.take_left']
      · rcases hb with hb | hb
        · rw [pathAppend_many]
          · rfl
          · simp at hb; omega
          · omega
        · rw [pathAppend_big]
          · rfl
          · simp; omega
          · simp; omega
      · rfl

theorem entryGet_tooBig {env : StoreEnv} (st : StoreState) (s : Bytes) {path : Path} (h : successorPath path env.p = .crash) :
    entryGet env st s path = .crash := by
  unfold entryGet storageGet pointRange
  rw [h]
  rfl

theorem driverPrefixesLoop_total (lib : KdLib) (p : PathParams) (kd : List KdKey) (s : Bytes) : ∀ ps : List Path,
    driverPrefixesLoop lib p kd s ps = .crash ∨
      ∃ ks, driverPrefixesLoop lib p kd s ps = .ok ks ∧ ∀ k ∈ ks, k ∈ kd ∧ k.pos.subspace = s
  | [] => .inr ⟨[], rfl, by simp⟩
  | q :: qs => by
    unfold driverPrefixesLoop
    cases hr : pointRange p s q with
    | ok r =>
      rcases driverPrefixesLoop_total lib p kd s qs with h | ⟨ks, h, hk⟩
      · left; rw [h]; rfl
      · right
        rw [h]
        refine ⟨_, rfl, fun k hk' => ?_⟩
        rcases List.mem_append.1 hk' with hk' | hk'
        · have := List.mem_filter.1 ((lib.perm _ _).mem_iff.1 hk')
          exact ⟨this.1, query_subspace (pointRange_subspace hr) this.2⟩
        · exact hk k hk'
    | crash => exact .inl rfl
    | err => rcases successorPath_total q p with h | ⟨x, h⟩ <;> simp [pointRange, h] at hr
    | block => rcases successorPath_total q p with h | ⟨x, h⟩ <;> simp [pointRange, h] at hr

theorem driverPrefixesOf_total (lib : KdLib) (p : PathParams) (kd : List KdKey) (s : Bytes) (path : Path) :
    driverPrefixesOf lib p kd s path = .crash ∨
      ∃ ks, driverPrefixesOf lib p kd s path = .ok ks ∧ ∀ k ∈ ks, k ∈ kd ∧ k.pos.subspace = s := by
  unfold driverPrefixesOf
  dsimp only
  unfold slice
  split
  · exact driverPrefixesLoop_total lib p kd s _
  · exact .inl rfl

/-- What happens to an entry whose path is beyond the limits. -/
theorem ingestEntry_tooBig {env : StoreEnv} {st : StoreState} {e : Entry} {tok : Bytes} (h : successorPath e.path env.p = .crash)
    (hl : st.locked = false) : ingestEntry env st e tok = .crash ∨ ingestEntry env st e tok = .ok (none, st) := by
  unfold ingestEntry
  rw [hl]
  simp only [Bool.false_eq_true, if_false]
  split
  · exact .inr rfl
  split
  · exact .inr rfl
  rcases driverPrefixesOf_total env.lib env.p st.kd e.subspaceId e.path with h1 | ⟨ks, h1, _⟩
  · rw [h1]; exact .inl rfl
  · rw [h1]
    dsimp only
    split
    · exact .inr rfl
    · rw [entryGet_tooBig _ _ h]; exact .inl rfl

theorem ingestEntry_ends {env : StoreEnv} {st : StoreState} {e : Entry} {tok : Bytes} (h : successorPath e.path env.p = .crash)
    (hl : st.locked = false) (hns : env.nsEqual env.namespaceId e.namespaceId = true) (ha : env.isAuthorised e tok = true)
    (ht : ∀ k ∈ st.kd, k.pos.subspace = e.subspaceId → k.pos.time < e.timestamp) : ingestEntry env st e tok = .crash := by
  unfold ingestEntry
  rw [hl, hns, ha]
  simp only [Bool.false_eq_true, if_false, Bool.not_true]
  rcases driverPrefixesOf_total env.lib env.p st.kd e.subspaceId e.path with h1 | ⟨ks, h1, h2⟩
  · rw [h1]
  · rw [h1]
    dsimp only
    rw [if_neg, entryGet_tooBig _ _ h]
    rw [List.any_eq_true]
    rintro ⟨k, hk, hk'⟩
    have h3 := ht k (h2 k hk).1 (h2 k hk).2
    simp only [decide_eq_true_eq] at hk'
    rw [UInt64.lt_iff_toNat_lt] at h3
    rw [ge_iff_le, UInt64.le_iff_toNat_le] at hk'
    omega

end Willow
