import Verif.Lemmas.Prefix

/-! Lemmas about summaries, splitting and reference counts. -/

namespace Willow

open Spec

/-! ### Summaries -/

theorem summariseLoop_empty : ∀ (ks : List KdKey) (n : UInt64), (∀ k ∈ ks, k.fingerprint = []) →
    summariseLoop ks [] n = .ok ([], n + UInt64.ofNat ks.length)
  | [], n, _ => by simp [summariseLoop]
  | k :: ks, n, h => by
    have hk := h k List.mem_cons_self
    simp only [summariseLoop, xorStrings, hk, ne_eq, not_true_eq_false, if_false, Res.ok_bind, xorLoop]
    rw [summariseLoop_empty ks _ fun x hx => h x (List.mem_cons_of_mem _ hx)]
    simp only [List.length_cons, UInt64.ofNat_add, Res.ok.injEq, Prod.mk.injEq, true_and]
    rw [UInt64.add_assoc, UInt64.add_comm 1]; rfl

theorem summariseLoop_crash : ∀ (ks : List KdKey) (n : UInt64), (∃ k ∈ ks, k.fingerprint ≠ []) →
    summariseLoop ks [] n = .crash
  | [], n, h => by simp at h
  | k :: ks, n, h => by
    by_cases hk : k.fingerprint = []
    · simp only [summariseLoop, xorStrings, hk, ne_eq, not_true_eq_false, if_false, Res.ok_bind, xorLoop]
      apply summariseLoop_crash
      obtain ⟨x, hx, hx'⟩ := h
      rcases List.mem_cons.1 hx with rfl | hx
      · exact absurd hk hx'
      · exact ⟨x, hx, hx'⟩
    · have : ¬ (0 = k.fingerprint.length) := fun h => hk (List.length_eq_zero_iff.1 h.symm)
      simp [summariseLoop, xorStrings, this]

/-- The result of the summary does not depend on the order of the keys. -/
theorem summariseLoop_perm {ks ks' : List KdKey} (h : ks.Perm ks') (n : UInt64) :
    summariseLoop ks [] n = summariseLoop ks' [] n := by
  by_cases hk : ∃ k ∈ ks, k.fingerprint ≠ []
  · have hk' : ∃ k ∈ ks', k.fingerprint ≠ [] := by
      obtain ⟨k, hk, hf⟩ := hk
      exact ⟨k, h.mem_iff.1 hk, hf⟩
    rw [summariseLoop_crash _ _ hk, summariseLoop_crash _ _ hk']
  · have h1 : ∀ k ∈ ks, k.fingerprint = [] := fun k hm => by
      by_cases hf : k.fingerprint = []
      · exact hf
      · exact absurd ⟨k, hm, hf⟩ hk
    rw [summariseLoop_empty _ _ h1, summariseLoop_empty _ _ fun k hm => h1 k (h.mem_iff.2 hm), h.length_eq]

/-! ### Sorting and splitting -/

theorem insertByTime_perm (k : KdKey) : ∀ l, (insertByTime k l).Perm (k :: l)
  | [] => List.Perm.refl _
  | x :: xs => by
    unfold insertByTime
    split
    · exact List.Perm.refl _
    · exact ((insertByTime_perm k xs).cons x).trans (List.Perm.swap _ _ _)

theorem sortByTime_perm : ∀ l, (sortByTime l).Perm l
  | [] => List.Perm.refl _
  | x :: xs => (insertByTime_perm x _).trans ((sortByTime_perm xs).cons x)

def TimeSorted (l : List KdKey) : Prop := l.Pairwise fun a b => a.pos.time.toNat ≤ b.pos.time.toNat

theorem insertByTime_sorted (k : KdKey) : ∀ l, TimeSorted l → TimeSorted (insertByTime k l)
  | [], _ => by simp [insertByTime, TimeSorted]
  | x :: xs, h => by
    have h' := List.pairwise_cons.1 h
    unfold insertByTime
    split
    · rename_i hle
      rw [UInt64.le_iff_toNat_le] at hle
      refine List.pairwise_cons.2 ⟨?_, h⟩
      intro a ha
      rcases List.mem_cons.1 ha with rfl | ha
      · exact hle
      · exact Nat.le_trans hle (h'.1 a ha)
    · rename_i hle
      rw [UInt64.le_iff_toNat_le] at hle
      refine List.pairwise_cons.2 ⟨?_, insertByTime_sorted k xs h'.2⟩
      intro a ha
      rcases List.mem_cons.1 ((insertByTime_perm k xs).mem_iff.1 ha) with rfl | ha
      · omega
      · exact h'.1 a ha

theorem sortByTime_sorted : ∀ l, TimeSorted (sortByTime l)
  | [] => List.Pairwise.nil
  | x :: xs => insertByTime_sorted x _ (sortByTime_sorted xs)

/-- In a sorted list, the element at `m` is strictly above the first one exactly when at most
`m` elements share the smallest value. -/
theorem sorted_above_first {l : List KdKey} (hs : TimeSorted l) {m : Nat} {a b : KdKey}
    (ha : l[0]? = some a) (hb : l[m]? = some b) :
    a.pos.time < b.pos.time ↔ (l.filter fun k => decide (k.pos.time = a.pos.time)).length ≤ m := by
  rw [UInt64.lt_iff_toNat_lt]
  have hsplit : l = l.take m ++ l.drop m := (List.take_append_drop m l).symm
  obtain ⟨hlt, _⟩ := List.getElem?_eq_some_iff.1 hb
  have hge : ∀ (i : Nat) (c : KdKey), l[i]? = some c → a.pos.time.toNat ≤ c.pos.time.toNat := by
    intro i c hc
    rcases Nat.eq_zero_or_pos i with rfl | hi
    · rw [ha] at hc; cases hc; exact Nat.le_refl _
    · obtain ⟨h0, h0'⟩ := List.getElem?_eq_some_iff.1 ha
      obtain ⟨h1, h1'⟩ := List.getElem?_eq_some_iff.1 hc
      have := List.pairwise_iff_getElem.1 hs 0 i h0 h1 hi
      rw [h0', h1'] at this
      exact this
  have hmono : ∀ (i j : Nat) (c d : KdKey), l[i]? = some c → l[j]? = some d → i ≤ j → c.pos.time.toNat ≤ d.pos.time.toNat := by
    intro i j c d hc hd hij
    rcases Nat.lt_or_eq_of_le hij with hij | rfl
    · obtain ⟨h0, h0'⟩ := List.getElem?_eq_some_iff.1 hc
      obtain ⟨h1, h1'⟩ := List.getElem?_eq_some_iff.1 hd
      have := List.pairwise_iff_getElem.1 hs i j h0 h1 hij
      rw [h0', h1'] at this
      exact this
    · rw [hc] at hd; cases hd; exact Nat.le_refl _
  constructor
  · intro h
    rw [hsplit, List.filter_append]
    have : (l.drop m).filter (fun k => decide (k.pos.time = a.pos.time)) = [] := by
      rw [List.filter_eq_nil_iff]
      intro x hx
      obtain ⟨i, hi⟩ := List.mem_iff_getElem?.1 hx
      rw [List.getElem?_drop] at hi
      have := hmono m (m + i) b x hb hi (by omega)
      intro he
      have he : x.pos.time = a.pos.time := by simpa using he
      rw [he] at this
      omega
    rw [this, List.append_nil]
    exact Nat.le_trans (List.length_filter_le _ _) (by simp; omega)
  · intro h
    rcases Nat.lt_or_ge a.pos.time.toNat b.pos.time.toNat with h' | h'
    · exact h'
    · exfalso
      have hall : (l.take (m + 1)).filter (fun k => decide (k.pos.time = a.pos.time)) = l.take (m + 1) := by
        rw [List.filter_eq_self]
        intro x hx
        obtain ⟨i, hi⟩ := List.mem_iff_getElem?.1 hx
        rw [List.getElem?_take] at hi
        split at hi
        · have h1 := hmono i m x b hi hb (by omega)
          have h2 := hge i x hi
          simp only [decide_eq_true_eq]
          exact UInt64.toNat_inj.1 (by omega)
        · simp at hi
      have : (l.take (m + 1)).length ≤ (l.filter fun k => decide (k.pos.time = a.pos.time)).length := by
        rw [← hall]
        exact ((List.take_sublist (m + 1) l).filter _).length_le
      simp at this
      omega

theorem those_eq {α : Type} (P : α → Prop) (f : α → Bool) (l : List α) (h : ∀ a ∈ l, f a = true ↔ P a) :
    those P l = l.filter f := by
  apply List.filter_congr
  intro a ha
  rw [Bool.eq_iff_iff, h a ha, @decide_eq_true_iff _ (Classical.propDecidable _)]

theorem howMany_eq {α : Type} (P : α → Prop) (f : α → Bool) (l : List α) (h : ∀ a ∈ l, f a = true ↔ P a) :
    howMany P l = (l.filter f).length := by
  rw [howMany, those_eq P f l h]

theorem those_in (kd : List KdKey) (r : Range3d) :
    those (fun k => InRange3d r k.pos) kd = kd.filter fun k => isIncluded3d orderSubspace r k.pos :=
  those_eq _ _ _ fun _ _ => isIncluded3d_iff decides_subspace ..

theorem howMany_in (kd : List KdKey) (r : Range3d) :
    howMany (fun k => InRange3d r k.pos) kd = (kd.filter fun k => isIncluded3d orderSubspace r k.pos).length :=
  howMany_eq _ _ _ fun _ _ => isIncluded3d_iff decides_subspace ..

end Willow
