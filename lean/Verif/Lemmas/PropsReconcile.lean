import Verif.Spec.Wgps
import Verif.Props.Storage
import Verif.Spec.PropsReconcile

/-! Lemmas for the theorems of `Verif/Props/Reconcile.lean`. -/

namespace Willow.Props

open Willow Spec

theorem summarise_ok (lib : KdLib) (kd : List KdKey) (r : Range3d) (h : ∀ k ∈ kd, InRange3d r k.pos → k.fingerprint = []) :
    ∃ n, summarise lib kd r = .ok ([], n) ∧ n = UInt64.ofNat (entriesIn kd r) := by
  unfold summarise
  rw [summariseLoop_empty _ _ fun k hk => by
    have := (lib.mem_query kd r k).1 hk
    exact h k this.1 this.2]
  refine ⟨_, rfl, ?_⟩
  have e : summarise lib kd r = .ok ([], UInt64.ofNat (lib.query kd r).length) := by
    unfold summarise
    rw [summariseLoop_empty _ _ fun k hk => by
      have := (lib.mem_query kd r k).1 hk
      exact h k this.1 this.2]
    simp
  have := (C36_size_partial lib kd r _ _ e).2.1
  simp only [UInt64.zero_add]
  exact this

theorem entriesIn_pos (kd : List KdKey) (r : Range3d) (h : 0 < entriesIn kd r) : ∃ k ∈ kd, InRange3d r k.pos := by
  unfold entriesIn at h
  rw [howMany_in] at h
  obtain ⟨k, hk⟩ := List.exists_mem_of_length_pos h
  rw [List.mem_filter, isIncluded3d_iff decides_subspace] at hk
  exact ⟨k, hk⟩

theorem entriesIn_mono (kd : List KdKey) (a r : Range3d) (h : ∀ x, InRange3d a x → InRange3d r x) : entriesIn kd a ≤ entriesIn kd r := by
  unfold entriesIn
  rw [howMany_in, howMany_in]
  apply List.Sublist.length_le
  induction kd with
  | nil => exact List.Sublist.refl _
  | cons k kd ih =>
    by_cases ha : isIncluded3d orderSubspace a k.pos = true
    · have hr := (isIncluded3d_iff decides_subspace _ _).2 (h _ ((isIncluded3d_iff decides_subspace _ _).1 ha))
      simp only [List.filter_cons, ha, hr, if_true]
      exact ih.cons_cons _
    · simp only [List.filter_cons, ha, Bool.false_eq_true, if_false]
      split
      · exact ih.cons _
      · exact ih

theorem length_filter_le {α : Type} (p q : α → Bool) (l : List α) (h : ∀ a ∈ l, p a = true → q a = true) :
    (l.filter p).length ≤ (l.filter q).length := by
  induction l with
  | nil => exact Nat.le_refl _
  | cons a l ih =>
    have ih := ih fun x hx => h x (List.mem_cons_of_mem _ hx)
    have ha := h a List.mem_cons_self
    simp only [List.filter_cons]
    cases hp : p a with
    | false =>
      cases q a with
      | false => simpa using ih
      | true => simp; omega
    | true => rw [ha hp]; simpa using ih

open Classical in
theorem oldest_few (kd : List KdKey) (r : Range3d) (h : FewPerTime kd r) : oldestIn kd r ≤ 4 := by
  unfold oldestIn
  rw [howMany_eq _ (fun k => decide (InRange3d r k.pos ∧ ∀ x ∈ kd, InRange3d r x.pos → k.pos.time ≤ x.pos.time)) _ (by simp)]
  cases hl : kd.filter (fun k => decide (InRange3d r k.pos ∧ ∀ x ∈ kd, InRange3d r x.pos → k.pos.time ≤ x.pos.time)) with
  | nil => simp
  | cons k rest =>
    rw [← hl]
    have hk : k ∈ kd.filter (fun k => decide (InRange3d r k.pos ∧ ∀ x ∈ kd, InRange3d r x.pos → k.pos.time ≤ x.pos.time)) := by
      rw [hl]; exact List.mem_cons_self
    rw [List.mem_filter, decide_eq_true_eq] at hk
    have hfew := h k.pos.time
    rw [howMany_eq _ (fun a => decide (InRange3d r a.pos ∧ a.pos.time = k.pos.time)) _ (by simp)] at hfew
    refine Nat.le_trans (length_filter_le _ _ _ ?_) hfew
    intro a ha hp
    rw [decide_eq_true_eq] at hp ⊢
    refine ⟨hp.1, ?_⟩
    have h1 := hp.2 k hk.1 hk.2.1
    have h2 := hk.2.2 a ha hp.1
    rw [UInt64.le_iff_toNat_le] at h1 h2
    exact UInt64.toNat_inj.1 (by omega)

theorem FewPerTime.mono {kd : List KdKey} {r part : Range3d} (h : FewPerTime kd r)
    (hs : ∀ x, InRange3d part x → InRange3d r x) : FewPerTime kd part := by
  classical
  intro t
  have := h t
  rw [howMany_eq _ (fun a => decide (InRange3d r a.pos ∧ a.pos.time = t)) _ (by simp)] at this
  rw [howMany_eq _ (fun a => decide (InRange3d part a.pos ∧ a.pos.time = t)) _ (by simp)]
  refine Nat.le_trans (length_filter_le _ _ _ ?_) this
  intro a _ hp
  rw [decide_eq_true_eq] at hp ⊢
  exact ⟨hs _ hp.1, hp.2⟩

/-- A part of a range that holds as many entries holds the same. -/
theorem same_entries (kd : List KdKey) (b r : Range3d) (hs : ∀ x, InRange3d b x → InRange3d r x)
    (h : entriesIn kd b = entriesIn kd r) : ∀ k ∈ kd, InRange3d b k.pos ↔ InRange3d r k.pos := by
  unfold entriesIn at h
  rw [howMany_in, howMany_in] at h
  have hsub : (kd.filter fun k => isIncluded3d orderSubspace b k.pos).Sublist (kd.filter fun k => isIncluded3d orderSubspace r k.pos) := by
    have : (kd.filter fun k => isIncluded3d orderSubspace b k.pos) =
        (kd.filter fun k => isIncluded3d orderSubspace r k.pos).filter fun k => isIncluded3d orderSubspace b k.pos := by
      rw [List.filter_filter]
      refine List.filter_congr fun k _ => ?_
      rw [Bool.eq_iff_iff, Bool.and_eq_true, isIncluded3d_iff decides_subspace, isIncluded3d_iff decides_subspace]
      exact ⟨fun hb => ⟨hb, hs _ hb⟩, fun hb => hb.1⟩
    rw [this]
    exact List.filter_sublist
  have he := hsub.eq_of_length h
  intro k hk
  have := congrArg (k ∈ ·) he
  simp only [List.mem_filter, hk, true_and, eq_iff_iff, isIncluded3d_iff decides_subspace] at this
  exact this

theorem oldestIn_congr (kd : List KdKey) (b r : Range3d) (h : ∀ k ∈ kd, InRange3d b k.pos ↔ InRange3d r k.pos) :
    oldestIn kd b = oldestIn kd r := by
  classical
  unfold oldestIn
  have e1 := howMany_eq (fun k => InRange3d b k.pos ∧ ∀ x ∈ kd, InRange3d b x.pos → k.pos.time ≤ x.pos.time)
    (fun k => decide (InRange3d r k.pos ∧ ∀ x ∈ kd, InRange3d r x.pos → k.pos.time ≤ x.pos.time)) kd fun k hk => by
      rw [decide_eq_true_eq, h k hk]
      exact and_congr_right fun _ => ⟨fun hx x hm hb => hx x hm ((h x hm).1 hb), fun hx x hm hb => hx x hm ((h x hm).2 hb)⟩
  have e2 := howMany_eq (fun k => InRange3d r k.pos ∧ ∀ x ∈ kd, InRange3d r x.pos → k.pos.time ≤ x.pos.time)
    (fun k => decide (InRange3d r k.pos ∧ ∀ x ∈ kd, InRange3d r x.pos → k.pos.time ≤ x.pos.time)) kd (by simp)
  exact e1.trans e2.symm

theorem respond_split (lib : KdLib) (fps : FpScheme) (kd : List KdKey) (r : Range3d) (fp : Bytes) (c : Nat) (a : Range3d)
    (fa : Bytes) (b : Range3d) (fb : Bytes) (covers : UInt64) (h : respond lib fps kd r fp c = .ok (.split a fa b fb covers)) :
    splitRange lib kd r = .ok (a, b) ∧ 8 < entriesIn kd r := by
  unfold respond at h
  cases hs : summarise lib kd r with
  | ok x =>
    obtain ⟨f, n⟩ := x
    rw [hs] at h
    change (if fps.isEqual fp (fps.finalise f) = true then _ else _) = _ at h
    split at h
    · cases h
    · split at h
      · cases h
      · rename_i hn
        have hsize := (C36_size_partial lib kd r f n hs).2.1
        have h8 : 8 < entriesIn kd r := by
          apply Nat.lt_of_not_le
          intro hle
          apply hn
          rw [UInt64.le_iff_toNat_le, hsize, UInt64.toNat_ofNat']
          exact Nat.le_trans (Nat.mod_le _ _) hle
        refine ⟨?_, h8⟩
        cases hp : splitRange lib kd r with
        | ok y =>
          obtain ⟨a', b'⟩ := y
          rw [hp] at h
          change (summarise lib kd a' >>= _) = _ at h
          cases h1 : summarise lib kd a' with
          | ok z =>
            rw [h1] at h
            change (summarise lib kd b' >>= _) = _ at h
            cases h2 : summarise lib kd b' with
            | ok w => rw [h2] at h; cases h; rfl
            | err => rw [h2] at h; cases h
            | crash => rw [h2] at h; cases h
            | block => rw [h2] at h; cases h
          | err => rw [h1] at h; cases h
          | crash => rw [h1] at h; cases h
          | block => rw [h1] at h; cases h
        | err => rw [hp] at h; cases h
        | crash => rw [hp] at h; cases h
        | block => rw [hp] at h; cases h
  | err => rw [hs] at h; cases h
  | crash => rw [hs] at h; cases h
  | block => rw [hs] at h; cases h

end Willow.Props
