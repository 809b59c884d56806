import Verif.Lemmas.Queue
import Verif.Props.OrdersRanges
import Verif.Spec.PropsFinders

/-! Lemmas for the theorems of `Verif/Props/Finders.lean`. -/

namespace Willow.Props

open Willow Spec
variable {ρ : Type}

theorem find_add (m : ReconcilerMap ρ) (o t o' t' : UInt64) (r : ρ) :
    (m.add o t r).find o' t' = if o' = o then (if t' = t then some r else none) else m.find o' t' := by
  unfold ReconcilerMap.add ReconcilerMap.find
  dsimp only
  rw [GoMap.get_set]
  by_cases h : o' = o
  · simp only [h, if_true, GoMap.get_set]
    split <;> rfl
  · simp only [h, if_false]
    cases hg : GoMap.get m o with
    | none => rfl
    | some e => simp only [GoMap.get_set, h, if_false]

theorem find_foldl (regs : List (UInt64 × UInt64 × ρ)) (m : ReconcilerMap ρ) (o t : UInt64) :
    (regs.foldl (fun m x => m.add x.1 x.2.1 x.2.2) m).find o t =
      match lastRegistered o regs with
      | some (t', r) => if t = t' then some r else none
      | none => m.find o t := by
  induction regs generalizing m with
  | nil => rfl
  | cons x regs ih =>
    obtain ⟨a, b, c⟩ := x
    rw [List.foldl_cons, ih]
    simp only [lastRegistered]
    cases lastRegistered o regs with
    | some y => rfl
    | none =>
      dsimp only
      rw [find_add]
      by_cases h : a = o
      · subst h; simp
      · simp [h, Ne.symm h]

/-- The two handles have areas in common. -/
def Meet (env : FinderEnv) (o t : UInt64) : Prop :=
  ∃ a b, env.handlesOurs o = some a ∧ env.handlesTheirs t = some b ∧ ∃ x, InArea a.area x ∧ InArea b.area x

theorem mem_addAoiLoop (env : FinderEnv) (hns : ∀ a b, env.nsEqual a b = true ↔ a = b) (h : UInt64) (n : Bytes) (ours : Bool)
    (l : List (UInt64 × Bytes)) (x : Bytes × UInt64 × UInt64) :
    x ∈ addAoiLoop env h n ours l ↔ ∃ o, (o, n) ∈ l ∧
      (intersectArea orderSubspace (((if ours then env.handlesOurs else env.handlesTheirs) h).getD zeroAoi).area
        (((if ours then env.handlesTheirs else env.handlesOurs) o).getD zeroAoi).area).isSome ∧
      x = (n, if ours then h else o, if ours then o else h) := by
  induction l with
  | nil => simp [addAoiLoop]
  | cons e l ih =>
    obtain ⟨o, m⟩ := e
    unfold addAoiLoop
    split
    · rename_i hc
      have : n ≠ m := fun he => by rw [(hns n m).2 he] at hc; cases hc
      rw [ih]
      constructor
      · rintro ⟨o', h1, h2⟩; exact ⟨o', List.mem_cons_of_mem _ h1, h2⟩
      · rintro ⟨o', h1, h2⟩
        rcases List.mem_cons.1 h1 with h1 | h1
        · cases h1; exact absurd rfl this
        · exact ⟨o', h1, h2⟩
    · rename_i hc
      have hm : n = m := (hns n m).1 (by simpa using hc)
      subst hm
      dsimp only
      split
      · rename_i hi
        rw [ih]
        constructor
        · rintro ⟨o', h1, h2⟩; exact ⟨o', List.mem_cons_of_mem _ h1, h2⟩
        · rintro ⟨o', h1, h2, h3⟩
          rcases List.mem_cons.1 h1 with h1 | h1
          · cases h1; rw [hi] at h2; cases h2
          · exact ⟨o', h1, h2, h3⟩
      · rename_i hi
        rw [List.mem_cons, ih]
        constructor
        · rintro (rfl | ⟨o', h1, h2⟩)
          · exact ⟨o, List.mem_cons_self, by rw [hi]; rfl, rfl⟩
          · exact ⟨o', List.mem_cons_of_mem _ h1, h2⟩
        · rintro ⟨o', h1, h2, h3⟩
          rcases List.mem_cons.1 h1 with h1 | h1
          · cases h1; exact .inl h3
          · exact .inr ⟨o', h1, h2, h3⟩

theorem addAoiLoop_nodup (env : FinderEnv) (hns : ∀ a b, env.nsEqual a b = true ↔ a = b) (h : UInt64) (n : Bytes) (ours : Bool)
    (l : List (UInt64 × Bytes)) (hl : (l.map Prod.fst).Nodup) : (addAoiLoop env h n ours l).Nodup := by
  induction l with
  | nil => exact List.nodup_nil
  | cons e l ih =>
    obtain ⟨o, m⟩ := e
    rw [List.map_cons, List.nodup_cons] at hl
    have ih := ih hl.2
    unfold addAoiLoop
    split
    · exact ih
    · dsimp only
      split
      · exact ih
      · refine List.nodup_cons.2 ⟨fun hm => ?_, ih⟩
        obtain ⟨o', h1, _, h3⟩ := (mem_addAoiLoop env hns h n ours l _).1 hm
        apply hl.1
        have : o = o' := by
          cases ours <;> simp at h3 <;> exact h3
        rw [this]
        exact List.mem_map.2 ⟨_, h1, rfl⟩

theorem mem_set_iff (m : GoMap UInt64 Bytes) (k : UInt64) (v : Bytes) (h : ∀ w, (k, w) ∉ m) (e : UInt64 × Bytes) :
    e ∈ m.set k v ↔ e = (k, v) ∨ e ∈ m := by
  unfold GoMap.set
  rw [List.mem_cons, List.mem_filter]
  constructor
  · rintro (h | h)
    · exact .inl h
    · exact .inr h.1
  · rintro (h' | h')
    · exact .inl h'
    · refine .inr ⟨h', ?_⟩
      rw [decide_eq_true_eq]
      rintro rfl
      exact h _ h'

theorem keys_set_nodup (m : GoMap UInt64 Bytes) (k : UInt64) (v : Bytes) (h : (m.map Prod.fst).Nodup) : ((m.set k v).map Prod.fst).Nodup := by
  unfold GoMap.set
  rw [List.map_cons, List.nodup_cons]
  refine ⟨fun hm => ?_, h.sublist ((List.filter_sublist).map _)⟩
  obtain ⟨e, he, hk⟩ := List.mem_map.1 hm
  rw [List.mem_filter] at he
  simp [hk] at he

/-- The finder after additions. -/
structure Found (env : FinderEnv) (adds : List (UInt64 × Bytes × Bool)) (f : AoiFinder) : Prop where
  ours : ∀ h n, (h, n) ∈ f.ours ↔ (h, n, true) ∈ adds
  theirs : ∀ h n, (h, n) ∈ f.theirs ↔ (h, n, false) ∈ adds
  oursKeys : (f.ours.map Prod.fst).Nodup
  theirsKeys : (f.theirs.map Prod.fst).Nodup
  queue : ∀ n o t, (n, o, t) ∈ f.queue ↔ (o, n, true) ∈ adds ∧ (t, n, false) ∈ adds ∧ Meet env o t
  once : f.queue.Nodup

theorem some_iff_meet (a b : Area) (ha : ValidRange TimeLt a.times) (hb : ValidRange TimeLt b.times) :
    (intersectArea orderSubspace a b).isSome = true ↔ ∃ x, InArea a x ∧ InArea b x := by
  have := C10_intersectArea_none_iff a b ha hb
  rw [Option.isSome_iff_ne_none, Ne, this, Classical.not_not]

theorem run_found (env : FinderEnv) (hns : ∀ a b, env.nsEqual a b = true ↔ a = b) (adds : List (UInt64 × Bytes × Bool)) :
    Resolves env adds → (adds.map fun a => (a.1, a.2.2)).Nodup → Found env adds (AoiFinder.run env adds) := by
  induction adds using snoc_induction with
  | h0 => exact fun _ _ => ⟨by simp [AoiFinder.run], by simp [AoiFinder.run], List.nodup_nil, List.nodup_nil, by simp [AoiFinder.run], List.nodup_nil⟩
  | h1 adds a ih =>
    intro hres hnd
    obtain ⟨h, n, ours⟩ := a
    rw [List.map_append, List.nodup_append] at hnd
    have hfresh : ∀ m, (h, m, ours) ∉ adds := by
      intro m hm
      exact hnd.2.2 _ (List.mem_map.2 ⟨_, hm, rfl⟩) _ (by simp) rfl
    have hf := ih ⟨fun x m hx => hres.ours x m (List.mem_append_left _ hx), fun x m hx => hres.theirs x m (List.mem_append_left _ hx)⟩ hnd.1
    have hrun : AoiFinder.run env (adds ++ [(h, n, ours)]) = (AoiFinder.run env adds).add env h n ours := by
      unfold AoiFinder.run; rw [List.foldl_append]; rfl
    rw [hrun]
    generalize AoiFinder.run env adds = f at hf
    have hnotin : ∀ m o t, (m, o, t) ∈ f.queue → (if ours then o else t) ≠ h := by
      intro m o t hq he
      obtain ⟨h1, h2, _⟩ := (hf.queue m o t).1 hq
      cases ours
      · simp only [Bool.false_eq_true, if_false] at he; subst he; exact hfresh _ h2
      · simp only [if_true] at he; subst he; exact hfresh _ h1
    cases ours with
    | true =>
      obtain ⟨aoi, ha1, ha2⟩ := hres.ours h n (by simp)
      have hmem : ∀ m o t, (m, o, t) ∈ addAoiLoop env h n true (env.visit f.theirs) ↔
          o = h ∧ m = n ∧ (t, n, false) ∈ adds ∧ Meet env h t := by
        intro m o t
        rw [mem_addAoiLoop env hns]
        simp only [if_true, Prod.mk.injEq]
        constructor
        · rintro ⟨o', h1, h2, rfl, rfl, rfl⟩
          rw [(env.perm _).mem_iff, hf.theirs] at h1
          obtain ⟨b, hb1, hb2⟩ := hres.theirs t _ (List.mem_append_left _ h1)
          rw [ha1, hb1] at h2
          exact ⟨rfl, rfl, h1, aoi, b, ha1, hb1, (some_iff_meet _ _ ha2 hb2).1 h2⟩
        · rintro ⟨rfl, rfl, h1, a, b, m1, m2, m3⟩
          refine ⟨t, by rw [(env.perm _).mem_iff, hf.theirs]; exact h1, ?_, rfl, rfl, rfl⟩
          obtain ⟨b', hb1, hb2⟩ := hres.theirs t _ (List.mem_append_left _ h1)
          rw [ha1] at m1; rw [hb1] at m2
          cases m1; cases m2
          rw [ha1, hb1]
          exact (some_iff_meet _ _ ha2 hb2).2 m3
      simp only [AoiFinder.add, if_true]
      refine ⟨?_, ?_, keys_set_nodup _ _ _ hf.oursKeys, hf.theirsKeys, ?_, ?_⟩
      · intro h' n'
        rw [mem_set_iff _ _ _ (fun w hw => hfresh w ((hf.ours _ _).1 hw)), hf.ours]
        simp only [List.mem_append, List.mem_singleton, Prod.mk.injEq, and_true]
        exact or_comm
      · intro h' n'; rw [hf.theirs]; simp
      · intro m o t
        rw [List.mem_append, hf.queue, hmem]
        simp only [List.mem_append, List.mem_singleton, Prod.mk.injEq, and_true, Bool.false_eq_true, and_false, or_false]
        constructor
        · rintro (⟨h1, h2, h3⟩ | ⟨rfl, rfl, h2, h3⟩)
          · exact ⟨.inl h1, h2, h3⟩
          · exact ⟨.inr ⟨rfl, rfl⟩, h2, h3⟩
        · rintro ⟨h1 | ⟨rfl, rfl⟩, h2, h3⟩
          · exact .inl ⟨h1, h2, h3⟩
          · exact .inr ⟨rfl, rfl, h2, h3⟩
      · refine List.nodup_append.2 ⟨hf.once, addAoiLoop_nodup env hns _ _ _ _ ?_, ?_⟩
        · exact (((env.perm _).map _).nodup_iff).2 hf.theirsKeys
        · rintro ⟨m, o, t⟩ hq y hy rfl
          exact hnotin m o t hq ((hmem m o t).1 hy).1
    | false =>
      obtain ⟨aoi, ha1, ha2⟩ := hres.theirs h n (by simp)
      have hmem : ∀ m o t, (m, o, t) ∈ addAoiLoop env h n false (env.visit f.ours) ↔
          t = h ∧ m = n ∧ (o, n, true) ∈ adds ∧ Meet env o h := by
        intro m o t
        rw [mem_addAoiLoop env hns]
        simp only [Bool.false_eq_true, if_false, Prod.mk.injEq]
        constructor
        · rintro ⟨o', h1, h2, rfl, rfl, rfl⟩
          rw [(env.perm _).mem_iff, hf.ours] at h1
          obtain ⟨b, hb1, hb2⟩ := hres.ours o _ (List.mem_append_left _ h1)
          rw [ha1, hb1] at h2
          obtain ⟨x, x1, x2⟩ := (some_iff_meet _ _ ha2 hb2).1 h2
          exact ⟨rfl, rfl, h1, b, aoi, hb1, ha1, x, x2, x1⟩
        · rintro ⟨rfl, rfl, h1, a, b, m1, m2, x, m3, m4⟩
          refine ⟨o, by rw [(env.perm _).mem_iff, hf.ours]; exact h1, ?_, rfl, rfl, rfl⟩
          obtain ⟨b', hb1, hb2⟩ := hres.ours o _ (List.mem_append_left _ h1)
          rw [ha1] at m2; rw [hb1] at m1
          cases m1; cases m2
          rw [ha1, hb1]
          exact (some_iff_meet _ _ ha2 hb2).2 ⟨x, m4, m3⟩
      simp only [AoiFinder.add, Bool.false_eq_true, if_false]
      refine ⟨?_, ?_, hf.oursKeys, keys_set_nodup _ _ _ hf.theirsKeys, ?_, ?_⟩
      · intro h' n'; rw [hf.ours]; simp
      · intro h' n'
        rw [mem_set_iff _ _ _ (fun w hw => hfresh w ((hf.theirs _ _).1 hw)), hf.theirs]
        simp only [List.mem_append, List.mem_singleton, Prod.mk.injEq, and_true]
        exact or_comm
      · intro m o t
        rw [List.mem_append, hf.queue, hmem]
        simp only [List.mem_append, List.mem_singleton, Prod.mk.injEq, and_true, Bool.true_eq_false, and_false, or_false]
        constructor
        · rintro (⟨h1, h2, h3⟩ | ⟨rfl, rfl, h2, h3⟩)
          · exact ⟨h1, .inl h2, h3⟩
          · exact ⟨h2, .inr ⟨rfl, rfl⟩, h3⟩
        · rintro ⟨h1, h2 | ⟨rfl, rfl⟩, h3⟩
          · exact .inl ⟨h1, h2, h3⟩
          · exact .inr ⟨rfl, rfl, h1, h3⟩
      · refine List.nodup_append.2 ⟨hf.once, addAoiLoop_nodup env hns _ _ _ _ ?_, ?_⟩
        · exact (((env.perm _).map _).nodup_iff).2 hf.oursKeys
        · rintro ⟨m, o, t⟩ hq y hy rfl
          exact hnotin m o t hq ((hmem m o t).1 hy).1

theorem keys_get (m : GoMap UInt64 Unit) (h : UInt64) : h ∈ m.map Prod.fst ↔ m.get h = some () := by
  induction m with
  | nil => simp [GoMap.get]
  | cons e m ih =>
    obtain ⟨k, _⟩ := e
    simp only [List.map_cons, List.mem_cons, GoMap.get, ih]
    by_cases hk : k = h
    · simp [hk]
    · simp [hk, Ne.symm hk]

end Willow.Props
