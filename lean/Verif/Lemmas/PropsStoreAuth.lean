import Verif.Lemmas.History
import Verif.Lemmas.PropsStore
import Verif.Spec.PropsStoreAuth

/-! Lemmas for the theorems of `Verif/Props/StoreAuth.lean`. -/

namespace Willow.Props

open Willow Spec

theorem Outdates.trans {a b c : Position} (h1 : Outdates a b) (h2 : Outdates b c) : Outdates a c :=
  ⟨h1.1.trans h2.1, h1.2.1.trans h2.2.1, by
    have := h1.2.2; have := h2.2.2
    simp only [UInt64.lt_iff_toNat_lt] at *
    omega⟩

theorem exists_current (S : List Item) : ∀ (n : Nat) (y : Item), y ∈ S → 2 ^ 64 - y.pos.time.toNat ≤ n →
    ∃ z, Current S z ∧ (z = y ∨ Outdates z.pos y.pos)
  | 0, y, _, h => by have := y.pos.time.toNat_lt; omega
  | n + 1, y, hy, h => by
    by_cases hc : ∃ z ∈ S, Outdates z.pos y.pos
    · obtain ⟨z, hz, ho⟩ := hc
      have ht : y.pos.time.toNat < z.pos.time.toNat := UInt64.lt_iff_toNat_lt.1 ho.2.2
      have := z.pos.time.toNat_lt
      obtain ⟨w, hw, hwz⟩ := exists_current S n z hz (by omega)
      exact ⟨w, hw, .inr (hwz.elim (fun e => e ▸ ho) fun h => h.trans ho)⟩
    · exact ⟨y, ⟨hy, fun z hz ho => hc ⟨z, hz, ho⟩⟩, .inl rfl⟩

theorem current_step {P A : List Item} {n : Item} (hA : ∀ x, x ∈ A ↔ Current P x) (hnt : NoTies (P ++ [n])) :
    ∀ x, x ∈ (if Accepts A n.pos then afterInsert A n else A) ↔ Current (P ++ [n]) x := by
  intro x
  split
  · rename_i hacc
    unfold afterInsert
    rw [List.mem_cons, List.mem_filter, decide_eq_true_eq, hA]
    constructor
    · rintro (rfl | ⟨⟨hx, hno⟩, hd⟩)
      · refine ⟨by simp, fun y hy ho => ?_⟩
        rcases List.mem_append.1 hy with hy | hy
        · obtain ⟨z, hz, hzy⟩ := exists_current P _ y hy (Nat.le_refl _)
          have ho' : Outdates z.pos x.pos := hzy.elim (fun e => e ▸ ho) fun h => h.trans ho
          have := hacc z ((hA z).2 hz) ho'.1 ho'.2.1
          have := ho'.2.2
          simp only [UInt64.lt_iff_toNat_lt] at *
          omega
        · rw [List.mem_singleton.1 hy] at ho
          exact absurd ho.2.2 (by simp)
      · refine ⟨List.mem_append_left _ hx, fun y hy ho => ?_⟩
        rcases List.mem_append.1 hy with hy | hy
        · exact hno y hy ho
        · rw [List.mem_singleton.1 hy] at ho
          by_cases hp : x.pos.path = n.pos.path
          · exact hd (.inl ⟨ho.1.symm, hp⟩)
          · exact hd (.inr ⟨ho.1.symm, ho.2.1, hp, ho.2.2⟩)
    · rintro ⟨hx, hno⟩
      rcases List.mem_append.1 hx with hx | hx
      · refine .inr ⟨⟨hx, fun y hy => hno y (List.mem_append_left _ hy)⟩, ?_⟩
        have hxA : x ∈ A := (hA x).2 ⟨hx, fun y hy => hno y (List.mem_append_left _ hy)⟩
        have hn := hno n (by simp)
        rintro (⟨hs, hp⟩ | ⟨hs, hp, _, ht⟩)
        · exact hn ⟨hs.symm, by rw [hp]; exact List.prefix_refl _, hacc x hxA hs (by rw [hp]; exact List.prefix_refl _)⟩
        · exact hn ⟨hs.symm, hp, ht⟩
      · exact .inl (List.mem_singleton.1 hx)
  · rename_i hacc
    rw [hA]
    have hrej : ∃ a ∈ A, a.pos.subspace = n.pos.subspace ∧ a.pos.path <+: n.pos.path ∧ n.pos.time ≤ a.pos.time := by
      refine Classical.byContradiction fun hc => hacc fun a ha hs hp => ?_
      exact UInt64.not_le.1 fun ht => hc ⟨a, ha, hs, hp, ht⟩
    obtain ⟨a, ha, hs, hp, ht⟩ := hrej
    have haP := (hA a).1 ha
    constructor
    · rintro ⟨hx, hno⟩
      refine ⟨List.mem_append_left _ hx, fun y hy ho => ?_⟩
      rcases List.mem_append.1 hy with hy | hy
      · exact hno y hy ho
      · rw [List.mem_singleton.1 hy] at ho
        refine hno a haP.1 ⟨hs.trans ho.1, hp.trans ho.2.1, ?_⟩
        have := ho.2.2
        simp only [UInt64.lt_iff_toNat_lt, UInt64.le_iff_toNat_le] at *
        omega
    · rintro ⟨hx, hno⟩
      rcases List.mem_append.1 hx with hx | hx
      · exact ⟨hx, fun y hy => hno y (List.mem_append_left _ hy)⟩
      · rw [List.mem_singleton.1 hx] at hno ⊢
        have hna := hno a (List.mem_append_left _ haP.1)
        by_cases hlt : n.pos.time < a.pos.time
        · exact absurd ⟨hs, hp, hlt⟩ hna
        · have heq : a.pos.time = n.pos.time := by
            simp only [UInt64.lt_iff_toNat_lt, UInt64.le_iff_toNat_le] at *
            exact UInt64.toNat_inj.1 (by omega)
          have := hnt a (List.mem_append_left _ haP.1) n (by simp) hs hp heq
          rw [← this]
          exact haP

theorem current_run (env : StoreEnv) : ∀ (xs : List (Entry × Bytes)) (P A : List Item),
    (∀ x ∈ xs, env.nsEqual env.namespaceId x.1.namespaceId = true ∧ env.isAuthorised x.1 x.2 = true) →
    (∀ x, x ∈ A ↔ Current P x) → NoTies (P ++ itemsOf env xs) →
    ∀ x, x ∈ specRun env A (ingests xs) ↔ Current (P ++ itemsOf env xs) x
  | [], P, A, _, hA, _ => by simpa [itemsOf, ingests, specRun] using hA
  | n :: xs, P, A, hau, hA, hnt => by
    have e : P ++ itemsOf env (n :: xs) = (P ++ [newItem env n.1 n.2]) ++ itemsOf env xs := by simp [itemsOf]
    rw [e] at hnt ⊢
    have hstep := current_step (n := newItem env n.1 n.2) hA fun x hx y hy =>
      hnt x (List.mem_append_left _ hx) y (List.mem_append_left _ hy)
    refine current_run env xs _ _ (fun x hx => hau x (List.mem_cons_of_mem _ hx)) (fun x => ?_) hnt
    rw [← hstep x]
    have ⟨h1, h2⟩ := hau n List.mem_cons_self
    unfold specStep attempt Acceptable
    simp only [h1, h2, true_and]
    exact Iff.rfl

end Willow.Props
