import Verif.Spec.Announcer
import Verif.Lemmas.Handles

/-! Lemmas about announcing entries. -/

namespace Willow.Props

open Willow Spec

/-- What is kept between announcements when these tokens have been told. -/
structure AnnInv (scheme : TokenScheme) (a : Announcer) (sent : List Bytes) : Prop where
  least : a.store.least.toNat = sent.length
  usable : ∀ h : UInt64, h.toNat < sent.length → ∃ t, a.store.map.get h = some t ∧ t.askedToFree = false
  known : ∀ t h, a.handles.get (scheme.encode t) = some h ↔ sent[h.toNat]? = some t

theorem annInv_new (scheme : TokenScheme) : AnnInv scheme .new [] :=
  ⟨rfl, fun _ h => by simp at h, fun t h => by simp [Announcer.new, GoMap.get]⟩

theorem annInv_nodup {scheme : TokenScheme} {a : Announcer} {sent : List Bytes} (h : AnnInv scheme a sent) : sent.Nodup := by
  have hlt := a.store.least.toNat_lt
  rw [h.least] at hlt
  rw [List.Nodup, List.pairwise_iff_getElem]
  intro i j hi hj hij he
  have h1 : sent[i]? = some sent[i] := List.getElem?_eq_getElem hi
  have h2 : sent[j]? = some sent[i] := by rw [he]; exact List.getElem?_eq_getElem hj
  have k1 := (h.known sent[i] (UInt64.ofNat i)).2 (by rw [UInt64.toNat_ofNat', Nat.mod_eq_of_lt (by omega)]; exact h1)
  have k2 := (h.known sent[i] (UInt64.ofNat j)).2 (by rw [UInt64.toNat_ofNat', Nat.mod_eq_of_lt (by omega)]; exact h2)
  rw [k1] at k2
  have := congrArg UInt64.toNat (Option.some.inj k2)
  rw [UInt64.toNat_ofNat', UInt64.toNat_ofNat', Nat.mod_eq_of_lt (by omega), Nat.mod_eq_of_lt (by omega)] at this
  omega

theorem annInv_quiet {scheme : TokenScheme} {a : Announcer} {sent : List Bytes} (h : AnnInv scheme a sent) {op : HandleOp Bytes}
    (hq : Quiet op) : AnnInv scheme (a.elsewhere op) sent := by
  have key : ∀ (x : UInt64) (f : HandleTriple Bytes → HandleTriple Bytes), (∀ t, (f t).askedToFree = t.askedToFree) →
      ∀ t, a.store.map.get x = some t →
      ∀ y : UInt64, y.toNat < sent.length → ∃ u, (a.store.map.set x (f t)).get y = some u ∧ u.askedToFree = false := by
    intro x f hf t ht y hy
    rw [GoMap.get_set]
    obtain ⟨u, hu, hu'⟩ := h.usable y hy
    split
    · subst_vars
      rw [ht] at hu
      cases hu
      exact ⟨_, rfl, by rw [hf]; exact hu'⟩
    · exact ⟨u, hu, hu'⟩
  cases op with
  | bind => exact hq.elim
  | free => exact hq.elim
  | update x v =>
    simp only [Announcer.elsewhere, HandleStore.step, HandleStore.update]
    cases ht : a.store.map.get x with
    | none => exact h
    | some t => exact ⟨h.least, key x (fun t => { t with value := v }) (fun _ => rfl) t ht, h.known⟩
  | increment x =>
    simp only [Announcer.elsewhere, HandleStore.step, HandleStore.increment]
    cases ht : a.store.map.get x with
    | none => exact h
    | some t => exact ⟨h.least, key x (fun t => { t with refCount := t.refCount + 1 }) (fun _ => rfl) t ht, h.known⟩
  | decrement x =>
    simp only [Announcer.elsewhere, HandleStore.step, HandleStore.decrement]
    cases ht : a.store.map.get x with
    | none => exact h
    | some t =>
      dsimp only
      split
      · rename_i hc
        refine ⟨h.least, fun y hy => ?_, h.known⟩
        obtain ⟨u, hu, hu'⟩ := h.usable y hy
        show ∃ t, (a.store.map.delete x).get y = some t ∧ _
        rw [GoMap.get_delete]
        split
        · subst_vars
          rw [ht] at hu
          cases hu
          rw [hc.1] at hu'
          cases hu'
        · exact ⟨u, hu, hu'⟩
      · exact ⟨h.least, key x (fun t => { t with refCount := t.refCount - 1 }) (fun _ => rfl) t ht, h.known⟩

theorem tokenHandle_inv {scheme : TokenScheme} (hinj : ∀ s t, scheme.encode s = scheme.encode t → s = t) {a : Announcer}
    {sent : List Bytes} (h : AnnInv scheme a sent) (hlen : sent.length + 1 < 2 ^ 64) (t : Bytes) :
    ∃ handle existed a', a.tokenHandle scheme t = ((handle, existed), a') ∧
      AnnInv scheme a' (if existed then sent else sent ++ [t]) ∧
      (if existed then sent else sent ++ [t])[handle.toNat]? = some t := by
  simp only [Announcer.tokenHandle]
  cases hg : a.handles.get (scheme.encode t) with
  | some existing =>
    have hk := (h.known t existing).1 hg
    obtain ⟨hlt, _⟩ := List.getElem?_eq_some_iff.1 hk
    obtain ⟨u, hu, hu'⟩ := h.usable existing hlt
    have hc : a.store.canUse existing = true := by simp [HandleStore.canUse, hu, hu']
    exact ⟨existing, true, a, by simp [hc], h, hk⟩
  | none =>
    refine ⟨a.store.least, false, _, rfl, ⟨?_, ?_, ?_⟩, ?_⟩
    · show (a.store.least + 1).toNat = (sent ++ [t]).length
      rw [UInt64.toNat_add, h.least, List.length_append]
      exact Nat.mod_eq_of_lt (by simpa using hlen)
    · intro y hy
      show ∃ u, (a.store.map.set a.store.least ⟨t, false, 0⟩).get y = some u ∧ _
      rw [GoMap.get_set]
      split
      · exact ⟨_, rfl, rfl⟩
      · rename_i hne
        refine h.usable y ?_
        rw [if_neg (by decide), List.length_append, List.length_singleton] at hy
        have : y.toNat ≠ sent.length := fun e => hne (UInt64.toNat_inj.1 (by rw [e, h.least]))
        omega
    · intro s y
      show (a.handles.set (scheme.encode t) a.store.least).get (scheme.encode s) = some y ↔ (sent ++ [t])[y.toNat]? = some s
      rw [GoMap.get_set]
      by_cases hst : s = t
      · subst hst
        rw [if_pos rfl]
        constructor
        · intro e
          cases e
          rw [h.least, List.getElem?_append_right (Nat.le_refl _)]
          simp
        · intro e
          by_cases hlt : y.toNat < sent.length
          · rw [List.getElem?_append_left hlt] at e
            rw [(h.known s y).2 e] at hg
            cases hg
          · obtain ⟨hl, _⟩ := List.getElem?_eq_some_iff.1 e
            rw [List.length_append, List.length_singleton] at hl
            have : y.toNat = sent.length := by omega
            exact congrArg some (UInt64.toNat_inj.1 (by rw [this, h.least]))
      · rw [if_neg (fun e => hst (hinj _ _ e)), h.known s y]
        by_cases hlt : y.toNat < sent.length
        · rw [List.getElem?_append_left hlt]
        · rw [List.getElem?_append_right (by omega), List.getElem?_eq_none (by omega)]
          constructor
          · intro e; cases e
          · intro e
            obtain ⟨hl, e'⟩ := List.getElem?_eq_some_iff.1 e
            rw [List.getElem_singleton] at e'
            exact absurd e'.symm hst
    · rw [h.least]
      simp

theorem announceLoop_inv {scheme : TokenScheme} (hinj : ∀ s t, scheme.encode s = scheme.encode t → s = t) (results : List KdKey) :
    ∀ (a : Announcer) (sent : List Bytes), AnnInv scheme a sent → sent.length + results.length < 2 ^ 64 →
    ∃ binds entries a', announceLoop scheme results a = ((binds, entries), a') ∧ AnnInv scheme a' (sent ++ binds) ∧
      binds.length ≤ results.length ∧
      entries.map (fun e => (e.entry.subspaceId, e.entry.path, e.entry.timestamp)) =
        results.map (fun k => (k.pos.subspace, k.pos.path, k.pos.time)) ∧
      ∀ e ∈ entries, Refers scheme (sent ++ binds) e := by
  induction results with
  | nil => exact fun a sent h _ => ⟨[], [], a, rfl, by simpa using h, Nat.le_refl _, rfl, by simp⟩
  | cons k rest ih =>
    intro a sent h hlen
    rw [List.length_cons] at hlen
    obtain ⟨handle, existed, a1, e1, h1, g1⟩ := tokenHandle_inv hinj h (by omega) (scheme.decompose k.pos.subspace).1
    obtain ⟨binds, entries, a2, e2, h2, l2, m2, r2⟩ := ih a1 _ h1 (by cases existed <;> simp <;> omega)
    have hs : (if existed = true then sent else sent ++ [(scheme.decompose k.pos.subspace).1]) ++ binds =
        sent ++ (if existed = true then binds else (scheme.decompose k.pos.subspace).1 :: binds) := by
      cases existed <;> simp
    rw [hs] at h2 r2
    refine ⟨_, ⟨⟨[], k.pos.subspace, k.pos.path, [], 0, k.pos.time⟩, 1, handle, (scheme.decompose k.pos.subspace).2⟩ :: entries, a2,
      by simp only [announceLoop, e1, e2], h2, by cases existed <;> simp <;> omega, by simp [m2], ?_⟩
    intro e he
    rcases List.mem_cons.1 he with rfl | he
    · refine ⟨?_, rfl⟩
      rw [← hs]
      exact (List.getElem?_append_left (List.getElem?_eq_some_iff.1 g1).1).trans g1
    · exact r2 e he

theorem run_inv {scheme : TokenScheme} (hinj : ∀ s t, scheme.encode s = scheme.encode t → s = t) (ops : List AnnouncerOp)
    (hq : ∀ op, .handles op ∈ ops → Quiet op) :
    ∀ (a : Announcer) (sent : List Bytes), AnnInv scheme a sent →
    sent.length + ((requests ops).map (·.results.length)).sum < 2 ^ 64 →
    ∃ packs a', Announcer.run scheme ops a = (packs, a') ∧ AnnInv scheme a' (sent ++ told packs) ∧
      packs.length = (requests ops).length ∧ (∀ x ∈ (requests ops).zip packs, Carries x.1 x.2) ∧
      ∀ before pack after, packs = before ++ pack :: after → ∀ e ∈ pack.entries, Refers scheme (sent ++ told (before ++ [pack])) e := by
  induction ops with
  | nil =>
    intro a sent h _
    exact ⟨[], a, rfl, by simpa [told] using h, rfl, by simp [requests], fun before pack after e => by simp at e⟩
  | cons op rest ih =>
    have ih := ih fun o ho => hq o (List.mem_cons_of_mem _ ho)
    intro a sent h hlen
    cases op with
    | handles o => exact ih _ sent (annInv_quiet h (hq o List.mem_cons_self)) hlen
    | announce r =>
      simp only [requests, List.map_cons, List.sum_cons] at hlen
      obtain ⟨binds, entries, a1, e1, h1, l1, m1, r1⟩ := announceLoop_inv hinj r.results a sent h (by omega)
      obtain ⟨packs, a2, e2, h2, n2, c2, r2⟩ := ih a1 (sent ++ binds) h1 (by rw [List.length_append]; omega)
      refine ⟨_ :: packs, a2, by simp only [Announcer.run, Announcer.queueAnnounce, e1, e2]; rfl, ?_, by simp [requests, n2], ?_, ?_⟩
      · simpa [told] using h2
      · intro x hx
        simp only [requests, List.zip_cons_cons, List.mem_cons] at hx
        rcases hx with rfl | hx
        · exact ⟨rfl, rfl, rfl, rfl, rfl, rfl, m1⟩
        · exact c2 x hx
      · intro before pack after he e hm
        cases before with
        | nil =>
          simp only [List.nil_append, List.cons.injEq] at he
          obtain ⟨rfl, _⟩ := he
          simpa [told] using r1 e hm
        | cons b before =>
          simp only [List.cons_append, List.cons.injEq] at he
          obtain ⟨rfl, he⟩ := he
          have := r2 before pack after he e hm
          simpa [told] using this

end Willow.Props
