import Verif.Spec.Pai
import Verif.Lemmas.Handles
import Verif.Lemmas.PropsTransfer

/-! Lemmas about the private area intersection. -/

namespace Willow.Props

open Spec

variable {C G S : Type}

/-- Binding the fragments of a plan. -/
def submitAll (env : PaiEnv C G S) (c : C) : List Planned → PaiFinder C G S → PaiFinder C G S
  | [], p => p
  | f :: rest, p =>
    submitAll env c rest { (p.submitFragment env f.fragment f.secondary).2 with
      info := p.info.set p.ours.least ⟨f.on, some c, f.path, f.namespaceId, f.subspace⟩ }

theorem submitAll_append (env : PaiEnv C G S) (c : C) (a b : List Planned) (p : PaiFinder C G S) :
    submitAll env c (a ++ b) p = submitAll env c b (submitAll env c a p) := by
  induction a generalizing p with
  | nil => rfl
  | cons f a ih => simp only [List.cons_append, submitAll]; exact ih _

theorem ofNat_inj {i j : Nat} (hi : i < 2 ^ 64) (hj : j < 2 ^ 64) (a : UInt64) (h : a + UInt64.ofNat i = a + UInt64.ofNat j) : i = j := by
  have := congrArg UInt64.toNat h
  simp only [UInt64.toNat_add, UInt64.toNat_ofNat'] at this
  have := a.toNat_lt
  omega

theorem succ_ofNat (a : UInt64) (i : Nat) : a + 1 + UInt64.ofNat i = a + UInt64.ofNat (i + 1) := by
  apply UInt64.toNat_inj.1
  simp only [UInt64.toNat_add, UInt64.toNat_ofNat', show (1 : UInt64).toNat = 1 from rfl]
  omega

theorem submitted_all (env : PaiEnv C G S) (c : C) (fs : List Planned) (p : PaiFinder C G S) (hl : fs.length ≤ 2 ^ 64) :
    Submitted env c fs p (submitAll env c fs p) := by
  induction fs generalizing p with
  | nil => exact ⟨by simp [submitAll], by simp, by simp, by simp [submitAll], by simp [submitAll], by simp [submitAll]⟩
  | cons f fs ih =>
    simp only [List.length_cons] at hl
    have h := ih { (p.submitFragment env f.fragment f.secondary).2 with
      info := p.info.set p.ours.least ⟨f.on, some c, f.path, f.namespaceId, f.subspace⟩ } (by omega)
    have hfresh : ∀ i < fs.length, p.ours.least ≠ p.ours.least + 1 + UInt64.ofNat i := by
      intro i hi e
      rw [succ_ofNat] at e
      have := @ofNat_inj 0 (i + 1) (by omega) (by omega) p.ours.least (by simpa using e)
      omega
    simp only [PaiFinder.submitFragment, HandleStore.bind] at h
    have hm := h.others p.ours.least hfresh
    simp only [HandleStore.get, GoMap.get_set, if_true] at hm
    refine ⟨?_, ?_, ?_, ?_, ?_, ?_⟩
    · have := h.binds
      simp only [submitAll, PaiFinder.submitFragment, HandleStore.bind]
      rw [this]
      simp [blinded]
    · intro i g hg
      simp only [submitAll, PaiFinder.submitFragment, HandleStore.bind]
      cases i with
      | zero =>
        simp only [List.getElem?_cons_zero, Option.some.injEq] at hg
        subst hg
        simpa [HandleStore.get, blinded] using hm.1
      | succ i =>
        have := h.bound i g (by simpa using hg)
        rwa [succ_ofNat] at this
    · intro i g hg
      simp only [submitAll, PaiFinder.submitFragment, HandleStore.bind]
      cases i with
      | zero =>
        simp only [List.getElem?_cons_zero, Option.some.injEq] at hg
        subst hg
        simpa using hm.2
      | succ i =>
        have := h.info i g (by simpa using hg)
        rwa [succ_ofNat] at this
    · intro k hk
      simp only [submitAll, PaiFinder.submitFragment, HandleStore.bind]
      have h0 : k ≠ p.ours.least := by simpa using hk 0 (by simp)
      have := h.others k (fun i hi => by
        rw [succ_ofNat]
        exact hk (i + 1) (by simp; omega))
      simpa [HandleStore.get, GoMap.get_set, h0] using this
    · have := h.least
      simp only [submitAll, PaiFinder.submitFragment, HandleStore.bind, List.length_cons]
      rw [this]
      exact succ_ofNat _ _
    · have := h.rest
      simpa only [submitAll, PaiFinder.submitFragment, HandleStore.bind] using this

/-- What the code makes of a planned fragment: everything is primary, and no subspace capability is
asked for. -/
def flattened (f : Planned) : Planned :=
  { f with secondary := false, on := if f.on = .requestSubspaceCap then .bindReadCap else f.on }

theorem submitPrimary_all (env : PaiEnv C G S) (c : C) (g : Nat → Bytes × Bytes × Path) (a n : Nat) (p : PaiFinder C G S) :
    submitPrimary env c ((List.range' a n).map g) p =
      submitAll env c ((List.range' a n).map fun i => ⟨.triple (g i).1 (g i).2.1 (g i).2.2, false,
        if i + 1 = a + n then .bindReadCap else .replyReadCap, (g i).2.2, (g i).1, some (g i).2.1⟩) p := by
  induction n generalizing a p with
  | zero => rfl
  | succ n ih =>
    have e : a + (n + 1) = a + 1 + n := by omega
    simp only [List.range'_succ, List.map_cons, submitPrimary, submitAll, e]
    have := ih (a + 1) 
    rw [this]
    simp only [PaiFinder.submitFragment, HandleStore.bind]
    congr 4
    cases n <;> simp [List.range'_succ]

theorem submitSecondary_all (env : PaiEnv C G S) (c : C) (g : Nat → Bytes × Path) (a n : Nat) (p : PaiFinder C G S) :
    submitSecondary env c ((List.range' a n).map g) p =
      submitAll env c ((List.range' a n).map fun i => ⟨.pair (g i).1 (g i).2, false,
        if i + 1 = a + n then .bindReadCap else .replyReadCap, (g i).2, (g i).1, none⟩) p := by
  induction n generalizing a p with
  | zero => rfl
  | succ n ih =>
    have e : a + (n + 1) = a + 1 + n := by omega
    simp only [List.range'_succ, List.map_cons, submitSecondary, submitAll, e]
    have := ih (a + 1)
    rw [this]
    simp only [PaiFinder.submitFragment, HandleStore.bind]
    congr 4
    cases n <;> simp [List.range'_succ]

theorem prefixesOf_range (path : Path) : prefixesOf path = (List.range' 0 (path.length + 1)).map fun i => path.take i := by
  rw [prefixesOf, List.range'_succ, List.map_cons, List.take_zero, List.range_eq_range', List.range'_eq_map_range (s := 0 + 1)]
  simp [List.map_map, Function.comp_def, List.range_eq_range', Nat.add_comm]

theorem submit_all (env : PaiEnv C G S) (c : C) (p : PaiFinder C G S) :
    p.submit env c = submitAll env c ((plan (env.getFragmentKit c)).map flattened) p := by
  unfold PaiFinder.submit
  cases env.getFragmentKit c with
  | complete n path =>
    simp only [createFragmentSet, submitPrimary, prefixesOf_range, List.map_map, plan, List.range_eq_range']
    rw [submitSecondary_all]
    congr 1
    apply List.map_congr_left
    intro i _
    simp only [Function.comp, flattened, Nat.zero_add, Nat.add_right_cancel_iff]
    by_cases h : i = path.length <;> simp [h]
  | selective n s path =>
    simp only [createFragmentSet, prefixesOf_range, List.map_map, plan, List.range_eq_range', List.map_append]
    rw [submitPrimary_all, submitSecondary_all, submitAll_append]
    congr 1
    · apply List.map_congr_left
      intro i _
      simp only [Function.comp, flattened, Nat.zero_add, Nat.add_right_cancel_iff]
      by_cases h : i = path.length <;> simp [h]
    · congr 1
      apply List.map_congr_left
      intro i _
      simp only [Function.comp, flattened, Nat.zero_add, Nat.add_right_cancel_iff]
      by_cases h : i = path.length <;> simp [h]

theorem order_nil (env : PaiEnv C G S) : env.order [] = [] := List.Perm.eq_nil (env.perm [])

theorem check_empty (env : PaiEnv C G S) (p : PaiFinder C G S) (h : UInt64) (ours : Bool) (ht : p.theirs.map = []) :
    p.check env h ours = p := by
  unfold PaiFinder.check
  cases ours with
  | true => simp [paiRange, ht, order_nil, checkLoop]
  | false => simp [paiGet, HandleStore.get, ht, GoMap.get]

theorem bind_reply (env : PaiEnv C G S) (p : PaiFinder C G S) (s : S) (g : G) (b : Bool) (ht : p.theirs.map = []) :
    (p.receivedBind env s g b).replies = p.replies ++ [(p.ours.least, env.scalarMult g s)] := by
  simp only [PaiFinder.receivedBind]
  rw [check_empty]
  · rfl
  · exact ht

/-- A bind takes the next handle of our own and answers with it. -/
theorem bind_effect (env : PaiEnv C G S) (p : PaiFinder C G S) (s : S) (g : G) (b : Bool) (ht : p.theirs.map = []) :
    (p.receivedBind env s g b).theirs = p.theirs ∧ (p.receivedBind env s g b).ours.least = p.ours.least + 1 ∧
      (p.receivedBind env s g b).replies = p.replies ++ [(p.ours.least, env.scalarMult g s)] ∧
      ∀ h, h ≠ p.ours.least → (p.receivedBind env s g b).ours.get h = p.ours.get h := by
  refine ⟨?_, ?_, bind_reply env p s g b ht, fun h hh => ?_⟩ <;> simp only [PaiFinder.receivedBind] <;> rw [check_empty _ _ _ _ (by exact ht)]
  · rfl
  · simp only [HandleStore.bind, HandleStore.get, GoMap.get_set, if_neg hh]

/-- A reply changes no other handle. -/
theorem reply_effect (env : PaiEnv C G S) (p : PaiFinder C G S) (k : UInt64) (g : G) (ht : p.theirs.map = []) :
    (p.receivedReply env k g).theirs = p.theirs ∧ (p.receivedReply env k g).ours.least = p.ours.least ∧
      (p.receivedReply env k g).replies = p.replies ∧
      ∀ h, h ≠ k → (p.receivedReply env k g).ours.get h = p.ours.get h := by
  have hl : ∀ v, ((p.ours.update k v).getD p.ours).least = p.ours.least ∧
      ∀ h, h ≠ k → ((p.ours.update k v).getD p.ours).get h = p.ours.get h := by
    intro v
    unfold HandleStore.update
    cases p.ours.map.get k with
    | none => exact ⟨rfl, fun _ _ => rfl⟩
    | some t => exact ⟨rfl, fun h hh => by simp only [Option.getD_some, HandleStore.get, GoMap.get_set, if_neg hh]⟩
  refine ⟨?_, ?_, ?_, fun h hh => ?_⟩ <;> simp only [PaiFinder.receivedReply] <;> rw [check_empty _ _ _ _ (by exact ht)]
  · exact (hl _).1
  · exact (hl _).2 h hh

theorem ofNat_succ64 (m : Nat) : UInt64.ofNat m + 1 = UInt64.ofNat (m + 1) := by
  apply UInt64.toNat_inj.1
  simp only [UInt64.toNat_add, UInt64.toNat_ofNat', show (1 : UInt64).toNat = 1 from rfl]
  omega

/-- All handles of the replies to binds come after those that were there before. -/
theorem replies_after (env : PaiEnv C G S) (has : C → Bool) (n : Nat) : ∀ (ops : List (PaiOp C G S)) (p : PaiFinder C G S) (m : Nat),
    (∀ op ∈ ops, (∃ s g b, op = .bind s g b) ∨ ∃ h g, op = .reply h g) → p.theirs.map = [] → p.ours.least = UInt64.ofNat m →
    n ≤ m → m + ops.length ≤ 2 ^ 64 → (∀ x ∈ p.replies, n ≤ x.1.toNat) →
    ∀ x ∈ (ops.foldl (PaiFinder.step env has) p).replies, n ≤ x.1.toNat
  | [], _, _, _, _, _, _, _, hr => hr
  | op :: ops, p, m, hops, ht, hl, hn, hm, hr => by
    simp only [List.length_cons] at hm
    rw [List.foldl_cons]
    have ho := fun o h => hops o (List.mem_cons_of_mem _ h)
    rcases hops op (by simp) with ⟨s, g, b, rfl⟩ | ⟨h, g, rfl⟩
    · obtain ⟨e1, e2, e3, -⟩ := bind_effect env p s g b ht
      refine replies_after env has n ops _ (m + 1) ho (by show (p.receivedBind env s g b).theirs.map = []; rw [e1, ht])
        (by show (p.receivedBind env s g b).ours.least = _; rw [e2, hl, ofNat_succ64]) (by omega) (by omega) ?_
      show ∀ x ∈ (p.receivedBind env s g b).replies, _
      rw [e3]
      intro x hx
      rcases List.mem_append.1 hx with hx | hx
      · exact hr x hx
      · rw [List.mem_singleton.1 hx]
        show n ≤ p.ours.least.toNat
        rw [hl, UInt64.toNat_ofNat', Nat.mod_eq_of_lt (by omega)]
        exact hn
    · obtain ⟨e1, e2, e3, -⟩ := reply_effect env p h g ht
      refine replies_after env has n ops _ m ho (by show (p.receivedReply env h g).theirs.map = []; rw [e1, ht])
        (by show (p.receivedReply env h g).ours.least = _; rw [e2, hl]) hn (by omega) ?_
      show ∀ x ∈ (p.receivedReply env h g).replies, _
      rw [e3]
      exact hr

/-- Binds, and replies with later handles, leave the first handles as they are. -/
theorem first_kept (env : PaiEnv C G S) (has : C → Bool) (n : Nat) : ∀ (ops : List (PaiOp C G S)) (p : PaiFinder C G S) (m : Nat),
    (∀ op ∈ ops, (∃ s g b, op = .bind s g b) ∨ ∃ h g, op = .reply h g ∧ n ≤ h.toNat) → p.theirs.map = [] → p.ours.least = UInt64.ofNat m →
    n ≤ m → m + ops.length ≤ 2 ^ 64 →
    ∀ i < n, (ops.foldl (PaiFinder.step env has) p).ours.get (UInt64.ofNat i) = p.ours.get (UInt64.ofNat i)
  | [], _, _, _, _, _, _, _ => fun _ _ => rfl
  | op :: ops, p, m, hops, ht, hl, hn, hm => by
    simp only [List.length_cons] at hm
    intro i hi
    rw [List.foldl_cons]
    have ho := fun o h => hops o (List.mem_cons_of_mem _ h)
    have hit : (UInt64.ofNat i).toNat = i := by rw [UInt64.toNat_ofNat', Nat.mod_eq_of_lt (by omega)]
    rcases hops op (by simp) with ⟨s, g, b, rfl⟩ | ⟨h, g, rfl, hh⟩
    · obtain ⟨e1, e2, -, e4⟩ := bind_effect env p s g b ht
      rw [first_kept env has n ops _ (m + 1) ho (by show (p.receivedBind env s g b).theirs.map = []; rw [e1, ht])
        (by show (p.receivedBind env s g b).ours.least = _; rw [e2, hl, ofNat_succ64]) (by omega) (by omega) i hi]
      refine e4 _ fun h => ?_
      rw [hl] at h
      have := congrArg UInt64.toNat h
      rw [hit, UInt64.toNat_ofNat', Nat.mod_eq_of_lt (by omega)] at this
      omega
    · obtain ⟨e1, e2, -, e4⟩ := reply_effect env p h g ht
      rw [first_kept env has n ops _ m ho (by show (p.receivedReply env h g).theirs.map = []; rw [e1, ht])
        (by show (p.receivedReply env h g).ours.least = _; rw [e2, hl]) hn (by omega) i hi]
      refine e4 _ fun h => ?_
      rw [← h, hit] at hh
      omega

theorem GoMap.mem_of_get {α : Type} (m : GoMap UInt64 α) (k : UInt64) (v : α) (h : m.get k = some v) : (k, v) ∈ m := by
  induction m with
  | nil => simp [GoMap.get] at h
  | cons e m ih =>
    obtain ⟨a, w⟩ := e
    simp only [GoMap.get] at h
    split at h
    · simp_all
    · exact List.mem_cons_of_mem _ (ih h)

theorem GoMap.get_of_mem {α : Type} (m : GoMap UInt64 α) (hm : GoodMap m) (k : UInt64) (v : α) (h : (k, v) ∈ m) : m.get k = some v := by
  induction m with
  | nil => simp at h
  | cons e m ih =>
    obtain ⟨a, w⟩ := e
    unfold GoodMap at hm
    rw [List.map_cons, List.nodup_cons] at hm
    rcases List.mem_cons.1 h with h | h
    · cases h; simp [GoMap.get]
    · have : a ≠ k := by
        intro e
        exact hm.1 (List.mem_map.2 ⟨(k, v), h, by simp [e]⟩)
      simp [GoMap.get, this, ih hm.2 h]

theorem mem_paiRange (env : PaiEnv C G S) (s : HandleStore (PaiIntersection G)) (hs : GoodMap s.map) (x : UInt64 × PaiIntersection G) :
    x ∈ paiRange env s ↔ s.get x.1 = some x.2 := by
  unfold paiRange
  rw [(env.perm _).mem_iff, List.mem_map]
  constructor
  · rintro ⟨⟨k, t⟩, hm, rfl⟩
    simp [HandleStore.get, GoMap.get_of_mem _ hs k t hm]
  · intro h
    simp only [HandleStore.get, Option.map_eq_some_iff] at h
    obtain ⟨t, ht, hv⟩ := h
    exact ⟨(x.1, t), GoMap.mem_of_get _ _ _ ht, by simp [hv]⟩

theorem checkLoop_spec (env : PaiEnv C G S) (h : UInt64) (ours : Bool) (a : PaiIntersection G)
    (l : List (UInt64 × PaiIntersection G)) (p : PaiFinder C G S) :
    (∀ x, x ∈ (checkLoop env h ours a l p).intersections ↔ x ∈ p.intersections ∨
      ∃ y ∈ l, paiMatches env a y.2 = true ∧ (p.infoOf (if ours then h else y.1)).onIntersection = .bindReadCap ∧
        x = ((p.infoOf (if ours then h else y.1)).namespaceId, (p.infoOf (if ours then h else y.1)).authorisation, if ours then h else y.1)) ∧
    (∀ x, x ∈ (checkLoop env h ours a l p).capRequests ↔ x ∈ p.capRequests ∨
      x = h ∧ ∃ y ∈ l, paiMatches env a y.2 = true ∧ (p.infoOf (if ours then h else y.1)).onIntersection = .requestSubspaceCap) ∧
    (checkLoop env h ours a l p).ours = p.ours ∧ (checkLoop env h ours a l p).theirs = p.theirs ∧
    (checkLoop env h ours a l p).info = p.info := by
  induction l generalizing p with
  | nil => simp [checkLoop]
  | cons y l ih =>
    obtain ⟨k, b⟩ := y
    unfold checkLoop
    by_cases hm : paiMatches env a b = true
    · simp only [hm, if_true]
      cases ho : (p.infoOf (if ours = true then h else k)).onIntersection with
      | bindReadCap =>
        dsimp only
        have := ih { p with intersections := p.intersections ++ [((p.infoOf (if ours = true then h else k)).namespaceId, (p.infoOf (if ours = true then h else k)).authorisation, if ours = true then h else k)] }
        simp only [PaiFinder.infoOf] at this ho ⊢
        refine ⟨fun x => ?_, fun x => ?_, this.2.2⟩
        · rw [this.1 x]
          simp only [List.mem_append, List.mem_cons, exists_eq_or_imp, hm, ho, or_assoc, true_and, List.not_mem_nil, false_or]
        · rw [this.2.1 x]
          simp only [List.mem_cons, exists_eq_or_imp, hm, ho, true_and, reduceCtorEq, false_or]
      | requestSubspaceCap =>
        dsimp only
        have := ih { p with requested := p.requested.set (if ours = true then h else k) true, capRequests := p.capRequests ++ [h] }
        simp only [PaiFinder.infoOf] at this ho ⊢
        refine ⟨fun x => ?_, fun x => ?_, this.2.2⟩
        · rw [this.1 x]
          simp only [List.mem_cons, exists_eq_or_imp, hm, ho, true_and, reduceCtorEq, false_and, false_or]
        · rw [this.2.1 x]
          simp only [List.mem_append, List.mem_cons, exists_eq_or_imp, hm, ho, true_or, and_true, or_assoc]
          simp only [List.not_mem_nil, false_or]
          constructor
          · rintro (h | h | h)
            · exact .inl h
            · exact .inr h
            · exact .inr h.1
          · rintro (h | h)
            · exact .inl h
            · exact .inr (.inl h)
      | replyReadCap =>
        dsimp only
        have := ih p
        refine ⟨fun x => ?_, fun x => ?_, this.2.2⟩
        · rw [this.1 x]
          simp only [List.mem_cons, exists_eq_or_imp, hm, ho, true_and, reduceCtorEq, false_and, false_or]
        · rw [this.2.1 x]
          simp only [List.mem_cons, exists_eq_or_imp, hm, ho, true_and, reduceCtorEq, false_or]
    · simp only [hm, if_false, Bool.false_eq_true]
      have := ih p
      refine ⟨fun x => ?_, fun x => ?_, this.2.2⟩
      · rw [this.1 x]
        simp only [List.mem_cons, exists_eq_or_imp, hm, false_and, false_or, Bool.false_eq_true]
      · rw [this.2.1 x]
        simp only [List.mem_cons, exists_eq_or_imp, hm, false_and, false_or, Bool.false_eq_true]

theorem submitAll_rest (env : PaiEnv C G S) (c : C) (fs : List Planned) (p : PaiFinder C G S) :
    (submitAll env c fs p).theirs = p.theirs ∧ (submitAll env c fs p).intersections = p.intersections ∧
      (submitAll env c fs p).capRequests = p.capRequests ∧ (submitAll env c fs p).capReplies = p.capReplies ∧
      (submitAll env c fs p).binds = p.binds ++ fs.map fun f => (blinded env p.scalar f.fragment, f.secondary) := by
  induction fs generalizing p with
  | nil => simp [submitAll]
  | cons f fs ih =>
    simp only [submitAll]
    have := ih { (p.submitFragment env f.fragment f.secondary).2 with
      info := p.info.set p.ours.least ⟨f.on, some c, f.path, f.namespaceId, f.subspace⟩ }
    simp only [PaiFinder.submitFragment, HandleStore.bind] at this ⊢
    exact ⟨this.1, this.2.1, this.2.2.1, this.2.2.2.1, by rw [this.2.2.2.2]; simp [blinded]⟩

theorem checkLoop_requested (env : PaiEnv C G S) (h : UInt64) (ours : Bool) (a : PaiIntersection G)
    (l : List (UInt64 × PaiIntersection G)) (p : PaiFinder C G S) (j : UInt64) :
    (checkLoop env h ours a l p).requested.get j =
      if ∃ y ∈ l, paiMatches env a y.2 = true ∧ (p.infoOf (if ours then h else y.1)).onIntersection = .requestSubspaceCap ∧ j = (if ours then h else y.1)
      then some true else p.requested.get j := by
  classical
  induction l generalizing p with
  | nil => simp [checkLoop]
  | cons y l ih =>
    obtain ⟨k, b⟩ := y
    unfold checkLoop
    by_cases hm : paiMatches env a b = true
    · simp only [hm, if_true]
      cases ho : (p.infoOf (if ours = true then h else k)).onIntersection with
      | bindReadCap =>
        dsimp only
        have := ih { p with intersections := p.intersections ++ [((p.infoOf (if ours = true then h else k)).namespaceId, (p.infoOf (if ours = true then h else k)).authorisation, if ours = true then h else k)] }
        simp only [PaiFinder.infoOf] at this ho ⊢
        rw [this]
        simp only [List.mem_cons, exists_eq_or_imp, hm, ho, true_and, reduceCtorEq, false_and, false_or]
        congr
      | requestSubspaceCap =>
        dsimp only
        have := ih { p with requested := p.requested.set (if ours = true then h else k) true, capRequests := p.capRequests ++ [h] }
        simp only [PaiFinder.infoOf] at this ho ⊢
        rw [this]
        simp only [List.mem_cons, exists_eq_or_imp, hm, ho, true_and, GoMap.get_set]
        by_cases hj : j = if ours = true then h else k
        · simp [hj]
        · simp [hj]
      | replyReadCap =>
        dsimp only
        rw [ih p]
        simp only [List.mem_cons, exists_eq_or_imp, hm, ho, true_and, reduceCtorEq, false_and, false_or]
    · simp only [hm]
      rw [if_neg (by simp), ih p]
      simp only [List.mem_cons, exists_eq_or_imp, hm, false_and, false_or]
      simp

/-- What is matched. -/
theorem matched_iff (env : PaiEnv C G S) (s : HandleStore (PaiIntersection G)) (hm : GoodMap s.map) (a : PaiIntersection G) (P : UInt64 → Prop) :
    (∃ y ∈ paiRange env s, paiMatches env a y.2 = true ∧ P y.1) ↔
      ∃ h' b, s.get h' = some b ∧ b.isComplete = true ∧ ¬(a.isSecondary = true ∧ b.isSecondary = true) ∧
          env.isGroupEqual a.group b.group = true ∧ P h' := by
  constructor
  · rintro ⟨y, hy, hmt, hP⟩
    rw [mem_paiRange env _ hm] at hy
    simp only [paiMatches, Bool.and_eq_true, Bool.not_eq_true'] at hmt
    exact ⟨y.1, y.2, hy, hmt.1.1, by rw [← Bool.and_eq_true, hmt.1.2]; simp, hmt.2, hP⟩
  · rintro ⟨h', b, hb, h1, h2, h3, hP⟩
    refine ⟨(h', b), (mem_paiRange env _ hm _).2 hb, ?_, hP⟩
    rw [← Bool.and_eq_true] at h2
    simp [paiMatches, h1, h2, h3]

end Willow.Props
