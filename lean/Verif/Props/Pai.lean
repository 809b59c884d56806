import Verif.Lemmas.PropsPai

/-! # The private area intersection finder (C94, C95) -/

namespace Willow.Props

open Spec

variable {C G S : Type}

/-- A scheme for the examples: group members are numbers, authorisations are fragment kits. -/
def toyPai : PaiEnv FragmentKit Nat Nat where
  fragmentToGroup
    | .triple _ _ p => 2 + p.length
    | .pair _ p => 5 + 2 * p.length
  scalarMult g s := g * s
  isGroupEqual a b := a == b
  getFragmentKit := id
  zeroGroup := 0
  order := id
  perm l := .refl l

/-! ## C94: submitting an authorisation -/

/-- C94, partial: a grant of a whole namespace is submitted as planned. Missing: grants of one
subspace (see `C94_violated`). -/
theorem C94_complete_partial (env : PaiEnv C G S) (p : PaiFinder C G S) (c : C) (n : Bytes) (path : Path)
    (hc : env.getFragmentKit c = .complete n path) (hl : path.length < 2 ^ 64) :
    Submitted env c (plan (env.getFragmentKit c)) p (p.submit env c) := by
  rw [submit_all]
  have e : (plan (env.getFragmentKit c)).map flattened = plan (env.getFragmentKit c) := by
    rw [hc]
    simp only [plan, List.map_map]
    apply List.map_congr_left
    intro i _
    simp only [Function.comp, flattened]
    by_cases h : i = path.length <;> simp [h]
  rw [e]
  apply submitted_all
  rw [hc]
  simp [plan]
  omega

example : ((PaiFinder.new 11).submit toyPai (.complete [1] [[2], [3]])).binds = [(55, false), (77, false), (99, false)] ∧
    (((PaiFinder.new 11).submit toyPai (.complete [1] [[2], [3]])).info.get 1).map (·.onIntersection) = some .replyReadCap ∧
    (((PaiFinder.new 11).submit toyPai (.complete [1] [[2], [3]])).info.get 2).map (·.onIntersection) = some .bindReadCap := by
  decide

/-- C94, partial: any grant is submitted as planned, except that every fragment counts as primary
and no subspace capability is asked for: the most specific fragment without the subspace is
treated like the most specific one with it. -/
theorem C94_submitted_partial (env : PaiEnv C G S) (p : PaiFinder C G S) (c : C)
    (hl : (plan (env.getFragmentKit c)).length ≤ 2 ^ 64) :
    Submitted env c ((plan (env.getFragmentKit c)).map fun f => { f with
      secondary := false
      on := if f.on = .requestSubspaceCap then .bindReadCap else f.on }) p (p.submit env c) := by
  rw [submit_all]
  exact submitted_all env c _ p (by simpa using hl)

example : ((PaiFinder.new 11).submit toyPai (.selective [1] [9] [[2]])).binds = [(22, false), (33, false), (55, false), (77, false)] ∧
    ((PaiFinder.new 11).submit toyPai (.selective [1] [9] [[2]])).info.get 1 =
      some ⟨.bindReadCap, some (.selective [1] [9] [[2]]), [[2]], [1], some [9]⟩ := by
  decide

/-- C94 is violated: no grant of one subspace is submitted as planned, for its fragments without
the subspace are sent to the other peer as primary ones. -/
theorem C94_violated (env : PaiEnv C G S) (p : PaiFinder C G S) (c : C) (n s : Bytes) (path : Path)
    (hc : env.getFragmentKit c = .selective n s path) :
    ¬Submitted env c (plan (env.getFragmentKit c)) p (p.submit env c) := by
  intro h
  have h1 := h.binds
  rw [submit_all, (submitAll_rest env c _ p).2.2.2.2, hc] at h1
  have h2 := congrArg (List.map Prod.snd) (List.append_cancel_left h1)
  simp only [plan, List.map_append, List.map_map] at h2
  have h3 := (List.append_inj h2 (by simp)).2
  rw [List.range_succ_eq_map] at h3
  simp only [List.map_cons, List.cons.injEq] at h3
  exact absurd h3.1 (by simp [flattened])

example : toyPai.getFragmentKit (.selective [1] [9] [[2]]) = .selective [1] [9] [[2]] := rfl

/-- C94 is violated: when the other peer shares only the most specific fragment without the
subspace, the authorisation is reported as if the fragment with the subspace was shared, and the
subspace capability is not asked for. -/
theorem C94_violated_request (env : PaiEnv C G S) (p : PaiFinder C G S) (c : C) (n s : Bytes) (path : Path)
    (hc : env.getFragmentKit c = .selective n s path) (hl : 2 * (path.length + 1) ≤ 2 ^ 64) :
    (plan (env.getFragmentKit c))[2 * path.length + 1]? = some ⟨.pair n path, true, .requestSubspaceCap, path, n, none⟩ ∧
    (p.submit env c).info.get (p.ours.least + UInt64.ofNat (2 * path.length + 1)) =
      some ⟨.bindReadCap, some c, path, n, none⟩ := by
  have hp : (plan (env.getFragmentKit c))[2 * path.length + 1]? = some ⟨.pair n path, true, .requestSubspaceCap, path, n, none⟩ := by
    rw [hc]
    simp only [plan]
    rw [List.getElem?_append_right (by simp; omega)]
    simp only [List.length_map, List.length_range, List.getElem?_map]
    rw [show 2 * path.length + 1 - (path.length + 1) = path.length by omega, List.getElem?_range (by omega)]
    simp
  refine ⟨hp, ?_⟩
  have h := (C94_submitted_partial env p c (by rw [hc]; simp [plan]; omega)).info (2 * path.length + 1)
  rw [List.getElem?_map, hp] at h
  exact h _ rfl

example : ((PaiFinder.new 11).submit toyPai (.selective [1] [9] [[2]])).info.get 3 =
    some ⟨.bindReadCap, some (.selective [1] [9] [[2]]), [[2]], [1], none⟩ := by decide

/-! ## C95: finding intersections -/

/-- C95, partial: when a handle of ours is complete, the check reports its authorisation exactly
if a complete handle of theirs, not both being secondary, has an equal group member and the
fragment is one that is to be reported; it asks for a subspace capability in the same situation if
the fragment is one for which this is to be done. Missing: the methods never bring about such a
situation (see `C95_violated_never`). -/
theorem C95_check_partial (env : PaiEnv C G S) (p : PaiFinder C G S) (h : UInt64) (a : PaiIntersection G)
    (i : FragmentInfo C) (hg : p.ours.get h = some a) (hc : a.isComplete = true) (hi : p.info.get h = some i)
    (hm : GoodMap p.theirs.map) (x : Bytes × Option C × UInt64) (k : UInt64) :
    (x ∈ (p.check env h true).intersections ↔ x ∈ p.intersections ∨
      x = (i.namespaceId, i.authorisation, h) ∧ i.onIntersection = .bindReadCap ∧
        ∃ h' b, p.theirs.get h' = some b ∧ b.isComplete = true ∧ ¬(a.isSecondary = true ∧ b.isSecondary = true) ∧
          env.isGroupEqual a.group b.group = true) ∧
    (k ∈ (p.check env h true).capRequests ↔ k ∈ p.capRequests ∨
      k = h ∧ i.onIntersection = .requestSubspaceCap ∧
        ∃ h' b, p.theirs.get h' = some b ∧ b.isComplete = true ∧ ¬(a.isSecondary = true ∧ b.isSecondary = true) ∧
          env.isGroupEqual a.group b.group = true) := by
  have hL := checkLoop_spec env h true a (paiRange env p.theirs) p
  have e : p.check env h true = checkLoop env h true a (paiRange env p.theirs) p := by
    simp [PaiFinder.check, paiGet, hg, hc]
  have hi' : p.infoOf h = i := by simp [PaiFinder.infoOf, hi]
  have hmem : ∀ P : Prop, (∃ y ∈ paiRange env p.theirs, paiMatches env a y.2 = true ∧ P) ↔
      P ∧ ∃ h' b, p.theirs.get h' = some b ∧ b.isComplete = true ∧ ¬(a.isSecondary = true ∧ b.isSecondary = true) ∧
          env.isGroupEqual a.group b.group = true := by
    intro P
    constructor
    · rintro ⟨y, hy, hmt, hP⟩
      rw [mem_paiRange env _ hm] at hy
      simp only [paiMatches, Bool.and_eq_true, Bool.not_eq_true'] at hmt
      exact ⟨hP, y.1, y.2, hy, hmt.1.1, by
        rw [← Bool.and_eq_true, hmt.1.2]; simp, hmt.2⟩
    · rintro ⟨hP, h', b, hb, h1, h2, h3⟩
      refine ⟨(h', b), (mem_paiRange env _ hm _).2 hb, ?_, hP⟩
      rw [← Bool.and_eq_true] at h2
      simp [paiMatches, h1, h2, h3]
  rw [e, hL.1 x, hL.2.1 k]
  simp only [if_true, hi']
  rw [hmem, hmem]
  constructor
  · constructor
    · rintro (h | ⟨⟨h1, h2⟩, h3⟩)
      · exact .inl h
      · exact .inr ⟨h2, h1, h3⟩
    · rintro (h | ⟨h2, h1, h3⟩)
      · exact .inl h
      · exact .inr ⟨⟨h1, h2⟩, h3⟩
  · exact Iff.rfl

/-- A finder in which the check finds something. -/
def exFound : PaiFinder FragmentKit Nat Nat :=
  { PaiFinder.new 11 with
    ours := (HandleStore.bind .empty ⟨30, true, false⟩).2
    theirs := (HandleStore.bind .empty ⟨30, true, true⟩).2
    info := [(0, ⟨.bindReadCap, some (.complete [1] []), [], [1], none⟩)] }

example : exFound.ours.get 0 = some ⟨30, true, false⟩ ∧ GoodMap exFound.theirs.map ∧
    (exFound.check toyPai 0 true).intersections = [([1], some (.complete [1] []), 0)] := by
  refine ⟨rfl, ?_, by decide⟩
  unfold GoodMap; decide

/-- C95, partial: a check of a complete handle of ours notes that a subspace capability was requested for it exactly if it asks
for one, and forgets no request. -/
theorem C95_requested_partial (env : PaiEnv C G S) (p : PaiFinder C G S) (h : UInt64) (a : PaiIntersection G)
    (i : FragmentInfo C) (hg : p.ours.get h = some a) (hc : a.isComplete = true) (hi : p.info.get h = some i)
    (hm : GoodMap p.theirs.map) (j : UInt64) :
    (p.check env h true).requested.get j = some true ↔ p.requested.get j = some true ∨
      j = h ∧ i.onIntersection = .requestSubspaceCap ∧
        ∃ h' b, p.theirs.get h' = some b ∧ b.isComplete = true ∧ ¬(a.isSecondary = true ∧ b.isSecondary = true) ∧
          env.isGroupEqual a.group b.group = true := by
  have e : p.check env h true = checkLoop env h true a (paiRange env p.theirs) p := by
    simp [PaiFinder.check, paiGet, hg, hc]
  have hi' : p.infoOf h = i := by simp [PaiFinder.infoOf, hi]
  rw [e, checkLoop_requested]
  simp only [if_true, hi']
  have := matched_iff env p.theirs hm a (fun _ => i.onIntersection = .requestSubspaceCap ∧ j = h)
  split
  · rename_i hy
    obtain ⟨h', b, h1, h2, h3, h4, h5, h6⟩ := this.1 hy
    simp only [true_iff]
    exact .inr ⟨h6, h5, h', b, h1, h2, h3, h4⟩
  · rename_i hy
    constructor
    · exact .inl
    · rintro (h0 | ⟨h1, h2, h', b, h3, h4, h5, h6⟩)
      · exact h0
      · exact absurd (this.2 ⟨h', b, h3, h4, h5, h6, h2, h1⟩) hy

example : let p : PaiFinder FragmentKit Nat Nat :=
      { PaiFinder.new 11 with
        ours := (HandleStore.bind .empty ⟨30, true, false⟩).2
        theirs := (HandleStore.bind .empty ⟨30, true, true⟩).2
        info := [(0, ⟨.requestSubspaceCap, some (.complete [2] []), [], [2], none⟩)] }
    p.ours.get 0 = some ⟨30, true, false⟩ ∧ GoodMap p.theirs.map ∧ p.requested.get 0 = none ∧
    (p.check toyPai 0 true).requested.get 0 = some true := by
  refine ⟨rfl, ?_, by decide, by decide⟩
  unfold GoodMap; decide

/-- C95, partial: when a handle of theirs is complete, the check reports exactly the authorisations of our complete handles that
share it, not both being secondary, whose fragments are to be reported; it asks for a subspace capability, naming their
handle, and notes that it did for ours, exactly if there is such a handle of ours whose fragment is one for which this is to
be done. -/
theorem C95_checkTheirs_partial (env : PaiEnv C G S) (p : PaiFinder C G S) (h : UInt64) (a : PaiIntersection G)
    (hg : p.theirs.get h = some a) (hc : a.isComplete = true) (hm : GoodMap p.ours.map)
    (hinfo : ∀ h' b, p.ours.get h' = some b → (p.info.get h').isSome = true) (x : Bytes × Option C × UInt64) (k : UInt64) :
    (x ∈ (p.check env h false).intersections ↔ x ∈ p.intersections ∨
      ∃ h' b i, p.ours.get h' = some b ∧ b.isComplete = true ∧ ¬(a.isSecondary = true ∧ b.isSecondary = true) ∧
          env.isGroupEqual a.group b.group = true ∧ p.info.get h' = some i ∧ i.onIntersection = .bindReadCap ∧
          x = (i.namespaceId, i.authorisation, h')) ∧
    (k ∈ (p.check env h false).capRequests ↔ k ∈ p.capRequests ∨ k = h ∧
      ∃ h' b i, p.ours.get h' = some b ∧ b.isComplete = true ∧ ¬(a.isSecondary = true ∧ b.isSecondary = true) ∧
          env.isGroupEqual a.group b.group = true ∧ p.info.get h' = some i ∧ i.onIntersection = .requestSubspaceCap) ∧
    ((p.check env h false).requested.get k = some true ↔ p.requested.get k = some true ∨
      ∃ b i, p.ours.get k = some b ∧ b.isComplete = true ∧ ¬(a.isSecondary = true ∧ b.isSecondary = true) ∧
          env.isGroupEqual a.group b.group = true ∧ p.info.get k = some i ∧ i.onIntersection = .requestSubspaceCap) := by
  have hL := checkLoop_spec env h false a (paiRange env p.ours) p
  have e : p.check env h false = checkLoop env h false a (paiRange env p.ours) p := by
    simp [PaiFinder.check, paiGet, hg, hc]
  have hI : ∀ h' b, p.ours.get h' = some b → ∃ i, p.info.get h' = some i ∧ p.infoOf h' = i := by
    intro h' b hb
    obtain ⟨i, hi⟩ := Option.isSome_iff_exists.1 (hinfo h' b hb)
    exact ⟨i, hi, by simp [PaiFinder.infoOf, hi]⟩
  have hI' : ∀ h' i, p.info.get h' = some i → p.infoOf h' = i := fun h' i hi => by simp [PaiFinder.infoOf, hi]
  rw [e, hL.1 x, hL.2.1 k, checkLoop_requested]
  simp only [Bool.false_eq_true, if_false]
  refine ⟨or_congr Iff.rfl ?_, or_congr Iff.rfl (and_congr Iff.rfl ?_), ?_⟩
  · refine (matched_iff env p.ours hm a fun h' => (p.infoOf h').onIntersection = .bindReadCap ∧
      x = ((p.infoOf h').namespaceId, (p.infoOf h').authorisation, h')).trans ?_
    constructor
    · rintro ⟨h', b, h1, h2, h3, h4, h5, h6⟩
      obtain ⟨i, hi, rfl⟩ := hI h' b h1
      exact ⟨h', b, _, h1, h2, h3, h4, hi, h5, h6⟩
    · rintro ⟨h', b, i, h1, h2, h3, h4, hi, h5, h6⟩
      have := hI' h' i hi
      exact ⟨h', b, h1, h2, h3, h4, by rw [this]; exact h5, by rw [this]; exact h6⟩
  · refine (matched_iff env p.ours hm a fun h' => (p.infoOf h').onIntersection = .requestSubspaceCap).trans ?_
    constructor
    · rintro ⟨h', b, h1, h2, h3, h4, h5⟩
      obtain ⟨i, hi, rfl⟩ := hI h' b h1
      exact ⟨h', b, _, h1, h2, h3, h4, hi, h5⟩
    · rintro ⟨h', b, i, h1, h2, h3, h4, hi, h5⟩
      exact ⟨h', b, h1, h2, h3, h4, by rw [hI' h' i hi]; exact h5⟩
  · have := matched_iff env p.ours hm a fun h' => (p.infoOf h').onIntersection = .requestSubspaceCap ∧ k = h'
    split
    · rename_i hy
      obtain ⟨h', b, h1, h2, h3, h4, h5, rfl⟩ := this.1 hy
      obtain ⟨i, hi, rfl⟩ := hI k b h1
      simp only [true_iff]
      exact .inr ⟨b, _, h1, h2, h3, h4, hi, h5⟩
    · rename_i hy
      constructor
      · exact .inl
      · rintro (h0 | ⟨b, i, h1, h2, h3, h4, hi, h5⟩)
        · exact h0
        · exact absurd (this.2 ⟨k, b, h1, h2, h3, h4, by rw [hI' k i hi]; exact h5, rfl⟩) hy

/-- Two handles of ours, the second shared, one of theirs. -/
def exFound2 : PaiFinder FragmentKit Nat Nat :=
  { PaiFinder.new 11 with
    ours := (HandleStore.bind (HandleStore.bind .empty ⟨20, true, false⟩).2 ⟨30, true, false⟩).2
    theirs := (HandleStore.bind .empty ⟨30, true, true⟩).2
    info := [(0, ⟨.bindReadCap, some (.complete [1] []), [], [1], none⟩), (1, ⟨.requestSubspaceCap, some (.complete [2] []), [], [2], none⟩)] }

example : exFound2.theirs.get 0 = some ⟨30, true, true⟩ ∧ GoodMap exFound2.ours.map ∧
    (exFound2.check toyPai 0 false).intersections = [] ∧ (exFound2.check toyPai 0 false).capRequests = [0] ∧
    (exFound2.check toyPai 0 false).requested.get 1 = some true ∧ (exFound2.check toyPai 1 true).requested.get 1 = some true := by
  refine ⟨rfl, ?_, by decide, by decide, by decide, by decide⟩
  unfold GoodMap; decide

/-- C95 is violated: whatever authorisations are submitted and whatever the other peer binds,
replies and requests, no intersection is ever reported and no subspace capability is ever asked
for: what the other peer binds is entered into the store of our own handles, and each search goes
through the store of theirs. -/
theorem C95_violated_never (env : PaiEnv C G S) (has : C → Bool) (scalar : S) (ops : List (PaiOp C G S))
    (hops : ∀ op ∈ ops, (∃ c, op = .submit c) ∨ (∃ s g b, op = .bind s g b) ∨ (∃ h g, op = .reply h g) ∨ (∃ h, op = .capRequest h)) :
    (ops.foldl (PaiFinder.step env has) (PaiFinder.new scalar)).intersections = [] ∧
    (ops.foldl (PaiFinder.step env has) (PaiFinder.new scalar)).capRequests = [] ∧
    (ops.foldl (PaiFinder.step env has) (PaiFinder.new scalar)).theirs = .empty := by
  have key : ∀ (ops : List (PaiOp C G S)) (p : PaiFinder C G S), p.intersections = [] → p.capRequests = [] → p.theirs = .empty →
      (∀ op ∈ ops, (∃ c, op = .submit c) ∨ (∃ s g b, op = .bind s g b) ∨ (∃ h g, op = .reply h g) ∨ (∃ h, op = .capRequest h)) →
      (ops.foldl (PaiFinder.step env has) p).intersections = [] ∧ (ops.foldl (PaiFinder.step env has) p).capRequests = [] ∧
      (ops.foldl (PaiFinder.step env has) p).theirs = .empty := by
    intro ops
    induction ops with
    | nil => intro p h1 h2 h3 _; exact ⟨h1, h2, h3⟩
    | cons op ops ih =>
      intro p h1 h2 h3 hops
      rw [List.foldl_cons]
      have ht : p.theirs.map = [] := by rw [h3]; rfl
      have hs : (p.step env has op).intersections = [] ∧ (p.step env has op).capRequests = [] ∧ (p.step env has op).theirs = .empty := by
        rcases hops op List.mem_cons_self with ⟨c, rfl⟩ | ⟨s, g, b, rfl⟩ | ⟨h, g, rfl⟩ | ⟨h, rfl⟩
        · simp only [PaiFinder.step, submit_all]
          have := submitAll_rest env c ((plan (env.getFragmentKit c)).map flattened) p
          rw [this.2.1, this.2.2.1, this.1]
          exact ⟨h1, h2, h3⟩
        · simp only [PaiFinder.step, PaiFinder.receivedBind]
          rw [check_empty]
          · exact ⟨h1, h2, h3⟩
          · exact ht
        · simp only [PaiFinder.step, PaiFinder.receivedReply]
          rw [check_empty]
          · exact ⟨h1, h2, h3⟩
          · exact ht
        · exact ⟨h1, h2, h3⟩
      exact ih _ hs.1 hs.2.1 hs.2.2 fun op h => hops op (List.mem_cons_of_mem _ h)
  exact key ops _ rfl rfl rfl hops

example : (([.submit (.complete [1] [[2]]), .bind 3 30 true, .reply 0 30, .capRequest 0] : List (PaiOp FragmentKit Nat Nat)).foldl
    (PaiFinder.step toyPai fun _ => true) (PaiFinder.new 11)).intersections = [] := by decide

/-- The binds of another peer arrive. -/
def bindAll (env : PaiEnv C G S) (scalar : S) (binds : List (G × Bool)) (p : PaiFinder C G S) : PaiFinder C G S :=
  binds.foldl (fun p b => p.receivedBind env scalar b.1 b.2) p

/-- The replies of another peer arrive. -/
def replyAll (env : PaiEnv C G S) (replies : List (UInt64 × G)) (p : PaiFinder C G S) : PaiFinder C G S :=
  replies.foldl (fun p r => p.receivedReply env r.1 r.2) p

/-- One of two peers after both submitted the same authorisation and everything queued was
delivered; `own` and `other` are the scalars, which are the same at every call. -/
def exchanged (own other : Nat) (kit : FragmentKit) : PaiFinder FragmentKit Nat Nat :=
  let a := (PaiFinder.new own).submit toyPai kit
  let b := (PaiFinder.new other).submit toyPai kit
  replyAll toyPai (bindAll toyPai other a.binds b).replies (bindAll toyPai own b.binds a)

/-- C95 is violated: two peers with the same authorisation exchange everything, and neither finds
an intersection. The replies carry handles of the replying peer: none of the fragments that a peer
submitted becomes complete, and the fragments received from the other peer are overwritten. -/
theorem C95_violated_exchange :
    (exchanged 11 13 (.complete [1] [[2]])).intersections = [] ∧
    (exchanged 13 11 (.complete [1] [[2]])).intersections = [] ∧
    (exchanged 11 13 (.complete [1] [[2]])).ours.get 0 = some ⟨55, false, false⟩ ∧
    (exchanged 11 13 (.complete [1] [[2]])).ours.get 1 = some ⟨77, false, false⟩ ∧
    (exchanged 11 13 (.complete [1] [[2]])).ours.get 2 = some ⟨5 * 11 * 13, true, false⟩ ∧
    (exchanged 11 13 (.complete [1] [[2]])).info.get 2 = none := by
  decide

example : (exchanged 11 13 (.complete [1] [[2]])).replies = [(2, 5 * 13 * 11), (3, 7 * 13 * 11)] := by decide

/-- C95 is violated whenever the peer that answers submitted fewer fragments: its reply to our first bind names a handle of its own
store. With us that is the handle of another fragment, which thereby counts as complete, with the group member of the
first fragment; the first one never does. -/
theorem C95_violated_reply (env : PaiEnv C G S) (own other fresh : S) (c d : C)
    (hl : (plan (env.getFragmentKit d)).length < (plan (env.getFragmentKit c)).length)
    (hc : (plan (env.getFragmentKit c)).length ≤ 2 ^ 64) :
    ∃ (first another : Planned) (h : UInt64) (g : G),
      (plan (env.getFragmentKit c))[0]? = some first ∧ (plan (env.getFragmentKit c))[h.toNat]? = some another ∧ h ≠ 0 ∧
      ((PaiFinder.new own).submit env c).binds.head? = some (blinded env own first.fragment, false) ∧
      (((PaiFinder.new other).submit env d).receivedBind env fresh (blinded env own first.fragment) false).replies = [(h, g)] ∧
      g = env.scalarMult (blinded env own first.fragment) fresh ∧
      (((PaiFinder.new own).submit env c).receivedReply env h g).ours.get 0 = some ⟨blinded env own first.fragment, false, false⟩ ∧
      (((PaiFinder.new own).submit env c).receivedReply env h g).ours.get h = some ⟨g, true, false⟩ ∧
      (((PaiFinder.new own).submit env c).receivedReply env h g).info.get h =
        some ⟨if another.on = .requestSubspaceCap then .bindReadCap else another.on, some c, another.path, another.namespaceId, another.subspace⟩ := by
  have ha := C94_submitted_partial env (PaiFinder.new own) c hc
  have hb := C94_submitted_partial env (PaiFinder.new other) d (by omega)
  have hpos : ∀ k : FragmentKit, 0 < (plan k).length := by intro k; cases k <;> simp [plan] <;> omega
  have hd := hpos (env.getFragmentKit d)
  have hlt : (plan (env.getFragmentKit d)).length < 2 ^ 64 := by omega
  have hn : (UInt64.ofNat (plan (env.getFragmentKit d)).length).toNat = (plan (env.getFragmentKit d)).length := by
    rw [UInt64.toNat_ofNat']
    exact Nat.mod_eq_of_lt hlt
  have hne : UInt64.ofNat (plan (env.getFragmentKit d)).length ≠ 0 := by
    intro h
    have := congrArg UInt64.toNat h
    rw [hn] at this
    exact absurd this (Nat.ne_of_gt hd)
  have h0 : 0 < (plan (env.getFragmentKit c)).length := by omega
  have hz : ∀ i, (PaiFinder.new own : PaiFinder C G S).ours.least + UInt64.ofNat i = UInt64.ofNat i := fun i => UInt64.zero_add _
  have b1 := ha.bound (plan (env.getFragmentKit d)).length _ (by rw [List.getElem?_map, List.getElem?_eq_getElem hl]; rfl)
  have b0 := ha.bound 0 _ (by rw [List.getElem?_map, List.getElem?_eq_getElem h0]; rfl)
  have i1 := ha.info (plan (env.getFragmentKit d)).length _ (by rw [List.getElem?_map, List.getElem?_eq_getElem hl]; rfl)
  rw [hz] at b1 b0 i1
  have hleast : ((PaiFinder.new other).submit env d).ours.least = UInt64.ofNat (plan (env.getFragmentKit d)).length := by
    rw [hb.least, List.length_map]
    exact UInt64.zero_add _
  refine ⟨_, _, UInt64.ofNat (plan (env.getFragmentKit d)).length, _, List.getElem?_eq_getElem h0,
    by rw [hn]; exact List.getElem?_eq_getElem hl, hne, ?_, ?_, rfl, ?_, ?_, ?_⟩
  · rw [ha.binds]
    show (([] : List (G × Bool)) ++ _).head? = _
    rw [List.nil_append, List.map_map, List.head?_map, List.head?_eq_getElem?, List.getElem?_eq_getElem h0]
    rfl
  · rw [bind_reply env _ fresh _ _ (by rw [hb.rest.1]; rfl), hb.rest.2.2.1, hleast]
    rfl
  · simp only [PaiFinder.receivedReply]
    rw [check_empty _ _ _ _ (by show ((PaiFinder.new own).submit env c).theirs.map = []; rw [ha.rest.1]; rfl)]
    simp only [HandleStore.get, HandleStore.update] at b0 b1 ⊢
    cases hm : ((PaiFinder.new own).submit env c).ours.map.get (UInt64.ofNat (plan (env.getFragmentKit d)).length) with
    | none => rw [hm] at b1; cases b1
    | some t =>
      simp only [Option.getD_some, GoMap.get_set]
      rw [if_neg (Ne.symm hne)]
      exact b0
  · simp only [PaiFinder.receivedReply]
    rw [check_empty _ _ _ _ (by show ((PaiFinder.new own).submit env c).theirs.map = []; rw [ha.rest.1]; rfl)]
    simp only [HandleStore.get, HandleStore.update] at b1 ⊢
    cases hm : ((PaiFinder.new own).submit env c).ours.map.get (UInt64.ofNat (plan (env.getFragmentKit d)).length) with
    | none => rw [hm] at b1; cases b1
    | some t =>
      simp only [Option.getD_some, GoMap.get_set]
      rfl
  · simp only [PaiFinder.receivedReply]
    rw [check_empty _ _ _ _ (by show ((PaiFinder.new own).submit env c).theirs.map = []; rw [ha.rest.1]; rfl)]
    exact i1

example : (plan (toyPai.getFragmentKit (.complete [1] [[2]]))).length < (plan (toyPai.getFragmentKit (.complete [1] [[2], [3]]))).length ∧
    (((PaiFinder.new 11).submit toyPai (.complete [1] [[2], [3]])).receivedReply toyPai 2 (55 * 13)).ours.get 2 = some ⟨715, true, false⟩ := by
  decide

/-- C95 is violated whenever the peer that answers submitted at least as many fragments as we did: whatever is bound on either
side, and in whatever order its replies arrive, none of our fragments ever becomes complete. All of its replies name handles that
come after those of our fragments. -/
theorem C95_violated_incomplete (env : PaiEnv C G S) (has : C → Bool) (own other : S) (c d : C) (asked ops : List (PaiOp C G S))
    (hl : (plan (env.getFragmentKit c)).length ≤ (plan (env.getFragmentKit d)).length)
    (hasked : ∀ op ∈ asked, (∃ s g b, op = .bind s g b) ∨ ∃ h g, op = .reply h g)
    (hops : ∀ op ∈ ops, (∃ s g b, op = .bind s g b) ∨
      ∃ x ∈ (asked.foldl (PaiFinder.step env has) ((PaiFinder.new other).submit env d)).replies, op = .reply x.1 x.2)
    (hd : (plan (env.getFragmentKit d)).length + asked.length ≤ 2 ^ 64)
    (hc : (plan (env.getFragmentKit c)).length + ops.length ≤ 2 ^ 64)
    (i : Nat) (f : Planned) (hf : (plan (env.getFragmentKit c))[i]? = some f) :
    (ops.foldl (PaiFinder.step env has) ((PaiFinder.new own).submit env c)).ours.get (UInt64.ofNat i) =
      some ⟨blinded env own f.fragment, false, false⟩ := by
  have ha := C94_submitted_partial env (PaiFinder.new own) c (by omega)
  have hb := C94_submitted_partial env (PaiFinder.new other) d (by omega)
  have hz : ∀ i, (PaiFinder.new own : PaiFinder C G S).ours.least + UInt64.ofNat i = UInt64.ofNat i := fun i => UInt64.zero_add _
  have hi : i < (plan (env.getFragmentKit c)).length := (List.getElem?_eq_some_iff.1 hf).1
  have hr := replies_after env has (plan (env.getFragmentKit d)).length asked ((PaiFinder.new other).submit env d)
    (plan (env.getFragmentKit d)).length hasked (by rw [hb.rest.1]; rfl)
    (by rw [hb.least, List.length_map]; exact UInt64.zero_add _) (Nat.le_refl _) hd
    (by rw [hb.rest.2.2.1]; intro x hx; cases hx)
  rw [first_kept env has (plan (env.getFragmentKit c)).length ops _ (plan (env.getFragmentKit c)).length ?_ (by rw [ha.rest.1]; rfl)
    (by rw [ha.least, List.length_map]; exact UInt64.zero_add _) (Nat.le_refl _) hc i hi]
  · have b0 := ha.bound i _ (by rw [List.getElem?_map, hf]; rfl)
    rw [hz] at b0
    exact b0
  · intro op ho
    rcases hops op ho with h | ⟨x, hx, rfl⟩
    · exact .inl h
    · exact .inr ⟨_, _, rfl, Nat.le_trans hl (hr x hx)⟩

example : (plan (toyPai.getFragmentKit (.complete [1] [[2]]))).length = 2 ∧
    ([PaiOp.bind 13 55 false, .bind 13 77 false].foldl (PaiFinder.step toyPai fun _ => false)
      ((PaiFinder.new 13).submit toyPai (.complete [1] [[2]]))).replies = [(2, 55 * 13), (3, 77 * 13)] ∧
    ([PaiOp.bind 11 65 false, .reply 3 (77 * 13), .reply 2 (55 * 13)].foldl (PaiFinder.step toyPai fun _ => false)
      ((PaiFinder.new 11).submit toyPai (.complete [1] [[2]]))).ours.get 1 = some ⟨77, false, false⟩ := by
  decide

/-- C95, partial: a bind is entered under the next handle, complete, with the group member multiplied by the given scalar, and as
secondary exactly if the other peer says so; every other handle stays as it is. Missing: the handle is entered with ours (see
`C95_violated_never`). -/
theorem C95_bound_partial (env : PaiEnv C G S) (p : PaiFinder C G S) (s : S) (g : G) (secondary : Bool) :
    (p.receivedBind env s g secondary).ours.get p.ours.least = some ⟨env.scalarMult g s, true, secondary⟩ ∧
    (∀ h, h ≠ p.ours.least → (p.receivedBind env s g secondary).ours.get h = p.ours.get h) ∧
    (p.receivedBind env s g secondary).theirs = p.theirs ∧ (p.receivedBind env s g secondary).info = p.info := by
  have key : ∀ (q : PaiFinder C G S) (h : UInt64), (q.check env h false).ours = q.ours ∧ (q.check env h false).theirs = q.theirs ∧
      (q.check env h false).info = q.info := by
    intro q h
    unfold PaiFinder.check
    by_cases hc : (!(paiGet env q.theirs h).isComplete) = true
    · simp [hc]
    · simp only [Bool.false_eq_true, if_false, hc]
      exact (checkLoop_spec env h false _ _ q).2.2
  simp only [PaiFinder.receivedBind]
  refine ⟨?_, fun h hh => ?_, (key _ _).2.1, (key _ _).2.2⟩
  · rw [(key _ _).1]
    simp only [HandleStore.bind, HandleStore.get, GoMap.get_set, if_true]
    rfl
  · rw [(key _ _).1]
    simp only [HandleStore.bind, HandleStore.get, GoMap.get_set, if_neg hh]

example : ((PaiFinder.new 11).receivedBind toyPai 13 55 true).ours.get 0 = some ⟨715, true, true⟩ := by decide

/-- C95 is violated by every reply about a secondary fragment: it then no longer counts as secondary, so that its authorisation
is reported if a secondary fragment of the other peer has the same group member, though both are secondary. -/
theorem C95_violated_secondary (env : PaiEnv C G S) (p : PaiFinder C G S) (h h' : UInt64) (a b : PaiIntersection G) (i : FragmentInfo C)
    (g : G) (hg : p.ours.get h = some a) (_hs : a.isSecondary = true) (hi : p.info.get h = some i)
    (hon : i.onIntersection = .bindReadCap) (hm : GoodMap p.theirs.map) (hb : p.theirs.get h' = some b) (hbc : b.isComplete = true)
    (_hbs : b.isSecondary = true) (heq : env.isGroupEqual g b.group = true) :
    (i.namespaceId, i.authorisation, h) ∈ (p.receivedReply env h g).intersections := by
  have hget : ((p.ours.update h ⟨g, true, false⟩).getD p.ours).get h = some ⟨g, true, false⟩ := by
    simp only [HandleStore.get, HandleStore.update] at hg ⊢
    cases hmp : p.ours.map.get h with
    | none => rw [hmp] at hg; cases hg
    | some t => simp only [Option.getD_some, GoMap.get_set, if_true]; rfl
  simp only [PaiFinder.receivedReply]
  refine ((C95_check_partial env { p with ours := (p.ours.update h ⟨g, true, false⟩).getD p.ours } h ⟨g, true, false⟩ i hget rfl hi hm
    (i.namespaceId, i.authorisation, h) 0).1).2 (.inr ⟨rfl, hon, h', b, hb, hbc, by simp, heq⟩)

example : (({ (PaiFinder.new 11 : PaiFinder FragmentKit Nat Nat) with
      ours := ⟨1, [(0, ⟨⟨55, false, true⟩, false, 0⟩)]⟩, theirs := ⟨1, [(0, ⟨⟨715, true, true⟩, false, 0⟩)]⟩,
      info := [(0, ⟨.bindReadCap, none, [], [42], none⟩)] } : PaiFinder FragmentKit Nat Nat).receivedReply toyPai 0 715).intersections = [([42], none, 0)] := by decide

/-- C95 is violated: a bind is answered with a newly chosen scalar instead of the finder's own, so
that two peers need not reach the same group member for the same fragment. -/
theorem C95_violated_scalar :
    (∀ (env : PaiEnv C G S) (p : PaiFinder C G S) (s : S) (g : G) (b : Bool), p.theirs.map = [] →
      (p.receivedBind env s g b).replies = p.replies ++ [(p.ours.least, env.scalarMult g s)]) ∧
    ∃ (fragment own other ownFresh otherFresh : Nat),
      toyPai.scalarMult (toyPai.scalarMult fragment own) otherFresh ≠ toyPai.scalarMult (toyPai.scalarMult fragment other) ownFresh ∧
      toyPai.scalarMult (toyPai.scalarMult fragment own) other = toyPai.scalarMult (toyPai.scalarMult fragment other) own := by
  refine ⟨fun env p s g b ht => ?_, 5, 11, 13, 17, 19, by decide, by decide⟩
  simp only [PaiFinder.receivedBind]
  rw [check_empty]
  · rfl
  · exact ht

/-- C95 is violated: a verified subspace capability is taken for an intersection of the namespace
that the other peer names, though it was never asked for and nothing was submitted. -/
theorem C95_violated_unrequested (env : PaiEnv C G S) (has : C → Bool) (scalar : S) (h : UInt64) (n : Bytes) :
    ((PaiFinder.new scalar : PaiFinder C G S).step env has (.capReply h n)).intersections = [(n, none, h)] := rfl

example : ((PaiFinder.new 11).step toyPai (fun _ => false) (.capReply 3 [42])).intersections = [([42], none, 3)] := by decide

/-- C95 is violated: the outer area of a fragment without a subspace, such as all those of a grant
of a whole namespace, cannot be had: asking for it is a panic. -/
theorem C95_violated_outer (env : PaiEnv C G S) (p : PaiFinder C G S) (c : C) (n : Bytes) (path : Path)
    (hc : env.getFragmentKit c = .complete n path) (hl : path.length < 2 ^ 64) (i : Nat) (hi : i ≤ path.length) :
    (p.submit env c).outerArea (p.ours.least + UInt64.ofNat i) = .crash := by
  have h := (C94_complete_partial env p c n path hc hl).info i
  rw [hc] at h
  simp only [plan, List.getElem?_map] at h
  rw [List.getElem?_range (by omega)] at h
  have := h _ rfl
  simp [PaiFinder.outerArea, PaiFinder.infoOf, this]

example : ((PaiFinder.new 11).submit toyPai (.complete [1] [[2]])).outerArea 1 = .crash ∧
    ((PaiFinder.new 11).submit toyPai (.selective [1] [9] [[2]])).outerArea 1 = .ok ⟨[9], false, [[2]], ⟨0, 0, true⟩⟩ := by
  decide

/-- C95, partial: the outer area of the fragments with a subspace of a grant of one subspace is that
subspace below the path of the fragment, at all times. Missing: the other fragments (see
`C95_violated_outer`). -/
theorem C95_outer_partial (env : PaiEnv C G S) (p : PaiFinder C G S) (c : C) (n s : Bytes) (path : Path)
    (hc : env.getFragmentKit c = .selective n s path) (hl : 2 * (path.length + 1) ≤ 2 ^ 64) (i : Nat) (hi : i ≤ path.length) :
    ∃ a, (p.submit env c).outerArea (p.ours.least + UInt64.ofNat i) = .ok a ∧
      ∀ x : Position, InArea a x ↔ x.subspace = s ∧ path.take i <+: x.path := by
  have h := (C94_submitted_partial env p c (by rw [hc]; simp [plan]; omega)).info i
  rw [hc] at h
  simp only [plan, List.map_append, List.map_map] at h
  rw [List.getElem?_append_left (by simp; omega), List.getElem?_map, List.getElem?_range (by omega)] at h
  have := h _ rfl
  refine ⟨_, by simp [PaiFinder.outerArea, PaiFinder.infoOf, this]; rfl, fun x => ?_⟩
  simp [InArea, InRange, TimeLt]

example : toyPai.getFragmentKit (.selective [1] [9] [[2]]) = .selective [1] [9] [[2]] ∧
    ((PaiFinder.new 11).submit toyPai (.selective [1] [9] [[2]])).outerArea ((PaiFinder.new (C := FragmentKit) (G := Nat) 11).ours.least + 1) =
      .ok ⟨[9], false, [[2]], ⟨0, 0, true⟩⟩ := by decide

/-- C95, partial: when the other peer sends a read capability for a handle of theirs, exactly the
authorisations of our complete handles that share it, not both being secondary, are reported,
provided that their fragments are the ones that wait for this. -/
theorem C95_readCap_partial (env : PaiEnv C G S) (has : C → Bool) (p : PaiFinder C G S) (h' : UInt64) (b : PaiIntersection G)
    (hb : p.theirs.get h' = some b) (hm : GoodMap p.ours.map) (x : Bytes × Option C × UInt64) :
    x ∈ (p.step env has (.readCap h')).intersections ↔ x ∈ p.intersections ∨
      ∃ h a i, p.ours.get h = some a ∧ a.isComplete = true ∧ ¬(a.isSecondary = true ∧ b.isSecondary = true) ∧
        env.isGroupEqual a.group b.group = true ∧ p.info.get h = some i ∧ i.onIntersection = .replyReadCap ∧
        x = (i.namespaceId, i.authorisation, h) := by
  simp only [PaiFinder.step, PaiFinder.receivedReadCap, paiGet, hb, Option.getD_some, List.mem_append, List.mem_map, List.mem_filter,
    Bool.and_eq_true, Bool.not_eq_true', beq_iff_eq]
  constructor
  · rintro (h | ⟨y, ⟨hy, ⟨⟨h1, h2⟩, h3⟩, h4⟩, rfl⟩)
    · exact .inl h
    · rw [mem_paiRange env _ hm] at hy
      cases hi : p.info.get y.1 with
      | none => simp [PaiFinder.infoOf, hi, FragmentInfo.zero] at h4
      | some i =>
        have e : p.infoOf y.1 = i := by simp [PaiFinder.infoOf, hi]
        rw [e] at h4
        exact .inr ⟨y.1, y.2, i, hy, h1, by rw [← Bool.and_eq_true, h2]; simp, h3, hi, h4, by rw [e]⟩
  · rintro (h | ⟨h, a, i, ha, h1, h2, h3, hi, h4, rfl⟩)
    · exact .inl h
    · have e : p.infoOf h = i := by simp [PaiFinder.infoOf, hi]
      rw [← Bool.and_eq_true, Bool.not_eq_true] at h2
      exact .inr ⟨(h, a), ⟨(mem_paiRange env _ hm _).2 ha, ⟨⟨h1, h2⟩, h3⟩, by rw [e]; exact h4⟩, by rw [e]⟩

/-- A finder with a fragment that waits for the capability of the other peer. -/
def exWaiting : PaiFinder FragmentKit Nat Nat :=
  { exFound with info := [(0, ⟨.replyReadCap, some (.complete [1] [[2]]), [], [1], none⟩)] }

example : exWaiting.theirs.get 0 = some ⟨30, true, true⟩ ∧ GoodMap exWaiting.ours.map ∧
    (exWaiting.receivedReadCap toyPai 0).intersections = [([1], some (.complete [1] [[2]]), 0)] := by
  refine ⟨rfl, ?_, by decide⟩
  unfold GoodMap; decide

/-- C95, partial: to a request of a subspace capability for a handle of theirs, the replies are
those authorisations of our complete handles with an equal group member that have such a
capability. -/
theorem C95_capRequest_partial (env : PaiEnv C G S) (has : C → Bool) (p : PaiFinder C G S) (h' : UInt64) (b : PaiIntersection G)
    (hb : p.theirs.get h' = some b) (hm : GoodMap p.ours.map) (x : UInt64 × C) :
    x ∈ (p.step env has (.capRequest h')).capReplies ↔ x ∈ p.capReplies ∨
      ∃ h a i c, p.ours.get h = some a ∧ a.isComplete = true ∧ env.isGroupEqual a.group b.group = true ∧
        p.info.get h = some i ∧ i.authorisation = some c ∧ has c = true ∧ x = (h', c) := by
  simp only [PaiFinder.step, PaiFinder.receivedCapRequest, paiGet, hb, Option.getD_some, List.mem_append, List.mem_map, List.mem_filter,
    List.mem_filterMap, Bool.and_eq_true]
  constructor
  · rintro (h | ⟨c, ⟨⟨y, ⟨hy, h1, h2⟩, hc⟩, h3⟩, rfl⟩)
    · exact .inl h
    · rw [mem_paiRange env _ hm] at hy
      cases hi : p.info.get y.1 with
      | none => simp [PaiFinder.infoOf, hi, FragmentInfo.zero] at hc
      | some i =>
        have e : p.infoOf y.1 = i := by simp [PaiFinder.infoOf, hi]
        rw [e] at hc
        exact .inr ⟨y.1, y.2, i, c, hy, h1, h2, hi, hc, h3, rfl⟩
  · rintro (h | ⟨h, a, i, c, ha, h1, h2, hi, hc, h3, rfl⟩)
    · exact .inl h
    · have e : p.infoOf h = i := by simp [PaiFinder.infoOf, hi]
      exact .inr ⟨c, ⟨⟨(h, a), ⟨(mem_paiRange env _ hm _).2 ha, h1, h2⟩, by rw [e]; exact hc⟩, h3⟩, rfl⟩

example : (exWaiting.receivedCapRequest toyPai (fun _ => true) 0).capReplies = [(0, .complete [1] [[2]])] ∧
    (exWaiting.receivedCapRequest toyPai (fun _ => false) 0).capReplies = [] := by decide

/-- C95, partial: a verified subspace capability ends the request for it and no other, and adds the
authorisation of the handle. -/
theorem C95_capReply_partial (env : PaiEnv C G S) (has : C → Bool) (p : PaiFinder C G S) (h k : UInt64) (n : Bytes) :
    (p.step env has (.capReply h n)).requested.get k = (if k = h then none else p.requested.get k) ∧
    (p.step env has (.capReply h n)).intersections = p.intersections ++ [(n, (p.info.get h).bind (·.authorisation), h)] := by
  refine ⟨?_, ?_⟩
  · show (p.requested.delete h).get k = _
    rw [GoMap.get_delete]
  · simp only [PaiFinder.step, PaiFinder.receivedCapReply, PaiFinder.infoOf]
    cases p.info.get h <;> rfl

example : ({ exFound with requested := [(0, true), (1, true)] }.step toyPai (fun _ => false) (.capReply 0 [42])).requested.get 1 = some true ∧
    ({ exFound with requested := [(0, true), (1, true)] }.step toyPai (fun _ => false) (.capReply 0 [42])).requested.get 0 = none := by decide

/-- C95, partial: what is said of an intersection, when there is one and all fragments of ours have
a subspace, is the namespace and the outer area of a fragment of ours that is in it. -/
theorem C95_privy_partial (env : PaiEnv C G S) (p : PaiFinder C G S) (h : UInt64) (a : PaiIntersection G) (i : FragmentInfo C) (s : Bytes)
    (hg : p.ours.get h = some a) (hi : p.info.get h = some i) (hs : i.subspace = some s)
    (hx : ∃ h' b, p.theirs.get h' = some b ∧ b.isComplete = true ∧ ¬(a.isSecondary = true ∧ b.isSecondary = true) ∧
      env.isGroupEqual a.group b.group = true) (hm : GoodMap p.theirs.map) :
    ∃ area, p.privy env h true = .ok (i.namespaceId, area) ∧ ∀ x : Position, InArea area x ↔ x.subspace = s ∧ i.path <+: x.path := by
  have hi' : p.infoOf h = i := by simp [PaiFinder.infoOf, hi]
  refine ⟨⟨s, false, i.path, ⟨0, 0, true⟩⟩, ?_, fun x => by simp [InArea, InRange, TimeLt]⟩
  simp only [PaiFinder.privy, paiGet, if_true, hg, Option.getD_some]
  cases hf : (paiRange env p.theirs).find? fun x => paiMatches env a x.2 with
  | some y => simp [PaiFinder.outerArea, hi', hs, Res.bind]
  | none =>
    exfalso
    obtain ⟨h', b, hb, h1, h2, h3⟩ := hx
    rw [List.find?_eq_none] at hf
    refine hf (h', b) ((mem_paiRange env _ hm _).2 hb) ?_
    rw [← Bool.and_eq_true] at h2
    simp [paiMatches, h1, h2, h3]

example : ({ exFound with info := [(0, ⟨.bindReadCap, some (.complete [1] []), [[5]], [1], some [9]⟩)] } :
    PaiFinder FragmentKit Nat Nat).privy toyPai 0 true = .ok ([1], ⟨[9], false, [[5]], ⟨0, 0, true⟩⟩) := by decide

/-- C95 is violated: without an intersection, what is said of it is a namespace with an empty name
and an area in which there is nothing; no error is returned. -/
theorem C95_violated_privy (env : PaiEnv C G S) (scalar : S) (h : UInt64) (ours : Bool) :
    ∃ area, (PaiFinder.new scalar : PaiFinder C G S).privy env h ours = .ok ([], area) ∧ ∀ x, ¬ InArea area x := by
  have e : env.order [] = [] := by
    have := env.perm []
    exact List.perm_nil.1 this
  refine ⟨⟨[], false, [], ⟨0, 0, false⟩⟩, ?_, fun x hx => ?_⟩
  · cases ours <;> simp [PaiFinder.privy, PaiFinder.new, paiRange, HandleStore.empty, e]
  · simp [InArea, InRange, TimeLt] at hx

example : ∃ area, (PaiFinder.new 11 : PaiFinder FragmentKit Nat Nat).privy toyPai 3 true = .ok ([], area) := ⟨_, rfl⟩

end Willow.Props
