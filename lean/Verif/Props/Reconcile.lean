import Verif.Lemmas.PropsReconcile
import Verif.Spec.Wgps
import Verif.Props.Storage

/-! C65 (answers cover the range), C66 (splitting ends) and C83 (differences are noticed). -/

namespace Willow.Props

open Willow Spec

/-! ## C65 -/

/-- C65, partial: if no entry in the range has a fingerprint and there are fewer than 2^64, the
reconciler answers. There is no answer if the received fingerprint equals its own (that of no
bytes). Otherwise it announces exactly the received range if there are at most eight entries, or
gives its fingerprints of two ranges that divide the received one. Missing: entries with
fingerprints (see `C65_violated`). -/
theorem C65_cover_partial (lib : KdLib) (fps : FpScheme) (kd : List KdKey) (r : Range3d) (fp : Bytes) (c : Nat)
    (he : ∀ k ∈ kd, InRange3d r k.pos → k.fingerprint = []) (hn : entriesIn kd r < 2 ^ 64) :
    (fps.isEqual fp (fps.finalise []) = true → respond lib fps kd r fp c = .ok .nothing) ∧
    (fps.isEqual fp (fps.finalise []) = false → entriesIn kd r ≤ 8 → respond lib fps kd r fp c = .ok (.announce r)) ∧
    (fps.isEqual fp (fps.finalise []) = false → 8 < entriesIn kd r →
      ∃ a b na nb fa fb, respond lib fps kd r fp c = .ok (.split a (fps.finalise fa) b (fps.finalise fb) (UInt64.ofNat c)) ∧
        summarise lib kd a = .ok (fa, na) ∧ summarise lib kd b = .ok (fb, nb) ∧
        ∀ x, (InRange3d r x ↔ InRange3d a x ∨ InRange3d b x) ∧ ¬ (InRange3d a x ∧ InRange3d b x)) := by
  obtain ⟨n, h1, h2⟩ := summarise_ok lib kd r he
  have hsize : n ≤ 8 ↔ entriesIn kd r ≤ 8 := by
    rw [UInt64.le_iff_toNat_le, h2, UInt64.toNat_ofNat', Nat.mod_eq_of_lt hn]
    rfl
  unfold respond
  rw [h1]
  refine ⟨fun h => ?_, fun h hs => ?_, fun h hs => ?_⟩
  · show (if fps.isEqual fp (fps.finalise []) = true then _ else _) = _
    rw [if_pos h]
  · show (if fps.isEqual fp (fps.finalise []) = true then _ else _) = _
    rw [if_neg (by rw [h]; decide), if_pos (hsize.2 hs)]
  · obtain ⟨a, b, s1, s2⟩ := C37_split lib kd r (entriesIn_pos kd r (by omega))
    obtain ⟨na, a1, _⟩ := summarise_ok lib kd a fun k hk hr => he k hk ((s2 k.pos).1.2 (.inl hr))
    obtain ⟨nb, b1, _⟩ := summarise_ok lib kd b fun k hk hr => he k hk ((s2 k.pos).1.2 (.inr hr))
    refine ⟨a, b, na, nb, [], [], ?_, a1, b1, s2⟩
    show (if fps.isEqual fp (fps.finalise []) = true then _ else _) = _
    rw [if_neg (by rw [h]; decide), if_neg (fun h0 => by have := hsize.1 h0; omega), s1]
    show (summarise lib kd a >>= _) = _
    rw [a1]
    show (summarise lib kd b >>= _) = _
    rw [b1]
    rfl

/-- C65 is violated: an entry with a fingerprint in the range (every entry after a restart) ends
the process. -/
theorem C65_violated (lib : KdLib) (fps : FpScheme) (kd : List KdKey) (r : Range3d) (fp : Bytes) (c : Nat) (k : KdKey) (hk : k ∈ kd)
    (hr : InRange3d r k.pos) (hf : k.fingerprint ≠ []) : respond lib fps kd r fp c = .crash := by
  unfold respond
  rw [C36_violated_crash lib kd r k hk hr hf]
  rfl

/-- Everything from time 5 on. -/
def fromFive : Range3d := ⟨⟨[], [], true⟩, ⟨[], [], true⟩, ⟨5, 0, true⟩⟩

/-- Entries of subspace 7 at the given times. -/
def at_ (times : List (UInt8 × UInt64)) : List KdKey := times.map fun t => ⟨⟨[7], [[t.1]], t.2⟩, []⟩

/-- Fingerprints compared as bytes. -/
def plainFps : FpScheme := ⟨id, fun a b => decide (a = b)⟩

example : (∀ k ∈ at_ [(0, 5), (1, 6)], InRange3d fromFive k.pos → k.fingerprint = []) ∧ entriesIn (at_ [(0, 5), (1, 6)]) fromFive < 2 ^ 64 ∧
    plainFps.isEqual [1] (plainFps.finalise []) = false ∧
    respond listLib plainFps (at_ [(0, 5), (1, 6)]) fromFive [1] 3 = .ok (.announce fromFive) := by
  refine ⟨?_, ?_, by decide, by decide +kernel⟩
  · intro k hk _
    exact (by decide : ∀ k ∈ at_ [(0, 5), (1, 6)], k.fingerprint = []) k hk
  · unfold entriesIn
    rw [howMany_in]
    decide +kernel

example : ∃ l a r b c, respond listLib plainFps (at_ [(0, 5), (1, 6), (2, 7), (3, 8), (4, 9), (5, 10), (6, 11), (7, 12), (8, 13)]) fromFive [1] 3 =
    .ok (.split l a r b c) ∧ l.time = ⟨5, 9, false⟩ ∧ r.time = ⟨9, 0, true⟩ ∧ c = 3 := ⟨_, _, _, _, _, rfl, rfl, rfl, rfl⟩

/-! ## C66 -/

/-- Two stores answer in turn, each time to one of the two ranges that the other split off, with
any fingerprints and counters; `n` is the number of splits. -/
inductive SplitChain (lib : KdLib) (fps : FpScheme) : List KdKey → List KdKey → Range3d → Nat → Prop
  | stop (mine yours : List KdKey) (r : Range3d) : SplitChain lib fps mine yours r 0
  | step (mine yours : List KdKey) (r : Range3d) (fp : Bytes) (c : Nat) (a : Range3d) (fa : Bytes) (b : Range3d) (fb : Bytes)
      (covers : UInt64) (part : Range3d) (n : Nat) :
      respond lib fps mine r fp c = .ok (.split a fa b fb covers) → part = a ∨ part = b →
      SplitChain lib fps yours mine part n → SplitChain lib fps mine yours r (n + 1)

/-- C66, partial: if no timestamp is shared by more than four entries of a store in the range, any sequence of
splits, whatever the fingerprints, is at most as long as the two stores have entries in the range
together. Missing: timestamps shared by more entries (see `C66_violated_always`). -/
theorem C66_ends_partial (lib : KdLib) (fps : FpScheme) (mine yours : List KdKey) (r : Range3d)
    (hm : FewPerTime mine r) (hy : FewPerTime yours r) (n : Nat) (h : SplitChain lib fps mine yours r n) : n ≤ entriesIn mine r + entriesIn yours r := by
  induction h with
  | stop => omega
  | step mine yours r fp c a fa b fb covers part n hr hpart _ ih =>
    obtain ⟨hs, h8⟩ := respond_split _ _ _ _ _ _ _ _ _ _ _ hr
    obtain ⟨a', b', hs', h1, h2⟩ := C38_progress_partial lib mine r (by omega)
    rw [hs] at hs'
    cases hs'
    have hb := h2.2 (by have := oldest_few mine r hm; omega)
    obtain ⟨a', b', hs', hd⟩ := C37_split lib mine r (entriesIn_pos mine r (by omega))
    rw [hs] at hs'
    cases hs'
    have hsub : ∀ x, InRange3d part x → InRange3d r x := by
      rcases hpart with rfl | rfl
      · exact fun x hx => (hd x).1.2 (.inl hx)
      · exact fun x hx => (hd x).1.2 (.inr hx)
    have ih := ih (hy.mono hsub) (hm.mono hsub)
    have := entriesIn_mono yours part r hsub
    rcases hpart with rfl | rfl <;> omega

/-- In no part of the times of the range in which there are more than eight entries do more than half of them share the least
timestamp. -/
def NeverMostlyOldest (kd : List KdKey) (r : Range3d) : Prop :=
  ∀ part : Range3d, part.subspace = r.subspace → part.path = r.path → (∀ x, InRange3d part x → InRange3d r x) →
    8 < entriesIn kd part → 2 * oldestIn kd part ≤ entriesIn kd part

theorem NeverMostlyOldest.part {kd : List KdKey} {r part : Range3d} (h : NeverMostlyOldest kd r) (h1 : part.subspace = r.subspace)
    (h2 : part.path = r.path) (h3 : ∀ x, InRange3d part x → InRange3d r x) : NeverMostlyOldest kd part :=
  fun p p1 p2 p3 => h p (p1.trans h1) (p2.trans h2) fun x hx => h3 x (p3 x hx)

/-- C66, partial: if in no part of the times of the range with more than eight entries more than half of them share the least timestamp, in
either store, any sequence of splits, whatever the fingerprints, is at most as long as the two stores have entries in the range
together. Missing: other stores; if it is the range itself in which they do, the splits need not end (see
`C66_violated_always`). -/
theorem C66_halves_partial (lib : KdLib) (fps : FpScheme) (mine yours : List KdKey) (r : Range3d)
    (hm : NeverMostlyOldest mine r) (hy : NeverMostlyOldest yours r) (n : Nat) (h : SplitChain lib fps mine yours r n) :
    n ≤ entriesIn mine r + entriesIn yours r := by
  induction h with
  | stop => omega
  | step mine yours r fp c a fa b fb covers part n hr hpart _ ih =>
    obtain ⟨hs, h8⟩ := respond_split _ _ _ _ _ _ _ _ _ _ _ hr
    obtain ⟨a', b', hs', h1, h2⟩ := C38_progress_partial lib mine r (by omega)
    rw [hs] at hs'
    cases hs'
    have hb := h2.2 (hm r rfl rfl (fun _ h => h) h8)
    obtain ⟨a', b', hs', hd⟩ := C37_split lib mine r (entriesIn_pos mine r (by omega))
    rw [hs] at hs'
    cases hs'
    have hsame : part.subspace = r.subspace ∧ part.path = r.path := by
      unfold splitRange at hs
      dsimp only at hs
      split at hs
      · cases hs
      · cases hs
        rcases hpart with rfl | rfl <;> exact ⟨rfl, rfl⟩
    have hsub : ∀ x, InRange3d part x → InRange3d r x := by
      rcases hpart with rfl | rfl
      · exact fun x hx => (hd x).1.2 (.inl hx)
      · exact fun x hx => (hd x).1.2 (.inr hx)
    have ih := ih (hy.part hsame.1 hsame.2 hsub) (hm.part hsame.1 hsame.2 hsub)
    have := entriesIn_mono yours part r hsub
    rcases hpart with rfl | rfl <;> omega

/-- Twelve entries, six at each of two times. -/
def sixShared : List KdKey := at_ [(0, 5), (1, 5), (2, 5), (3, 5), (4, 5), (5, 5), (6, 9), (7, 9), (8, 9), (9, 9), (10, 9), (11, 9)]

example : NeverMostlyOldest sixShared fromFive ∧ ¬ FewPerTime sixShared fromFive ∧
    SplitChain listLib plainFps sixShared sixShared fromFive 1 := by
  classical
  refine ⟨fun part h1 h2 h3 h8 => ?_, fun h => ?_, .step _ _ _ [1] 0 _ _ _ _ _ _ 0 rfl (.inr rfl) (.stop _ _ _)⟩
  · have key : ∀ k ∈ sixShared, (InRange3d part k.pos ↔ InRange TimeLt part.time k.pos.time) := by
      intro k hk
      have hr : InRange3d fromFive k.pos := by
        rw [← isIncluded3d_iff decides_subspace]
        exact (by decide : ∀ k ∈ sixShared, isIncluded3d orderSubspace fromFive k.pos = true) k hk
      unfold InRange3d
      rw [h1, h2]
      exact ⟨fun h => h.2.2, fun h => ⟨hr.1, hr.2.1, h⟩⟩
    have times : ∀ k ∈ sixShared, k.pos.time = 5 ∨ k.pos.time = 9 := by decide
    have hn : entriesIn sixShared part = (sixShared.filter fun k => decide (InRange TimeLt part.time k.pos.time)).length :=
      howMany_eq _ _ _ fun k hk => by rw [decide_eq_true_eq, key k hk]
    by_cases t5 : InRange TimeLt part.time 5
    · have ho : oldestIn sixShared part ≤ 6 := by
        unfold oldestIn
        rw [howMany_eq _ (fun k => decide (InRange3d part k.pos ∧ ∀ x ∈ sixShared, InRange3d part x.pos → k.pos.time ≤ x.pos.time)) _ (by simp)]
        refine Nat.le_trans (length_filter_le _ (fun k => decide (k.pos.time = 5)) _ fun k hk h => ?_) (by decide)
        simp only [decide_eq_true_eq] at h ⊢
        rcases times k hk with h' | h'
        · exact h'
        · have := h.2 ⟨⟨[7], [[0]], 5⟩, []⟩ (by decide) ((key _ (by decide)).2 t5)
          rw [h'] at this
          exact absurd this (by decide)
      by_cases t9 : InRange TimeLt part.time 9
      · have : entriesIn sixShared part = 12 := by
          rw [hn, List.filter_eq_self.2]
          · rfl
          · intro k hk
            rw [decide_eq_true_eq]
            rcases times k hk with h | h <;> rw [h] <;> assumption
        omega
      · have : entriesIn sixShared part ≤ 6 := by
          rw [hn]
          refine Nat.le_trans (length_filter_le _ (fun k => decide (k.pos.time = 5)) _ fun k hk h => ?_) (by decide)
          simp only [decide_eq_true_eq] at h ⊢
          rcases times k hk with h' | h'
          · exact h'
          · rw [h'] at h; exact absurd h t9
        omega
    · have : entriesIn sixShared part ≤ 6 := by
        rw [hn]
        refine Nat.le_trans (length_filter_le _ (fun k => decide (k.pos.time = 9)) _ fun k hk h => ?_) (by decide)
        simp only [decide_eq_true_eq] at h ⊢
        rcases times k hk with h' | h'
        · rw [h'] at h; exact absurd h t5
        · exact h'
      omega
  · have := h 5
    rw [howMany_eq _ (fun k => decide (k.pos.time = 5)) _ fun k hk => by
      rw [decide_eq_true_eq]
      refine ⟨fun h => ⟨?_, h⟩, fun h => h.2⟩
      rw [← isIncluded3d_iff decides_subspace]
      exact (by decide : ∀ k ∈ sixShared, isIncluded3d orderSubspace fromFive k.pos = true) k hk] at this
    exact absurd this (by decide)

/-- Nine entries, four of them at the same time. -/
def fourShared : List KdKey := at_ [(0, 5), (1, 5), (2, 5), (3, 5), (4, 6), (5, 7), (6, 8), (7, 9), (8, 10)]

/-- Nine entries, five of them at the same time. -/
def fiveShared : List KdKey := at_ [(0, 5), (1, 5), (2, 5), (3, 5), (4, 5), (5, 6), (6, 7), (7, 8), (8, 9)]

example : FewPerTime fourShared fromFive ∧ SplitChain listLib plainFps fourShared fourShared fromFive 1 := by
  constructor
  · classical
    intro t
    rw [howMany_eq _ (fun a => decide (InRange3d fromFive a.pos ∧ a.pos.time = t)) _ (by simp)]
    refine Nat.le_trans (length_filter_le _ (fun k => decide (k.pos.time = t)) _ fun a _ h => by
      simp only [decide_eq_true_eq] at h ⊢; exact h.2) ?_
    by_cases h : t = 5
    · subst h; decide
    · refine Nat.le_trans (m := ((fourShared.filter fun k => k.pos.time ≠ 5).filter fun k => k.pos.time = t).length) ?_ ?_
      · rw [List.filter_filter]
        exact length_filter_le _ _ _ fun k _ hk => by
          simp only [decide_eq_true_eq] at hk
          simp [hk, h]
      · have e : fourShared.filter (fun k => k.pos.time ≠ 5) = at_ [(4, 6), (5, 7), (6, 8), (7, 9), (8, 10)] := by decide
        rw [e]
        by_cases h6 : t = 6
        · subst h6; decide
        · refine Nat.le_trans (m := (at_ [(5, 7), (6, 8), (7, 9), (8, 10)]).length) ?_ (by decide)
          show (List.filter _ (⟨⟨[7], [[4]], 6⟩, []⟩ :: at_ [(5, 7), (6, 8), (7, 9), (8, 10)])).length ≤ _
          rw [List.filter_cons_of_neg (by simp [Ne.symm h6])]
          exact List.length_filter_le _ _
  · exact .step _ _ _ [1] 0 _ _ _ _ _ _ 0 rfl (.inr rfl) (.stop _ _ _)

/-- C66 is violated: two stores with the same nine entries, five of them at the same time, can go
on splitting the same range for ever, if they are given fingerprints that are not their own. -/
theorem C66_violated (n : Nat) : SplitChain listLib plainFps fiveShared fiveShared fromFive n := by
  induction n with
  | zero => exact .stop _ _ _
  | succ n ih => exact .step _ _ _ [1] 0 _ _ _ _ _ fromFive n rfl (.inr rfl) ih

/-- C66 is violated by every store in which more than half of the entries in a range, and more than eight in all,
have the same least timestamp and no entry of the range has a fingerprint: against a peer that holds the same and any
fingerprint that is not its own, it can go on splitting for ever. -/
theorem C66_violated_always (lib : KdLib) (fps : FpScheme) (kd : List KdKey) (r : Range3d) (fp : Bytes)
    (he : ∀ k ∈ kd, InRange3d r k.pos → k.fingerprint = []) (hn : entriesIn kd r < 2 ^ 64) (h8 : 8 < entriesIn kd r)
    (hh : entriesIn kd r < 2 * oldestIn kd r) (hf : fps.isEqual fp (fps.finalise []) = false) (n : Nat) :
    SplitChain lib fps kd kd r n := by
  induction n generalizing r with
  | zero => exact .stop _ _ _
  | succ n ih =>
    obtain ⟨a, b, na, nb, fa, fb, hr, -, -, hd⟩ := (C65_cover_partial lib fps kd r fp 0 he hn).2.2 hf h8
    obtain ⟨hs, -⟩ := respond_split _ _ _ _ _ _ _ _ _ _ _ hr
    obtain ⟨a', b', hs', -, h2⟩ := C38_progress_partial lib kd r (by omega)
    rw [hs] at hs'
    cases hs'
    have hsub : ∀ x, InRange3d b x → InRange3d r x := fun x hx => (hd x).1.2 (.inr hx)
    have hcount : entriesIn kd b = entriesIn kd r := by
      have h1 := entriesIn_mono kd b r hsub
      have h3 : ¬ entriesIn kd b < entriesIn kd r := by rw [h2]; omega
      omega
    have hsame := same_entries kd b r hsub hcount
    refine .step _ _ _ fp 0 _ _ _ _ _ b n hr (.inr rfl) (ih b (fun k hk hb => he k hk (hsub _ hb)) (by omega) (by omega) ?_)
    rw [hcount, oldestIn_congr kd b r hsame]
    exact hh

example : 8 < entriesIn fiveShared fromFive ∧ entriesIn fiveShared fromFive < 2 * oldestIn fiveShared fromFive := by
  have h9 : entriesIn fiveShared fromFive = 9 := by
    unfold entriesIn
    rw [howMany_in]
    decide +kernel
  have h5 : oldestIn fiveShared fromFive = 5 := by
    unfold oldestIn
    rw [howMany_eq _ (fun k => isIncluded3d orderSubspace fromFive k.pos && decide (∀ x ∈ fiveShared,
      isIncluded3d orderSubspace fromFive x.pos = true → k.pos.time ≤ x.pos.time)) _
      (by intro k _; simp only [Bool.and_eq_true, decide_eq_true_eq, isIncluded3d_iff decides_subspace])]
    decide +kernel
  omega

/-! ## C83 -/

/-- C83 is violated, always: whatever the two stores hold, a reconciler that is sent the
fingerprint of the other store (and does not end the process) gives no answer. -/
theorem C83_violated (lib lib' : KdLib) (fps : FpScheme) (hrefl : ∀ x, fps.isEqual x x = true) (mine yours : List KdKey) (r : Range3d)
    (c : Nat) (fp : Bytes) (n : UInt64) (hy : summarise lib' yours r = .ok (fp, n)) (answer : Response)
    (h : respond lib fps mine r (fps.finalise fp) c = .ok answer) : answer = .nothing := by
  have hfp := (C36_size_partial lib' yours r fp n hy).1
  subst hfp
  unfold respond at h
  cases hs : summarise lib mine r with
  | ok x =>
    obtain ⟨f, m⟩ := x
    have hf := (C36_size_partial lib mine r f m hs).1
    subst hf
    rw [hs] at h
    change (if fps.isEqual (fps.finalise []) (fps.finalise []) = true then _ else _) = _ at h
    rw [if_pos (hrefl _)] at h
    cases h
    rfl
  | err => rw [hs] at h; cases h
  | crash => rw [hs] at h; cases h
  | block => rw [hs] at h; cases h

example : summarise listLib fourShared fromFive = .ok ([], 9) ∧ summarise listLib [] fromFive = .ok ([], 0) ∧
    respond listLib plainFps [] fromFive (plainFps.finalise []) 0 = .ok .nothing := ⟨rfl, rfl, rfl⟩

/-- C83, partial: if the fingerprint that a reconciler is sent is not that of its own entries in the range and the process
does not end, it answers, with all entries of the range or with fingerprints of two parts that make up the range. Missing:
fingerprints that tell stores apart (`C83_violated`), and answers in spite of entries that have one (`C65_violated`). -/
theorem C83_compared_partial (lib : KdLib) (fps : FpScheme) (mine : List KdKey) (r : Range3d) (c : Nat) (fp own : Bytes) (n : UInt64)
    (hs : summarise lib mine r = .ok (own, n)) (hd : fps.isEqual fp (fps.finalise own) = false) (answer : Response)
    (h : respond lib fps mine r fp c = .ok answer) :
    answer = .announce r ∨ ∃ a fa b fb, answer = .split a fa b fb (UInt64.ofNat c) ∧
      ∀ x, InRange3d r x ↔ InRange3d a x ∨ InRange3d b x := by
  unfold respond at h
  rw [hs, Res.ok_bind] at h
  dsimp only at h
  rw [hd] at h
  simp only [Bool.false_eq_true, if_false] at h
  by_cases hn : n ≤ 8
  · rw [if_pos hn] at h
    cases h
    exact .inl rfl
  · rw [if_neg hn] at h
    obtain ⟨⟨a, b⟩, h1, h⟩ := Res.bind_eq_ok.1 h
    obtain ⟨⟨fa, na⟩, h2, h⟩ := Res.bind_eq_ok.1 h
    obtain ⟨⟨fb, nb⟩, h3, h⟩ := Res.bind_eq_ok.1 h
    cases h
    have hk : ∃ k ∈ mine, InRange3d r k.pos := by
      unfold splitRange at h1
      dsimp only at h1
      split at h1
      · cases h1
      · rename_i m hm
        have hq := (sortByTime_perm _).mem_iff.1 (List.mem_of_getElem? hm)
        exact ⟨m, (lib.mem_query mine r m).1 hq⟩
    obtain ⟨a', b', h4, h5⟩ := C37_split lib mine r hk
    rw [h1] at h4
    cases h4
    exact .inr ⟨a, _, b, _, rfl, fun x => (h5 x).1⟩

example : summarise listLib fourShared fromFive = .ok ([], 9) ∧ plainFps.isEqual [1] (plainFps.finalise []) = false ∧
    ∃ a fa b fb, respond listLib plainFps fourShared fromFive [1] 7 = .ok (.split a fa b fb 7) := ⟨rfl, rfl, _, _, _, _, rfl⟩

end Willow.Props
