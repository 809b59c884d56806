import Verif.Spec.GrowingBytes

/-! Invariants of the two threads of a growing byte stream. -/

namespace Willow.Growing

open Willow Willow.Spec.Growing

theorem run_append (as bs : List Act) (s : State) :
    run (as ++ bs) s = (run as s).bind (run bs) := by
  induction as generalizing s with
  | nil => rfl
  | cons a as ih =>
    simp only [List.cons_append, run]
    cases act a s with
    | none => rfl
    | some s' => simp [ih]

/-- An invariant of single steps is an invariant of interleavings. -/
theorem run_induct (P : State → Prop) (hstep : ∀ a s s', act a s = some s' → P s → P s')
    (as : List Act) (s s' : State) (h : run as s = some s') (h0 : P s) : P s' := by
  induction as generalizing s with
  | nil => simp only [run, Option.some.injEq] at h; exact h ▸ h0
  | cons a as ih =>
    simp only [run] at h
    cases ha : act a s with
    | none => simp [ha] at h
    | some t => exact ih t (by simpa [ha] using h) (hstep a s t ha h0)

/-! Every step uses up something. -/

def readerWeight : Reader → Nat
  | .idle => 0 | .ret _ => 1 | .lockNext _ => 7 | .held _ => 6 | .send _ _ => 5
  | .unlock _ _ => 3 | .wait _ _ => 2 | .waitHeld _ _ => 2 | .lockPrune _ => 2 | .pruning _ => 1

def receiverWeight : Receiver → Nat
  | .select => 0 | .lock _ => 8 | .append _ => 7 | .unlock => 6 | .check => 5 | .resolve => 4
  | .clear => 3 | .notify => 2

def weight (s : State) : Nat :=
  9 * s.todo.length + readerWeight s.reader + 9 * s.incoming.length + receiverWeight s.receiver
    + s.token.toNat

theorem weight_step (a : Act) (s s' : State) (h : act a s = some s') : weight s' < weight s := by
  obtain ⟨inc, arr, dfr, tok, lck, res, made, rd, rc, todo, log⟩ := s
  cases a
  · cases rd <;> simp only [act, readerStep] at h <;> (repeat' split at h) <;>
      simp_all <;> (try subst h) <;> simp_all [weight, readerWeight, receiverWeight] <;> omega
  · cases rc <;> simp only [act, receiverStep] at h <;> (repeat' split at h) <;>
      simp_all <;> (try subst h) <;> simp_all [weight, readerWeight, receiverWeight] <;> omega
  · simp only [act, takeToken] at h
    split at h
    · simp_all [weight]; subst h; simp
    · simp at h
  · simp only [act, takeChunk] at h
    split at h
    · simp_all; subst h; simp [weight, receiverWeight]; omega
    · simp at h

theorem run_length (as : List Act) (s s' : State) (h : run as s = some s') :
    as.length + weight s' ≤ weight s := by
  induction as generalizing s with
  | nil => simp only [run, Option.some.injEq] at h; subst h; simp
  | cons a as ih =>
    simp only [run] at h
    cases ha : act a s with
    | none => simp [ha] at h
    | some t =>
      have := weight_step a s t ha
      have := ih t (by simpa [ha] using h)
      simp only [List.length_cons]; omega

/-! What holds in every interleaving. -/

def readerHolds : Reader → Bool
  | .held _ | .send _ _ | .unlock _ _ | .waitHeld _ _ | .pruning _ => true
  | _ => false

def receiverHolds : Receiver → Bool
  | .append _ | .unlock => true
  | _ => false

/-- The channel and the length of the request that the reader has stored. -/
def requested : Reader → Option (Nat × Nat)
  | .send n r | .unlock n r | .wait n r => some (r, n)
  | _ => none

structure Control (s : State) : Prop where
  lock : s.locked = (readerHolds s.reader || receiverHolds s.receiver)
  excl : (readerHolds s.reader && receiverHolds s.receiver) = false
  fresh : ∀ r, s.made ≤ r → s.resolvers r = []
  made : ∀ r n, s.deferred = some (r, n) → r < s.made
  pending : ∀ r n, s.deferred = some (r, n) → s.receiver ≠ .clear →
    requested s.reader = some (r, n) ∧ s.resolvers r = []
  resolve : s.receiver = .resolve → ∃ r n, s.deferred = some (r, n) ∧ n ≤ s.array.length
  clear : s.receiver = .clear → ∃ r n, s.deferred = some (r, n) ∧
    (requested s.reader = some (r, n) ∨ s.resolvers r = [])
  old : ∀ n r, s.reader = .waitHeld n r → s.resolvers r = [] ∧
    (s.receiver = .clear ∨ s.deferred = none)
  atMost : ∀ r, (s.resolvers r).length ≤ 1

theorem control_init (prog : List Op) (chunks : List Bytes) : Control (init prog chunks) := by
  constructor <;> simp [init, readerHolds, receiverHolds]

theorem control_step (a : Act) (s s' : State) (h : act a s = some s') (hc : Control s) :
    Control s' := by
  obtain ⟨inc, arr, dfr, tok, lck, res, made, rd, rc, todo, log⟩ := s
  obtain ⟨c1, c2, c3, c4, c5, c6, c7, c8, c9⟩ := hc
  cases a
  · cases rd <;> simp only [act, readerStep] at h <;> (repeat' split at h) <;>
      simp only [Option.some.injEq, reduceCtorEq] at h <;> subst h <;>
      constructor <;> grind [readerHolds, receiverHolds, requested, setChan,
        List.length_eq_zero_iff]
  · cases rc <;> simp only [act, receiverStep] at h <;> (repeat' split at h) <;>
      simp only [Option.some.injEq, reduceCtorEq] at h <;> subst h <;>
      constructor <;> grind [readerHolds, receiverHolds, requested, setChan,
        List.length_eq_zero_iff]
  · simp only [act, takeToken] at h
    split at h
    · simp only [Option.some.injEq] at h; subst h
      constructor <;> grind
    · simp at h
  · simp only [act, takeChunk] at h
    split at h
    · simp only [Option.some.injEq] at h; subst h
      constructor <;> grind [readerHolds, receiverHolds]
    · simp at h

/-! What holds as long as there is no race. -/

structure Live (s : State) : Prop where
  noOld : ∀ n r, s.reader ≠ .waitHeld n r
  asked : ∀ n r, requested s.reader = some (r, n) → s.deferred = some (r, n) ∨ s.resolvers r ≠ []
  answered : s.receiver = .clear → ∀ n r, requested s.reader = some (r, n) → s.resolvers r ≠ []
  short : ∀ r n, s.deferred = some (r, n) →
    s.receiver ≠ .unlock → s.receiver ≠ .check → s.receiver ≠ .resolve → s.receiver ≠ .clear →
    s.array.length < n
  window : ∀ n, s.reader = .lockNext n ∨ s.reader = .held n →
    s.receiver ≠ .unlock → s.receiver ≠ .check → s.array.length < n

theorem live_init (prog : List Op) (chunks : List Bytes) : Live (init prog chunks) := by
  constructor <;> simp [init, requested]

theorem live_step (a : Act) (s s' : State) (h : act a s = some s') (hc : Control s)
    (hr : ¬ Race s) (hr' : ¬ Race s') (hl : Live s) : Live s' := by
  have r1 : ∀ n, s.reader = .lockNext n ∨ s.reader = .held n →
      s.receiver = .select ∨ (∃ c, s.receiver = .lock c) → s.array.length < n := fun n h1 h2 =>
    Nat.lt_of_not_le fun h3 => hr (.missed n h1 h2 h3)
  have r2 : ∀ n, s'.reader = .lockNext n ∨ s'.reader = .held n →
      s'.receiver = .select ∨ (∃ c, s'.receiver = .lock c) → s'.array.length < n := fun n h1 h2 =>
    Nat.lt_of_not_le fun h3 => hr' (.missed n h1 h2 h3)
  have r3 : ∀ n, s.reader = .held n → s.receiver ≠ .clear := fun n h1 h2 => hr (.stale n h1 h2)
  clear hr hr'
  obtain ⟨inc, arr, dfr, tok, lck, res, made, rd, rc, todo, log⟩ := s
  obtain ⟨c1, c2, c3, c4, c5, c6, c7, c8, c9⟩ := hc
  obtain ⟨l1, l2, l3, l4, l5⟩ := hl
  cases a
  · cases rd <;> simp only [act, readerStep] at h <;> (repeat' split at h) <;>
      simp only [Option.some.injEq, reduceCtorEq] at h <;> subst h <;>
      constructor <;> grind [readerHolds, receiverHolds, requested, setChan,
        List.length_eq_zero_iff]
  · cases rc <;> simp only [act, receiverStep] at h <;> (repeat' split at h) <;>
      simp only [Option.some.injEq, reduceCtorEq] at h <;> subst h <;>
      constructor <;> grind [readerHolds, receiverHolds, requested, setChan,
        List.length_eq_zero_iff]
  · simp only [act, takeToken] at h
    split at h
    · simp only [Option.some.injEq] at h; subst h
      constructor <;> grind
    · simp at h
  · simp only [act, takeChunk] at h
    split at h
    · simp only [Option.some.injEq] at h; subst h
      constructor <;> grind
    · simp at h

/-- Without a race, the only ways to end are that the reader has made all its calls or that too
few bytes have arrived. -/
theorem live_stuck (s : State) (hc : Control s) (hl : Live s) (hr : ¬ Race s) (hs : Stuck s) :
    s.receiver = .select ∧ s.incoming = [] ∧
      ((s.reader = .idle ∧ s.todo = []) ∨
        ∃ n r, s.reader = .wait n r ∧ s.array.length < n) := by
  have q1 := hs .reader
  have q2 := hs .receiver
  have q3 := hs .token
  have q4 := hs .chunk
  have r1 : s.receiver = .notify → s.token = false := fun h1 => by
    cases h : s.token with
    | false => rfl
    | true => exact absurd (.selfBlocked h1 h) hr
  have r2 : ∀ n r, s.reader = .send n r → s.token = true → ∀ c, s.receiver ≠ .lock c :=
    fun n r h1 h2 c h3 => hr (.bothBlocked n r c h1 h2 h3)
  clear hr hs
  obtain ⟨inc, arr, dfr, tok, lck, res, made, rd, rc, todo, log⟩ := s
  obtain ⟨c1, c2, c3, c4, c5, c6, c7, c8, c9⟩ := hc
  obtain ⟨l1, l2, l3, l4, l5⟩ := hl
  simp only [act, readerStep, receiverStep, takeToken, takeChunk] at q1 q2 q3 q4
  have e1 : rc = .select → inc = [] := by
    rintro rfl
    cases inc with
    | nil => rfl
    | cons c cs => simp at q4
  have e2 : rd = .idle → todo = [] := by
    rintro rfl
    rcases todo with _ | ⟨n | k, todo⟩
    · rfl
    · dsimp only at q1; split at q1 <;> simp at q1
    · simp at q1
  have e3 : ∀ n r, rd = .wait n r → dfr = some (r, n) ∨ res r ≠ [] := by
    rintro n r rfl
    exact l2 n r rfl
  clear q4
  cases rc <;> cases rd <;> grind [readerHolds, receiverHolds, requested]

theorem raceFree_cons {a : Act} {as : List Act} {s s' : State} (h : RaceFree s (a :: as))
    (ha : act a s = some s') : ¬ Race s ∧ RaceFree s' as :=
  ⟨h 0 s rfl, fun i t ht => h (i + 1) t (by simp [run, ha, ht])⟩

theorem run_live (as : List Act) (s s' : State) (h : run as s = some s') (hf : RaceFree s as)
    (hc : Control s) (hl : Live s) : Control s' ∧ Live s' ∧ ¬ Race s' := by
  induction as generalizing s with
  | nil =>
    simp only [run, Option.some.injEq] at h
    subst h
    exact ⟨hc, hl, hf 0 s rfl⟩
  | cons a as ih =>
    simp only [run] at h
    cases ha : act a s with
    | none => simp [ha] at h
    | some t =>
      obtain ⟨h1, h2⟩ := raceFree_cons hf ha
      exact ih t (by simpa [ha] using h) h2 (control_step a s t ha hc)
        (live_step a s t ha hc h1 (h2 0 t rfl) hl)

/-! The sequential view. -/

/-- The sequential view after some calls. -/
inductive Replay : List Event → GB → GB → Prop
  | nil (g : GB) : Replay [] g g
  | next {es : List Event} {g g1 g2 : GB} {n : Nat} {b : Bytes} :
      Replay es g g1 → nextAbsolute n g1 = .ok (b, g2) → Replay (es ++ [.next n b]) g g2
  | prune {es : List Event} {g g1 g2 : GB} {k : Nat} :
      Replay es g g1 → Willow.prune k g1 = .ok ((), g2) → Replay (es ++ [.prune k]) g g2

theorem sequential_append (es es' : List Event) (g g1 : GB) (h : Replay es g g1)
    (h' : Sequential es' g1) : Sequential (es ++ es') g := by
  induction h generalizing es' with
  | nil => exact h'
  | next _ hn ih =>
    rw [List.append_assoc]
    exact ih _ ⟨_, hn, h'⟩
  | prune _ hp ih =>
    rw [List.append_assoc]
    exact ih _ ⟨_, hp, h'⟩

theorem sequential_of_replay {es : List Event} {g g1 : GB} (h : Replay es g g1) :
    Sequential es g := by
  have := sequential_append es [] g g1 h trivial
  simpa using this

/-- The bytes of the first `j` chunks after the first `pos` bytes. -/
def upTo (chunks : List Bytes) (j pos : Nat) : Bytes := (chunks.take j).flatten.drop pos

theorem upTo_succ (chunks : List Bytes) (j pos : Nat) (c : Bytes) (cs : List Bytes)
    (h : chunks.drop j = c :: cs) (hp : pos ≤ (chunks.take j).flatten.length) :
    upTo chunks (j + 1) pos = upTo chunks j pos ++ c := by
  have hj : j < chunks.length := by
    rcases Nat.lt_or_ge j chunks.length with h' | h'
    · exact h'
    · rw [List.drop_eq_nil_of_le h'] at h; cases h
  have hc : chunks[j] = c := by
    rw [List.drop_eq_getElem_cons hj] at h
    exact (List.cons.inj h).1
  simp only [upTo]
  rw [List.take_succ_eq_append_getElem hj, List.flatten_append, hc]
  simp [List.drop_append_of_le_length hp]

theorem upTo_prefix (chunks : List Bytes) (j pos : Nat) :
    upTo chunks j pos <+: chunks.flatten.drop pos := by
  conv => rhs; rw [← List.take_append_drop j chunks, List.flatten_append, List.drop_append]
  exact ⟨_, rfl⟩

theorem flatten_take_mono (chunks : List Bytes) (j j' : Nat) (h : j ≤ j') :
    (chunks.take j).flatten.length ≤ (chunks.take j').flatten.length := by
  have : (chunks.take j).flatten <+: (chunks.take j').flatten := by
    have hp : chunks.take j <+: chunks.take j' := List.take_prefix_take_left h
    obtain ⟨t, ht⟩ := hp
    exact ⟨t.flatten, by rw [← List.flatten_append, ht]⟩
  exact this.length_le

theorem absorb_upTo (chunks : List Bytes) (pos : Nat) (sched : List Nat) (d j : Nat)
    (hj : j + d ≤ chunks.length) (hp : pos ≤ (chunks.take j).flatten.length) (m : Mem) :
    ∃ m', GB.absorb d ⟨upTo chunks j pos, chunks.drop j, sched, m⟩
      = ⟨upTo chunks (j + d) pos, chunks.drop (j + d), sched, m'⟩ := by
  induction d generalizing j m with
  | zero => exact ⟨m, rfl⟩
  | succ d ih =>
    have hlt : j < chunks.length := by omega
    have hd : chunks.drop j = chunks[j] :: chunks.drop (j + 1) := List.drop_eq_getElem_cons hlt
    obtain ⟨m', e⟩ := ih (j + 1) (by omega) (Nat.le_trans hp (flatten_take_mono _ _ _ (Nat.le_succ j)))
      (m.append chunks[j].length)
    rw [hd, GB.absorb, ← upTo_succ chunks j pos _ _ hd hp, e]
    exact ⟨m', by simp only [Nat.add_assoc, Nat.add_comm 1 d]⟩

theorem pull_enough (n : Nat) (buf : Bytes) (m : Mem) (rest : List Bytes) (h : n ≤ buf.length) :
    GB.pull n buf m rest = some (buf, rest, m) := by
  cases rest <;> simp [GB.pull, h]

/-- The part of the last answer that is not pruned. -/
def shown : Nat → List Event → Nat
  | m, [] => m
  | _, .next _ b :: es => shown b.length es
  | m, .prune k :: es => shown (m - k) es

theorem shown_append (m : Nat) (es es' : List Event) :
    shown m (es ++ es') = shown (shown m es) es' := by
  induction es generalizing m with
  | nil => rfl
  | cons e es ih => cases e <;> simp [shown, ih]

theorem modest_append (m : Nat) (es es' : List Event) :
    Modest m (es ++ es') ↔ Modest m es ∧ Modest (shown m es) es' := by
  induction es generalizing m with
  | nil => simp [Modest, shown]
  | cons e es ih => cases e <;> simp [Modest, shown, ih, and_assoc]

/-- The chunks the receiver has taken and not appended, and those it has not taken. -/
def ahead (s : State) : List Bytes :=
  match s.receiver with
  | .lock c | .append c => c :: s.incoming
  | _ => s.incoming

/-- What the reader has seen corresponds to the sequential view after `j` chunks, of which it
has pruned `pos` bytes; the buffer holds `t` chunks. -/
structure Data (chunks : List Bytes) (s : State) (t j pos : Nat) (sched : List Nat) : Prop where
  bound : t ≤ chunks.length
  mono : j ≤ t
  rest : ahead s = chunks.drop t
  array : s.array = upTo chunks t pos
  pruned : pos ≤ (chunks.take j).flatten.length
  shown : shown 0 s.log = (upTo chunks j pos).length
  ret : ∀ n, s.reader = .ret n → n ≤ s.array.length
  answer : ∀ n r, requested s.reader = some (r, n) → ∀ b ∈ s.resolvers r, ∃ j', j ≤ j' ∧ j' ≤ t ∧
    b = upTo chunks j' pos ∧ n ≤ b.length
  replay : ∀ tail m, ∃ m', Replay s.log ⟨[], chunks, sched ++ tail, m⟩ ⟨upTo chunks j pos, chunks.drop j, tail, m'⟩
  answers : ∀ es', Answers (chunks.flatten.drop pos) es' → Answers chunks.flatten (s.log ++ es')

theorem data_init (prog : List Op) (chunks : List Bytes) :
    Data chunks (init prog chunks) 0 0 0 [] := by
  constructor <;> simp [init, ahead, upTo, Growing.shown, requested]
  exact fun tail m => ⟨m, .nil _⟩

/-- The reader gets an answer. -/
theorem replay_next {chunks : List Bytes} {s : State} {t j pos : Nat} {sched : List Nat}
    (h : Data chunks s t j pos sched) (n j' : Nat) (hj : j ≤ j') (ht : j' ≤ t)
    (hn : n ≤ (upTo chunks j' pos).length) (tail : List Nat) (m : Mem) :
    ∃ m', Replay (s.log ++ [.next n (upTo chunks j' pos)]) ⟨[], chunks, (sched ++ [j' - j]) ++ tail, m⟩
      ⟨upTo chunks j' pos, chunks.drop j', tail, m'⟩ := by
  obtain ⟨m1, h1⟩ := h.replay ((j' - j) :: tail) m
  have hb := h.bound
  obtain ⟨m2, h2⟩ := absorb_upTo chunks pos ((j' - j) :: tail) (j' - j) j (by omega) h.pruned m1
  refine ⟨m2, .next (g1 := ⟨upTo chunks j pos, chunks.drop j, (j' - j) :: tail, m1⟩) ?_ ?_⟩
  · simpa using h1
  · simp only [nextAbsolute, List.headD_cons, List.tail_cons]
    rw [h2]
    have e : j + (j' - j) = j' := by omega
    simp only [e]
    rw [pull_enough n _ _ _ hn]

theorem answers_next {chunks : List Bytes} {s : State} {t j pos : Nat} {sched : List Nat}
    (h : Data chunks s t j pos sched) (n j' : Nat)
    (hn : n ≤ (upTo chunks j' pos).length) (es' : List Event)
    (he : Answers (chunks.flatten.drop pos) es') :
    Answers chunks.flatten ((s.log ++ [.next n (upTo chunks j' pos)]) ++ es') := by
  rw [List.append_assoc]
  exact h.answers _ ⟨hn, upTo_prefix _ _ _, he⟩

/-- A step of the reader by which it gets an answer. -/
theorem data_next {chunks : List Bytes} {s s' : State} {t j pos : Nat} {sched : List Nat}
    (h : Data chunks s t j pos sched) (n j' : Nat) (hj : j ≤ j') (ht : j' ≤ t)
    (hn : n ≤ (upTo chunks j' pos).length)
    (e1 : ahead s' = ahead s) (e2 : s'.array = s.array) (e3 : s'.reader = .idle)
    (e4 : s'.log = s.log ++ [.next n (upTo chunks j' pos)]) :
    Data chunks s' t j' pos (sched ++ [j' - j]) where
  bound := h.bound
  mono := ht
  rest := by rw [e1, h.rest]
  array := by rw [e2, h.array]
  pruned := Nat.le_trans h.pruned (flatten_take_mono _ _ _ hj)
  shown := by rw [e4, shown_append]; rfl
  ret := by simp [e3]
  answer := by simp [e3, requested]
  replay := by rw [e4]; exact replay_next h n j' hj ht hn
  answers := by rw [e4]; exact answers_next h n j' hn

/-- A step that changes neither the buffer nor the log. -/
theorem data_same {chunks : List Bytes} {s s' : State} {t j pos : Nat} {sched : List Nat}
    (h : Data chunks s t j pos sched)
    (e1 : ahead s' = ahead s) (e2 : s'.array = s.array) (e3 : s'.log = s.log)
    (e4 : ∀ n, s'.reader = .ret n → n ≤ s.array.length)
    (e5 : ∀ n r, requested s'.reader = some (r, n) → ∀ b ∈ s'.resolvers r, ∃ j', j ≤ j' ∧ j' ≤ t ∧
      b = upTo chunks j' pos ∧ n ≤ b.length) :
    Data chunks s' t j pos sched where
  bound := h.bound
  mono := h.mono
  rest := by rw [e1, h.rest]
  array := by rw [e2, h.array]
  pruned := h.pruned
  shown := by rw [e3, h.shown]
  ret := by rw [e2]; exact e4
  answer := e5
  replay := by rw [e3]; exact h.replay
  answers := by rw [e3]; exact h.answers

theorem data_step (chunks : List Bytes) (a : Act) (s s' : State) (h : act a s = some s')
    (hc : Control s) (hm : Modest 0 s'.log)
    (hd : ∃ t j pos sched, Data chunks s t j pos sched) :
    ∃ t j pos sched, Data chunks s' t j pos sched := by
  obtain ⟨t, j, pos, sched, hd⟩ := hd
  obtain ⟨inc, arr, dfr, tok, lck, res, made, rd, rc, todo, log⟩ := s
  have same := @data_same chunks _ s' _ _ _ _ hd
  have hans := hd.answer
  have hret := hd.ret
  cases a
  · cases rd with
    | idle =>
      refine ⟨t, j, pos, sched, ?_⟩
      simp only [act, readerStep] at h
      (repeat' split at h) <;> simp only [Option.some.injEq, reduceCtorEq] at h <;> subst h <;>
        exact same rfl rfl rfl (by grind) (by simp [requested])
    | ret n =>
      simp only [act, readerStep, Option.some.injEq] at h
      subst h
      refine ⟨t, t, pos, _, data_next hd n t hd.mono (Nat.le_refl _) ?_ rfl rfl rfl ?_⟩
      · rw [← hd.array]; exact hd.ret n rfl
      · rw [← hd.array]
    | lockNext n =>
      refine ⟨t, j, pos, sched, ?_⟩
      simp only [act, readerStep] at h
      split at h <;> simp only [Option.some.injEq, reduceCtorEq] at h
      subst h
      exact same rfl rfl rfl (by simp) (by simp [requested])
    | held n =>
      refine ⟨t, j, pos, sched, ?_⟩
      have hf := hc.fresh made (Nat.le_refl _)
      simp only [act, readerStep] at h
      (repeat' split at h) <;> simp only [Option.some.injEq] at h <;> subst h <;>
        refine same rfl rfl rfl (by simp) ?_ <;> simp only [requested] <;> grind
    | send n r =>
      refine ⟨t, j, pos, sched, ?_⟩
      simp only [act, readerStep] at h
      split at h <;> simp only [Option.some.injEq, reduceCtorEq] at h
      subst h
      exact same rfl rfl rfl (by simp) (fun n' r' hr => hans n' r' hr)
    | unlock n r =>
      refine ⟨t, j, pos, sched, ?_⟩
      simp only [act, readerStep, Option.some.injEq] at h
      subst h
      exact same rfl rfl rfl (by simp) (fun n' r' hr => hans n' r' hr)
    | wait n r =>
      simp only [act, readerStep] at h
      split at h <;> simp only [Option.some.injEq, reduceCtorEq] at h
      rename_i b bs hb
      subst h
      obtain ⟨j', h1, h2, h3, h4⟩ := hans n r rfl b (by simp [hb])
      subst h3
      exact ⟨t, j', pos, _, data_next hd n j' h1 h2 h4 rfl rfl rfl rfl⟩
    | waitHeld n r =>
      have := (hc.old n r rfl).1
      simp only [act, readerStep] at h
      simp_all
    | lockPrune k =>
      refine ⟨t, j, pos, sched, ?_⟩
      simp only [act, readerStep] at h
      split at h <;> simp only [Option.some.injEq, reduceCtorEq] at h
      subst h
      exact same rfl rfl rfl (by simp) (by simp [requested])
    | pruning k =>
      simp only [act, readerStep, Option.some.injEq] at h
      subst h
      have hk : k ≤ (upTo chunks j pos).length := by
        rw [← hd.shown]
        have := ((modest_append _ _ _).1 hm).2
        exact this.1
      have harr : (if k ≥ arr.length then [] else arr.drop k) = arr.drop k := by
        split
        · rename_i hk'; rw [List.drop_eq_nil_of_le hk']
        · rfl
      have hadd : ∀ i, (upTo chunks i pos).drop k = upTo chunks i (pos + k) := by
        intro i; simp [upTo]
      have hpr := hd.pruned
      simp only [upTo, List.length_drop] at hk
      refine ⟨t, j, pos + k, sched, ?_⟩
      refine ⟨hd.bound, hd.mono, hd.rest, ?_, by omega, ?_, by simp, by simp [requested], ?_, ?_⟩
      · dsimp only; rw [harr, ← hadd, ← hd.array]
      · have hsh := hd.shown
        simp only [shown_append, Growing.shown] at hsh ⊢
        rw [hsh, ← hadd, List.length_drop]
      · intro tail m
        obtain ⟨m', h'⟩ := hd.replay tail m
        exact ⟨_, .prune h' (by simp only [prune, hadd]; rfl)⟩
      · intro es' he
        dsimp only
        rw [List.append_assoc]
        refine hd.answers _ ?_
        simp only [List.singleton_append, Answers, List.drop_drop]
        exact he
  · cases rc with
    | select => simp [act, receiverStep] at h
    | lock c =>
      refine ⟨t, j, pos, sched, ?_⟩
      simp only [act, receiverStep] at h
      split at h <;> simp only [Option.some.injEq, reduceCtorEq] at h
      subst h
      exact same rfl rfl rfl hret hans
    | append c =>
      simp only [act, receiverStep, Option.some.injEq] at h
      subst h
      have hrest : c :: inc = chunks.drop t := hd.rest
      have hlt : t < chunks.length := by
        rcases Nat.lt_or_ge t chunks.length with h' | h'
        · exact h'
        · rw [List.drop_eq_nil_of_le h'] at hrest; cases hrest
      refine ⟨t + 1, j, pos, sched, ⟨hlt, Nat.le_succ_of_le hd.mono, ?_, ?_, hd.pruned, hd.shown,
        ?_, ?_, hd.replay, hd.answers⟩⟩
      · rw [List.drop_eq_getElem_cons hlt] at hrest
        exact (List.cons.inj hrest).2
      · have harr : arr = upTo chunks t pos := hd.array
        dsimp only
        rw [harr, upTo_succ chunks t pos c inc hrest.symm
          (Nat.le_trans hd.pruned (flatten_take_mono _ _ _ hd.mono))]
      · intro n hn
        have := hret n hn
        simp only [List.length_append]
        dsimp only at this
        omega
      · intro n r hr b hb
        obtain ⟨j', h1, h2, h3⟩ := hans n r hr b hb
        exact ⟨j', h1, Nat.le_succ_of_le h2, h3⟩
    | unlock =>
      refine ⟨t, j, pos, sched, ?_⟩
      simp only [act, receiverStep, Option.some.injEq] at h
      subst h
      exact same rfl rfl rfl hret hans
    | check =>
      refine ⟨t, j, pos, sched, ?_⟩
      simp only [act, receiverStep] at h
      (repeat' split at h) <;> simp only [Option.some.injEq] at h <;> subst h <;>
        exact same rfl rfl rfl hret hans
    | resolve =>
      refine ⟨t, j, pos, sched, ?_⟩
      obtain ⟨r0, n0, hdf, hlen⟩ := hc.resolve rfl
      have hp := hc.pending r0 n0 hdf (by simp)
      simp only at hdf hlen hp
      subst hdf
      simp only [act, receiverStep] at h
      split at h <;> simp only [Option.some.injEq, reduceCtorEq] at h
      subst h
      refine same rfl rfl rfl hret ?_
      intro n r hr b hb
      rw [hp.1] at hr
      simp only [Option.some.injEq, Prod.mk.injEq] at hr
      obtain ⟨rfl, rfl⟩ := hr
      simp only [setChan, if_true, hp.2, List.nil_append, List.mem_singleton] at hb
      subst hb
      exact ⟨t, hd.mono, Nat.le_refl _, hd.array, hlen⟩
    | clear =>
      refine ⟨t, j, pos, sched, ?_⟩
      simp only [act, receiverStep, Option.some.injEq] at h
      subst h
      exact same rfl rfl rfl hret hans
    | notify =>
      refine ⟨t, j, pos, sched, ?_⟩
      simp only [act, receiverStep] at h
      split at h <;> simp only [Option.some.injEq, reduceCtorEq] at h
      subst h
      exact same rfl rfl rfl hret hans
  · refine ⟨t, j, pos, sched, ?_⟩
    simp only [act, takeToken] at h
    split at h <;> simp only [Option.some.injEq, reduceCtorEq] at h
    subst h
    exact same rfl rfl rfl hret hans
  · refine ⟨t, j, pos, sched, ?_⟩
    simp only [act, takeChunk] at h
    split at h <;> simp only [Option.some.injEq, reduceCtorEq] at h
    subst h
    exact same rfl rfl rfl hret hans

theorem log_grows (a : Act) (s s' : State) (h : act a s = some s') :
    ∃ es, s'.log = s.log ++ es := by
  cases a <;> simp only [act, readerStep, receiverStep, takeToken, takeChunk] at h <;>
    (repeat' split at h) <;> simp only [Option.some.injEq, reduceCtorEq] at h <;> subst h <;>
    first | exact ⟨_, rfl⟩ | exact ⟨[], (List.append_nil _).symm⟩

theorem run_log_grows (as : List Act) (s s' : State) (h : run as s = some s') :
    ∃ es, s'.log = s.log ++ es := by
  induction as generalizing s with
  | nil => simp only [run, Option.some.injEq] at h; subst h; exact ⟨[], by simp⟩
  | cons a as ih =>
    simp only [run] at h
    cases ha : act a s with
    | none => simp [ha] at h
    | some t =>
      obtain ⟨e1, h1⟩ := log_grows a s t ha
      obtain ⟨e2, h2⟩ := ih t (by simpa [ha] using h)
      exact ⟨e1 ++ e2, by rw [h2, h1, List.append_assoc]⟩

theorem run_data (chunks : List Bytes) (as : List Act) (s s' : State) (h : run as s = some s')
    (hc : Control s) (hm : Modest 0 s'.log)
    (hd : ∃ t j pos sched, Data chunks s t j pos sched) :
    ∃ t j pos sched, Data chunks s' t j pos sched := by
  induction as generalizing s with
  | nil => simp only [run, Option.some.injEq] at h; exact h ▸ hd
  | cons a as ih =>
    simp only [run] at h
    cases ha : act a s with
    | none => simp [ha] at h
    | some t =>
      have h' : run as t = some s' := by simpa [ha] using h
      obtain ⟨es, hes⟩ := run_log_grows as t s' h'
      have hm' : Modest 0 t.log := ((modest_append _ _ _).1 (hes ▸ hm)).1
      exact ih t h' (control_step a s t ha hc) (data_step chunks a s t ha hc hm' hd)

/-! Tests for concrete states. -/

/-- Is the state a race? -/
def isRace (s : State) : Bool :=
  (match s.reader, s.receiver with
    | .lockNext n, .select | .held n, .select | .lockNext n, .lock _ | .held n, .lock _ =>
      decide (n ≤ s.array.length)
    | _, _ => false) ||
  (s.receiver = .notify && s.token) ||
  (match s.reader, s.receiver with
    | .send _ _, .lock _ => s.token
    | .held _, .clear => true
    | _, _ => false)

theorem not_race_of_isRace {s : State} (h : isRace s = false) : ¬ Race s := by
  intro hr
  cases hr with
  | missed n h1 h2 h3 =>
    rcases h1 with h1 | h1 <;> rcases h2 with h2 | ⟨c, h2⟩ <;> simp [isRace, h1, h2] at h <;> omega
  | selfBlocked h1 h2 => simp [isRace, h1, h2] at h
  | bothBlocked n r c h1 h2 h3 => simp [isRace, h1, h2, h3] at h
  | stale n h1 h2 => simp [isRace, h1, h2] at h

/-- Are there no races on the way? -/
def raceFree : List Act → State → Bool
  | [], s => !isRace s
  | a :: as, s => !isRace s && (match act a s with | some s' => raceFree as s' | none => true)

theorem raceFree_of (as : List Act) (s : State) (h : raceFree as s = true) : RaceFree s as := by
  induction as generalizing s with
  | nil =>
    intro i s' hs
    simp only [List.take_nil, run, Option.some.injEq] at hs
    subst hs
    exact not_race_of_isRace (by simpa [raceFree] using h)
  | cons a as ih =>
    simp only [raceFree, Bool.and_eq_true, Bool.not_eq_true'] at h
    intro i s' hs
    cases i with
    | zero =>
      simp only [List.take_zero, run, Option.some.injEq] at hs
      subst hs
      exact not_race_of_isRace h.1
    | succ i =>
      simp only [List.take_succ_cons, run] at hs
      cases ha : act a s with
      | none => simp [ha] at hs
      | some t =>
        rw [ha] at h
        exact ih t h.2 i s' (by simpa [ha] using hs)

/-- Can no thread move? -/
def isStuck (s : State) : Bool :=
  [Act.reader, .receiver, .token, .chunk].all fun a => (act a s).isNone

theorem stuck_of {s : State} (h : isStuck s = true) : Stuck s := by
  simp only [isStuck, List.all_cons, List.all_nil, Bool.and_true, Bool.and_eq_true,
    Option.isNone_iff_eq_none] at h
  intro a
  cases a
  · exact h.1
  · exact h.2.1
  · exact h.2.2.1
  · exact h.2.2.2

/-- All chunks arrive while the reader has not stored its request. -/
theorem take_all (cs : List Bytes) (s : State) (n : Nat) (hr : s.reader = .lockNext n) (hc : s.receiver = .select) (hd : s.deferred = none)
    (hl : s.locked = false) (hi : s.incoming = cs) :
    run (cs.flatMap fun _ => [.chunk, .receiver, .receiver, .receiver, .receiver]) s =
      some { s with incoming := [], array := s.array ++ cs.flatten } := by
  induction cs generalizing s with
  | nil => obtain ⟨⟩ := s; simp_all [run]
  | cons c cs ih =>
    obtain ⟨inc, arr, dfr, tok, lck, res, made, rd, rc, todo, log⟩ := s
    simp only at hr hc hd hl hi
    subst hr hc hd hl hi
    have := ih { incoming := cs, array := arr ++ c, deferred := none, token := tok, locked := false, resolvers := res, made := made,
                 reader := .lockNext n, receiver := .select, todo := todo, log := log } rfl rfl rfl rfl rfl
    simp only [List.flatMap_cons, run_append]
    simp only [run, act, takeChunk, receiverStep, Option.bind_some, Bool.false_eq_true, if_false]
    rw [this]
    simp

/-- A reader that has found too few bytes and has not stored its request can be left waiting. -/
theorem starve (s : State) (hs : Control s) (n : Nat) (hr : s.reader = .lockNext n) (hc : s.receiver = .select) (hn : n ≤ arrived s) :
    ∃ acts s', run acts s = some s' ∧ Starved s' ∧ asking s'.reader = some n ∧ s'.log = s.log ∧ s'.todo = s.todo := by
  have hd : s.deferred = none := by
    cases h : s.deferred with
    | none => rfl
    | some x =>
      have := (hs.pending x.1 x.2 h (by simp [hc])).1
      simp [hr, requested] at this
  have hl : s.locked = false := by rw [hs.lock, hr, hc]; rfl
  have hf := hs.fresh s.made (Nat.le_refl _)
  have ha := take_all s.incoming s n hr hc hd hl rfl
  obtain ⟨inc, arr, dfr, tok, lck, res, made, rd, rc, todo, log⟩ := s
  simp only at hr hc hd hl hf ha
  subst hr hc hd hl
  have hn' : n ≤ arr.length + inc.flatten.length := by simpa [arrived] using hn
  refine ⟨(inc.flatMap fun _ => [.chunk, .receiver, .receiver, .receiver, .receiver]) ++ ((if tok then [.token] else []) ++
      [.reader, .reader, .reader, .reader, .token]),
    { incoming := [], array := arr ++ inc.flatten, deferred := some (made, n), token := false, locked := false, resolvers := res,
      made := made + 1, reader := .wait n made, receiver := .select, todo := todo, log := log }, ?_, ⟨?_, n, rfl, ?_⟩, rfl, rfl, rfl⟩
  · rw [run_append, ha]
    cases tok <;> simp [run, act, takeToken, readerStep]
  · intro a
    cases a <;> simp [act, readerStep, receiverStep, takeToken, takeChunk, hf]
  · simpa [arrived] using hn'

end Willow.Growing
