import Verif.Lemmas.Stream
import Verif.Lemmas.GrowingBytes

/-! C67 and C86: the reader and the receiver of a growing byte stream. -/

namespace Willow.Props

open Willow Willow.Growing Willow.Spec.Growing

/-! ## C67: a waiting reader is woken when enough bytes arrive

Full statement: `run acts (init prog chunks) = some s → ¬ Starved s`, for all calls, all chunks
and all interleavings. -/

/-- Every interleaving comes to an end after a bounded number of steps, and unless there is a
race on the way (`Race` lists four kinds), at the end the reader has made all its calls or waits
for more bytes than have arrived. Missing: interleavings with a race. -/
theorem C67_woken_partial (prog : List Op) (chunks : List Bytes) (acts : List Act) (s : State)
    (h : run acts (init prog chunks) = some s) :
    acts.length ≤ 9 * (prog.length + chunks.length) ∧
    (RaceFree (init prog chunks) acts → Stuck s → ¬ Starved s ∧
      ((s.reader = .idle ∧ s.todo = []) ∨
        ∃ n, asking s.reader = some n ∧ arrived s < n)) := by
  refine ⟨?_, fun hf hs => ?_⟩
  · have := run_length acts _ s h
    simp only [weight, init, readerWeight, receiverWeight, Bool.toNat] at this
    simp at this
    omega
  · obtain ⟨hc, hl, hr⟩ := run_live acts _ s h hf (control_init _ _) (live_init _ _)
    obtain ⟨h1, h2, h3⟩ := live_stuck s hc hl hr hs
    have harr : arrived s = s.array.length := by simp [arrived, h1, h2]
    rcases h3 with ⟨h3, h4⟩ | ⟨n, r, h3, h4⟩
    · refine ⟨?_, .inl ⟨h3, h4⟩⟩
      rintro ⟨-, n, hn, -⟩
      simp [h3, asking] at hn
    · refine ⟨?_, .inr ⟨n, by simp [h3, asking], by omega⟩⟩
      rintro ⟨-, n', hn, hle⟩
      simp only [h3, asking, Option.some.injEq] at hn
      omega

/-- An interleaving that uses every kind of step; the reader asks for three bytes, which come in
two chunks, prunes one and asks for two. -/
def exActs : List Act :=
  [.reader, .reader, .reader, .reader, .reader, .token,
   .chunk, .receiver, .receiver, .receiver, .receiver,
   .chunk, .receiver, .receiver, .receiver, .receiver, .receiver, .receiver, .receiver, .token,
   .reader, .reader, .reader, .reader, .reader, .reader]

example : ∃ s, run exActs (init [.next 3, .prune 1, .next 2] [[1], [2, 3]]) = some s ∧
    RaceFree (init [.next 3, .prune 1, .next 2] [[1], [2, 3]]) exActs ∧ Stuck s ∧
    s.log = [.next 3 [1, 2, 3], .prune 1, .next 2 [2, 3]] := by
  refine ⟨_, rfl, raceFree_of _ _ (by decide +kernel), stuck_of (by decide +kernel), ?_⟩
  decide +kernel

/-- C67 is violated at every request: whenever, in any interleaving, the reader has found too few bytes and has not yet
taken the lock, and the receiver waits, it can come to pass that the bytes arrive and the reader waits forever. -/
theorem C67_violated_always (prog : List Op) (chunks : List Bytes) (before : List Act) (s : State) (n : Nat)
    (h : run before (init prog chunks) = some s) (hr : s.reader = .lockNext n) (hc : s.receiver = .select) (hn : n ≤ arrived s) :
    ∃ acts s', run (before ++ acts) (init prog chunks) = some s' ∧ Starved s' ∧ asking s'.reader = some n ∧
      s'.log = s.log ∧ s'.todo = s.todo := by
  obtain ⟨acts, s', h1, h2⟩ := starve s (run_induct Control control_step _ _ _ h (control_init _ _)) n hr hc hn
  exact ⟨acts, s', by rw [run_append, h]; exact h1, h2⟩

example : ∃ s, run [.reader, .chunk, .receiver, .receiver, .receiver, .receiver] (init [.next 3] [[1], [2, 3]]) = some s ∧
    s.reader = .lockNext 3 ∧ s.receiver = .select ∧ 3 ≤ arrived s := ⟨_, rfl, by decide +kernel, by decide +kernel, by decide +kernel⟩

/-- C67 is violated by every sequence of calls that begins with a request for at least one byte, whatever the chunks in
which enough bytes arrive: there is an interleaving in which the first call never returns. -/
theorem C67_violated_first (prog : List Op) (chunks : List Bytes) (n : Nat) (h0 : 0 < n) (hn : n ≤ chunks.flatten.length) :
    ∃ acts s, run acts (init (.next n :: prog) chunks) = some s ∧ Starved s ∧ asking s.reader = some n ∧ s.log = [] ∧
      s.todo = prog := by
  obtain ⟨acts, s, h1, h2⟩ := C67_violated_always (.next n :: prog) chunks [.reader]
    { init (.next n :: prog) chunks with reader := .lockNext n, todo := prog } n
    (by simp [run, act, readerStep, init]; omega) rfl rfl (by simpa [arrived, init] using hn)
  exact ⟨_, s, h1, h2⟩

example : 0 < 3 ∧ 3 ≤ ([[1], [2, 3, 4]] : List Bytes).flatten.length := by decide

/-- C67 is violated by a request that is never answered: the reader finds no byte; the byte arrives and the receiver
finds no request; the reader stores its request. -/
theorem C67_violated_missed :
    ∃ acts s, run acts (init [.next 1] [[7]]) = some s ∧ Starved s := by
  refine ⟨[.reader, .chunk, .receiver, .receiver, .receiver, .receiver,
    .reader, .reader, .reader, .reader, .token], _, rfl, stuck_of (by decide +kernel), 1, ?_, ?_⟩
  · decide +kernel
  · decide +kernel

/-- C67 is violated when the receiver blocks itself: the token of the first request is still in the channel when the
receiver, having answered, sends another. The second request is never answered. -/
theorem C67_violated_selfBlocked :
    ∃ acts s, run acts (init [.next 1, .prune 1, .next 1] [[7], [8]]) = some s ∧ Starved s := by
  refine ⟨[.reader, .reader, .reader, .reader, .reader,
    .chunk, .receiver, .receiver, .receiver, .receiver, .receiver, .receiver,
    .reader, .reader, .reader, .reader, .reader, .reader, .reader],
    _, rfl, stuck_of (by decide +kernel), 1, ?_, ?_⟩
  · decide +kernel
  · decide +kernel

/-- C67 is violated when reader and receiver wait for each other: the reader, holding the lock, for the receiver to
take a token, the receiver for the lock. -/
theorem C67_violated_bothBlocked :
    ∃ acts s, run acts (init [.next 1, .prune 1, .next 1] [[7], [8]]) = some s ∧ Starved s := by
  refine ⟨[.reader, .reader, .reader, .reader, .reader, .token,
    .chunk, .receiver, .receiver, .receiver, .receiver, .receiver, .receiver, .receiver,
    .reader, .reader, .reader, .reader, .reader, .reader, .reader, .chunk],
    _, rfl, stuck_of (by decide +kernel), 1, ?_, ?_⟩
  · decide +kernel
  · decide +kernel

/-- C67 is violated when the receiver forgets the wrong request: the reader, having its answer, asks for two bytes
before the receiver forgets the request for one. -/
theorem C67_violated_forgotten :
    ∃ acts s, run acts (init [.next 1, .prune 1, .next 2] [[7], [8, 9]]) = some s ∧ Starved s := by
  refine ⟨[.reader, .reader, .reader, .reader, .reader, .token,
    .chunk, .receiver, .receiver, .receiver, .receiver, .receiver,
    .reader, .reader, .reader, .reader, .reader, .reader, .reader, .receiver, .receiver, .token,
    .reader, .reader, .token, .chunk, .receiver, .receiver, .receiver, .receiver],
    _, rfl, stuck_of (by decide +kernel), 2, ?_, ?_⟩
  · decide +kernel
  · decide +kernel

/-- C67 is violated when the reader takes the lock and waits for the answer to a request that has
been answered: it
asks for as many bytes as before, before the receiver forgets that request. -/
theorem C67_violated_sameLength :
    ∃ acts s, run acts (init [.next 1, .prune 1, .next 1] [[7], [8]]) = some s ∧ Starved s := by
  refine ⟨[.reader, .reader, .reader, .reader, .reader, .token,
    .chunk, .receiver, .receiver, .receiver, .receiver, .receiver,
    .reader, .reader, .reader, .reader, .reader, .reader, .reader, .receiver, .receiver,
    .token, .chunk],
    _, rfl, stuck_of (by decide +kernel), 1, ?_, ?_⟩
  · decide +kernel
  · decide +kernel

/-! ## C86: what a reader gets is what was sent -/

/-- In every interleaving, races or not, every answer the reader has got is long enough and
consists of the bytes that come next in the stream after those pruned, provided the reader
prunes no more than it has been shown. -/
theorem C86_answers (prog : List Op) (chunks : List Bytes) (acts : List Act) (s : State)
    (h : run acts (init prog chunks) = some s) (hm : Modest 0 s.log) :
    Answers chunks.flatten s.log := by
  obtain ⟨t, j, pos, sched, hd⟩ := run_data chunks acts _ s h (control_init _ _) hm
    ⟨0, 0, 0, [], data_init prog chunks⟩
  simpa using hd.answers [] trivial

/-- In every interleaving, the answers are those of the sequential view of the stream, in which
all other theorems about decoders are stated, for some schedule of arrivals and any memory after the bytes. -/
theorem C86_sequential (prog : List Op) (chunks : List Bytes) (acts : List Act) (s : State)
    (h : run acts (init prog chunks) = some s) (hm : Modest 0 s.log) :
    ∃ sched, ∀ m, Sequential s.log ⟨[], chunks, sched, m⟩ := by
  obtain ⟨t, j, pos, sched, hd⟩ := run_data chunks acts _ s h (control_init _ _) hm
    ⟨0, 0, 0, [], data_init prog chunks⟩
  refine ⟨sched, fun m => ?_⟩
  obtain ⟨m', h'⟩ := hd.replay [] m
  simpa using sequential_of_replay h'

example : ∃ s, run exActs (init [.next 3, .prune 1, .next 2] [[1], [2, 3]]) = some s ∧
    s.log = [.next 3 [1, 2, 3], .prune 1, .next 2 [2, 3]] ∧ Modest 0 s.log := by
  refine ⟨_, rfl, by decide +kernel, ?_⟩
  simp [init, Modest]

/-- Arriving bytes that there is room for stay in the array, which keeps its end: what is read beyond
the bytes received gets less by exactly the bytes that arrive. How much room a new array has is left open, as Go
leaves it open. -/
theorem C86_room (k : Nat) (g : GB) (h : (g.rest.take k).flatten.length ≤ g.mem.spare) :
    (GB.absorb k g).buf.length + (GB.absorb k g).mem.spare = g.buf.length + g.mem.spare ∧
      (GB.absorb k g).mem.room = g.mem.room :=
  Willow.absorb_room k g h

example : GB.absorb 2 ⟨[1], [[2], [3, 4], [5]], [], ⟨3, [7]⟩⟩ = ⟨[1, 2, 3, 4], [[5]], [], ⟨0, [7]⟩⟩ := by decide

end Willow.Props
