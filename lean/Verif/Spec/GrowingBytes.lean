import Verif.Model.GrowingBytes
import Verif.Model.Stream

/-! What a growing byte stream should do. -/

namespace Willow.Spec.Growing

open Willow Willow.Growing

/-- No thread can move. -/
def Stuck (s : State) : Prop := ∀ a, act a s = none

/-- The number of bytes for which the reader has asked without having got an answer. -/
def asking : Reader → Option Nat
  | .lockNext n | .held n | .send n _ | .unlock n _ | .wait n _ | .waitHeld n _ => some n
  | _ => none

/-- The bytes that the reader has not pruned and that have arrived: those in the buffer, those
in the hands of the receiver and those in the channel. -/
def arrived (s : State) : Nat :=
  s.array.length + (match s.receiver with | .lock c | .append c => c.length | _ => 0)
    + s.incoming.flatten.length

/-- The reader waits forever although the bytes have arrived. -/
def Starved (s : State) : Prop := Stuck s ∧ ∃ n, asking s.reader = some n ∧ n ≤ arrived s

/-- The reader prunes no more than it has been shown: `shown` is the length of the part of the
last answer that is not pruned. -/
def Modest : Nat → List Event → Prop
  | _, [] => True
  | _, .next _ b :: es => Modest b.length es
  | shown, .prune k :: es => k ≤ shown ∧ Modest (shown - k) es

/-- Every answer is long enough and is what comes next in the stream after the bytes pruned. -/
def Answers : Bytes → List Event → Prop
  | _, [] => True
  | stream, .next n b :: es => n ≤ b.length ∧ b <+: stream ∧ Answers stream es
  | stream, .prune k :: es => Answers (stream.drop k) es

/-- The same calls in the sequential view of the stream give the same answers. -/
def Sequential : List Event → GB → Prop
  | [], _ => True
  | .next n b :: es, g => ∃ g', nextAbsolute n g = .ok (b, g') ∧ Sequential es g'
  | .prune k :: es, g => ∃ g', prune k g = .ok ((), g') ∧ Sequential es g'

/-- The situations in which the two threads get in each other's way. -/
inductive Race (s : State) : Prop
  /-- The bytes arrived after the reader looked for them, and the receiver looked for a request
  before the reader stored it. -/
  | missed (n : Nat) : s.reader = .lockNext n ∨ s.reader = .held n →
      s.receiver = .select ∨ (∃ c, s.receiver = .lock c) → n ≤ s.array.length → Race s
  /-- The receiver sends a token to itself while the channel is full. -/
  | selfBlocked : s.receiver = .notify → s.token = true → Race s
  /-- The reader has the lock and waits for the receiver to take a token; the receiver waits for
  the lock. -/
  | bothBlocked (n r : Nat) (c : Bytes) : s.reader = .send n r → s.token = true →
      s.receiver = .lock c → Race s
  /-- The reader makes a request while the receiver is about to forget the one before. -/
  | stale (n : Nat) : s.reader = .held n → s.receiver = .clear → Race s

/-- No situation on the way of an interleaving is a race. -/
def RaceFree (s : State) (acts : List Act) : Prop :=
  ∀ i s', run (acts.take i) s = some s' → ¬ Race s'

end Willow.Spec.Growing
