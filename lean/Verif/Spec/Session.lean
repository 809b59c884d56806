import Verif.Model.Session
import Verif.Spec.Transport
import Verif.Spec.Messenger

/-! What should become of the bytes of a session of two peers. -/

namespace Willow.Spec

open Willow

/-- The last bytes sequence is made of the first two: pieces are taken from the one and the other
until both are used up, each in order. -/
inductive Interleaves : Bytes → Bytes → Bytes → Prop
  | none : Interleaves [] [] []
  | left (x : Bytes) {a b c : Bytes} : Interleaves a b c → Interleaves (a ++ x) b (c ++ x)
  | right (x : Bytes) {a b c : Bytes} : Interleaves a b c → Interleaves a (b ++ x) (c ++ x)

/-- The eight bytes of a length, the most significant first. -/
def lengthBytes (n : Nat) : Bytes := [7, 6, 5, 4, 3, 2, 1, 0].map fun i => UInt8.ofNat (n / 256 ^ i)

/-- The bytes that a goroutine has taken from its stream: the messages it has sent on, with their
lengths, and the beginning of the next one. -/
def taken (r : RecvState) : Bytes :=
  frames r.out ++ match r.body with
    | none => r.got
    | some n => lengthBytes n ++ r.got

/-- The receiving goroutines of a peer stand in the right place of the streams: of the first bytes
of each stream, those that have been delivered, some have been taken and the rest is waiting. -/
def InPlace (r : Receiving) (stream : Channel → Bytes) (delivered : Channel → Nat) : Prop :=
  (∀ ch, delivered ch ≤ (stream ch).length) ∧
  (∃ both, Interleaves (taken r.data) (taken r.reconciliation) both ∧
    both ++ (r.arrived .data).flatten = (stream .data).take (delivered .data)) ∧
  ∀ ch, ch ≠ .data → (r.arrived ch).flatten = (stream ch).take (delivered ch)

/-- A session in which nothing has been delivered yet; the stores and what the peers have written
so far can be anything. -/
def Session.Fresh (s : Session) : Prop :=
  s.alfie.receiving = ⟨fun _ => [], .new, .new⟩ ∧ s.betty.receiving = ⟨fun _ => [], .new, .new⟩ ∧
  (∀ l, s.alfie.handled l = 0) ∧ (∀ l, s.betty.handled l = 0) ∧ (∀ ch, s.toBetty ch = 0) ∧ ∀ ch, s.toAlfie ch = 0

end Willow.Spec
