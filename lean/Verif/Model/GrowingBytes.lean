import Verif.Model.Basic

/-! `/repo/utils/growing_bytes.go` as two threads that take turns: the goroutine of
`NewGrowingBytes` (the receiver) and one caller of `NextAbsolute` and `Prune` (the reader).
Every lock, unlock, channel operation and access to shared memory is a step of its own, except
that the conditions on lines 50 and 82 are evaluated in one step each. Memory is sequentially
consistent. Simplifications: `Incoming` holds from the start all chunks that will ever be sent
and is never closed (no caller in `/repo` closes it); the receiver may take the next one
whenever it is at its `select`, which includes all possible times of arrival. -/

namespace Willow.Growing

/-- A call of the reader: `NextAbsolute(n)` or `Prune(k)`. `NextRelative`
(`/repo/utils/growing_bytes.go:67-70`) is `NextAbsolute` of a sum. -/
inductive Op where
  | next (n : Nat)
  | prune (k : Nat)
deriving DecidableEq, Repr

/-- A call that has returned, with the bytes returned. -/
inductive Event where
  | next (n : Nat) (bytes : Bytes)
  | prune (k : Nat)
deriving DecidableEq, Repr

/-- Where the reader is; `r` is the channel (`resolver`) it has made or found. -/
inductive Reader where
  /-- between calls -/
  | idle
  /-- line 76: the bytes are there, about to return them -/
  | ret (n : Nat)
  /-- line 79: about to lock -/
  | lockNext (n : Nat)
  /-- line 82: lock taken -/
  | held (n : Nat)
  /-- line 93: request stored, about to send the token -/
  | send (n r : Nat)
  /-- line 94: about to unlock -/
  | unlock (n r : Nat)
  /-- line 96: waiting for the bytes -/
  | wait (n r : Nat)
  /-- line 84: waiting for the bytes of an older request, lock taken -/
  | waitHeld (n r : Nat)
  /-- line 101: about to lock -/
  | lockPrune (k : Nat)
  /-- lines 103-108: lock taken -/
  | pruning (k : Nat)
deriving DecidableEq, Repr

/-- Where the receiver is. -/
inductive Receiver where
  /-- line 36 -/
  | select
  /-- line 45: chunk taken, about to lock -/
  | lock (chunk : Bytes)
  /-- line 47: about to append -/
  | append (chunk : Bytes)
  /-- line 48: about to unlock -/
  | unlock
  /-- line 50: about to look for a request -/
  | check
  /-- line 51: about to send the bytes -/
  | resolve
  /-- line 52: about to forget the request -/
  | clear
  /-- line 53: about to send the token -/
  | notify
deriving DecidableEq, Repr

/-- The shared `GrowingBytes` (`/repo/utils/growing_bytes.go:17-23`), the positions of the two
threads, the calls the reader has still to make and the calls that have returned. -/
structure State where
  /-- chunks of `Incoming` not yet taken -/
  incoming : List Bytes
  /-- `Array` -/
  array : Bytes
  /-- `DeferredUntilLength`: the channel and the length -/
  deferred : Option (Nat × Nat)
  /-- is there a token in `HasUnfulfilledRequests`, whose capacity is 1 (line 30)? -/
  token : Bool
  /-- is `Mu` locked? -/
  locked : Bool
  /-- the contents of the channels made on line 87, by number -/
  resolvers : Nat → List Bytes
  /-- the number of channels made on line 87 -/
  made : Nat
  reader : Reader
  receiver : Receiver
  todo : List Op
  log : List Event

/-- `NewGrowingBytes`, `/repo/utils/growing_bytes.go:26-33`. -/
def init (prog : List Op) (chunks : List Bytes) : State :=
  { incoming := chunks, array := [], deferred := none, token := false, locked := false,
    resolvers := fun _ => [], made := 0, reader := .idle, receiver := .select,
    todo := prog, log := [] }

/-- A change of the contents of one channel. -/
def setChan (f : Nat → List Bytes) (r : Nat) (v : List Bytes) : Nat → List Bytes :=
  fun i => if i = r then v else f i

/-- The next step of the reader, if it can take one: `NextAbsolute` and `Prune`,
`/repo/utils/growing_bytes.go:73-109`. A return from line 84 leaves `Mu` locked. -/
def readerStep (s : State) : Option State :=
  match s.reader with
  | .idle =>
    match s.todo with
    | [] => none
    | .next n :: todo =>
      if s.array.length ≥ n then some { s with reader := .ret n, todo := todo }
      else some { s with reader := .lockNext n, todo := todo }
    | .prune k :: todo => some { s with reader := .lockPrune k, todo := todo }
  | .ret n => some { s with reader := .idle, log := s.log ++ [.next n s.array] }
  | .lockNext n => if s.locked then none else some { s with reader := .held n, locked := true }
  | .held n =>
    match s.deferred with
    | some (r, len) =>
      if len = n then some { s with reader := .waitHeld n r }
      else some { s with reader := .send n s.made, deferred := some (s.made, n),
                         made := s.made + 1 }
    | none => some { s with reader := .send n s.made, deferred := some (s.made, n),
                            made := s.made + 1 }
  | .send n r => if s.token then none else some { s with reader := .unlock n r, token := true }
  | .unlock n r => some { s with reader := .wait n r, locked := false }
  | .wait n r =>
    match s.resolvers r with
    | [] => none
    | b :: bs => some { s with reader := .idle, resolvers := setChan s.resolvers r bs,
                               log := s.log ++ [.next n b] }
  | .waitHeld n r =>
    match s.resolvers r with
    | [] => none
    | b :: bs => some { s with reader := .idle, resolvers := setChan s.resolvers r bs,
                               log := s.log ++ [.next n b] }
  | .lockPrune k =>
    if s.locked then none else some { s with reader := .pruning k, locked := true }
  | .pruning k =>
    some { s with reader := .idle, locked := false,
                  array := if k ≥ s.array.length then [] else s.array.drop k,
                  log := s.log ++ [.prune k] }

/-- The next step of the receiver outside its `select`, if it can take one:
`/repo/utils/growing_bytes.go:45-53`. A channel made on line 87 has capacity 10. -/
def receiverStep (s : State) : Option State :=
  match s.receiver with
  | .select => none
  | .lock c => if s.locked then none else some { s with receiver := .append c, locked := true }
  | .append c => some { s with receiver := .unlock, array := s.array ++ c }
  | .unlock => some { s with receiver := .check, locked := false }
  | .check =>
    match s.deferred with
    | some (_, len) =>
      if s.array.length ≥ len then some { s with receiver := .resolve }
      else some { s with receiver := .select }
    | none => some { s with receiver := .select }
  | .resolve =>
    match s.deferred with
    | some (r, _) =>
      if (s.resolvers r).length < 10 then
        some { s with receiver := .clear,
                      resolvers := setChan s.resolvers r (s.resolvers r ++ [s.array]) }
      else none
    | none => none
  | .clear => some { s with receiver := .notify, deferred := none }
  | .notify => if s.token then none else some { s with receiver := .select, token := true }

/-- The first case of the `select`, `/repo/utils/growing_bytes.go:37`. -/
def takeToken (s : State) : Option State :=
  if s.receiver = .select ∧ s.token then some { s with token := false } else none

/-- The second case of the `select`, `/repo/utils/growing_bytes.go:39`. -/
def takeChunk (s : State) : Option State :=
  match s.receiver, s.incoming with
  | .select, c :: cs => some { s with receiver := .lock c, incoming := cs }
  | _, _ => none

/-- Which thread moves, and at the `select` which case it chooses. -/
inductive Act where
  | reader | receiver | token | chunk
deriving DecidableEq, Repr

/-- One step. -/
def act : Act → State → Option State
  | .reader => readerStep
  | .receiver => receiverStep
  | .token => takeToken
  | .chunk => takeChunk

/-- An interleaving. -/
def run : List Act → State → Option State
  | [], s => some s
  | a :: as, s => (act a s).bind (run as)

end Willow.Growing
