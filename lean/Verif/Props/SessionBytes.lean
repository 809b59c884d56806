import Verif.Lemmas.SessionBytes

/-! Properties C116 and C117: what becomes of the bytes and the messages of a session. -/

namespace Willow.Props

open Willow Spec

/-- C116: at any time of a session in which no process has ended, whatever the peers have written,
however the network delivers it and in whatever order the goroutines run: the bytes of a stream
that have been delivered are, from the first on and in order, those that the goroutines have taken
and then those that are waiting; none is lost, doubled or made up. Both goroutines take from the
stream for data. -/
theorem C116_bytes (gob : Gob) (env env' : StoreEnv) (fps : FpScheme) (maxAlloc : Nat) (s0 s : Session) (h0 : Session.Fresh s0)
    (steps : List SessionStep) (h : s0.run gob env env' fps maxAlloc steps = .ok s) :
    InPlace s.betty.receiving (fun ch => streamBytes (s.alfie.transport.initiated ch)) s.toBetty ∧
    InPlace s.alfie.receiving (fun ch => streamBytes (s.betty.transport.accepted ch)) s.toAlfie := by
  obtain ⟨h1, h2, -, -, h3, h4⟩ := h0
  have hp : s0.Positioned := by
    refine ⟨?_, ?_⟩
    · rw [h2]; exact positioned_new _ _ h3
    · rw [h1]; exact positioned_new _ _ h4
  have := session_run (P := Session.Positioned) (fun _ _ _ => session_positioned_step) steps s0 s hp h
  exact ⟨this.1.1, this.2.1⟩

/-- A session before which Betty has written the given bytes to the stream for data. -/
def bettyWrote (bytes : Bytes) : Session :=
  ⟨.new .empty Transport.new.initiate, .new .empty ⟨fun ch => some ⟨if ch = .data then bytes else [], false⟩, fun _ => none, false⟩,
    fun _ => 0, fun _ => 0⟩

/-- Two messages and the beginning of a third, delivered in pieces; the goroutines take the lengths
and bodies in turn. -/
example : ∃ s, Session.Fresh (bettyWrote (frame [1, 2] ++ frame [3] ++ [0, 0])) ∧
    (bettyWrote (frame [1, 2] ++ frame [3] ++ [0, 0])).run (exGob zeroEntry []) cutEnv cutEnv plainFps 100
      [.deliverToAlfie .data 5, .readAlfie .data, .deliverToAlfie .data 100, .readAlfie .reconciliation,
        .readAlfie .data] = .crash ∧
    (bettyWrote (frame [1, 2] ++ frame [3] ++ [0, 0])).run (exGob zeroEntry []) cutEnv cutEnv plainFps 100
      [.deliverToAlfie .data 5, .readAlfie .data, .deliverToAlfie .data 100, .readAlfie .data,
        .readAlfie .data, .readAlfie .reconciliation, .readAlfie .data] = .ok s ∧
    s.alfie.receiving.out .data = [[1, 2]] ∧ taken s.alfie.receiving.data = frame [1, 2] ++ [3, 0, 0] ∧
    taken s.alfie.receiving.reconciliation = [0, 0, 0, 0, 0, 0, 0, 1] ∧ s.toAlfie .data = 21 := by
  refine ⟨_, ⟨rfl, rfl, fun _ => rfl, fun _ => rfl, fun _ => rfl, fun _ => rfl⟩, rfl, rfl, ?_⟩
  decide +kernel

/-- C117: at any time of a session in which no process has ended, Alfie's store is what becomes of
it when the messages that have been handled, which are the first ones given to the data listener,
are received once each and in order; Betty's store does not change. -/
theorem C117_store (gob : Gob) (env env' : StoreEnv) (fps : FpScheme) (maxAlloc : Nat) (s0 s : Session) (h0 : Session.Fresh s0)
    (steps : List SessionStep) (h : s0.run gob env env' fps maxAlloc steps = .ok s) :
    (∃ times : List UInt64, times.length = s.alfie.handled .data ∧ times.length ≤ (given s.alfie.receiving .data).length ∧
      receiveAll gob env s0.alfie.st (times.zip (given s.alfie.receiving .data)) = .ok s.alfie.st) ∧
    s.betty.st = s0.betty.st := by
  obtain ⟨h1, h2, h3, h4, -, -⟩ := h0
  have hp : s0.Handled gob env s0.alfie.st s0.betty.st :=
    ⟨fun l => by rw [h3]; omega, fun l => by rw [h4]; omega, rfl, [], by rw [h3]; rfl, rfl⟩
  obtain ⟨ha, -, hb, times, ht, hd⟩ :=
    session_run (P := Session.Handled gob env s0.alfie.st s0.betty.st) (fun _ _ _ => session_handled_step) steps s0 s hp h
  exact ⟨⟨times, ht, by rw [ht]; exact ha .data, hd⟩, hb⟩

/-- C117: a goroutine that handles messages takes the next one that has been received, if there is
one, and handles no message of another listener. -/
theorem C117_next (gob : Gob) (env env' : StoreEnv) (fps : FpScheme) (maxAlloc : Nat) (s s' : Session) (l : Listener) :
    (∀ now, s.step gob env env' fps maxAlloc (.handleAlfie l now) = .ok s' →
      s'.alfie.receiving = s.alfie.receiving ∧ ∀ m, s'.alfie.handled m =
        if m = l ∧ s.alfie.handled m < (given s.alfie.receiving m).length then s.alfie.handled m + 1 else s.alfie.handled m) ∧
    (s.step gob env env' fps maxAlloc (.handleBetty l) = .ok s' →
      s'.betty.receiving = s.betty.receiving ∧ ∀ m, s'.betty.handled m =
        if m = l ∧ s.betty.handled m < (given s.betty.receiving m).length then s.betty.handled m + 1 else s.betty.handled m) := by
  have key : ∀ (p : Peer) (msg : Bytes), (p.receiving.out l)[p.handled l]? = some msg → ∀ m, (p.done l).handled m =
      if m = l ∧ p.handled m < (given p.receiving m).length then p.handled m + 1 else p.handled m := by
    intro p msg hmsg m
    have hlt : p.handled l < (given p.receiving l).length := (List.getElem?_eq_some_iff.1 hmsg).1
    unfold Peer.done
    dsimp only
    by_cases hm : m = l
    · subst hm; simp [hlt]
    · simp [hm]
  have none : ∀ p : Peer, (p.receiving.out l)[p.handled l]? = none → ∀ m, p.handled m =
      if m = l ∧ p.handled m < (given p.receiving m).length then p.handled m + 1 else p.handled m := by
    intro p hmsg m
    have hle : (given p.receiving l).length ≤ p.handled l := List.getElem?_eq_none_iff.1 hmsg
    by_cases hm : m = l
    · subst hm; rw [if_neg (by omega)]
    · simp [hm]
  refine ⟨fun now hs => ?_, fun hs => ?_⟩
  · obtain ⟨p, hp, hs⟩ := Res.bind_eq_ok.1 hs
    cases hs
    unfold Peer.handleAlfie at hp
    split at hp
    · rename_i hn
      cases hp
      exact ⟨rfl, none _ hn⟩
    · rename_i msg hmsg
      cases l with
      | data =>
        obtain ⟨st, -, hp⟩ := Res.bind_eq_ok.1 hp
        cases hp
        exact ⟨rfl, key _ msg hmsg⟩
      | reconciliation =>
        obtain ⟨t, -, hp⟩ := Res.bind_eq_ok.1 hp
        cases hp
        exact ⟨rfl, key _ msg hmsg⟩
  · obtain ⟨p, hp, hs⟩ := Res.bind_eq_ok.1 hs
    cases hs
    unfold Peer.handleBetty at hp
    split at hp
    · rename_i hn
      cases hp
      exact ⟨rfl, none _ hn⟩
    · rename_i msg hmsg
      cases l with
      | data => cases hp; exact ⟨rfl, key _ msg hmsg⟩
      | reconciliation =>
        obtain ⟨t, -, hp⟩ := Res.bind_eq_ok.1 hp
        cases hp
        exact ⟨rfl, key _ msg hmsg⟩

/-- Two messages are received and one is handled. -/
example : ∃ s, Session.Fresh (bettyWrote (frame [1, 2] ++ frame [3])) ∧
    (bettyWrote (frame [1, 2] ++ frame [3])).run (exGob ⟨[42], [7], [[1]], [1, 8], 1, 6⟩ [8]) cutEnv cutEnv plainFps 100
      [.deliverToAlfie .data 100, .readAlfie .data, .readAlfie .data, .readAlfie .data, .readAlfie .data,
        .handleAlfie .data 99] = .ok s ∧
    given s.alfie.receiving .data = [[1, 2], [3]] ∧ s.alfie.handled .data = 1 ∧ s.alfie.st.kd.length = 1 := by
  refine ⟨_, ⟨rfl, rfl, fun _ => rfl, fun _ => rfl, fun _ => rfl, fun _ => rfl⟩, rfl, ?_⟩
  decide +kernel

end Willow.Props
