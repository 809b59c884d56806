import Verif.Lemmas.Session

/-! Properties of a session of two peers (C109). -/

namespace Willow.Props

open Willow Spec

/-- C109, partial: what a peer held before a session it holds at any time during the session, as
long as no process ends. Missing: it never holds more, see below. -/
theorem C109_kept_partial (gob : Gob) (env env' : StoreEnv) (fps : FpScheme) (maxAlloc : Nat) (sa sb : StoreState)
    (steps : List SessionStep) (s : Session) (h : (Session.start sa sb).run gob env env' fps maxAlloc steps = .ok s) (a : Item) :
    (Holds env sa a.pos a.val → Holds env s.alfie.st a.pos a.val) ∧
    (Holds env' sb a.pos a.val → Holds env' s.betty.st a.pos a.val) := by
  have := quiet_run gob env env' fps maxAlloc sa sb steps _ _ (quiet_start sa sb) h
  rw [this.alfie, this.betty]
  exact ⟨id, id⟩

example : ∃ s, (Session.start .empty { StoreState.empty with kd := at_ [(1, 5)] }).run
    ⟨fun _ => [], fun _ => zeroRange3d, fun _ _ => [], fun _ => (zeroEntry, []), [0, 0, 0, 0, 0, 0, 0, 1, 9]⟩ cutEnv cutEnv
    plainFps 100 [.send fromFive, .deliverToBetty .data 100, .readBetty .reconciliation, .readBetty .reconciliation] = .ok s ∧
    s.betty.st.kd = at_ [(1, 5)] :=
  ⟨_, rfl, rfl⟩

/-- C109 is violated: whatever the stores of two peers hold at the start, whatever summaries Alfie
sends, and however the network and the goroutines go on, neither store ever changes, and nothing
that Betty might send ever reaches Alfie. -/
theorem C109_violated_exchange (gob : Gob) (env env' : StoreEnv) (fps : FpScheme) (maxAlloc : Nat) (sa sb : StoreState)
    (steps : List SessionStep) (s : Session) (h : (Session.start sa sb).run gob env env' fps maxAlloc steps = .ok s) :
    s.alfie.st = sa ∧ s.betty.st = sb ∧ ∀ l, s.alfie.receiving.out l = [] := by
  have := quiet_run gob env env' fps maxAlloc sa sb steps _ _ (quiet_start sa sb) h
  exact ⟨this.alfie, this.betty, this.out⟩

/-- C109 is violated: the summary that Alfie sends can end Betty's process, since it is sent
without a length, and its first bytes are read as one. -/
theorem C109_violated_crash (gob : Gob) (env env' : StoreEnv) (fps : FpScheme) (maxAlloc : Nat) (hmax1 : 1 ≤ maxAlloc)
    (hmax : maxAlloc < 2 ^ 56) (c : UInt8) (hc : c ≠ 0) (rest : Bytes) (hgob : gob.typeOnly = c :: rest) (hlen : 7 ≤ rest.length)
    (sa sb : StoreState) (r : Range3d) (hr : ∃ y, summarise env.lib sa.kd r = .ok y) :
    ∃ steps, (Session.start sa sb).run gob env env' fps maxAlloc (.send r :: steps) = .crash := by
  obtain ⟨y, hy⟩ := hr
  match rest, hlen with
  | b1 :: b2 :: b3 :: b4 :: b5 :: b6 :: b7 :: tail, _ => ?_
  refine ⟨[.deliverToBetty .data (9 + gob.typeOnly.length), .readBetty .data, .readBetty .data, .readBetty .data], ?_⟩
  have hbig : maxAlloc < getBE [c, b1, b2, b3, b4, b5, b6, b7] := by
    have : c.toNat ≠ 0 := fun h => hc (UInt8.toNat_inj.1 h)
    simp only [getBE, List.foldl_cons, List.foldl_nil]
    omega
  have hone : getBE [0, 0, 0, 0, 0, 0, 0, 1] = 1 := rfl
  have h1 : ¬ maxAlloc < 1 := by omega
  have ht : Transport.new.initiate.sendIgnoring (encodeSummary gob y r) .data .alfie = .ok
      { Transport.new.initiate with initiated := fun ch => if ch = .data then
          (some ⟨[0, 0, 0, 0, 0, 0, 0, 1, 2] ++ gob.typeOnly, false⟩) else Transport.new.initiate.initiated ch } := rfl
  simp only [Session.run, Session.step, Session.start, Peer.new, hy, ht, Res.ok_bind, if_true, streamBytes, List.drop_zero]
  rw [List.take_of_length_le (by simp; omega), hgob]
  simp [Peer.arrive, Peer.read, Receiving.step, RecvState.read, RecvState.full, RecvState.new, Listener.stream, beUint64,
    h1, hbig, hone]

example : (∃ y, summarise cutEnv.lib (at_ [(1, 5), (2, 6)]) fromFive = .ok y) ∧ 7 ≤ [255, 129, 3, 1, 1, 2, 255, 130].length :=
  ⟨⟨_, rfl⟩, by decide⟩

/-- One entry of a subspace, in Betty's store only; Alfie sends a summary, Betty reads and handles
everything. -/
example : ∃ s, (Session.start .empty { StoreState.empty with kd := at_ [(1, 5)] }).run
    ⟨fun _ => [], fun _ => zeroRange3d, fun _ _ => [], fun _ => (zeroEntry, []), [0, 0, 0, 0, 0, 0, 0, 1, 9]⟩ cutEnv cutEnv
    plainFps 100 [.send fromFive, .deliverToBetty .data 100, .readBetty .reconciliation, .readBetty .reconciliation,
      .readBetty .reconciliation, .readBetty .reconciliation, .handleBetty .reconciliation, .handleBetty .reconciliation,
      .deliverToAlfie .data 100, .readAlfie .data, .handleAlfie .data 7] = .ok s ∧
    s.betty.receiving.out .reconciliation = [[2], [9]] ∧ s.betty.handled .reconciliation = 2 := by
  refine ⟨_, rfl, ?_, ?_⟩ <;> decide +kernel

end Willow.Props
