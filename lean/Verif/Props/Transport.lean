import Verif.Lemmas.PropsTransport

/-! Properties C88 to C91: the transport and the receiving goroutines. -/

namespace Willow.Props

open Willow Spec

/-! ### Messages with their lengths -/

/-- C88, partial: if what has arrived on a stream are the frames of some messages and a part of
the frame of another, cut into any chunks, then a goroutine of `Recv` that has the stream for
itself sends on nothing but these messages, in order, and all of them once it has read what has
arrived. What is missing: the theorems below. -/
theorem C88_delivers_partial (maxAlloc : Nat) (hmax : maxAlloc < 2 ^ 64) (messages : List Bytes) (next part missing : Bytes)
    (hpart : part ++ missing = frame next) (hmiss : missing ≠ []) (hlen : ∀ x ∈ messages ++ [next], x.length ≤ maxAlloc)
    (chunks : List Bytes) (hc : chunks.flatten = frames messages ++ part) (reads : Nat) :
    ∃ r left, recvReads maxAlloc reads .new chunks = .ok (r, left) ∧ r.out <+: messages ∧
      (chunks.flatten.length + chunks.length ≤ reads → r.out = messages ∧ left = []) :=
  recv_start hmax hpart hmiss hlen hc reads

example : [[0, 0, 0, 0], [0, 0, 0, 2, 7], [8, 0, 0, 0, 0, 0, 0, 0, 0, 0], [0]].flatten = frames [[7, 8], []] ++ [0, 0] ∧
    [0, 0] ++ [0, 0, 0, 0, 0, 1, 5] = frame [5] ∧
    (recvReads 100 10 .new [[0, 0, 0, 0], [0, 0, 0, 2, 7], [8, 0, 0, 0, 0, 0, 0, 0, 0, 0], [0]]).map' (·.1.out) =
      .ok [[7, 8], []] := by decide +kernel

/-- C88 is violated: the first message that is received on a stream opened by the peer is one that
nobody sent, the number of the channel. -/
theorem C88_violated_first (maxAlloc : Nat) (hmax : maxAlloc < 2 ^ 64) (hmax1 : 1 ≤ maxAlloc) (t t' : Transport)
    (channel : Channel) (messages : List Bytes) (hlen : ∀ x ∈ messages, x.length ≤ maxAlloc)
    (hsend : sendAll t.initiate (messages.map fun m => (frame m, channel, .alfie)) = .ok t')
    (chunks : List Bytes) (hc : some chunks.flatten = writtenTo t' .alfie channel) :
    ∃ r, recvReads maxAlloc (chunks.flatten.length + chunks.length) .new chunks = .ok (r, []) ∧
      r.out = [channel.index] :: messages ∧ r.out ≠ messages := by
  have key : ∀ (ms : List Bytes) (u u' : Transport) (b : Bytes), writtenTo u .alfie channel = some b →
      sendAll u (ms.map fun m => (frame m, channel, .alfie)) = .ok u' → writtenTo u' .alfie channel = some (b ++ frames ms) := by
    intro ms
    induction ms with
    | nil =>
      intro u u' b hu h
      simp only [List.map_nil, sendAll, Res.ok.injEq] at h
      subst h
      simp [hu, frames]
    | cons m ms ih =>
      intro u u' b hu h
      simp only [List.map_cons, sendAll] at h
      obtain ⟨u1, h1, h2⟩ := Res.bind_eq_ok.1 h
      rw [frames_cons, ← List.append_assoc]
      refine ih u1 u' _ ?_ h2
      unfold Transport.send at h1
      split at h1
      · cases h1
      · obtain ⟨s, h3, h4⟩ := Res.bind_eq_ok.1 h1
        simp only [Res.ok.injEq] at h4
        subst h4
        unfold streamWrite at h3
        simp only [writtenTo] at hu ⊢
        cases hq : u.initiated channel with
        | none => rw [hq] at h3; cases h3
        | some q =>
          rw [hq] at h3 hu
          simp only [Option.map_some, Option.some.injEq] at hu
          dsimp only at h3
          split at h3
          · cases h3
          · simp only [Res.ok.injEq] at h3
            subst h3
            simp [hu]
  have hw : writtenTo t.initiate .alfie channel = some (frame [channel.index]) := by
    cases channel <;> rfl
  have hb := key messages _ _ _ hw hsend
  rw [hb, Option.some.injEq, ← frames_cons] at hc
  obtain ⟨r, left, h1, -, h3⟩ := recv_start (maxAlloc := maxAlloc) hmax (done := [channel.index] :: messages) (m := [])
    (part := []) (missing := frame []) rfl (by decide) (by
      intro x hx
      simp only [List.cons_append, List.mem_cons, List.mem_append, List.not_mem_nil, or_false] at hx
      rcases hx with rfl | hx | rfl
      · exact hmax1
      · exact hlen x hx
      · exact Nat.zero_le _) (chunks := chunks) (by rw [hc, List.append_nil]) (chunks.flatten.length + chunks.length)
  obtain ⟨h4, rfl⟩ := h3 (Nat.le_refl _)
  refine ⟨r, h1, h4, ?_⟩
  rw [h4]
  intro h5
  have := congrArg List.length h5
  simp at this

example : ∃ t', sendAll Transport.new.initiate ([[7, 8]].map fun m => (frame m, .data, .alfie)) = .ok t' ∧
    writtenTo t' .alfie .data = some [0, 0, 0, 0, 0, 0, 0, 1, 2, 0, 0, 0, 0, 0, 0, 0, 2, 7, 8] ∧
    (recvReads 100 20 .new [[0, 0, 0, 0, 0, 0, 0, 1, 2, 0, 0, 0, 0, 0, 0, 0, 2, 7, 8]]).map' (·.1.out) = .ok [[2], [7, 8]] :=
  ⟨_, rfl, rfl, by decide +kernel⟩

/-- C88 is violated: eight bytes of the peer end the process, by asking for more memory than there
can be. -/
theorem C88_violated_crash (maxAlloc : Nat) (hmax : maxAlloc < 2 ^ 64 - 1) (rest : List Bytes) (reads : Nat) :
    recvReads maxAlloc (reads + 1) .new ([255, 255, 255, 255, 255, 255, 255, 255] :: rest) = .crash := by
  have hb : beUint64 [255, 255, 255, 255, 255, 255, 255, 255] = .ok (2 ^ 64 - 1) := by decide +kernel
  have hr : RecvState.read maxAlloc .new ([255, 255, 255, 255, 255, 255, 255, 255] :: rest) = .crash := by
    simp only [RecvState.read, RecvState.new, RecvState.full]
    simp [hb, hmax]
  rw [recvReads, hr]
  rfl

example : (2 ^ 48 : Nat) < 2 ^ 64 - 1 := by decide

/-! ### Channels and listeners -/

/-- C89, partial: as long as the other goroutine does not read, the listener for data is given the
messages sent on the data channel. What is missing: the theorems below. -/
theorem C89_data_partial (maxAlloc : Nat) (hmax : maxAlloc < 2 ^ 64) (messages : List Bytes)
    (hlen : ∀ x ∈ messages, x.length ≤ maxAlloc) (arrived : Channel → List Bytes)
    (hc : (arrived .data).flatten = frames messages) :
    ∃ s', Receiving.run maxAlloc ⟨arrived, .new, .new⟩
        (List.replicate ((arrived .data).flatten.length + (arrived .data).length) .data) = .ok s' ∧
      given s' .data = messages ∧ given s' .reconciliation = [] := by
  obtain ⟨r, left, h1, -, h3⟩ := recv_start (maxAlloc := maxAlloc) hmax (done := messages) (m := [])
    (part := []) (missing := frame []) rfl (by decide) (by
      intro x hx
      simp only [List.mem_append, List.mem_cons, List.not_mem_nil, or_false] at hx
      rcases hx with hx | rfl
      · exact hlen x hx
      · exact Nat.zero_le _) (chunks := arrived .data) (by rw [hc, List.append_nil])
    ((arrived .data).flatten.length + (arrived .data).length)
  obtain ⟨s', a1, a2, -, a4⟩ := run_alone maxAlloc .data _ ⟨arrived, .new, .new⟩ _ _ h1
  exact ⟨s', a1, by rw [a2, (h3 (Nat.le_refl _)).1], a4 .reconciliation (by decide)⟩

example : [[0, 0, 0, 0, 0, 0, 0, 2, 7], [8]].flatten = frames [[7, 8]] := by decide +kernel

/-- C89 is violated: nothing that is sent on a channel other than that for data is ever read, in
whatever order the goroutines run. -/
theorem C89_violated_unread (maxAlloc : Nat) : ∀ (schedule : List Listener) (s s' : Receiving),
    s.run maxAlloc schedule = .ok s' → ∀ channel, channel ≠ .data → s'.arrived channel = s.arrived channel := by
  intro schedule
  induction schedule with
  | nil => intro s s' h channel _; cases h; rfl
  | cons l rest ih =>
    intro s s' h channel hch
    obtain ⟨s1, h1, h2⟩ := Res.bind_eq_ok.1 h
    rw [ih s1 s' h2 channel hch, step_other h1 channel hch]

example : ∃ s', Receiving.run 100 ⟨fun ch => if ch = .reconciliation then [frame [7, 8]] else [], .new, .new⟩
      [.reconciliation, .data, .reconciliation] = .ok s' ∧ s'.arrived .reconciliation = [frame [7, 8]] ∧
    given s' .reconciliation = [] ∧ purpose .reconciliation = .reconciliation :=
  ⟨_, rfl, rfl, rfl, rfl⟩

/-- C89 is violated: the messages sent on the data channel are all given to the listener for
reconciliation, if its goroutine is the one that runs. -/
theorem C89_violated_misdelivered (maxAlloc : Nat) (hmax : maxAlloc < 2 ^ 64) (messages : List Bytes)
    (hlen : ∀ x ∈ messages, x.length ≤ maxAlloc) (arrived : Channel → List Bytes)
    (hc : (arrived .data).flatten = frames messages) :
    ∃ s', Receiving.run maxAlloc ⟨arrived, .new, .new⟩
        (List.replicate ((arrived .data).flatten.length + (arrived .data).length) .reconciliation) = .ok s' ∧
      given s' .reconciliation = messages ∧ given s' .data = [] := by
  obtain ⟨r, left, h1, -, h3⟩ := recv_start (maxAlloc := maxAlloc) hmax (done := messages) (m := [])
    (part := []) (missing := frame []) rfl (by decide) (by
      intro x hx
      simp only [List.mem_append, List.mem_cons, List.not_mem_nil, or_false] at hx
      rcases hx with hx | rfl
      · exact hlen x hx
      · exact Nat.zero_le _) (chunks := arrived .data) (by rw [hc, List.append_nil])
    ((arrived .data).flatten.length + (arrived .data).length)
  obtain ⟨s', a1, a2, -, a4⟩ := run_alone maxAlloc .reconciliation _ ⟨arrived, .new, .new⟩ _ _ h1
  exact ⟨s', a1, by rw [a2, (h3 (Nat.le_refl _)).1], a4 .data (by decide)⟩

example : [[0, 0, 0, 0, 0, 0, 0, 2, 7], [8]].flatten = frames [[7, 8]] := by decide +kernel

/-- C89 is violated: when both goroutines run, each may be given bytes that are no message at
all: one reads the length of a message, the other takes the message itself for a length. -/
theorem C89_violated_mixed : ∃ (arrived : Channel → List Bytes) (schedule : List Listener) (s' : Receiving),
    (arrived .data).flatten = frames [[0, 0, 0, 0, 0, 0, 0, 1], [7, 7]] ∧
    Receiving.run (2 ^ 40) ⟨arrived, .new, .new⟩ schedule = .ok s' ∧
    given s' .data = [[0, 0, 0, 0, 0, 0, 0, 2]] ∧ given s' .reconciliation = [[7]] :=
  ⟨fun ch => if ch = .data then [frame [0, 0, 0, 0, 0, 0, 0, 1], frame [7, 7]] else [],
    [.data, .reconciliation, .data, .reconciliation], _, by decide +kernel, rfl, by decide +kernel, by decide +kernel⟩

/-- C89 is violated: when both goroutines run, what is given to the listener for data instead of the first message is what
arrives eight bytes later, since the other goroutine takes eight bytes for a length. If these are a larger number than there
is memory, the process ends. -/
theorem C89_violated_further (maxAlloc : Nat) (hmax : maxAlloc < 2 ^ 64) (m : Bytes) (rest : List Bytes) (hm : m ≠ [])
    (hlen : m.length ≤ maxAlloc) (arrived : Channel → List Bytes) (hc : arrived .data = [frames (m :: rest)])
    (hlong : 8 < (frames rest).length) :
    (maxAlloc < ((m ++ frames rest).take 8).foldl (fun n b => n * 256 + b.toNat) 0 →
      Receiving.run maxAlloc ⟨arrived, .new, .new⟩ [.data, .reconciliation] = .crash) ∧
    (((m ++ frames rest).take 8).foldl (fun n b => n * 256 + b.toNat) 0 ≤ maxAlloc → ∃ s',
      Receiving.run maxAlloc ⟨arrived, .new, .new⟩ [.data, .reconciliation, .data] = .ok s' ∧
      given s' .data = [((m ++ frames rest).drop 8).take m.length]) := by
  have hpos : 0 < m.length := List.length_pos_iff.2 hm
  have e1 : frames (m :: rest) = beBytes 8 m.length ++ (m ++ frames rest) := by rw [frames_cons, frame_eq, List.append_assoc]
  have s1 : Receiving.step maxAlloc ⟨arrived, .new, .new⟩ .data =
      .ok ⟨fun ch => if ch = .data then [m ++ frames rest] else arrived ch, ⟨[], some m.length, []⟩, .new⟩ := by
    unfold Receiving.step
    dsimp only [Listener.stream]
    rw [hc, e1]
    dsimp only
    rw [read_all (r' := ⟨[], some m.length, []⟩) rfl (by simp [RecvState.new]; omega)]
    · simp [RecvState.new]
      rfl
    · unfold RecvState.full
      simp [RecvState.new, beUint64_frame m (by omega)]
      rw [if_neg (by omega), if_neg (by omega)]
  have hcc : 8 < (m ++ frames rest).length := by rw [List.length_append]; omega
  have hb : beUint64 ((m ++ frames rest).take 8) = .ok (((m ++ frames rest).take 8).foldl (fun n b => n * 256 + b.toNat) 0) := by
    unfold beUint64
    rw [if_pos (by rw [List.length_take]; omega), List.take_take, Nat.min_self]
    rfl
  generalize hn : ((m ++ frames rest).take 8).foldl (fun n b => n * 256 + b.toNat) 0 = n at hb ⊢
  refine ⟨fun h => ?_, fun h => ?_⟩
  · rw [Receiving.run, s1, Res.ok_bind, Receiving.run]
    have s2 : Receiving.step maxAlloc ⟨fun ch => if ch = .data then [m ++ frames rest] else arrived ch, ⟨[], some m.length, []⟩, .new⟩
        .reconciliation = .crash := by
      unfold Receiving.step
      dsimp only [Listener.stream]
      rw [if_pos rfl]
      dsimp only
      rw [read_crash (r := .new) rfl hcc]
      · rfl
      · unfold RecvState.full
        dsimp only [RecvState.new, Option.getD]
        rw [hb, Res.ok_bind, if_pos h]
    rw [s2]
    rfl
  · obtain ⟨r, hr⟩ : ∃ r, RecvState.full maxAlloc .new ((m ++ frames rest).take 8) = .ok r := by
      unfold RecvState.full
      dsimp only [RecvState.new]
      rw [hb, Res.ok_bind, if_neg (by omega)]
      split <;> exact ⟨_, rfl⟩
    have s2 : ∃ ar, Receiving.step maxAlloc ⟨fun ch => if ch = .data then [m ++ frames rest] else arrived ch, ⟨[], some m.length, []⟩, .new⟩
        .reconciliation = .ok ⟨ar, ⟨[], some m.length, []⟩, r⟩ ∧ ar .data = [(m ++ frames rest).drop 8] := by
      unfold Receiving.step
      dsimp only [Listener.stream]
      rw [if_pos rfl]
      dsimp only
      rw [read_all (r := .new) rfl hcc hr]
      exact ⟨_, rfl, if_pos rfl⟩
    obtain ⟨ar, s2, har⟩ := s2
    have s3 : ∃ s', Receiving.step maxAlloc ⟨ar, ⟨[], some m.length, []⟩, r⟩ .data = .ok s' ∧
        given s' .data = [((m ++ frames rest).drop 8).take m.length] := by
      unfold Receiving.step
      dsimp only [Listener.stream]
      rw [har]
      dsimp only
      rw [read_all (r' := ⟨[], none, [((m ++ frames rest).drop 8).take m.length]⟩) rfl
        (by simp only [Option.getD, List.length_drop, List.length_append]; omega) rfl]
      exact ⟨_, rfl, rfl⟩
    obtain ⟨s', s3, hgiv⟩ := s3
    refine ⟨s', ?_, hgiv⟩
    rw [Receiving.run, s1, Res.ok_bind, Receiving.run, s2, Res.ok_bind, Receiving.run, s3, Res.ok_bind]
    rfl

example : ((([1, 2, 3] : Bytes) ++ frames [[7, 8]]).take 8).foldl (fun n b => n * 256 + b.toNat) 0 = 72623842526232576 ∧
    8 < (frames [[7, 8]]).length ∧ (([1, 2, 3] ++ frames [[7, 8]]).drop 8).take 3 = [0, 0, 2] := by decide +kernel

/-! ### Sending and closing -/

/-- C90, partial: what is sent with a role on a channel is what is written to the stream of this
role and channel, after what was there and in order, and nothing is written to other streams. -/
theorem C90_sent_partial (sends : List (Bytes × Channel × SyncRole)) : ∀ (t t' : Transport), sendAll t sends = .ok t' →
    ∀ role channel, writtenTo t' role channel = (writtenTo t role channel).map (· ++ sentOn role channel sends) := by
  induction sends with
  | nil =>
    intro t t' h role channel
    cases h
    simp [sentOn]
  | cons x rest ih =>
    intro t t' h role channel
    obtain ⟨data, ch, ro⟩ := x
    obtain ⟨t1, h1, h2⟩ := Res.bind_eq_ok.1 h
    rw [ih t1 t' h2]
    unfold Transport.send at h1
    split at h1
    · cases h1
    · cases ro
      all_goals
        obtain ⟨s, h3, h4⟩ := Res.bind_eq_ok.1 h1
        simp only [Res.ok.injEq] at h4
        subst h4
        unfold streamWrite at h3
        split at h3
        · cases h3
        · rename_i q hq
          split at h3
          · cases h3
          · simp only [Res.ok.injEq] at h3
            subst h3
            cases role <;> by_cases hc : channel = ch
            all_goals first
              | subst hc; simp [writtenTo, sentOn, hq]
              | simp [writtenTo, sentOn, hc, Ne.symm hc]

example : ∃ t', sendAll Transport.new.initiate [([1, 2], .data, .alfie), ([3], .control, .alfie), ([4], .data, .alfie)] =
      .ok t' ∧ writtenTo t' .alfie .data = some (frame [2] ++ [1, 2, 4]) := ⟨_, rfl, rfl⟩

/-- C90, partial: a send succeeds exactly if the transport is not closed and the stream of its
role and channel is open. -/
theorem C90_writable_partial (t : Transport) (data : Bytes) (channel : Channel) (role : SyncRole) :
    (∃ t', t.send data channel role = .ok t') ↔ writable t role channel = true := by
  unfold Transport.send writable
  cases hcl : t.closed
  · cases role
    · cases hq : t.initiated channel with
      | none => simp [streamWrite]
      | some q => cases hqc : q.closed <;> simp [streamWrite, hqc]
    · cases hq : t.accepted channel with
      | none => simp [streamWrite]
      | some q => cases hqc : q.closed <;> simp [streamWrite, hqc]
  · cases role <;> simp

example : writable Transport.new.initiate .alfie .data = true ∧ writable Transport.new.initiate .betty .data = false :=
  ⟨rfl, rfl⟩

/-- C90, partial: once the streams are open, the initiator can write to all of its own, and the
acceptor to all that it has accepted, on which nothing has been written yet. -/
theorem C90_opened_partial (channel : Channel) :
    writable Transport.new.initiate .alfie channel = true ∧ writable Transport.new.accept .betty channel = true ∧
    writtenTo Transport.new.accept .betty channel = some [] := ⟨rfl, rfl, rfl⟩

example : writable Transport.new.accept .betty .data = true ∧ writable Transport.new .alfie .data = false := ⟨rfl, rfl⟩

/-- C90, partial: a transport with streams in both directions can be closed; then every stream is
closed with what was written to it, and every send is refused. -/
theorem C90_closed_partial (t : Transport) (h : ∀ channel, (t.accepted channel).isSome ∧ (t.initiated channel).isSome) :
    ∃ t', t.close = .ok t' ∧ (∀ role channel, writtenTo t' role channel = writtenTo t role channel ∧
      ∀ data, t'.send data channel role = .err) ∧
      ∀ channel s, t'.accepted channel = some s ∨ t'.initiated channel = some s → s.closed = true := by
  obtain ⟨a, a1, a2⟩ := closeLoop_ok Channel.all t.accepted fun ch _ => (h ch).1
  obtain ⟨i, i1, i2⟩ := closeLoop_ok Channel.all t.initiated fun ch _ => (h ch).2
  refine ⟨⟨a, i, true⟩, ?_, fun role channel => ⟨?_, fun data => ?_⟩, fun channel s hs => ?_⟩
  · unfold Transport.close
    rw [a1, Res.ok_bind, i1, Res.ok_bind]
  · cases role <;> simp [writtenTo, a2, i2, channel_all, Function.comp_def]
  · simp [Transport.send]
  · simp only [a2, i2, channel_all, if_true, Option.map_eq_some_iff] at hs
    rcases hs with ⟨_, _, rfl⟩ | ⟨_, _, rfl⟩ <;> rfl

example : ∀ channel, (Transport.new.initiate.accept.accepted channel).isSome ∧
    (Transport.new.initiate.accept.initiated channel).isSome := fun _ => ⟨rfl, rfl⟩

/-- C90, partial: the number that is written first to a stream tells which of the channels, in the
order control, reconciliation, data, intersection, capability, area of interest, payload request
and static token, the stream is for. -/
theorem C90_numbered_partial (t : Transport) (channel : Channel) :
    writtenTo t.initiate .alfie channel = some (frame [channel.index]) ∧
    [Channel.control, .reconciliation, .data, .intersection, .capability, .areaOfInterest, .payloadRequest, .staticToken][channel.index.toNat]? =
      some channel := by
  cases channel <;> exact ⟨rfl, rfl⟩

example : writtenTo Transport.new.initiate .alfie .intersection = some [0, 0, 0, 0, 0, 0, 0, 1, 3] := by decide

/-- C90 is violated: closing a transport that has streams in one direction only, as it has after
one peer has called the other, ends the process. -/
theorem C90_violated_close (t : Transport)
    (h : (∃ channel, t.accepted channel = none) ∨ ∃ channel, t.initiated channel = none) : t.close = .crash := by
  unfold Transport.close
  by_cases ha : ∃ channel, t.accepted channel = none
  · obtain ⟨ch, ha⟩ := ha
    rw [closeLoop_crash _ _ ⟨ch, channel_all ch, ha⟩]
    rfl
  · obtain ⟨ch, hi⟩ := h.resolve_left ha
    obtain ⟨a, a1, -⟩ := closeLoop_ok Channel.all t.accepted fun ch _ => by
      rw [Option.isSome_iff_ne_none]
      exact fun h0 => ha ⟨ch, h0⟩
    rw [a1, Res.ok_bind, closeLoop_crash _ _ ⟨ch, channel_all ch, hi⟩]
    rfl

example : Transport.new.initiate.close = .crash ∧ Transport.new.accept.close = .crash := ⟨rfl, rfl⟩

/-- C90 is violated: sending before the stream has been opened ends the process. -/
theorem C90_violated_send (t : Transport) (data : Bytes) (channel : Channel) (hc : t.closed = false)
    (h : t.accepted channel = none) : t.send data channel .betty = .crash := by
  simp [Transport.send, hc, h, streamWrite]

example : Transport.new.initiate.closed = false ∧ Transport.new.initiate.accepted .data = none := ⟨rfl, rfl⟩

/-! ### AsyncReceive -/

/-- C91, partial: while the channel is open, no function `onEnd` is given and the callback does not
fail, the callback is called with the values sent, in order. -/
theorem C91_calls_partial {α : Type} (zero : α) (callback : α → Bool) (values : List α) (h : ∀ v ∈ values, callback v = true) :
    asyncReceive zero callback false false values = (values, .waiting) := by
  induction values with
  | nil => rfl
  | cons v rest ih =>
    rw [asyncReceive, ih fun v hv => h v (List.mem_cons_of_mem _ hv), h v List.mem_cons_self]
    rfl

example : ∀ v ∈ [[1, 2], [3]], (fun _ : Bytes => true) v = true := fun _ _ => rfl

/-- C91 is violated: if a function `onEnd` is given, it is called after the first value, and the
other values are never received. -/
theorem C91_violated_onEnd {α : Type} (zero : α) (callback : α → Bool) (closed : Bool) (v : α) (rest : List α) :
    asyncReceive zero callback true closed (v :: rest) = ([v], .returned) := by
  rw [asyncReceive]
  split <;> rfl

example : asyncReceive 0 (fun _ => true) true false [1, 2, 3] = ([1], .returned) := rfl

/-- C91 is violated: after the first value for which the callback fails, the others are never
received. -/
theorem C91_violated_error {α : Type} (zero : α) (callback : α → Bool) (closed : Bool) (good rest : List α) (v : α)
    (h : ∀ x ∈ good, callback x = true) (hv : callback v = false) :
    asyncReceive zero callback false closed (good ++ v :: rest) = (good ++ [v], .returned) := by
  induction good with
  | nil => simp [asyncReceive, hv]
  | cons x good ih =>
    rw [List.cons_append, asyncReceive, ih fun y hy => h y (List.mem_cons_of_mem _ hy), h x List.mem_cons_self]
    rfl

example : asyncReceive 0 (fun x => x != 2) false false [1, 2, 3] = ([1, 2], .returned) := rfl

/-- C91 is violated: when the channel is closed, the callback is called again and again with a
value that nobody sent. -/
theorem C91_violated_closed {α : Type} (zero : α) (callback : α → Bool) (values : List α) (h : ∀ v ∈ values, callback v = true)
    (h0 : callback zero = true) : asyncReceive zero callback false true values = (values ++ [zero], .spinning) := by
  induction values with
  | nil => simp [asyncReceive, h0]
  | cons v rest ih =>
    rw [asyncReceive, ih fun v hv => h v (List.mem_cons_of_mem _ hv), h v List.mem_cons_self]
    rfl

example : asyncReceive 0 (fun _ => true) false true [1, 2] = ([1, 2, 0], .spinning) := rfl

end Willow.Props
