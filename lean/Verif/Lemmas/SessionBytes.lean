import Verif.Spec.Session
import Verif.Lemmas.Transport
import Verif.Lemmas.Session

/-! Lemmas about the bytes of a session. -/

namespace Willow

open Spec Props

theorem frame_lengthBytes (m : Bytes) : frame m = lengthBytes m.length ++ m := rfl

theorem lengthBytes_eq (n : Nat) : lengthBytes n = beBytes 8 n := by
  have hb : ∀ n, byteOf n = UInt8.ofNat n := fun n => by
    apply UInt8.toNat_inj.1
    rw [byteOf_toNat]
    simp [UInt8.toNat_ofNat']
  simp [lengthBytes, beBytes, hb]

theorem beBytes_getBE_mod : ∀ (bs : Bytes) (x : Nat), x % 256 ^ bs.length = getBE bs → beBytes bs.length x = bs
  | [], _, _ => rfl
  | b :: bs, x, h => by
    rw [List.length_cons, beBytes]
    rw [getBE_cons, List.length_cons, Nat.pow_succ] at h
    have hlt := getBE_lt bs
    have h1 : x % 256 ^ bs.length = getBE bs := by
      have := congrArg (· % 256 ^ bs.length) h
      simp only [Nat.mod_mul_right_mod, Nat.mul_add_mod_self_right, Nat.mod_eq_of_lt hlt] at this
      exact this
    have h2 : x / 256 ^ bs.length % 256 = b.toNat := by
      rw [Nat.mod_mul] at h
      have : 256 ^ bs.length * (x / 256 ^ bs.length % 256) = b.toNat * 256 ^ bs.length := by omega
      rw [Nat.mul_comm] at this
      exact Nat.eq_of_mul_eq_mul_right (Nat.pow_pos (by decide)) this
    congr 1
    · apply UInt8.toNat_inj.1
      rw [byteOf_toNat, h2]
    · exact beBytes_getBE_mod bs x h1

theorem lengthBytes_getBE (bs : Bytes) (h : bs.length = 8) : lengthBytes (getBE bs) = bs := by
  rw [lengthBytes_eq, ← h]
  exact beBytes_getBE_mod bs _ (Nat.mod_eq_of_lt (getBE_lt bs))

theorem frames_append (a b : List Bytes) : frames (a ++ b) = frames a ++ frames b := by simp [frames]

/-- A goroutine is waiting for at least one byte. -/
def RecvState.Wants (r : RecvState) : Prop := r.got.length < r.body.getD 8

/-- What a read takes is what is then missing from the chunks. -/
theorem read_taken {maxAlloc : Nat} {r r' : RecvState} {c : Bytes} {rest chunks : List Bytes} (hw : r.Wants)
    (h : r.read maxAlloc (c :: rest) = .ok (r', chunks)) :
    r'.Wants ∧ ∃ x, taken r' = taken r ++ x ∧ x ++ chunks.flatten = (c :: rest).flatten := by
  obtain ⟨got, body, out⟩ := r
  have hcut : ∀ want, c.take want ++ (if want < c.length then c.drop want :: rest else rest).flatten = (c :: rest).flatten :=
    fun want => by have := cut_chunks [] c rest want; simpa using this.symm
  unfold RecvState.Wants at hw ⊢
  unfold RecvState.read at h
  dsimp only at h hw
  split at h
  · rename_i hs
    cases h
    refine ⟨hs, c.take (body.getD 8 - got.length), ?_, hcut _⟩
    cases body <;> simp [taken]
  · rename_i hs
    obtain ⟨r1, hr, h⟩ := Res.bind_eq_ok.1 h
    cases h
    have hlen : (got ++ c.take (body.getD 8 - got.length)).length = body.getD 8 := by
      have : (got ++ c.take (body.getD 8 - got.length)).length ≤ body.getD 8 := by simp; omega
      omega
    refine ⟨?_, c.take (body.getD 8 - got.length), ?_, hcut _⟩
    · unfold RecvState.full at hr
      split at hr
      · obtain ⟨n, -, hr⟩ := Res.bind_eq_ok.1 hr
        split at hr
        · cases hr
        · split at hr
          · cases hr; simp
          · cases hr; simp; omega
      · cases hr; simp
    · unfold RecvState.full at hr
      cases body with
      | none =>
        dsimp only [Option.getD_none] at hr hlen ⊢
        unfold beUint64 at hr
        rw [if_pos (by omega), Res.ok_bind, List.take_of_length_le (by omega)] at hr
        have hb := lengthBytes_getBE _ hlen
        split at hr
        · cases hr
        · split at hr
          · rename_i h0
            cases hr
            rw [h0] at hb
            have hf : frames [[]] = lengthBytes 0 := by simp [frames, frame_lengthBytes]
            simp only [taken, frames_append, hf, hb]
            simp
          · cases hr
            simp only [taken, hb]
            simp
      | some n =>
        dsimp only [Option.getD_some] at hr hlen ⊢
        cases hr
        have hf : frames [got ++ c.take (n - got.length)] = lengthBytes n ++ (got ++ c.take (n - got.length)) := by
          simp only [frames, List.map_cons, List.map_nil, List.flatten_cons, List.flatten_nil, List.append_nil, frame_lengthBytes, hlen]
        simp only [taken, frames_append, hf]
        simp

/-- The receiving goroutines stand in place and want more. -/
def Positioned (r : Receiving) (stream : Channel → Bytes) (delivered : Channel → Nat) : Prop :=
  InPlace r stream delivered ∧ r.data.Wants ∧ r.reconciliation.Wants

theorem positioned_new (stream : Channel → Bytes) (delivered : Channel → Nat) (h : ∀ ch, delivered ch = 0) :
    Positioned ⟨fun _ => [], .new, .new⟩ stream delivered := by
  refine ⟨⟨fun ch => by simp [h], ⟨[], ?_, by simp [h]⟩, fun ch _ => by simp [h]⟩, by unfold RecvState.Wants; decide, by unfold RecvState.Wants; decide⟩
  exact Interleaves.none

/-- Reading keeps the place. -/
theorem positioned_read {maxAlloc : Nat} {r r' : Receiving} {stream : Channel → Bytes} {delivered : Channel → Nat} {l : Listener}
    (hp : Positioned r stream delivered) (h : r.step maxAlloc l = .ok r') : Positioned r' stream delivered := by
  obtain ⟨⟨h1, ⟨both, h2, h3⟩, h4⟩, wd, wr⟩ := hp
  have hl : l.stream = .data := by cases l <;> rfl
  unfold Receiving.step at h
  rw [hl] at h
  cases hc : r.arrived .data with
  | nil => rw [hc] at h; cases h; exact ⟨⟨h1, ⟨both, h2, h3⟩, h4⟩, wd, wr⟩
  | cons c rest =>
    rw [hc] at h
    dsimp only at h
    obtain ⟨⟨q, chunks⟩, hq, h⟩ := Res.bind_eq_ok.1 h
    have hother : ∀ ch, ch ≠ .data → ((fun ch => if ch = .data then chunks else r.arrived ch) ch).flatten =
        (stream ch).take (delivered ch) := fun ch hch => by simp only [if_neg hch]; exact h4 ch hch
    cases l with
    | data =>
      dsimp only at hq
      obtain ⟨w, x, e1, e2⟩ := read_taken wd hq
      cases h
      refine ⟨⟨h1, ⟨both ++ x, ?_, ?_⟩, hother⟩, w, wr⟩
      · dsimp only; rw [e1]; exact h2.left x
      · dsimp only
        rw [if_pos rfl, List.append_assoc, e2, ← hc]
        exact h3
    | reconciliation =>
      dsimp only at hq
      obtain ⟨w, x, e1, e2⟩ := read_taken wr hq
      cases h
      refine ⟨⟨h1, ⟨both ++ x, ?_, ?_⟩, hother⟩, wd, w⟩
      · dsimp only; rw [e1]; exact h2.right x
      · dsimp only
        rw [if_pos rfl, List.append_assoc, e2, ← hc]
        exact h3

/-- Delivering the next bytes keeps the place. -/
theorem positioned_arrive {p : Peer} {stream : Channel → Bytes} {delivered : Channel → Nat} (ch : Channel) (n : Nat)
    (hp : Positioned p.receiving stream delivered) :
    Positioned (p.arrive ch (((stream ch).drop (delivered ch)).take n)).receiving stream
      (fun c => if c = ch then delivered c + (((stream ch).drop (delivered ch)).take n).length else delivered c) := by
  obtain ⟨⟨h1, ⟨both, h2, h3⟩, h4⟩, wd, wr⟩ := hp
  generalize hb : ((stream ch).drop (delivered ch)).take n = bytes
  have hle : delivered ch + bytes.length ≤ (stream ch).length := by
    rw [← hb]
    have := h1 ch
    simp
    omega
  have htake : (stream ch).take (delivered ch + bytes.length) = (stream ch).take (delivered ch) ++ bytes := by
    rw [List.take_add]
    congr 1
    rw [← hb]
    simp only [List.length_take, List.length_drop]
    rw [List.take_eq_take_iff]
    simp
  have harr : ∀ c, ((p.arrive ch bytes).receiving.arrived c).flatten =
      (p.receiving.arrived c).flatten ++ if c = ch then bytes else [] := by
    intro c
    unfold Peer.arrive
    by_cases he : bytes = []
    · rw [if_pos he]; simp [he]
    · rw [if_neg he]
      by_cases hc : c = ch <;> simp [hc]
  have hd : (p.arrive ch bytes).receiving.data = p.receiving.data ∧
      (p.arrive ch bytes).receiving.reconciliation = p.receiving.reconciliation := by
    unfold Peer.arrive
    split <;> exact ⟨rfl, rfl⟩
  refine ⟨⟨fun c => ?_, ⟨both, ?_, ?_⟩, fun c hc => ?_⟩, by rw [hd.1]; exact wd, by rw [hd.2]; exact wr⟩
  · dsimp only
    split
    · rename_i hc; subst hc; exact hle
    · exact h1 c
  · rw [hd.1, hd.2]; exact h2
  · rw [harr, ← List.append_assoc, h3]
    dsimp only
    split
    · rename_i hc; subst hc; rw [htake]
    · simp
  · rw [harr, h4 c hc]
    dsimp only
    split
    · rename_i hc'; subst hc'; rw [htake]
    · simp

/-- Writing more to the streams keeps the place. -/
theorem positioned_mono {r : Receiving} {stream stream' : Channel → Bytes} {delivered : Channel → Nat}
    (hp : Positioned r stream delivered) (h : ∀ ch, stream ch <+: stream' ch) : Positioned r stream' delivered := by
  obtain ⟨⟨h1, ⟨both, h2, h3⟩, h4⟩, w⟩ := hp
  have ht : ∀ ch, (stream' ch).take (delivered ch) = (stream ch).take (delivered ch) := fun ch => by
    obtain ⟨x, hx⟩ := h ch
    rw [← hx, List.take_append_of_le_length (h1 ch)]
  exact ⟨⟨fun ch => Nat.le_trans (h1 ch) (h ch).length_le, ⟨both, h2, by rw [ht]; exact h3⟩, fun ch hc => by rw [ht]; exact h4 ch hc⟩, w⟩

theorem streamWrite_prefix {s : Option StreamEnd} {data : Bytes} {s' : StreamEnd} (h : streamWrite s data = .ok s') :
    streamBytes s <+: streamBytes (some s') := by
  unfold streamWrite at h
  split at h
  · cases h
  · split at h
    · cases h
    · cases h; exact List.prefix_append _ _

/-- Sending only adds bytes. -/
theorem sendIgnoring_prefix {t t' : Transport} {data : Bytes} {channel : Channel} {role : SyncRole}
    (h : t.sendIgnoring data channel role = .ok t') (ch : Channel) :
    streamBytes (t.initiated ch) <+: streamBytes (t'.initiated ch) ∧ streamBytes (t.accepted ch) <+: streamBytes (t'.accepted ch) := by
  unfold Transport.sendIgnoring at h
  split at h
  · cases h; exact ⟨List.prefix_refl _, List.prefix_refl _⟩
  · rename_i hr
    unfold Transport.send at h
    split at h
    · cases h
    · cases role with
      | alfie =>
        obtain ⟨s, hs, h⟩ := Res.bind_eq_ok.1 h
        cases h
        refine ⟨?_, List.prefix_refl _⟩
        dsimp only
        split
        · rename_i hc; subst hc; exact streamWrite_prefix hs
        · exact List.prefix_refl _
      | betty =>
        obtain ⟨s, hs, h⟩ := Res.bind_eq_ok.1 h
        cases h
        refine ⟨List.prefix_refl _, ?_⟩
        dsimp only
        split
        · rename_i hc; subst hc; exact streamWrite_prefix hs
        · exact List.prefix_refl _

/-- What Betty can read, and what Alfie can. -/
def Session.Positioned (s : Session) : Prop :=
  Willow.Positioned s.betty.receiving (fun ch => streamBytes (s.alfie.transport.initiated ch)) s.toBetty ∧
  Willow.Positioned s.alfie.receiving (fun ch => streamBytes (s.betty.transport.accepted ch)) s.toAlfie

theorem session_positioned_step {gob : Gob} {env env' : StoreEnv} {fps : FpScheme} {maxAlloc : Nat} {s s' : Session} {x : SessionStep}
    (h : s.Positioned) (hs : s.step gob env env' fps maxAlloc x = .ok s') : s'.Positioned := by
  obtain ⟨hb, ha⟩ := h
  cases x with
  | send r =>
    obtain ⟨y, -, hs⟩ := Res.bind_eq_ok.1 hs
    obtain ⟨t, ht, hs⟩ := Res.bind_eq_ok.1 hs
    cases hs
    exact ⟨positioned_mono hb fun ch => (sendIgnoring_prefix ht ch).1, ha⟩
  | deliverToBetty ch n =>
    cases hs
    refine ⟨?_, ?_⟩
    · exact positioned_arrive ch n hb
    · rw [show (fun c => streamBytes ((s.betty.arrive ch (((streamBytes (s.alfie.transport.initiated ch)).drop (s.toBetty ch)).take
        n)).transport.accepted c)) = fun c => streamBytes (s.betty.transport.accepted c) by rw [(arrive_st _ _ _).2]]
      exact ha
  | deliverToAlfie ch n =>
    cases hs
    refine ⟨?_, ?_⟩
    · rw [show (fun c => streamBytes ((s.alfie.arrive ch (((streamBytes (s.betty.transport.accepted ch)).drop (s.toAlfie ch)).take
        n)).transport.initiated c)) = fun c => streamBytes (s.alfie.transport.initiated c) by rw [(arrive_st _ _ _).2]]
      exact hb
    · exact positioned_arrive ch n ha
  | readAlfie l =>
    obtain ⟨p, hp, hs⟩ := Res.bind_eq_ok.1 hs
    cases hs
    unfold Peer.read at hp
    obtain ⟨r, hr, hp⟩ := Res.bind_eq_ok.1 hp
    cases hp
    exact ⟨hb, positioned_read ha hr⟩
  | readBetty l =>
    obtain ⟨p, hp, hs⟩ := Res.bind_eq_ok.1 hs
    cases hs
    unfold Peer.read at hp
    obtain ⟨r, hr, hp⟩ := Res.bind_eq_ok.1 hp
    cases hp
    exact ⟨positioned_read hb hr, ha⟩
  | handleAlfie l now =>
    obtain ⟨p, hp, hs⟩ := Res.bind_eq_ok.1 hs
    cases hs
    unfold Peer.handleAlfie at hp
    split at hp
    · cases hp; exact ⟨hb, ha⟩
    · cases l with
      | data =>
        obtain ⟨st, -, hp⟩ := Res.bind_eq_ok.1 hp
        cases hp
        exact ⟨hb, ha⟩
      | reconciliation =>
        obtain ⟨t, ht, hp⟩ := Res.bind_eq_ok.1 hp
        cases hp
        unfold initiateReconciliation handleReconciliationInitiator at ht
        obtain ⟨y, -, ht⟩ := Res.bind_eq_ok.1 ht
        exact ⟨positioned_mono hb fun ch => (sendIgnoring_prefix ht ch).1, ha⟩
  | handleBetty l =>
    obtain ⟨p, hp, hs⟩ := Res.bind_eq_ok.1 hs
    cases hs
    unfold Peer.handleBetty at hp
    split at hp
    · cases hp; exact ⟨hb, ha⟩
    · cases l with
      | data => cases hp; exact ⟨hb, ha⟩
      | reconciliation =>
        obtain ⟨t, ht, hp⟩ := Res.bind_eq_ok.1 hp
        cases hp
        have := C92_violated_silent _ _ _ _ _ _ _ _ ht
        subst this
        exact ⟨hb, ha⟩

/-- The messages that Alfie has handled have been received, in order, each once. -/
structure Session.Handled (gob : Gob) (env : StoreEnv) (sa sb : StoreState) (s : Session) : Prop where
  alfie : ∀ l, s.alfie.handled l ≤ (s.alfie.receiving.out l).length
  betty : ∀ l, s.betty.handled l ≤ (s.betty.receiving.out l).length
  store : s.betty.st = sb
  data : ∃ times : List UInt64, times.length = s.alfie.handled .data ∧
    receiveAll gob env sa (times.zip (s.alfie.receiving.out .data)) = .ok s.alfie.st

theorem receiveAll_append {gob : Gob} {env : StoreEnv} : ∀ (a b : List (UInt64 × Bytes)) (st st' : StoreState),
    receiveAll gob env st a = .ok st' → receiveAll gob env st (a ++ b) = receiveAll gob env st' b
  | [], _, _, _, h => by cases h; rfl
  | m :: a, b, st, st', h => by
    obtain ⟨s1, h1, h2⟩ := Res.bind_eq_ok.1 h
    show (do let st ← receiveData gob env st m.1 m.2; receiveAll gob env st (a ++ b)) = _
    rw [h1, Res.ok_bind]
    exact receiveAll_append a b s1 st' h2

theorem full_out {maxAlloc : Nat} {r r' : RecvState} {bytes : Bytes} (h : r.full maxAlloc bytes = .ok r') : r.out <+: r'.out := by
  unfold RecvState.full at h
  split at h
  · obtain ⟨n, -, h⟩ := Res.bind_eq_ok.1 h
    split at h
    · cases h
    · split at h <;> cases h
      · exact List.prefix_append _ _
      · exact List.prefix_refl _
  · cases h; exact List.prefix_append _ _

theorem read_out {maxAlloc : Nat} {r r' : RecvState} {chunks chunks' : List Bytes} (h : r.read maxAlloc chunks = .ok (r', chunks')) :
    r.out <+: r'.out := by
  unfold RecvState.read at h
  split at h
  · cases h
  · dsimp only at h
    split at h
    · cases h; exact List.prefix_refl _
    · obtain ⟨q, hq, h⟩ := Res.bind_eq_ok.1 h
      cases h
      exact full_out hq

theorem step_out {maxAlloc : Nat} {s s' : Receiving} {l : Listener} (h : s.step maxAlloc l = .ok s') (m : Listener) :
    s.out m <+: s'.out m := by
  unfold Receiving.step at h
  dsimp only at h
  split at h
  · cases h; exact List.prefix_refl _
  · obtain ⟨⟨q, chunks⟩, hq, h⟩ := Res.bind_eq_ok.1 h
    cases l with
    | data =>
      cases h
      cases m with
      | data => exact read_out hq
      | reconciliation => exact List.prefix_refl _
    | reconciliation =>
      cases h
      cases m with
      | data => exact List.prefix_refl _
      | reconciliation => exact read_out hq

theorem zip_prefix {α β : Type} : ∀ {a : List α} {b b' : List β}, a.length ≤ b.length → b <+: b' → a.zip b = a.zip b'
  | [], _, _, _, _ => by simp
  | _ :: _, [], _, h, _ => by simp at h
  | x :: a, y :: b, b', h, hp => by
    obtain ⟨t, rfl⟩ := hp
    rw [List.cons_append, List.zip_cons_cons, List.zip_cons_cons, zip_prefix (by simpa using h) (List.prefix_append b t)]

theorem arrive_out (p : Peer) (ch : Channel) (bytes : Bytes) (l : Listener) :
    (p.arrive ch bytes).receiving.out l = p.receiving.out l ∧ (p.arrive ch bytes).handled = p.handled := by
  unfold Peer.arrive
  split
  · exact ⟨rfl, rfl⟩
  · cases l <;> exact ⟨rfl, rfl⟩

theorem done_le {p : Peer} {l : Listener} (hl : p.handled l < (p.receiving.out l).length)
    (h : ∀ m, p.handled m ≤ (p.receiving.out m).length) (m : Listener) :
    (p.done l).handled m ≤ (p.receiving.out m).length := by
  unfold Peer.done
  dsimp only
  split
  · rename_i hm; subst hm; omega
  · exact h m

theorem session_handled_step {gob : Gob} {env env' : StoreEnv} {fps : FpScheme} {maxAlloc : Nat} {sa sb : StoreState}
    {s s' : Session} {x : SessionStep} (h : s.Handled gob env sa sb) (hs : s.step gob env env' fps maxAlloc x = .ok s') :
    s'.Handled gob env sa sb := by
  obtain ⟨ha, hb, hst, times, ht, hd⟩ := h
  cases x with
  | send r =>
    obtain ⟨y, -, hs⟩ := Res.bind_eq_ok.1 hs
    obtain ⟨t, -, hs⟩ := Res.bind_eq_ok.1 hs
    cases hs
    exact ⟨ha, hb, hst, times, ht, hd⟩
  | deliverToBetty ch n =>
    cases hs
    refine ⟨ha, fun l => ?_, ?_, times, ht, hd⟩
    · dsimp only; rw [(arrive_out _ _ _ l).1, (arrive_out _ _ _ l).2]; exact hb l
    · exact (arrive_st _ _ _).1.trans hst
  | deliverToAlfie ch n =>
    cases hs
    refine ⟨fun l => ?_, hb, hst, times, ?_, ?_⟩
    · dsimp only; rw [(arrive_out _ _ _ l).1, (arrive_out _ _ _ l).2]; exact ha l
    · dsimp only; rw [(arrive_out _ _ _ .data).2]; exact ht
    · dsimp only; rw [(arrive_out _ _ _ _).1, (arrive_st _ _ _).1]; exact hd
  | readAlfie l =>
    obtain ⟨p, hp, hs⟩ := Res.bind_eq_ok.1 hs
    cases hs
    unfold Peer.read at hp
    obtain ⟨r, hr, hp⟩ := Res.bind_eq_ok.1 hp
    cases hp
    refine ⟨fun m => Nat.le_trans (ha m) (step_out hr m).length_le, hb, hst, times, ht, ?_⟩
    rw [← hd]
    dsimp only
    rw [zip_prefix (by rw [ht]; exact ha .data) (step_out hr .data)]
  | readBetty l =>
    obtain ⟨p, hp, hs⟩ := Res.bind_eq_ok.1 hs
    cases hs
    unfold Peer.read at hp
    obtain ⟨r, hr, hp⟩ := Res.bind_eq_ok.1 hp
    cases hp
    exact ⟨ha, fun m => Nat.le_trans (hb m) (step_out hr m).length_le, hst, times, ht, hd⟩
  | handleAlfie l now =>
    obtain ⟨p, hp, hs⟩ := Res.bind_eq_ok.1 hs
    cases hs
    unfold Peer.handleAlfie at hp
    split at hp
    · cases hp; exact ⟨ha, hb, hst, times, ht, hd⟩
    · rename_i msg hmsg
      have hlt := (List.getElem?_eq_some_iff.1 hmsg).1
      cases l with
      | data =>
        obtain ⟨st, hr, hp⟩ := Res.bind_eq_ok.1 hp
        cases hp
        refine ⟨done_le hlt ha, hb, hst, times ++ [now], ?_, ?_⟩
        · simp [Peer.done, ht]
        · have hz : (times ++ [now]).zip (s.alfie.receiving.out .data) =
              times.zip (s.alfie.receiving.out .data) ++ [(now, msg)] := by
            obtain ⟨h1, h2⟩ := List.getElem?_eq_some_iff.1 hmsg
            have hsplit : s.alfie.receiving.out .data = (s.alfie.receiving.out .data).take times.length ++
                msg :: (s.alfie.receiving.out .data).drop (times.length + 1) := by
              rw [ht]
              conv => lhs; rw [← List.take_append_drop (s.alfie.handled .data) (s.alfie.receiving.out .data)]
              congr 1
              rw [List.drop_eq_getElem_cons h1, h2]
            have hl : times.length = ((s.alfie.receiving.out .data).take times.length).length := by
              rw [List.length_take]; omega
            conv => lhs; rw [hsplit]
            rw [List.zip_append hl]
            conv => rhs; rw [hsplit]
            have := zip_prefix (Nat.le_of_eq hl) (List.prefix_append ((s.alfie.receiving.out .data).take times.length)
              (msg :: (s.alfie.receiving.out .data).drop (times.length + 1)))
            rw [← this]
            simp
          show receiveAll gob env sa ((times ++ [now]).zip (s.alfie.receiving.out .data)) = .ok st
          rw [hz, receiveAll_append _ _ _ _ hd]
          show (do let st ← receiveData gob env s.alfie.st now msg; Res.ok st) = _
          rw [hr]
          rfl
      | reconciliation =>
        obtain ⟨t, -, hp⟩ := Res.bind_eq_ok.1 hp
        cases hp
        exact ⟨done_le hlt ha, hb, hst, times, ht, hd⟩
  | handleBetty l =>
    obtain ⟨p, hp, hs⟩ := Res.bind_eq_ok.1 hs
    cases hs
    unfold Peer.handleBetty at hp
    split at hp
    · cases hp; exact ⟨ha, hb, hst, times, ht, hd⟩
    · rename_i msg hmsg
      have hlt := (List.getElem?_eq_some_iff.1 hmsg).1
      cases l with
      | data => cases hp; exact ⟨ha, done_le hlt hb, hst, times, ht, hd⟩
      | reconciliation =>
        obtain ⟨t, -, hp⟩ := Res.bind_eq_ok.1 hp
        cases hp
        exact ⟨ha, done_le hlt hb, hst, times, ht, hd⟩

/-- An invariant of the steps holds after any number of them. -/
theorem session_run {gob : Gob} {env env' : StoreEnv} {fps : FpScheme} {maxAlloc : Nat} {P : Session → Prop}
    (hstep : ∀ s s' x, P s → s.step gob env env' fps maxAlloc x = .ok s' → P s') :
    ∀ (steps : List SessionStep) (s s' : Session), P s → s.run gob env env' fps maxAlloc steps = .ok s' → P s'
  | [], _, _, h, hs => by cases hs; exact h
  | x :: rest, s, s', h, hs => by
    obtain ⟨t, ht, hs⟩ := Res.bind_eq_ok.1 hs
    exact session_run hstep rest t s' (hstep s t x h ht) hs

end Willow
