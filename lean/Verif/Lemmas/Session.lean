import Verif.Model.Session
import Verif.Props.Messenger

/-! Lemmas about sessions of two peers. -/

namespace Willow

open Props

/-- Nothing has come back from Betty. -/
structure Session.Quiet (sa sb : StoreState) (s : Session) : Prop where
  alfie : s.alfie.st = sa
  betty : s.betty.st = sb
  transport : s.betty.transport = Transport.new.accept
  arrived : ∀ ch, s.alfie.receiving.arrived ch = []
  out : ∀ l, s.alfie.receiving.out l = []

theorem quiet_start (sa sb : StoreState) : (Session.start sa sb).Quiet sa sb :=
  ⟨rfl, rfl, rfl, fun _ => rfl, fun l => by cases l <;> rfl⟩

theorem arrive_st (p : Peer) (ch : Channel) (bytes : Bytes) :
    (p.arrive ch bytes).st = p.st ∧ (p.arrive ch bytes).transport = p.transport := by
  unfold Peer.arrive
  split <;> exact ⟨rfl, rfl⟩

theorem quiet_step (gob : Gob) (env env' : StoreEnv) (fps : FpScheme) (maxAlloc : Nat) (sa sb : StoreState) (s s' : Session)
    (x : SessionStep) (h : s.Quiet sa sb) (hs : s.step gob env env' fps maxAlloc x = .ok s') : s'.Quiet sa sb := by
  cases x with
  | send r =>
    obtain ⟨y, -, hs⟩ := Res.bind_eq_ok.1 hs
    obtain ⟨t, -, hs⟩ := Res.bind_eq_ok.1 hs
    cases hs
    exact ⟨h.alfie, h.betty, h.transport, h.arrived, h.out⟩
  | deliverToBetty ch n =>
    cases hs
    exact ⟨h.alfie, (arrive_st _ _ _).1.trans h.betty, (arrive_st _ _ _).2.trans h.transport, h.arrived, h.out⟩
  | deliverToAlfie ch n =>
    cases hs
    have hb : ((streamBytes (s.betty.transport.accepted ch)).drop (s.toAlfie ch)).take n = [] := by
      rw [h.transport]
      simp [Transport.accept, streamBytes]
    rw [hb]
    exact ⟨h.alfie, h.betty, h.transport, h.arrived, h.out⟩
  | readAlfie l =>
    obtain ⟨p, hp, hs⟩ := Res.bind_eq_ok.1 hs
    cases hs
    unfold Peer.read at hp
    obtain ⟨r, hr, hp⟩ := Res.bind_eq_ok.1 hp
    cases hp
    unfold Receiving.step at hr
    rw [h.arrived] at hr
    cases hr
    exact ⟨h.alfie, h.betty, h.transport, h.arrived, h.out⟩
  | readBetty l =>
    obtain ⟨p, hp, hs⟩ := Res.bind_eq_ok.1 hs
    cases hs
    unfold Peer.read at hp
    obtain ⟨r, hr, hp⟩ := Res.bind_eq_ok.1 hp
    cases hp
    exact ⟨h.alfie, h.betty, h.transport, h.arrived, h.out⟩
  | handleAlfie l now =>
    obtain ⟨p, hp, hs⟩ := Res.bind_eq_ok.1 hs
    cases hs
    unfold Peer.handleAlfie at hp
    rw [h.out] at hp
    cases hp
    exact h
  | handleBetty l =>
    obtain ⟨p, hp, hs⟩ := Res.bind_eq_ok.1 hs
    cases hs
    unfold Peer.handleBetty at hp
    split at hp
    · cases hp; exact h
    · cases l with
      | data => cases hp; exact ⟨h.alfie, h.betty, h.transport, h.arrived, h.out⟩
      | reconciliation =>
        dsimp only at hp
        rw [C92_violated_ignored, Res.ok_bind] at hp
        cases hp
        exact ⟨h.alfie, h.betty, h.transport, h.arrived, h.out⟩

theorem quiet_run (gob : Gob) (env env' : StoreEnv) (fps : FpScheme) (maxAlloc : Nat) (sa sb : StoreState) :
    ∀ (steps : List SessionStep) (s s' : Session), s.Quiet sa sb → s.run gob env env' fps maxAlloc steps = .ok s' →
      s'.Quiet sa sb
  | [], _, _, h, hs => by cases hs; exact h
  | x :: rest, s, s', h, hs => by
    obtain ⟨t, ht, hs⟩ := Res.bind_eq_ok.1 hs
    exact quiet_run gob env env' fps maxAlloc sa sb rest t s' (quiet_step gob env env' fps maxAlloc sa sb s t x h ht) hs

end Willow
