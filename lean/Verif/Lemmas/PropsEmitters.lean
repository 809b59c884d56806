import Verif.Spec.Emitters
import Verif.Lemmas.Handles

/-! Lemmas for the theorems of `Verif/Props/Emitters.lean`. -/

namespace Willow.Props

open Willow Spec

variable {α : Type}

theorem gives_append (a b : List (EmitAct α)) : gives (a ++ b) = gives a ++ gives b := by
  induction a with
  | nil => rfl
  | cons x a ih => cases x <;> simp [gives, ih]

theorem puts_append (a b : List (ForwardAct α)) : puts (a ++ b) = puts a ++ puts b := by
  induction a with
  | nil => rfl
  | cons x a ih => cases x <;> simp [puts, ih]

/-- What holds after some steps. -/
structure EmitInv (q : List α) (acts : List (EmitAct α)) (e : Emitter α) : Prop where
  queue : e.queue = q ++ gives acts
  idle : e.ranged = none → e.received = [] ∧ e.sent = 0 ∧ e.closed = false ∧ .start ∉ acts
  busy : ∀ l, e.ranged = some l → ∃ before after, acts = before ++ .start :: after ∧ .start ∉ before ∧ l = q ++ gives before ∧
    e.sent ≤ l.length ∧ e.received = l.take e.sent ∧ (e.closed = true → e.sent = l.length ∨ e.cancelled = true)
  cancel : e.cancelled = true ↔ .cancel ∈ acts

theorem emitInv_init (q : List α) : EmitInv q [] (Emitter.init q) :=
  ⟨by simp [Emitter.init, gives], fun _ => ⟨rfl, rfl, rfl, by simp⟩, fun l h => (by cases h), by simp [Emitter.init]⟩

theorem emitInv_step {q : List α} {acts : List (EmitAct α)} {e e' : Emitter α} (h : EmitInv q acts e) (a : EmitAct α) (hs : e.step a = some e') :
    EmitInv q (acts ++ [a]) e' := by
  have busy' : ∀ (a : EmitAct α), gives [a] = gives [a] → ∀ l, e.ranged = some l → ∃ before after, acts ++ [a] = before ++ .start :: after ∧ .start ∉ before ∧
      l = q ++ gives before ∧ e.sent ≤ l.length ∧ e.received = l.take e.sent ∧ (e.closed = true → e.sent = l.length ∨ e.cancelled = true) := by
    intro a _ l hl
    obtain ⟨before, after, h1, h2⟩ := h.busy l hl
    exact ⟨before, after ++ [a], by rw [h1]; simp, h2⟩
  cases a with
  | give x =>
    cases hs
    refine ⟨by simp [h.queue, gives_append, gives], fun hn => ?_, fun l hl => busy' _ rfl l hl, by simpa using h.cancel⟩
    obtain ⟨h1, h2, h3, h4⟩ := h.idle hn
    exact ⟨h1, h2, h3, by simpa using h4⟩
  | start =>
    simp only [Emitter.step] at hs
    split at hs
    · cases hs
    · rename_i hr
      cases hs
      have hn : e.ranged = none := by simpa using hr
      obtain ⟨h1, h2, h3, h4⟩ := h.idle hn
      refine ⟨by simp [h.queue, gives_append, gives], (fun hn' => by cases hn'), fun l hl => ?_, by simpa using h.cancel⟩
      cases hl
      exact ⟨acts, [], rfl, h4, h.queue, by simp [h2], by simp [h1, h2], by simp [h3]⟩
  | send =>
    simp only [Emitter.step] at hs
    split at hs
    · cases hs
    · rename_i l hl
      split at hs
      · cases hs
      · rename_i hc
        split at hs
        · cases hs
        · rename_i x hx
          cases hs
          refine ⟨by simp [h.queue, gives_append, gives], fun hn => ?_, fun l' hl' => ?_, by simpa using h.cancel⟩
          · simp only at hn; rw [hl] at hn; cases hn
          · simp only at hl'
            rw [hl] at hl'
            cases hl'
            obtain ⟨before, after, h1, h2, h3, h4, h5, h6⟩ := busy' .send rfl l hl
            obtain ⟨hlt, hx⟩ := List.getElem?_eq_some_iff.1 hx
            refine ⟨before, after, h1, h2, h3, hlt, ?_, fun hcl => absurd hcl hc⟩
            simp only [h5, List.take_succ_eq_append_getElem hlt, hx]
  | cancel =>
    cases hs
    refine ⟨by simp [h.queue, gives_append, gives], fun hn => ?_, fun l hl => ?_, by simp⟩
    · obtain ⟨h1, h2, h3, h4⟩ := h.idle hn
      exact ⟨h1, h2, h3, by simpa using h4⟩
    · obtain ⟨before, after, h1, h2, h3, h4, h5, _⟩ := busy' .cancel rfl l hl
      exact ⟨before, after, h1, h2, h3, h4, h5, fun _ => .inr rfl⟩
  | stop =>
    simp only [Emitter.step] at hs
    split at hs
    · cases hs
    · rename_i l hl
      split at hs
      · rename_i hc
        cases hs
        refine ⟨by simp [h.queue, gives_append, gives], fun hn => ?_, fun l' hl' => ?_, by simpa using h.cancel⟩
        · simp only at hn; rw [hl] at hn; cases hn
        · obtain ⟨before, after, h1, h2, h3, h4, h5, _⟩ := busy' .stop rfl l' hl'
          exact ⟨before, after, h1, h2, h3, h4, h5, fun _ => .inr hc.2.1⟩
      · cases hs
  | close =>
    simp only [Emitter.step] at hs
    split at hs
    · cases hs
    · rename_i l hl
      split at hs
      · rename_i hc
        cases hs
        refine ⟨by simp [h.queue, gives_append, gives], fun hn => ?_, fun l' hl' => ?_, by simpa using h.cancel⟩
        · simp only at hn; rw [hl] at hn; cases hn
        · obtain ⟨before, after, h1, h2, h3, h4, h5, _⟩ := busy' .close rfl l' hl'
          simp only at hl'
          rw [hl] at hl'
          cases hl'
          exact ⟨before, after, h1, h2, h3, h4, h5, fun _ => .inl (Nat.le_antisymm h4 hc.2)⟩
      · cases hs

theorem emitInv_run {q : List α} : ∀ (acts pre : List (EmitAct α)) (e e' : Emitter α), EmitInv q pre e → Emitter.run acts e = some e' →
    EmitInv q (pre ++ acts) e'
  | [], pre, e, e', h, hr => by cases hr; simpa using h
  | a :: acts, pre, e, e', h, hr => by
    unfold Emitter.run at hr
    split at hr
    · cases hr
    · rename_i e1 hs
      have := emitInv_run acts (pre ++ [a]) e1 e' (emitInv_step h a hs) hr
      simpa using this

theorem emitter_run_inv {q : List α} {acts : List (EmitAct α)} {e : Emitter α} (h : Emitter.run acts (.init q) = some e) : EmitInv q acts e := by
  simpa using emitInv_run acts [] _ e (emitInv_init q) h

/-- The first place of an element. -/
theorem start_split : ∀ (x y a b : List (EmitAct α)), .start ∉ x → .start ∉ y → x ++ .start :: a = y ++ .start :: b → x = y := by
  intro x
  induction x with
  | nil =>
    intro y a b _ hy heq
    cases y with
    | nil => rfl
    | cons z y => simp at heq; exact absurd (by simp [← heq.1]) hy
  | cons w x ih =>
    intro y a b hx hy heq
    cases y with
    | nil => simp at heq; exact absurd (by simp [heq.1]) hx
    | cons z y =>
      simp only [List.cons_append, List.cons.injEq] at heq
      rw [heq.1, ih y a b (fun h => hx (List.mem_cons_of_mem _ h)) (fun h => hy (List.mem_cons_of_mem _ h)) heq.2]

/-- A goroutine that ranges does not begin again. -/
theorem started_run (after : List (EmitAct α)) : ∀ (t : List (EmitAct α)) (e : Emitter α), e.ranged.isSome = true →
    Emitter.run (t ++ .start :: after) e = none := by
  intro t
  induction t with
  | nil => intro e1 h; simp [Emitter.run, Emitter.step, h]
  | cons x t ih =>
    intro e1 h
    simp only [List.cons_append, Emitter.run]
    split
    · rfl
    · rename_i e2 hs
      refine ih e2 ?_
      cases x <;> simp only [Emitter.step] at hs <;> (repeat' split at hs) <;> first | (cases hs; done) | (cases hs; simp_all)

theorem start_once (before after : List (EmitAct α)) (e e' : Emitter α) (hr : Emitter.run (before ++ .start :: after) e = some e') :
    .start ∉ before := by
  induction before generalizing e with
  | nil => simp
  | cons x s ih =>
    simp only [List.cons_append, Emitter.run] at hr
    split at hr
    · cases hr
    · rename_i e2 hs
      intro hm
      rcases List.mem_cons.1 hm with rfl | hm
      · have : e2.ranged.isSome = true := by
          simp only [Emitter.step] at hs
          split at hs
          · cases hs
          · cases hs; rfl
        rw [started_run after s e2 this] at hr
        cases hr
      · exact ih e2 hr hm

/-- What holds of a forwarder after some steps. -/
structure ForwardInv (acts : List (ForwardAct α)) (f : Forwarder α) : Prop where
  all : f.received ++ f.hand.toList ++ f.incoming = puts acts
  closed : f.closed = true → f.hand = none ∧ f.incoming = [] ∧ f.inClosed = true

theorem forwardInv_step {acts : List (ForwardAct α)} {f f' : Forwarder α} (h : ForwardInv acts f) (a : ForwardAct α) (hs : f.step a = some f') :
    ForwardInv (acts ++ [a]) f' := by
  obtain ⟨h1, h2⟩ := h
  cases a with
  | put x =>
    simp only [Forwarder.step] at hs
    split at hs
    · cases hs
    · rename_i hc
      cases hs
      refine ⟨by simp [puts_append, puts, ← h1], fun hcl => ?_⟩
      exact absurd (.inl (h2 hcl).2.2) hc
  | closeIn =>
    simp only [Forwarder.step] at hs
    split at hs
    · cases hs
    · cases hs
      exact ⟨by simpa [puts_append, puts] using h1, fun hcl => ⟨(h2 hcl).1, (h2 hcl).2.1, rfl⟩⟩
  | take =>
    simp only [Forwarder.step] at hs
    split at hs
    · rename_i x rest hh hi
      cases hs
      refine ⟨by simp [puts_append, puts, ← h1, hh, hi], fun hcl => ?_⟩
      rw [hi] at h2
      cases (h2 hcl).2.1
    · cases hs
  | send =>
    simp only [Forwarder.step] at hs
    split at hs
    · rename_i x hh
      cases hs
      refine ⟨by simp [puts_append, puts, ← h1, hh], fun hcl => ?_⟩
      rw [hh] at h2
      cases (h2 hcl).1
    · cases hs
  | close =>
    simp only [Forwarder.step] at hs
    split at hs
    · rename_i hc
      cases hs
      exact ⟨by simpa [puts_append, puts] using h1, fun _ => ⟨hc.1, hc.2.1, hc.2.2.1⟩⟩
    · cases hs

theorem forwardInv_run : ∀ (acts pre : List (ForwardAct α)) (f f' : Forwarder α), ForwardInv pre f → Forwarder.run acts f = some f' →
    ForwardInv (pre ++ acts) f'
  | [], pre, f, f', h, hr => by cases hr; simpa using h
  | a :: acts, pre, f, f', h, hr => by
    unfold Forwarder.run at hr
    split at hr
    · cases hr
    · rename_i f1 hs
      have := forwardInv_run acts (pre ++ [a]) f1 f' (forwardInv_step h a hs) hr
      simpa using this

theorem forwarder_inClosed (acts : List (ForwardAct α)) : ∀ (f f' : Forwarder α), Forwarder.run acts f = some f' → f'.inClosed = true →
    f.inClosed = true ∨ .closeIn ∈ acts := by
  induction acts with
  | nil => intro f f' hr hc; cases hr; exact .inl hc
  | cons a acts ih =>
    intro f f' hr hc
    unfold Forwarder.run at hr
    split at hr
    · cases hr
    · rename_i f1 hs
      rcases ih f1 f' hr hc with h | h
      · cases a <;> simp only [Forwarder.step] at hs <;> (repeat' split at hs) <;> first | (cases hs; done) | (cases hs; simp_all)
      · exact .inr (List.mem_cons_of_mem _ h)

theorem forwarder_run_inv {acts : List (ForwardAct α)} {f : Forwarder α} (h : Forwarder.run acts .init = some f) : ForwardInv acts f := by
  simpa using forwardInv_run acts [] _ f ⟨rfl, fun h => by cases h⟩ h

end Willow.Props
