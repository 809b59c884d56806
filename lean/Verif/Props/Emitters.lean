import Verif.Lemmas.PropsEmitters

/-! C105 (queues sent through channels), and the namespace of a handle (C63). -/

namespace Willow.Props

open Willow Spec

variable {α : Type}

/-- C105: elements of a queue are received through the channel in the order in which they were
queued, and none that was not queued. A channel that is closed without the context being done has
delivered everything queued before the goroutine began to range. Missing: everything queued is received
(`C105_violated_late`), and once (`C105_violated_again`). -/
theorem C105_order_partial (q : List α) (acts : List (EmitAct α)) (e : Emitter α) (hr : Emitter.run acts (.init q) = some e) :
    e.received <+: q ++ gives acts ∧
    (e.closed = true → .cancel ∉ acts → ∃ before after, acts = before ++ .start :: after ∧ e.received = q ++ gives before) := by
  have h := emitter_run_inv hr
  cases hn : e.ranged with
  | none =>
    obtain ⟨h1, h2, h3, h4⟩ := h.idle hn
    exact ⟨by simp [h1], fun hc => by simp [h3] at hc⟩
  | some l =>
    obtain ⟨before, after, h1, h2, h3, h4, h5, h6⟩ := h.busy l hn
    refine ⟨?_, fun hc hcan => ⟨before, after, h1, ?_⟩⟩
    · rw [h5, h1, gives_append, h3, ← List.append_assoc]
      exact (List.take_prefix _ _).trans (List.prefix_append _ _)
    · rcases h6 hc with h6 | h6
      · rw [h5, h6, List.take_length, h3]
      · exact absurd (h.cancel.1 h6) hcan

example : ∃ e, Emitter.run [.give 3, .start, .send, .give 4, .send, .close] (.init [1]) = some e ∧ e.closed = true ∧ e.received = [1, 3] := by
  decide +kernel

/-- C105: when nothing is queued after the goroutine began to range and the context is not done, a
closed channel has delivered everything. Missing: without these conditions. -/
theorem C105_all_partial (q : List α) (before after : List (EmitAct α)) (e : Emitter α)
    (hr : Emitter.run (before ++ .start :: after) (.init q) = some e) (hlate : gives after = [])
    (hcan : .cancel ∉ before ++ .start :: after) (hc : e.closed = true) :
    e.received = q ++ gives (before ++ .start :: after) := by
  have h := emitter_run_inv hr
  cases hn : e.ranged with
  | none => exact absurd (by simp) (h.idle hn).2.2.2
  | some l =>
    obtain ⟨b, a, h1, h2, h3, h4, h5, h6⟩ := h.busy l hn
    have hg : q ++ gives (before ++ .start :: after) = l := by
      have hb : before = b := start_split _ _ _ _ (start_once before after _ _ hr) h2 h1
      rw [h3, gives_append, hb]
      simp [gives, hlate]
    rcases h6 hc with h6 | h6
    · rw [h5, h6, List.take_length, hg]
    · exact absurd (h.cancel.1 h6) hcan

example : ∃ e, Emitter.run ([.give 3, .give 4] ++ .start :: [.send, .send, .send, .close]) (.init [1]) = some e ∧ e.closed = true ∧
    e.received = [1, 3, 4] := by decide +kernel

/-- C105: once the goroutine ranges, it can send or close until the channel is closed, so a reader
waits for nothing else, whatever happened before. Missing: the first step of a goroutine depends on
the scheduler. -/
theorem C105_progress_partial (q : List α) (acts : List (EmitAct α)) (e : Emitter α) (hr : Emitter.run acts (.init q) = some e)
    (hs : .start ∈ acts) (hc : e.closed = false) : (∃ e', e.step .send = some e') ∨ (∃ e', e.step .close = some e' ∧ e'.closed = true) := by
  have h := emitter_run_inv hr
  cases hn : e.ranged with
  | none => exact absurd hs (h.idle hn).2.2.2
  | some l =>
    by_cases hl : e.sent < l.length
    · left
      refine ⟨{ e with sent := e.sent + 1, received := e.received ++ [l[e.sent]] }, ?_⟩
      simp [Emitter.step, hn, hc, List.getElem?_eq_getElem hl]
    · right
      refine ⟨{ e with closed := true }, ?_, rfl⟩
      simp [Emitter.step, hn, hc]
      omega

example : ∃ e, Emitter.run [.start, .send, .cancel] (.init [1, 2]) = some e ∧ e.closed = false ∧ (e.step .send).isSome = true := by
  decide +kernel

/-- C105 is violated: what is queued after the goroutine has begun to range is not received, whatever
happens afterwards, though it is queued before the channel is closed. The loops range over a slice,
which Go evaluates once, where the comments suppose a channel
(`/repo/pkg/wgps/pai/pai_finder.go:460`, `/repo/pkg/wgps/reconciliation/aoi_intersection_finder.go:161`).
So intersections found after `Intersections` was called are never delivered. -/
theorem C105_violated_late (q : List α) (x : α) (before after : List (EmitAct α)) (e : Emitter α) (hb : gives before = [])
    (hr : Emitter.run (before ++ .start :: .give x :: after) (.init q) = some e) :
    e.received <+: q ∧ e.queue = q ++ [x] ++ gives after := by
  have h := emitter_run_inv hr
  refine ⟨?_, by rw [h.queue, gives_append, hb]; simp [gives]⟩
  cases hn : e.ranged with
  | none => rw [(h.idle hn).1]; exact List.nil_prefix
  | some l =>
    obtain ⟨b, a, h1, h2, h3, h4, h5, h6⟩ := h.busy l hn
    have hsub : gives b = [] := by
      rcases List.append_eq_append_iff.1 h1 with ⟨t, h7, h8⟩ | ⟨t, h7, h8⟩
      · cases t with
        | nil => rw [h7]; simpa using hb
        | cons y t =>
          exfalso
          simp only [List.cons_append, List.cons.injEq] at h8
          exact h2 (by rw [h7, ← h8.1]; simp)
      · have := congrArg gives h7
        rw [gives_append, hb] at this
        exact (List.append_eq_nil_iff.1 this.symm).1
    rw [h5, h3, hsub, List.append_nil]
    exact List.take_prefix _ _

example : ∃ e, Emitter.run [.start, .give 2, .send, .close] (.init [1]) = some e ∧ e.queue = [1, 2] ∧ e.received = [1] ∧ e.closed = true := by
  decide +kernel

/-- C105 is violated: nothing is removed from the queue, so a second call delivers the elements of the
first again (`/repo/pkg/wgps/reconciliation/aoi_intersection_finder.go:161-164`): after a first call
that delivered everything, a second one that ends has delivered all of it too. -/
theorem C105_violated_again (q : List α) (acts acts' : List (EmitAct α)) (e e' : Emitter α) (hg : gives acts = []) (hg' : gives acts' = [])
    (hcan : .cancel ∉ acts) (hcan' : .cancel ∉ acts') (hr : Emitter.run acts (.init q) = some e) (hc : e.closed = true)
    (hr' : Emitter.run acts' (.init e.queue) = some e') (hc' : e'.closed = true) : e.received = q ∧ e'.received = q := by
  have hq : e.queue = q := by rw [(emitter_run_inv hr).queue, hg, List.append_nil]
  rw [hq] at hr'
  have key : ∀ (acts : List (EmitAct α)) (e : Emitter α), gives acts = [] → .cancel ∉ acts → Emitter.run acts (.init q) = some e → e.closed = true →
      e.received = q := by
    intro acts e hg hcan hr hc
    obtain ⟨before, after, h1, h2⟩ := (C105_order_partial q acts e hr).2 hc hcan
    rw [h1, gives_append] at hg
    rw [h2, (List.append_eq_nil_iff.1 hg).1, List.append_nil]
  exact ⟨key acts e hg hcan hr hc, key acts' e' hg' hcan' hr' hc'⟩

example : ∃ e e', Emitter.run [.start, .send, .send, .close] (.init [1, 2]) = some e ∧ e.closed = true ∧
    Emitter.run [.start, .send, .send, .close] (.init e.queue) = some e' ∧ e'.received = [1, 2] :=
  ⟨_, _, rfl, rfl, rfl, rfl⟩

/-- C105, announcements: they are received in the order in which they were put, and the channel is
closed only when all have been received and `AnnounceQueue` is closed. Missing: nothing in the
repository puts an announcement or closes the queue (`C105_violated_announcements`). -/
theorem C105_announcements_partial (acts : List (ForwardAct α)) (f : Forwarder α) (hr : Forwarder.run acts .init = some f) :
    f.received <+: puts acts ∧ (f.closed = true → f.received = puts acts ∧ .closeIn ∈ acts) := by
  have h := forwarder_run_inv hr
  refine ⟨by rw [← h.all, List.append_assoc]; exact List.prefix_append _ _, fun hc => ?_⟩
  obtain ⟨h1, h2, h3⟩ := h.closed hc
  refine ⟨by rw [← h.all, h1, h2]; simp, ?_⟩
  rcases forwarder_inClosed acts _ f hr h3 with h | h
  · cases h
  · exact h

example : ∃ f, Forwarder.run [.put 1, .take, .put 2, .send, .closeIn, .take, .send, .close] .init = some f ∧ f.closed = true ∧ f.received = [1, 2] := by
  decide +kernel

/-- C105 is violated: no line of the repository writes to `AnnounceQueue` or closes it (it is named
only at `/repo/pkg/wgps/reconciliation/reconciler.go:41,63,226`). Without either, `announcements`
delivers nothing and its channel is never closed: a reader waits for ever. -/
theorem C105_violated_announcements (acts : List (ForwardAct α)) (f : Forwarder α) (hr : Forwarder.run acts .init = some f)
    (hp : puts acts = []) (hc : .closeIn ∉ acts) :
    f.received = [] ∧ f.closed = false ∧ f.step .take = none ∧ f.step .send = none ∧ f.step .close = none := by
  have h := forwarder_run_inv hr
  obtain ⟨h1, h2⟩ := C105_announcements_partial acts f hr
  have hall := h.all
  rw [hp] at hall
  obtain ⟨h3, h4⟩ := List.append_eq_nil_iff.1 hall
  obtain ⟨h5, h6⟩ := List.append_eq_nil_iff.1 h3
  have hh : f.hand = none := by cases hf : f.hand with
    | none => rfl
    | some x => rw [hf] at h6; cases h6
  have hin : f.inClosed = false := by
    cases hi : f.inClosed with
    | false => rfl
    | true =>
      rcases forwarder_inClosed acts _ f hr hi with h | h
      · cases h
      · exact absurd h hc
  have hcl : f.closed = false := by
    cases hcl : f.closed with
    | false => rfl
    | true => exact absurd ((h2 hcl).2) hc
  exact ⟨h5, hcl, by simp [Forwarder.step, hh, h4], by simp [Forwarder.step, hh], by simp [Forwarder.step, hin]⟩

example : Forwarder.run ([] : List (ForwardAct Nat)) .init = some .init := rfl

/-! ### C63 -/

/-- C63, the namespace of a handle: after any additions a finder gives for a handle of a side the
namespace with which it was last added, and the zero namespace for others. Missing: the zero namespace
does not say that a handle is unknown. -/
theorem C63_namespace_partial (env : FinderEnv) (adds : List (UInt64 × Bytes × Bool)) (handle : UInt64) (ours : Bool) :
    (AoiFinder.run env adds).namespaceOf handle ours = (lastAdded handle ours adds).getD [] := by
  have key : ∀ (adds : List (UInt64 × Bytes × Bool)) (f : AoiFinder),
      (adds.foldl (fun f a => f.add env a.1 a.2.1 a.2.2) f).namespaceOf handle ours = (lastAdded handle ours adds).getD (f.namespaceOf handle ours) := by
    intro adds
    induction adds with
    | nil => intro f; rfl
    | cons a adds ih =>
      intro f
      obtain ⟨h, n, o⟩ := a
      simp only [List.foldl_cons, ih, lastAdded]
      cases lastAdded handle ours adds with
      | some x => rfl
      | none =>
        simp only [Option.getD_none]
        cases o <;> cases ours <;> simp [AoiFinder.add, AoiFinder.namespaceOf, GoMap.get_set]
        all_goals (split <;> rename_i hh <;> simp_all [eq_comm])
  rw [AoiFinder.run, key]
  cases ours <;> rfl

example : (AoiFinder.run ⟨fun _ _ => false, fun _ => none, fun _ => none, id, fun _ => .refl _⟩ [(1, [7], true), (2, [8], false), (1, [9], true)]).namespaceOf 1 true = [9] := by
  decide +kernel

end Willow.Props
