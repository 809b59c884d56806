import Verif.Lemmas.PropsTransfer
import Verif.Lemmas.IngesterCalls
import Verif.Spec.IngesterCalls

/-! C132 (payloads that end at once). -/

namespace Willow.Props

open Willow Spec

/-- C132, partial: `Terminate` right after `Target` with the wish gives the entry targeted, and right
after bytes were pushed, or without any entry targeted with the wish, gives nothing, whatever was called
before. Missing: it gives something only right after such a `Target` (see `C132_violated_other` and
`C132_violated_again`). -/
theorem C132_asked_partial (calls : List IngesterCall) :
    (∀ e, EndsAtOnce calls e → ((IngesterFront.new.run calls).call .terminate).2 = some (some e)) ∧
    (∀ before b isEnd, calls = before ++ [.push b isEnd] →
      ((IngesterFront.new.run calls).call .terminate).2 = some none) ∧
    ((∀ e, .target e true ∉ calls) → ((IngesterFront.new.run calls).call .terminate).2 = some none) := by
  refine ⟨?_, ?_, ?_⟩
  · rintro e ⟨before, rfl⟩
    rw [front_run_append]
    rfl
  · rintro before b isEnd rfl
    rw [front_run_append]
    rfl
  · intro h
    show some (IngesterFront.new.run calls).toRequest = _
    cases hx : (IngesterFront.new.run calls).toRequest with
    | none => rfl
    | some e =>
      obtain ⟨before, after, rfl, -⟩ := (front_toRequest calls e).mp hx
      exact absurd (by simp) (h e)

/-- Two entries. -/
def exTargets : Entry × Entry := (⟨[42], [7], [[1]], [1], 2, 5⟩, ⟨[42], [8], [[2]], [3], 4, 6⟩)

example : EndsAtOnce [.push [1] true, .target exTargets.1 true] exTargets.1 ∧
    ((IngesterFront.new.run [.target exTargets.1 true, .push [1] false]).call .terminate).2 = some none ∧
    ((IngesterFront.new.run [.target exTargets.1 false]).call .terminate).2 = some none :=
  ⟨⟨[.push [1] true], rfl⟩, rfl, rfl⟩

/-- C132, partial, exact: `Terminate` gives an entry exactly if it was targeted with the wish and since
then no bytes were pushed and no other entry was targeted with the wish. Missing: as before. -/
theorem C132_exact_partial (calls : List IngesterCall) (e : Entry) :
    ((IngesterFront.new.run calls).call .terminate).2 = some (some e) ↔
      ∃ before after, calls = before ++ .target e true :: after ∧
        (∀ b isEnd, .push b isEnd ∉ after) ∧ ∀ e', .target e' true ∉ after := by
  have h0 : ((IngesterFront.new.run calls).call .terminate).2 = some (some e) ↔
      (IngesterFront.new.run calls).toRequest = some e := by
    simp [IngesterFront.call]
  rw [h0, front_toRequest]
  constructor
  · rintro ⟨before, after, h, ha⟩
    refine ⟨before, after, h, fun b isEnd hb => ?_, fun e' he' => ?_⟩
    · rcases ha _ hb with h | ⟨_, h⟩ <;> cases h
    · rcases ha _ he' with h | ⟨_, h⟩ <;> cases h
  · rintro ⟨before, after, h, hb, ht⟩
    refine ⟨before, after, h, fun c hc => ?_⟩
    rcases c with ⟨e', _ | _⟩ | ⟨b, isEnd⟩ | _
    · exact .inr ⟨e', rfl⟩
    · exact absurd hc (ht e')
    · exact absurd hc (hb b isEnd)
    · exact .inl rfl

example : ((IngesterFront.new.run [.target exTargets.1 true, .target exTargets.2 true, .terminate,
    .target exTargets.1 false]).call .terminate).2 = some (some exTargets.2) := rfl

/-- C132 is violated, whatever was called before: when an entry is targeted without the wish after one
with it, `Terminate` gives the earlier one, whose payload has not been ended
(`/repo/pkg/wgps/data/payload_ingester.go:134-136` leaves the field as it is). -/
theorem C132_violated_other (calls : List IngesterCall) (e e' : Entry) :
    (∀ x, ¬ EndsAtOnce (calls ++ [.target e true, .target e' false]) x) ∧
    ((IngesterFront.new.run (calls ++ [.target e true, .target e' false])).call .terminate).2 =
      some (some e) := by
  constructor
  · rintro x ⟨before, h⟩
    have := congrArg List.getLast? h
    simp at this
  · rw [front_run_append]
    rfl

example : ((IngesterFront.new.run [.target exTargets.1 true, .target exTargets.2 false]).call .terminate).2 =
    some (some exTargets.1) := (C132_violated_other [] exTargets.1 exTargets.2).2

/-- C132 is violated, whatever was called before: a second `Terminate` gives the entry again, so its
payload is asked for twice. -/
theorem C132_violated_again (calls : List IngesterCall) (e : Entry) :
    (∀ x, ¬ EndsAtOnce (calls ++ [.target e true, .terminate]) x) ∧
    ((IngesterFront.new.run (calls ++ [.target e true, .terminate])).call .terminate).2 = some (some e) := by
  constructor
  · rintro x ⟨before, h⟩
    have := congrArg List.getLast? h
    simp at this
  · rw [front_run_append]
    rfl

example : ((IngesterFront.new.run [.target exTargets.1 true, .terminate]).call .terminate).2 =
    some (some exTargets.1) := (C132_violated_again [] exTargets.1).2

/-- C132: the events that the goroutine of the ingester gets are those of the calls in order: one for
each entry targeted, one for each piece pushed, and an end for each last piece and each `Terminate`;
whether a payload is wished for does not reach it. -/
theorem C132_events (calls : List IngesterCall) :
    (IngesterFront.new.run calls).events = calls.flatMap eventsOf := by
  suffices h : ∀ f : IngesterFront, (f.run calls).events = f.events ++ calls.flatMap eventsOf by
    rw [h]
    rfl
  induction calls with
  | nil => intro f; simp [IngesterFront.run]
  | cons c cs ih =>
    intro f
    show ((f.call c).1.run cs).events = _
    rw [ih]
    rcases c with ⟨e, r⟩ | ⟨b, _ | _⟩ | _ <;> simp [IngesterFront.call, IngesterOp.events, eventsOf]

example : (IngesterFront.new.run [.target exTargets.1 true, .push [1] true, .terminate]).events =
    [⟨some exTargets.1, [], false⟩, ⟨none, [1], false⟩, ⟨none, [], true⟩, ⟨none, [], true⟩] := by
  rw [C132_events]
  rfl

/-- C132: no call waits for good, whatever the order of the steps of callers and ingester: after any `n` steps the events are in
order, some handled, at most 32 in the channel, some still to be sent; while not all are handled a further step is possible; and
after twice as many steps as events all are handled, in the order of the calls. -/
theorem C132_channel (process : Bytes → UInt64 → Bytes) (calls : List IngesterCall) (n : Nat) (r : IngesterRun)
    (h : IngesterRun.Steps process n ⟨(IngesterFront.new.run calls).events, [], [], .new⟩ r) :
    r.handled ++ r.channel ++ r.pending = (IngesterFront.new.run calls).events ∧ r.channel.length ≤ 32 ∧
    n = 2 * r.handled.length + r.channel.length ∧
    (r.handled ≠ (IngesterFront.new.run calls).events → ∃ r', IngesterRun.Step process r r') ∧
    (n = 2 * (IngesterFront.new.run calls).events.length ↔ r.handled = (IngesterFront.new.run calls).events) := by
  generalize hev : (IngesterFront.new.run calls).events = evs at h
  have key : ∀ {n r}, IngesterRun.Steps process n ⟨evs, [], [], .new⟩ r → r.handled ++ r.channel ++ r.pending = evs ∧ r.channel.length ≤ 32 ∧
      n = 2 * r.handled.length + r.channel.length ∧ r.state = .new := by
    intro n r h
    generalize hs : (⟨evs, [], [], .new⟩ : IngesterRun) = start at h
    induction h with
    | done r => subst hs; simp
    | step first last ih =>
      obtain ⟨h1, h2, h3, h4⟩ := ih hs
      cases last with
      | send e pending channel handled s room =>
        refine ⟨by simpa using h1, ?_, ?_, h4⟩
        · simp only [List.length_append, List.length_singleton]; omega
        · simp only [List.length_append, List.length_singleton] at h3 ⊢; omega
      | receive e pending channel handled s s' hh =>
        have h4 : s = .new := h4
        rw [h4, handle_new] at hh
        cases hh
        refine ⟨by simpa using h1, ?_, ?_, rfl⟩
        · simp only [List.length_cons] at h2; show channel.length ≤ 32; omega
        · simp only [List.length_cons, List.length_append, List.length_nil] at h3 ⊢; omega
  obtain ⟨h1, h2, h3, h4⟩ := key h
  have hl := congrArg List.length h1
  simp only [List.length_append] at hl
  refine ⟨h1, h2, h3, fun hne => ?_, ?_⟩
  · obtain ⟨pending, channel, handled, s⟩ := r
    have h4 : s = .new := h4
    subst h4
    cases channel with
    | cons e channel => exact ⟨_, .receive e pending channel handled .new .new (handle_new process e)⟩
    | nil =>
      cases pending with
      | cons e pending => exact ⟨_, .send e pending [] handled .new (by decide)⟩
      | nil => exact absurd (by simpa using h1) hne
  · constructor
    · intro e
      have hc : r.channel = [] := List.length_eq_zero_iff.1 (by omega)
      have hp : r.pending = [] := List.length_eq_zero_iff.1 (by omega)
      rw [hc, hp] at h1
      simpa using h1
    · intro e
      rw [e] at h3 hl
      omega

/-- Two calls: a step of the caller, one of the ingester, another of the caller. -/
example : let calls := [IngesterCall.push [1] false, .terminate]
    IngesterRun.Steps (fun b _ => b) 3 ⟨(IngesterFront.new.run calls).events, [], [], .new⟩ ⟨[], [⟨none, [], true⟩], [⟨none, [1], false⟩], .new⟩ :=
  .step (.step (.step (.done _) (.send _ _ _ _ _ (by decide))) (.receive _ _ _ _ _ _ rfl)) (.send _ _ _ _ _ (by decide))

end Willow.Props
