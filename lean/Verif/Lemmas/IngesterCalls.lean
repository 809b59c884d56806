import Verif.Model.IngesterCalls

namespace Willow.Props

open Willow

theorem front_run_append (f : IngesterFront) (xs ys : List IngesterCall) :
    f.run (xs ++ ys) = (f.run xs).run ys := by
  simp [IngesterFront.run, List.foldl_append]

theorem front_run_one (f : IngesterFront) (c : IngesterCall) : f.run [c] = (f.call c).1 := rfl

/-- Calls that do not set the entry to request leave it as it is. -/
theorem front_run_quiet (calls : List IngesterCall)
    (h : ∀ c ∈ calls, c = .terminate ∨ ∃ e, c = .target e false) (f : IngesterFront) :
    (f.run calls).toRequest = f.toRequest := by
  induction calls generalizing f with
  | nil => rfl
  | cons c cs ih =>
    show ((f.call c).1.run cs).toRequest = _
    rw [ih (fun x hx => h x (List.mem_cons_of_mem _ hx))]
    rcases h c (by simp) with rfl | ⟨e, rfl⟩ <;> rfl

theorem front_toRequest (calls : List IngesterCall) (e : Entry) :
    (IngesterFront.new.run calls).toRequest = some e ↔
      ∃ before after, calls = before ++ .target e true :: after ∧
        ∀ c ∈ after, c = .terminate ∨ ∃ e', c = .target e' false := by
  constructor
  · intro h
    generalize hn : calls.length = n
    induction n generalizing calls with
    | zero =>
      cases List.length_eq_zero_iff.mp hn
      cases h
    | succ n ih =>
      obtain ⟨init, c, rfl⟩ : ∃ init c, calls = init ++ [c] := by
        refine ⟨calls.dropLast, calls.getLast (by intro h'; simp [h'] at hn), ?_⟩
        rw [List.dropLast_concat_getLast]
      rw [front_run_append, front_run_one] at h
      have hl : init.length = n := by simpa using hn
      rcases c with ⟨e', _ | _⟩ | ⟨b, isEnd⟩ | _
      · obtain ⟨before, after, rfl, ha⟩ := ih init h hl
        refine ⟨before, after ++ [.target e' false], by simp, ?_⟩
        intro c hc
        rcases List.mem_append.mp hc with hc | hc
        · exact ha c hc
        · exact .inr ⟨e', by simpa using hc⟩
      · have : e' = e := by simpa [IngesterFront.call] using h
        subst this
        exact ⟨init, [], rfl, by simp⟩
      · simp [IngesterFront.call] at h
      · obtain ⟨before, after, rfl, ha⟩ := ih init h hl
        refine ⟨before, after ++ [.terminate], by simp, ?_⟩
        intro c hc
        rcases List.mem_append.mp hc with hc | hc
        · exact ha c hc
        · exact .inl (by simpa using hc)
  · rintro ⟨before, after, rfl, ha⟩
    rw [front_run_append]
    show (((IngesterFront.new.run before).call (.target e true)).1.run after).toRequest = _
    rw [front_run_quiet after ha]
    rfl

end Willow.Props
