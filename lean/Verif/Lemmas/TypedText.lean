import Verif.Lemmas.Scanner
import Verif.Lemmas.PropsNotebook

/-! Lines in order as a text. -/

namespace Willow.Props

open Spec

theorem timed_map {α β : Type} (f : α → β) (clock : Nat → UInt64) (lines : List α) :
    ∀ n, timed clock n (lines.map f) = (timed clock n lines).map fun l => (l.1, f l.2) := by
  induction lines with
  | nil => intro n; rfl
  | cons l ls ih =>
    intro n
    rw [List.map_cons, timed, timed, List.map_cons, ih]

theorem timed_flat {α β : Type} (f : α → List β) (clock : Nat → UInt64) (lines : List α) :
    ∀ n, ((timed clock n lines).flatMap fun l => f l.2) = lines.flatMap f := by
  induction lines with
  | nil => intro n; rfl
  | cons l ls ih =>
    intro n
    rw [timed, List.flatMap_cons, List.flatMap_cons, ih]

theorem timed_length {α : Type} (clock : Nat → UInt64) (lines : List α) : ∀ n, (timed clock n lines).length = lines.length := by
  induction lines with
  | nil => intro n; rfl
  | cons l ls ih =>
    intro n
    rw [timed, List.length_cons, List.length_cons, ih]

theorem mem_timed {α : Type} {clock : Nat → UInt64} {lines : List α} {l : UInt64 × α} : ∀ {n}, l ∈ timed clock n lines → l.2 ∈ lines := by
  induction lines with
  | nil => intro n h; cases h
  | cons x ls ih =>
    intro n h
    rw [timed] at h
    rcases List.mem_cons.1 h with rfl | h
    · exact List.mem_cons_self
    · exact List.mem_cons_of_mem _ (ih h)

/-- Bytes of words are those of none but blanks. -/
theorem mem_spaced {c : UInt8} (ws : List Bytes) (h : c ∈ spaced ws) : c = 32 ∨ ∃ w ∈ ws, c ∈ w := by
  induction ws with
  | nil => cases h
  | cons w ws ih =>
    cases ws with
    | nil => exact .inr ⟨w, List.mem_cons_self, h⟩
    | cons v ws =>
      rcases List.mem_append.1 (show c ∈ w ++ 32 :: spaced (v :: ws) from h) with h | h
      · exact .inr ⟨w, List.mem_cons_self, h⟩
      · rcases List.mem_cons.1 h with h | h
        · exact .inl h
        · rcases ih h with h | ⟨x, hx, hc⟩
          · exact .inl h
          · exact .inr ⟨x, List.mem_cons_of_mem _ hx, hc⟩

theorem typed_noEnds (t : Typed) (ht : t.InOrder) : (10 : UInt8) ∉ t.text ∧ (13 : UInt8) ∉ t.text := by
  obtain ⟨ws, e1, e2⟩ := typed_words t ht
  rw [e1]
  constructor
  all_goals
    intro h
    rcases mem_spaced _ h with h | ⟨w, hw, hc⟩
    · revert h; decide
    · exact (e2 w hw).narrow _ hc (by decide)

theorem appLine_exit_head {env : Bytes → StoreEnv} {sort : SortLib} {readFile : Bytes → FileRead} {now : UInt64} {mode : AppMode}
    {app app' : AppState} {line : Bytes} (h : appLine env sort readFile now mode app line = .ok (.exit app')) :
    (splitSpace line).getD 0 [] = Word.exit := by
  have he : ∀ name, enterNamespace env app name ≠ .ok (.exit app') := by
    intro name e
    unfold enterNamespace at e
    by_cases hh : name ∈ app.held
    · rw [if_pos hh] at e; cases e
    · rw [if_neg hh] at e
      obtain ⟨st, _, e⟩ := Res.bind_eq_ok.1 e
      cases e
  cases mode with
  | menu =>
    simp only [appLine] at h
    by_cases h1 : (splitSpace line).getD 0 [] = Word.new
    · rw [if_pos h1] at h
      by_cases h2 : line ∈ app.known
      · rw [if_pos h2] at h; exact absurd h (he _)
      · rw [if_neg h2] at h
        revert h
        cases (splitSpace line)[1]? <;> intro h <;> cases h
    · rw [if_neg h1] at h
      by_cases h2 : (splitSpace line).getD 0 [] = Word.exit
      · exact h2
      · rw [if_neg h2] at h
        exfalso
        by_cases h3 : (splitSpace line).getD 0 [] = Word.enter
        · rw [if_pos h3] at h
          split at h
          · split at h
            · exact he _ h
            · cases h
          · cases h
        · rw [if_neg h3] at h; cases h
  | confirm name =>
    simp only [appLine] at h
    split at h
    · exact absurd h (he _)
    · cases h
  | inside name st dir =>
    simp only [appLine] at h
    obtain ⟨r, _, h⟩ := Res.bind_eq_ok.1 h
    cases r <;> cases h

/-- Without an `exit` the application runs on. -/
theorem appShown_run (env : Bytes → StoreEnv) (sort : SortLib) (readFile : Bytes → FileRead) (lines : List (UInt64 × Typed))
    (ht : ∀ l ∈ lines, l.2.InOrder) (he : ∀ l ∈ lines, l.2 ≠ .exit) : ∀ (mode : AppMode) (app : AppState) (printed : List Printed)
      (mode' : AppMode) (app' : AppState),
    appShown env sort readFile (lines.map fun l => (l.1, l.2.text)) mode app = .ok (printed, mode', app') →
    appRun env sort readFile (lines.map fun l => (l.1, l.2.text)) mode app = .ok (some mode', app') := by
  induction lines with
  | nil => intro mode app printed mode' app' h; cases h; rfl
  | cons l ls ih =>
    intro mode app printed mode' app' h
    rw [List.map_cons] at h ⊢
    rw [appShown] at h
    rw [appRun]
    obtain ⟨r, hr, h⟩ := Res.bind_eq_ok.1 h
    rw [hr, Res.ok_bind]
    cases r with
    | next mode1 out app1 =>
      obtain ⟨⟨outs, mode2, app2⟩, h2, h⟩ := Res.bind_eq_ok.1 h
      cases h
      exact ih (fun l hl => ht l (List.mem_cons_of_mem _ hl)) (fun l hl => he l (List.mem_cons_of_mem _ hl)) _ _ _ _ _ h2
    | exit app1 =>
      exfalso
      have hx := appLine_exit_head hr
      obtain ⟨ws, e⟩ := typed_split l.2 (ht l List.mem_cons_self)
      rw [e] at hx
      have hx : Typed.head l.2 = Word.exit := hx
      have h3 := he l List.mem_cons_self
      have h4 := ht l List.mem_cons_self
      revert hx h3 h4
      cases l.2 with
      | exit => intro _ h3; exact absurd rfl h3
      | other w ws => intro hx _ h4; exact h4.2.1 (by rw [show w = Word.exit from hx]; decide)
      | _ => simp only [Typed.head]; intro hx; exact absurd hx (by decide)
    | fatal => cases h

end Willow.Props
