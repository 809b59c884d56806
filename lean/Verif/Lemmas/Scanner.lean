import Verif.Model.Scanner
import Verif.Spec.Scanner

/-! The scanner gives the lines of a text (C137). -/

namespace Willow.Props

open Willow Spec

theorem scanLoop_run (line rest : Bytes) : ∀ held : Bytes, (10 : UInt8) ∉ line → held.length + line.length < maxLine →
    scanLoop held (line ++ rest) = scanLoop (held ++ line) rest := by
  induction line with
  | nil => intro held _ _; simp
  | cons c line ih =>
    intro held hf hl
    rw [List.mem_cons, not_or] at hf
    rw [List.length_cons] at hl
    rw [List.cons_append, scanLoop, if_neg (fun h => hf.1 h.symm), if_neg (by omega)]
    rw [ih (held ++ [c]) hf.2 (by rw [List.length_append]; simp; omega)]
    simp

theorem dropCR_append (line : Bytes) : dropCR (line ++ [13]) = line := by
  unfold dropCR
  rw [List.getLast?_concat, if_pos rfl, List.dropLast_concat]

theorem dropCR_of {line : Bytes} (h : line.getLast? ≠ some 13) : dropCR line = line := by
  unfold dropCR
  rw [if_neg h]

theorem scans_line {line ending : Bytes} (h : Typable line ending) (rest : Bytes) :
    scanLoop [] (line ++ ending ++ rest) = some line :: scanLoop [] rest := by
  have hs := h.short
  rcases h.ends with rfl | rfl
  · rw [List.append_assoc, scanLoop_run line _ [] h.feed (by simp [maxLine] at hs ⊢; omega)]
    rw [List.nil_append, List.singleton_append, scanLoop, if_pos rfl, dropCR_of h.last]
  · have : line ++ [13, 10] ++ rest = (line ++ [13]) ++ 10 :: rest := by simp
    rw [this, scanLoop_run (line ++ [13]) _ [] (by simp [h.feed]) (by simp [maxLine] at hs ⊢; omega)]
    rw [List.nil_append, scanLoop, if_pos rfl, dropCR_append]

theorem scans_lines (rest : Bytes) : ∀ lines : List (Bytes × Bytes), (∀ l ∈ lines, Typable l.1 l.2) →
    scans (textOf lines ++ rest) = lines.map (fun l => some l.1) ++ scans rest
  | [], _ => rfl
  | l :: lines, h => by
    have ih := scans_lines rest lines fun x hx => h x (List.mem_cons_of_mem _ hx)
    unfold scans at ih ⊢
    unfold textOf at ih ⊢
    rw [List.flatMap_cons, List.append_assoc, scans_line (h l List.mem_cons_self), ih]
    rfl

/-- A line that is too long. -/
theorem scans_long (long more : Bytes) (hf : (10 : UInt8) ∉ long) (hl : long.length = maxLine) :
    scans (long ++ more) = [none, some (dropCR long), none, none] := by
  obtain ⟨pre, c, rfl⟩ : ∃ pre c, long = pre ++ [c] := by
    cases h : long.reverse with
    | nil => rw [List.reverse_eq_nil_iff] at h; subst h; exact absurd hl (by decide)
    | cons c r => exact ⟨r.reverse, c, by rw [← List.reverse_reverse long, h, List.reverse_cons]⟩
  rw [List.mem_append, not_or] at hf
  rw [List.length_append, List.length_singleton] at hl
  unfold scans
  rw [List.append_assoc, scanLoop_run pre _ [] hf.1 (by simp; omega), List.nil_append, List.singleton_append, scanLoop,
    if_neg (fun h => hf.2 (List.mem_singleton.2 h.symm)), if_pos hl]

/-- Lines one after the other and then something else. -/
theorem appScans_lines (env : Bytes → StoreEnv) (lib : SortLib) (readFile : Bytes → FileRead) (clock : Nat → UInt64)
    (rest : List (Option Bytes)) : ∀ (lines : List Bytes) (n : Nat) (mode : AppMode) (app : AppState),
    (∀ mode' app', appRun env lib readFile (timed clock n lines) mode app = .ok (some mode', app') →
      ∃ printed, appShown env lib readFile (timed clock n lines) mode app = .ok (printed, mode', app') ∧
        appScans env lib readFile clock n (lines.map some ++ rest) mode app =
          ((appScans env lib readFile clock (n + lines.length) rest mode' app').bind fun x => .ok (printed ++ x.1, x.2))) ∧
    (∀ app', appRun env lib readFile (timed clock n lines) mode app = .ok (none, app') →
      ∃ printed, appScans env lib readFile clock n (lines.map some ++ rest) mode app = .ok (printed, app')) ∧
    (appRun env lib readFile (timed clock n lines) mode app = .crash →
      appScans env lib readFile clock n (lines.map some ++ rest) mode app = .crash) := by
  intro lines
  induction lines with
  | nil =>
    intro n mode app
    refine ⟨fun mode' app' h => ?_, fun app' h => ?_, fun h => ?_⟩
    · cases h
      refine ⟨[], rfl, ?_⟩
      simp only [List.map_nil, List.nil_append, List.length_nil, Nat.add_zero]
      cases appScans env lib readFile clock n rest mode app <;> rfl
    · cases h
    · cases h
  | cons line lines ih =>
    intro n mode app
    simp only [timed, appRun, appShown, List.map_cons, List.cons_append, appScans]
    cases hl : appLine env lib readFile (clock n) mode app line with
    | err => exact ⟨fun _ _ h => (by cases h), fun _ h => (by cases h), fun h => (by cases h)⟩
    | block => exact ⟨fun _ _ h => (by cases h), fun _ h => (by cases h), fun h => (by cases h)⟩
    | crash => exact ⟨fun _ _ h => (by cases h), fun _ h => (by cases h), fun _ => rfl⟩
    | ok step =>
      simp only [Res.ok_bind]
      cases step with
      | exit app1 => exact ⟨fun _ _ h => (by cases h), fun _ h => (by cases h; exact ⟨_, rfl⟩), fun h => (by cases h)⟩
      | fatal => exact ⟨fun _ _ h => (by cases h), fun _ h => (by cases h; exact ⟨_, rfl⟩), fun h => (by cases h)⟩
      | next mode1 out app1 =>
        dsimp only
        obtain ⟨i1, i2, i3⟩ := ih (n + 1) mode1 app1
        refine ⟨fun mode' app' h => ?_, fun app' h => ?_, fun h => ?_⟩
        · obtain ⟨printed, j1, j2⟩ := i1 mode' app' h
          refine ⟨out :: printed, by rw [j1]; rfl, ?_⟩
          rw [j2, show n + 1 + lines.length = n + (lines.length + 1) by omega, List.length_cons]
          cases appScans env lib readFile clock (n + (lines.length + 1)) rest mode' app' <;> rfl
        · obtain ⟨printed, j⟩ := i2 app' h
          rw [j]
          exact ⟨_, rfl⟩
        · rw [i3 h]; rfl

/-- The first word of a line. -/
theorem splitSpace_head (w tail : Bytes) (hw : (32 : UInt8) ∉ w) : (splitSpace (w ++ 32 :: tail)).getD 0 [] = w := by
  induction w with
  | nil => simp [splitSpace]
  | cons c w ih =>
    rw [List.mem_cons, not_or] at hw
    have ih := ih hw.2
    rw [List.cons_append, splitSpace, if_neg (fun h => hw.1 h.symm)]
    cases h : splitSpace (w ++ 32 :: tail) with
    | nil => rw [h] at ih; simp at ih; subst ih; simp [splitSpace] at h
    | cons x more => rw [h] at ih; simp at ih; subst ih; simp

/-- A line whose first word is a short word begins with it and a blank. -/
theorem splitSpace_first (w : Bytes) (hw : (32 : UInt8) ∉ w) : ∀ line : Bytes, w.length < line.length →
    (splitSpace line).getD 0 [] = w → w ++ [32] <+: line := by
  induction w with
  | nil =>
    intro line hl h
    cases line with
    | nil => simp at hl
    | cons c line =>
      rw [splitSpace] at h
      by_cases hc : c = 32
      · subst hc; exact ⟨line, rfl⟩
      · rw [if_neg hc] at h
        cases hs : splitSpace line <;> rw [hs] at h <;> simp at h
  | cons a w ih =>
    intro line hl h
    rw [List.mem_cons, not_or] at hw
    cases line with
    | nil => simp at hl
    | cons c line =>
      rw [splitSpace] at h
      by_cases hc : c = 32
      · rw [if_pos hc] at h; simp at h
      · rw [if_neg hc] at h
        simp only [List.length_cons] at hl
        cases hs : splitSpace line with
        | nil =>
          rw [hs] at h
          simp at h
          obtain ⟨rfl, rfl⟩ := h
          cases line with
          | nil => simp at hl
          | cons d line =>
            rw [splitSpace] at hs
            by_cases hd : d = 32
            · rw [if_pos hd] at hs; cases hs
            · rw [if_neg hd] at hs
              cases hs2 : splitSpace line <;> rw [hs2] at hs <;> cases hs
        | cons x more =>
          rw [hs] at h
          simp at h
          obtain ⟨rfl, rfl⟩ := h
          obtain ⟨t, ht⟩ := ih hw.2 line (by omega) (by rw [hs]; rfl)
          exact ⟨t, by rw [List.cons_append, List.cons_append, ht]⟩

theorem dropCR_prefix (line : Bytes) : dropCR line <+: line := by
  unfold dropCR
  split
  · exact List.dropLast_prefix line
  · exact List.prefix_refl _

theorem dropCR_length (line : Bytes) : line.length - 1 ≤ (dropCR line).length := by
  unfold dropCR
  split
  · rw [List.length_dropLast]; exact Nat.le_refl _
  · omega

end Willow.Props
