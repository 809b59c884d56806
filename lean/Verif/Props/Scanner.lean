import Verif.Lemmas.Scanner
import Verif.Props.Commands

/-! Property theorem C137: the lines of a text are what the application gets. -/

namespace Willow.Props

open Willow Spec

/-- C137, partial: with a text of lines of fewer than 2^16 bytes on its input, of which the last may have no end, the
application prints and does what it does for the lines; the text ends it. Missing: longer lines (see
`C137_violated_long`). -/
theorem C137_lines_partial (env : Bytes → StoreEnv) (lib : SortLib) (readFile : Bytes → FileRead) (clock : Nat → UInt64)
    (lines : List (Bytes × Bytes)) (ht : ∀ l ∈ lines, Typable l.1 l.2) (last : List Bytes)
    (hlast : last = [] ∨ ∃ line, last = [line] ∧ line ≠ [] ∧ Typable line [10]) (app : AppState) :
    (∀ mode app', appRun env lib readFile (timed clock 0 (lines.map Prod.fst ++ last)) .menu app = .ok (some mode, app') →
      ∃ printed, appShown env lib readFile (timed clock 0 (lines.map Prod.fst ++ last)) .menu app = .ok (printed, mode, app') ∧
        appText env lib readFile clock (textOf lines ++ last.flatten) app = .ok (printed, app')) ∧
    (∀ app', appRun env lib readFile (timed clock 0 (lines.map Prod.fst ++ last)) .menu app = .ok (none, app') →
      ∃ printed, appText env lib readFile clock (textOf lines ++ last.flatten) app = .ok (printed, app')) ∧
    (appRun env lib readFile (timed clock 0 (lines.map Prod.fst ++ last)) .menu app = .crash →
      appText env lib readFile clock (textOf lines ++ last.flatten) app = .crash) := by
  have hscan : scans (textOf lines ++ last.flatten) = (lines.map Prod.fst ++ last).map some ++ [none, none] := by
    rw [scans_lines _ lines ht]
    have hl : scans last.flatten = last.map some ++ [none, none] := by
      rcases hlast with rfl | ⟨line, rfl, hne, hty⟩
      · rfl
      · have hs := hty.short
        rw [List.length_singleton] at hs
        have : ([line] : List Bytes).flatten = line ++ [] := by simp
        unfold scans
        rw [this, scanLoop_run line [] [] hty.feed (by simp [maxLine]; omega), List.nil_append, scanLoop, if_neg hne,
          dropCR_of hty.last]
        rfl
    rw [hl, List.map_append, List.map_map, List.append_assoc]
    rfl
  obtain ⟨h1, h2, h3⟩ := appScans_lines env lib readFile clock [none, none] (lines.map Prod.fst ++ last) 0 .menu app
  unfold appText
  rw [hscan]
  refine ⟨fun mode app' h => ?_, h2, h3⟩
  obtain ⟨printed, i1, i2⟩ := h1 mode app' h
  refine ⟨printed, i1, ?_⟩
  rw [i2]
  cases mode <;> simp [appScans, Res.bind]

/-- `new n`, `y` with a carriage return, and `set s a f` without an end. -/
example : Typable [110, 101, 119, 32, 110] [10] ∧ Typable [121] [13, 10] ∧ Typable [115, 101, 116, 32, 115, 32, 97, 32, 102] [10] ∧
    ((do
      let (_, app) ← appText exStores exSort exFiles (fun n => UInt64.ofNat n + 1)
        [110, 101, 119, 32, 110, 10, 121, 13, 10, 115, 101, 116, 32, 115, 32, 97, 32, 102] (appStart [])
      Res.ok (app.disk.map fun x => (x.1, x.2.1.kd.map fun k => k.pos))) = Res.ok [([110], [⟨[115], [[97]], 3⟩])]) :=
  ⟨⟨by decide, by decide, by decide, by decide⟩, ⟨by decide, by decide, by decide, by decide⟩,
    ⟨by decide, by decide, by decide, by decide⟩, by decide +kernel⟩

/-- C137 is violated by every line of 2^16 bytes or more: whatever comes after its first 2^16 bytes, this line and all others,
makes no difference; and the application ends in the state in which the line found it, without having said anything
about it, unless the line is typed in a namespace and begins with `new ` or `enter `. -/
theorem C137_violated_long (env : Bytes → StoreEnv) (lib : SortLib) (readFile : Bytes → FileRead) (clock : Nat → UInt64)
    (lines : List (Bytes × Bytes)) (ht : ∀ l ∈ lines, Typable l.1 l.2) (app app' : AppState) (mode : AppMode)
    (hrun : appRun env lib readFile (timed clock 0 (lines.map Prod.fst)) .menu app = .ok (some mode, app'))
    (long : Bytes) (hlen : long.length = 65536) (hfeed : (10 : UInt8) ∉ long) :
    (∀ more more', appText env lib readFile clock (textOf lines ++ (long ++ more)) app =
      appText env lib readFile clock (textOf lines ++ (long ++ more')) app) ∧
    ((∀ name st dir, mode ≠ .inside name st dir) ∨
        ¬ [110, 101, 119, 32] <+: long ∧ ¬ [101, 110, 116, 101, 114, 32] <+: long →
      ∀ more, ∃ printed, appText env lib readFile clock (textOf lines ++ (long ++ more)) app = .ok (printed, app')) := by
  have hscan : ∀ more, scans (textOf lines ++ (long ++ more)) = (lines.map Prod.fst).map some ++ [none, some (dropCR long), none, none] := by
    intro more
    rw [scans_lines _ lines ht, scans_long long more hfeed hlen, List.map_map]
    rfl
  refine ⟨fun more more' => ?_, fun h more => ?_⟩
  · unfold appText
    rw [hscan, hscan]
  obtain ⟨h1, _, _⟩ := appScans_lines env lib readFile clock [none, some (dropCR long), none, none] (lines.map Prod.fst) 0 .menu app
  obtain ⟨printed, _, i2⟩ := h1 mode app' hrun
  unfold appText
  rw [hscan, i2]
  cases hm : mode with
  | menu => exact ⟨_, rfl⟩
  | confirm name => exact ⟨_, rfl⟩
  | inside name st dir =>
    rcases h with h | ⟨hnew, henter⟩
    · exact absurd hm (h name st dir)
    have hl := dropCR_length long
    have hfirst : ∀ w : Bytes, (32 : UInt8) ∉ w → w.length < 65535 → ¬ w ++ [32] <+: long →
        (splitSpace (dropCR long)).getD 0 [] ≠ w := by
      intro w hw hwl hp h
      exact hp ((splitSpace_first w hw (dropCR long) (by omega) h).trans (dropCR_prefix long))
    have n1 := hfirst Word.new (by decide) (by decide) hnew
    have n2 := hfirst Word.enter (by decide) (by decide) henter
    simp only [appScans, appLine]
    rw [if_neg n1]
    by_cases he : (splitSpace (dropCR long)).getD 0 [] = Word.exit
    · rw [if_pos he]
      exact ⟨_, rfl⟩
    · rw [if_neg he, if_neg n2]
      exact ⟨_, rfl⟩

/-- `new n`, `y`, which lead into a namespace, and a `set` with the name of a file that is too long. -/
example : ((do
      let (mode, _) ← appRun exStores exSort exFiles (timed (fun _ => 1) 0 [[110, 101, 119, 32, 110], [121]]) .menu (appStart [])
      match mode with
      | some (.inside name _ _) => Res.ok name
      | _ => .err) = Res.ok [110]) ∧
    ∃ long : Bytes, long.length = 65536 ∧ (10 : UInt8) ∉ long ∧ ¬ [110, 101, 119, 32] <+: long ∧
    ¬ [101, 110, 116, 101, 114, 32] <+: long ∧ [115, 101, 116, 32, 97, 32, 98, 32] <+: long := by
  refine ⟨by decide +kernel, [115, 101, 116, 32, 97, 32, 98, 32] ++ List.replicate 65528 99, ?_, ?_, ?_, ?_, List.prefix_append _ _⟩
  · rw [List.length_append, List.length_replicate]; rfl
  · rw [List.mem_append, List.mem_replicate]; decide
  · rw [List.cons_append, List.cons_prefix_cons]; exact fun h => absurd h.1 (by decide)
  · rw [List.cons_append, List.cons_prefix_cons]; exact fun h => absurd h.1 (by decide)

end Willow.Props
