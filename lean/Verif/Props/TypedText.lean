import Verif.Lemmas.TypedText
import Verif.Props.Notebook
import Verif.Props.Scanner

/-! Property theorem C131 for a text. -/

namespace Willow.Props

open Willow Spec

/-- C131, partial: a text of lines in order, each with a line feed or a carriage return and a line feed and fewer than 2^16 bytes, given
to the application as its standard input, shows what the book of notes shows. Missing: what is missing in `C131_sessions_partial`; `exit`, after which the
application does not read on. -/
theorem C131_text_partial (lib : KdLib) (sha : Bytes → Bytes) (hs : ∀ b, (sha b).length = 32) (sort : SortLib)
    (readFile : Bytes → FileRead) (clock : Nat → UInt64) (lines : List (Typed × Bytes)) (ht : ∀ l ∈ lines, l.1.InOrder)
    (hx : ∀ l ∈ lines, l.1 ≠ .exit) (hend : ∀ l ∈ lines, l.2 = [10] ∨ l.2 = [13, 10]) (hlen : ∀ l ∈ lines, l.1.text.length < 65535)
    (hl : lines.length < 2 ^ 64) (hc : NoCollision sha (lines.flatMap fun l => bytesTyped readFile l.1)) (shown : List Shown) (book : Book)
    (hb : Book.first.lines readFile (timed clock 0 (lines.map Prod.fst)) = some (shown, book)) :
    ∃ printed app, appText (appStore lib sha) sort readFile clock (lines.flatMap fun l => l.1.text ++ l.2) (appStart []) = .ok (printed, app) ∧
      ShowsAll shown printed := by
  have ht' : ∀ l ∈ timed clock 0 (lines.map Prod.fst), l.2.InOrder ∧ l.2 ≠ .exit := by
    intro l h
    obtain ⟨x, hm, e⟩ := List.mem_map.1 (mem_timed h)
    rw [← e]
    exact ⟨ht x hm, hx x hm⟩
  obtain ⟨printed, mode, app, h1, h2⟩ := C131_sessions_partial lib sha hs sort readFile (timed clock 0 (lines.map Prod.fst)) (fun l h => (ht' l h).1)
    (by rw [timed_length, List.length_map]; exact hl) (by
      rw [show ((timed clock 0 (lines.map Prod.fst)).flatMap fun l => bytesTyped readFile l.2) = lines.flatMap fun l => bytesTyped readFile l.1 from ?_]
      · exact hc
      · rw [timed_flat fun t => bytesTyped readFile t, List.flatMap_map]) shown book hb
  have h3 := appShown_run (appStore lib sha) sort readFile _ (fun l h => (ht' l h).1) (fun l h => (ht' l h).2) _ _ _ _ _ h1
  have e : ((timed clock 0 (lines.map Prod.fst)).map fun l => (l.1, l.2.text)) = timed clock 0 ((lines.map fun l => (l.1.text, l.2)).map Prod.fst ++ []) := by
    rw [← timed_map Typed.text, List.map_map, List.map_map, List.append_nil]
    rfl
  rw [e] at h1 h3
  obtain ⟨printed', h4, h5⟩ := (C137_lines_partial (appStore lib sha) sort readFile clock (lines.map fun l => (l.1.text, l.2)) (by
    intro l hin
    obtain ⟨x, hm, rfl⟩ := List.mem_map.1 hin
    obtain ⟨n1, n2⟩ := typed_noEnds x.1 (ht x hm)
    have := hlen x hm
    exact ⟨n1, fun h => n2 (List.mem_of_getLast? h), hend x hm, by
      rcases hend x hm with h | h <;> rw [h] <;> simp only [List.length_cons, List.length_nil] <;> omega⟩) [] (.inl rfl) (appStart [])).1 _ _ h3
  rw [h1] at h4
  cases h4
  refine ⟨printed, app, ?_, h2⟩
  rw [← h5]
  congr 1
  rw [textOf, List.flatMap_map]
  simp

/-- `new n`, `y`, `set s a f`, `list`. -/
example : let lines := [(Typed.new [110], [10]), (.yes, [13, 10]), (.set [115] [97] [102] none, [10]), (.list, [10])]
    (∀ l ∈ lines, l.1.InOrder ∧ l.1 ≠ .exit ∧ l.1.text.length < 65535) ∧
    NoCollision toySha (lines.flatMap fun l => bytesTyped exFiles l.1) ∧
    Book.first.lines exFiles (timed (fun n => UInt64.ofNat n + 1) 0 (lines.map Prod.fst)) ≠ none ∧
    lines.flatMap (fun l => l.1.text ++ l.2) =
      [110, 101, 119, 32, 110, 10, 121, 13, 10, 115, 101, 116, 32, 115, 32, 97, 32, 102, 10, 108, 105, 115, 116, 10] := by
  refine ⟨?_, ?_, by decide +kernel, by decide⟩
  · intro l hl
    simp only [List.mem_cons, List.not_mem_nil, or_false] at hl
    rcases hl with rfl | rfl | rfl | rfl <;> simp [Typed.InOrder] <;> decide
  · intro x hx y hy
    revert x y
    decide +kernel

end Willow.Props
