import Verif.Lemmas.PropsNotebook

/-! # The application as a book of notes (C131) -/

namespace Willow.Props

open Spec

/-- C131, partial: whatever lines in order are typed from an empty disk on, also with the application ended and started again,
what is printed line by line is what the book of notes shows, as long as the book promises anything. Missing: files that
cannot be read (see `C131_violated_file`), `get` on an empty page (see `C131_violated_get`), midnight (see
`C131_violated_midnight`) and paths of 50 bytes and more (see `C131_violated_path`). -/
theorem C131_sessions_partial (lib : KdLib) (sha : Bytes → Bytes) (hs : ∀ b, (sha b).length = 32) (sort : SortLib)
    (readFile : Bytes → FileRead) (lines : List (UInt64 × Typed)) (ht : ∀ l ∈ lines, l.2.InOrder) (hl : lines.length < 2 ^ 64)
    (hc : NoCollision sha (lines.flatMap fun l => bytesTyped readFile l.2)) (shown : List Shown) (book : Book)
    (hb : Book.first.lines readFile lines = some (shown, book)) :
    ∃ printed mode app, appShown (appStore lib sha) sort readFile (lines.map fun l => (l.1, l.2.text)) .menu (appStart []) =
      .ok (printed, mode, app) ∧ ShowsAll shown printed := by
  obtain ⟨printed, mode, app, h1, h2, _⟩ := book_lines hs hc sort readFile lines 0 Book.first book .menu (appStart []) shown (by omega)
    (agrees_first lib sha _) ht (fun l hl b hb => List.mem_flatMap.2 ⟨l, hl, hb⟩) hb
  exact ⟨printed, mode, app, h1, h2⟩

/-- `new n`, `y`, `set s a/b f`, `set s a g`, `set s a h 00:01`, `list`, `get s a`, `exit`, `enter n` (not known yet), `exit`,
`enter n`, `get s a/b`, `list`. -/
def exBookLines : List (UInt64 × Typed) :=
  [(10, .new [110]), (20, .yes), (30, .set [115] [97, 47, 98] [102] none), (40, .set [115] [97] [103] none),
   (50, .set [115] [97] [104] (some (0, 1))), (60, .list), (70, .get [115] [97]), (80, .exit), (90, .enter [110]), (100, .exit),
   (110, .enter [110]), (120, .get [115] [97, 47, 98]), (130, .list)]

example : (∀ l ∈ exBookLines, l.2.InOrder) ∧ NoCollision toySha (exBookLines.flatMap fun l => bytesTyped exFiles l.2) ∧
    (Book.first.lines exFiles exBookLines).isSome = true := by
  refine ⟨?_, ?_, by decide +kernel⟩
  · intro l hl
    simp only [exBookLines, List.mem_cons, List.not_mem_nil, or_false] at hl
    rcases hl with rfl | rfl | rfl | rfl | rfl | rfl | rfl | rfl | rfl | rfl | rfl | rfl | rfl <;>
      simp [Typed.InOrder] <;> decide
  · have : (exBookLines.flatMap fun l => bytesTyped exFiles l.2) = [[102], [115], [103], [115], [104], [115]] := by decide +kernel
    rw [this]
    intro x hx y hy
    revert x y
    decide +kernel

example : (do
    let (printed, _, _) ← appShown exStores exSort exFiles (exBookLines.map fun l => (l.1, l.2.text)) .menu (appStart [])
    Res.ok printed) = Res.ok [.message, .message, .pruned [], .pruned [([115], [97, 47, 98], 30)], .pruned [],
      .listing [([115], 60000000, [97])], .payload [104], .message, .message, .message, .message, .payload [],
      .listing [([115], 60000000, [97])]] := by
  decide +kernel

/-- C131 is violated: `get` on an empty page, where no bytes should be shown as they are for a path without a note on any other
page, ends the application. -/
theorem C131_violated_get (lib : KdLib) (sha : Bytes → Bytes) (sort : SortLib) (readFile : Bytes → FileRead) (t1 t2 t3 : UInt64)
    (n s p : Bytes) (hw : ∀ w ∈ [n, s, p], IsWord w) :
    appShown (appStore lib sha) sort readFile ([(t1, Typed.new n), (t2, .yes), (t3, .get s p)].map fun l => (l.1, l.2.text)) .menu (appStart []) =
      .crash := by
  refine (shown_entered _ sort readFile t1 t2 n (hw n (by simp)) [] [] [] (by simp) _).trans ?_
  have e : enterNamespace (appStore lib sha) ⟨[], [], []⟩ n = .ok (.next (.inside n .empty false) .message ⟨[(n, .empty, false)], [], []⟩) := rfl
  have h := C97_violated_get lib sha n sort readFile t3 s p (fun w hx => hw w (List.mem_cons_of_mem _ hx))
  rw [e]
  simp only [Res.ok_bind, List.map_cons, List.map_nil, appShown, appLine]
  rw [show (Typed.get s p).text = spaced [Word.get, s, p] from rfl, h]
  rfl

/-- C131 is violated: a note for midnight is not taken, and the namespace cannot be entered any more until the application is
started again: trying it ends the application. -/
theorem C131_violated_midnight (lib : KdLib) (sha : Bytes → Bytes) (sort : SortLib) (readFile : Bytes → FileRead) (t1 t2 t3 t4 t5 : UInt64)
    (n s p f b : Bytes) (hw : ∀ w ∈ [n, s, p, f], IsWord w) (hf : readFile f = .contents b) :
    appShown (appStore lib sha) sort readFile
      ([(t1, Typed.new n), (t2, .yes), (t3, .set s p f (some (0, 0))), (t4, .new n), (t5, .yes)].map fun l => (l.1, l.2.text)) .menu (appStart []) =
      .crash := by
  refine shown_locked _ sort readFile t1 t2 t3 t4 t5 n _ (hw n (by simp)) ?_
  have key := nsLine_words (appStore lib sha n) sort readFile t3 .empty false Word.set s [p, f, clockText 0 0] (by
    intro x hx
    simp only [List.mem_cons, List.not_mem_nil, or_false] at hx
    rcases hx with rfl | rfl | rfl | rfl | rfl
    · decide
    · exact hw _ (by simp)
    · exact hw _ (by simp)
    · exact hw _ (by simp)
    · decide)
  rw [if_neg (by decide), if_pos rfl] at key
  refine key.trans ?_
  simp [setLine, hf, setCommand, show parseTimeStampToMicroSeconds (clockText 0 0) = 0 by decide +kernel]

/-- C131 is violated: the name of a file that cannot be read has the same effect. -/
theorem C131_violated_file (lib : KdLib) (sha : Bytes → Bytes) (sort : SortLib) (readFile : Bytes → FileRead) (t1 t2 t3 t4 t5 : UInt64)
    (n s p f : Bytes) (hw : ∀ w ∈ [n, s, p, f], IsWord w) (hf : readFile f = .unreadable) :
    appShown (appStore lib sha) sort readFile
      ([(t1, Typed.new n), (t2, .yes), (t3, .set s p f none), (t4, .new n), (t5, .yes)].map fun l => (l.1, l.2.text)) .menu (appStart []) =
      .crash := by
  refine shown_locked _ sort readFile t1 t2 t3 t4 t5 n _ (hw n (by simp)) ?_
  have key := nsLine_words (appStore lib sha n) sort readFile t3 .empty false Word.set s [p, f] (by
    intro x hx
    simp only [List.mem_cons, List.not_mem_nil, or_false] at hx
    rcases hx with rfl | rfl | rfl | rfl
    · decide
    · exact hw _ (by simp)
    · exact hw _ (by simp)
    · exact hw _ (by simp))
  rw [if_neg (by decide), if_pos rfl] at key
  refine key.trans ?_
  simp [setLine, hf]

example : exFiles [102] = .contents [102] ∧ exFiles [100] = .unreadable ∧ ∀ w ∈ ([[110], [115], [97], [102], [100]] : List Bytes), IsWord w :=
  ⟨rfl, rfl, by decide +kernel⟩

/-- C131 is violated: a note at a path of 50 bytes without slashes, not all of them 255, is listed with another path and is
not got back. -/
theorem C131_violated_path (lib : KdLib) (sha : Bytes → Bytes) (hs : ∀ b, (sha b).length = 32) (sort : SortLib)
    (readFile : Bytes → FileRead) (t1 t2 t3 t4 t5 : UInt64) (n s p f b : Bytes) (hw : ∀ w ∈ [n, s, p, f], IsWord w)
    (hf : readFile f = .contents b) (hlen : p.length = 50) (hslash : (47 : UInt8) ∉ p) (hff : ∃ c ∈ p, c ≠ 255) :
    ∃ p' mode app, p' ≠ p ∧ appShown (appStore lib sha) sort readFile
      ([(t1, Typed.new n), (t2, .yes), (t3, .set s p f none), (t4, .list), (t5, .get s p)].map fun l => (l.1, l.2.text)) .menu (appStart []) =
      .ok ([.message, .message, .pruned [], .listing [(s, t3, p')], .payload []], mode, app) := by
  obtain ⟨p', st', -, hlt, h1, h2, -, -⟩ := set_fullText lib sha n hs [] (by simp) .empty rfl s (by intro k hk; cases hk) t3 0 (by omega) p b hlen hslash hff
  obtain ⟨st'', h3, h4⟩ := C82_violated lib sha n hs [] (by simp) .empty rfl s (by intro k hk; cases hk) t3 0 (by omega) p b hlen hslash hff
  rw [h1] at h3
  cases h3
  have hwset : ∀ w ∈ Word.set :: s :: [p, f], IsWord w := by
    intro x hx
    simp only [List.mem_cons, List.not_mem_nil, or_false] at hx
    rcases hx with rfl | rfl | rfl | rfl
    · decide
    · exact hw _ (by simp)
    · exact hw _ (by simp)
    · exact hw _ (by simp)
  have hset : nsLine (appStore lib sha n) sort readFile t3 .empty false (spaced [Word.set, s, p, f]) = .ok (.stay (.pruned []) st' true) := by
    have key := nsLine_words (appStore lib sha n) sort readFile t3 .empty false Word.set s [p, f] hwset
    rw [if_neg (by decide), if_pos rfl] at key
    refine key.trans ?_
    have h1' : setCommand (appStore lib sha n) .empty t3 s p b none = some (.ok (some [], st')) := h1
    simp [setLine, hf, h1', printAll]
  have hlist : nsLine (appStore lib sha n) sort readFile t4 st' true Word.list = .ok (.stay (.listing [(s, t3, p')]) st' true) := by
    have hk : sort.sorted (storeList (appStore lib sha n) st') = [⟨⟨s, [p'], t3⟩, []⟩] := by
      refine List.perm_singleton.1 ((sort.perm _).trans ((lib.valuesPerm st'.kd).trans ?_))
      rw [h2]
      exact List.Perm.refl _
    unfold nsLine
    rw [if_neg (by decide)]
    dsimp only
    rw [if_neg (by decide), if_neg (by decide), if_neg (by decide), if_pos (by decide), hk]
    rfl
  have hget : nsLine (appStore lib sha n) sort readFile t5 st' true (spaced [Word.get, s, p]) = .ok (.stay (.payload []) st' true) := by
    have key := nsLine_words (appStore lib sha n) sort readFile t5 st' true Word.get s [p] (by
      intro x hx
      simp only [List.mem_cons, List.not_mem_nil, or_false] at hx
      rcases hx with rfl | rfl | rfl
      · decide
      · exact hw _ (by simp)
      · exact hw _ (by simp))
    rw [if_neg (by decide), if_neg (by decide), if_pos rfl] at key
    refine key.trans ?_
    have h4' : getCommand (appStore lib sha n) st' s p = .ok [] := h4
    simp [getLine, h4', Res.bind]
  let disk : GoMap Bytes (StoreState × Bool) := [(n, .empty, false)]
  refine ⟨p', .inside n st' true, ⟨((disk.set n (st', true)).set n (st', true)).set n (st', true), [], []⟩, fun h => by subst h; exact bytesLt_strictTotal.irrefl _ hlt, ?_⟩
  refine (shown_entered _ sort readFile t1 t2 n (hw n (by simp)) [] [] [] (by simp) _).trans ?_
  have e : enterNamespace (appStore lib sha) ⟨[], [], []⟩ n = .ok (.next (.inside n .empty false) .message ⟨[(n, .empty, false)], [], []⟩) := rfl
  rw [e]
  simp only [Res.ok_bind, List.map_cons, List.map_nil, appShown, appLine]
  rw [show (Typed.set s p f none).text = spaced [Word.set, s, p, f] from rfl, hset]
  simp only [Res.ok_bind]
  rw [show Typed.list.text = Word.list from rfl, hlist]
  simp only [Res.ok_bind]
  rw [show (Typed.get s p).text = spaced [Word.get, s, p] from rfl, hget]
  rfl

example : exFiles [102] = .contents [102] ∧ (List.replicate 50 97 : Bytes).length = 50 ∧
    ∀ w ∈ ([[110], [115], List.replicate 50 97, [102]] : List Bytes), IsWord w :=
  ⟨rfl, rfl, by decide +kernel⟩

/-- The bytes in `Typed.text` are these words. -/
example : commandWords = ["new", "y", "enter", "back", "exit", "set", "get", "list"].map (·.toUTF8.toList) := by decide +kernel

end Willow.Props
