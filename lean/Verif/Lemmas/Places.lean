import Verif.Model.Places
import Verif.Spec.Places
import Verif.Lemmas.PropsCommands

/-! Lemmas for the directories of namespaces. -/

namespace Willow.Props

open Spec

theorem walk_plain {n : Bytes} (h : PlainName n) (p : Place) : walk p n = (p.1, p.2 ++ [n]) := by
  unfold walk
  rw [if_neg (fun hh => hh.elim h.some h.here), if_neg h.up]

theorem plain_willow : PlainName willowDir := by decide

theorem splitSlash_store (n : Bytes) : splitSlash (willowDir ++ 47 :: n) = willowDir :: splitSlash n :=
  splitSlash_append _ plain_willow.slash _

theorem storePlace_eq (n : Bytes) : storePlace n = (splitSlash n).foldl walk (0, [willowDir]) := by
  unfold storePlace resolve
  rw [splitSlash_store, List.foldl_cons, walk_plain plain_willow]
  rfl

theorem storePlace_plain {n : Bytes} (h : PlainName n) : storePlace n = (0, [willowDir, n]) := by
  rw [storePlace_eq, splitSlash_single n h.slash, List.foldl_cons, walk_plain h]
  rfl

theorem storePlace_inj {n m : Bytes} (hn : PlainName n) (hm : PlainName m) : storePlace n = storePlace m ↔ n = m := by
  rw [storePlace_plain hn, storePlace_plain hm]
  simp

theorem madeInWillow_plain {n which : Bytes} (hn : PlainName n) (hw : PlainName which) : madeInWillow n which = [n] := by
  unfold madeInWillow storePath
  rw [splitSlash_store, splitSlash_append _ hn.slash, splitSlash_single _ hw.slash]
  simp [walkAll, walk_plain plain_willow, walk_plain hn, walk_plain hw]

/-! ### The two models -/

/-- The map with places for names. -/
def placed (m : GoMap Bytes (StoreState × Bool)) : GoMap Place (StoreState × Bool) := m.map fun e => (storePlace e.1, e.2)

theorem placed_get {m : GoMap Bytes (StoreState × Bool)} (hm : ∀ e ∈ m, PlainName e.1) {n : Bytes} (hn : PlainName n) :
    (placed m).get (storePlace n) = m.get n := by
  induction m with
  | nil => rfl
  | cons e m ih =>
    have ih := ih fun x hx => hm x (List.mem_cons_of_mem _ hx)
    have he := hm e List.mem_cons_self
    unfold placed at ih ⊢
    rw [List.map_cons]
    simp only [GoMap.get, storePlace_inj he hn, ih]

theorem placed_set {m : GoMap Bytes (StoreState × Bool)} (hm : ∀ e ∈ m, PlainName e.1) {n : Bytes} (hn : PlainName n) (v : StoreState × Bool) :
    (placed m).set (storePlace n) v = placed (m.set n v) := by
  unfold GoMap.set placed
  rw [List.map_cons, List.filter_map]
  congr 2
  apply List.filter_congr
  intro e he
  simp [storePlace_inj (hm e he) hn]

/-- The two models have the same. -/
structure SamePlaces (a : AppState) (b : PlacedState) : Prop where
  disk : b.disk = placed a.disk
  plain : ∀ e ∈ a.disk, PlainName e.1
  dirs : ∀ n, n ∈ b.dirs ↔ n ∈ a.disk.map Prod.fst
  known : ∀ n, n ∈ b.known ↔ n ∈ a.known
  knownPlain : ∀ n ∈ a.known, PlainName n
  held : b.held = a.held.map storePlace
  heldPlain : ∀ n ∈ a.held, PlainName n

/-- The names of a mode are plain. -/
def PlainMode : AppMode → Prop
  | .menu => True
  | .confirm n => PlainName n
  | .inside n _ _ => PlainName n

/-- Steps of the two models that go together. -/
def StepsAgree : Res AppStep → Res PlacedStep → Prop
  | .ok (.next m out a), .ok (.next m' out' b) => m' = m ∧ out' = out ∧ PlainMode m ∧ SamePlaces a b
  | .ok (.exit a), .ok (.exit b) => SamePlaces a b
  | .ok .fatal, .ok .fatal => True
  | .err, .err => True
  | .crash, .crash => True
  | .block, .block => True
  | _, _ => False

theorem mem_keys_set (m : GoMap Bytes (StoreState × Bool)) (n k : Bytes) (v : StoreState × Bool) :
    k ∈ (m.set n v).map Prod.fst ↔ k = n ∨ k ∈ m.map Prod.fst := by
  unfold GoMap.set
  rw [List.map_cons, List.mem_cons]
  by_cases hk : k = n
  · simp [hk]
  · simp only [hk, false_or, List.mem_map, List.mem_filter]
    constructor
    · rintro ⟨e, ⟨h1, _⟩, h2⟩
      exact ⟨e, h1, h2⟩
    · rintro ⟨e, h1, h2⟩
      exact ⟨e, ⟨h1, by simpa [h2] using hk⟩, h2⟩

/-- Writing at a plain name keeps them the same. -/
theorem SamePlaces.write {a : AppState} {b : PlacedState} (h : SamePlaces a b) {n : Bytes} (hn : PlainName n) (v : StoreState × Bool)
    (ds : List Bytes) (hd : ∀ d ∈ ds, d = n) (hne : n ∈ a.disk.map Prod.fst ∨ ds ≠ []) :
    SamePlaces { a with disk := a.disk.set n v } { b with disk := b.disk.set (storePlace n) v, dirs := ds ++ b.dirs } where
  disk := by
    show b.disk.set (storePlace n) v = _
    rw [h.disk, placed_set h.plain hn]
  plain := by
    intro e he
    rcases List.mem_cons.1 (show e ∈ (n, v) :: _ from he) with rfl | he
    · exact hn
    · exact h.plain e (List.mem_filter.1 he).1
  dirs := by
    intro k
    show k ∈ ds ++ b.dirs ↔ k ∈ (a.disk.set n v).map Prod.fst
    rw [mem_keys_set, List.mem_append, h.dirs]
    constructor
    · rintro (hk | hk)
      · exact .inl (hd k hk)
      · exact .inr hk
    · rintro (rfl | hk)
      · rcases hne with hh | hh
        · exact .inr hh
        · obtain ⟨d, hd'⟩ := List.exists_mem_of_ne_nil _ hh
          exact .inl (hd d hd' ▸ hd')
      · exact .inr hk
  known := h.known
  knownPlain := h.knownPlain
  held := h.held
  heldPlain := h.heldPlain

theorem enter_agrees (env : Bytes → StoreEnv) {a : AppState} {b : PlacedState} (h : SamePlaces a b) {n : Bytes} (hn : PlainName n) :
    StepsAgree (enterNamespace env a n) (placedEnter env b n) := by
  unfold enterNamespace placedEnter
  have hheld : storePlace n ∈ b.held ↔ n ∈ a.held := by
    rw [h.held, List.mem_map]
    constructor
    · rintro ⟨m, h1, h2⟩
      rw [storePlace_inj (h.heldPlain m h1) hn] at h2
      exact h2 ▸ h1
    · exact fun hm => ⟨n, hm, rfl⟩
  by_cases hh : n ∈ a.held
  · rw [if_pos hh, if_pos (hheld.2 hh)]
    trivial
  · rw [if_neg hh, if_neg (fun x => hh (hheld.1 x)), h.disk, placed_get h.plain hn]
    cases hd : (a.disk.get n).getD (.empty, false) with
    | mk old dir =>
      dsimp only
      cases hr : restart (env n) (fun kv => kv) old with
      | ok st =>
        refine ⟨rfl, rfl, hn, ?_⟩
        have := h.write hn (st, dir) (madeInWillow n refsDir ++ madeInWillow n entriesDir) (by
          rw [madeInWillow_plain hn (by decide), madeInWillow_plain hn (by decide)]; simp) (.inr (by
          rw [madeInWillow_plain hn (by decide)]; simp))
        rw [h.disk, List.append_assoc] at this
        exact this
      | err => trivial
      | crash => trivial
      | block => trivial

theorem spaced_splitSpace : ∀ line : Bytes, spaced (splitSpace line) = line
  | [] => rfl
  | c :: rest => by
    have ih := spaced_splitSpace rest
    rw [splitSpace]
    by_cases hc : c = 32
    · rw [if_pos hc]
      cases hs : splitSpace rest with
      | nil =>
        exfalso
        cases rest with
        | nil => simp [splitSpace] at hs
        | cons d rest =>
          rw [splitSpace] at hs
          by_cases hd : d = 32
          · rw [if_pos hd] at hs; cases hs
          · rw [if_neg hd] at hs
            cases hs2 : splitSpace rest <;> rw [hs2] at hs <;> cases hs
      | cons w more =>
        rw [hs] at ih
        show [] ++ 32 :: spaced (w :: more) = _
        rw [ih, hc]
        rfl
    · rw [if_neg hc]
      cases hs : splitSpace rest with
      | nil =>
        rw [hs] at ih
        simp only [spaced] at ih ⊢
        rw [ih]
      | cons w more =>
        rw [hs] at ih
        cases more with
        | nil => simp only [spaced] at ih ⊢; rw [ih]
        | cons v more =>
          simp only [spaced, List.cons_append] at ih ⊢
          rw [ih]

theorem splitSpace_noSpace : ∀ line : Bytes, ∀ w ∈ splitSpace line, (32 : UInt8) ∉ w
  | [], w, hw => by simp [splitSpace] at hw; simp [hw]
  | c :: rest, w, hw => by
    have ih := splitSpace_noSpace rest
    rw [splitSpace] at hw
    by_cases hc : c = 32
    · rw [if_pos hc] at hw
      rcases List.mem_cons.1 hw with rfl | hw
      · simp
      · exact ih w hw
    · rw [if_neg hc] at hw
      have hc' : (32 : UInt8) ≠ c := fun h => hc h.symm
      cases hs : splitSpace rest with
      | nil =>
        rw [hs] at hw
        rw [List.mem_singleton.1 hw]
        simpa using hc'
      | cons v more =>
        rw [hs] at hw
        rcases List.mem_cons.1 hw with rfl | hw
        · rw [List.mem_cons, not_or]
          exact ⟨hc', ih v (by rw [hs]; exact List.mem_cons_self)⟩
        · exact ih w (by rw [hs]; exact List.mem_cons_of_mem _ hw)

theorem line_agrees (env : Bytes → StoreEnv) (lib : SortLib) (readFile : Bytes → FileRead) (now : UInt64) {mode : AppMode} {a : AppState}
    {b : PlacedState} (h : SamePlaces a b) (hm : PlainMode mode) (hin : ∀ n st dir, mode = .inside n st dir → n ∈ a.disk.map Prod.fst)
    (line : Bytes) (hl : PlainLine line) :
    StepsAgree (appLine env lib readFile now mode a line) (placedLine env lib readFile now mode b line) := by
  cases mode with
  | menu =>
    unfold appLine placedLine
    dsimp only
    by_cases h1 : (splitSpace line).getD 0 [] = Word.new
    · rw [if_pos h1, if_pos h1]
      by_cases hk : line ∈ a.known
      · rw [if_pos hk, if_pos ((h.known _).2 hk)]
        exact enter_agrees env h (h.knownPlain _ hk)
      · rw [if_neg hk, if_neg fun x => hk ((h.known _).1 x)]
        cases ho : (splitSpace line)[1]? with
        | none => trivial
        | some name =>
          refine ⟨rfl, rfl, ?_, h⟩
          cases hs : splitSpace line with
          | nil => rw [hs] at ho; cases ho
          | cons w more =>
            cases more with
            | nil => rw [hs] at ho; cases ho
            | cons v more =>
              rw [hs] at ho h1
              simp at ho h1
              subst ho
              refine hl v more (splitSpace_noSpace line v (by rw [hs]; simp)) ?_
              rw [← spaced_splitSpace line, hs, h1]
              rfl
    · rw [if_neg h1, if_neg h1]
      by_cases h2 : (splitSpace line).getD 0 [] = Word.exit
      · rw [if_pos h2, if_pos h2]
        exact h
      · rw [if_neg h2, if_neg h2]
        by_cases h3 : (splitSpace line).getD 0 [] = Word.enter
        · rw [if_pos h3, if_pos h3]
          match splitSpace line with
          | [] => exact ⟨rfl, rfl, trivial, h⟩
          | [_] => exact ⟨rfl, rfl, trivial, h⟩
          | _ :: _ :: _ :: _ => exact ⟨rfl, rfl, trivial, h⟩
          | [_, name] =>
            dsimp only
            by_cases hk : name ∈ a.known
            · rw [if_pos hk, if_pos ((h.known _).2 hk)]
              exact enter_agrees env h (h.knownPlain _ hk)
            · rw [if_neg hk, if_neg fun x => hk ((h.known _).1 x)]
              exact ⟨rfl, rfl, trivial, h⟩
        · rw [if_neg h3, if_neg h3]
          exact ⟨rfl, rfl, trivial, h⟩
  | confirm name =>
    unfold appLine placedLine
    dsimp only
    by_cases hy : line = Word.yes
    · rw [if_pos hy, if_pos hy]
      exact enter_agrees env h hm
    · rw [if_neg hy, if_neg hy]
      exact ⟨rfl, rfl, trivial, h⟩
  | inside name st dir =>
    unfold appLine placedLine
    dsimp only
    cases nsLine (env name) lib readFile now st dir line with
    | err => trivial
    | crash => trivial
    | block => trivial
    | ok r =>
      cases r with
      | leave => exact ⟨rfl, rfl, trivial, h⟩
      | abandon =>
        refine ⟨rfl, rfl, trivial, h.disk, h.plain, h.dirs, h.known, h.knownPlain, ?_, ?_⟩
        · show storePlace name :: b.held = _
          rw [h.held]
          rfl
        · intro n hn
          rcases List.mem_cons.1 hn with rfl | hn
          · exact hm
          · exact h.heldPlain n hn
      | stay out st' dir' =>
        refine ⟨rfl, rfl, hm, h.write hm (st', dir') _ ?_ (.inl (hin _ _ _ rfl))⟩
        split
        · rw [madeInWillow_plain hm (by decide)]; simp
        · simp

/-- The namespace that one is in is on disk. -/
theorem appLine_inside {env : Bytes → StoreEnv} {lib : SortLib} {readFile : Bytes → FileRead} {now : UInt64} {mode mode' : AppMode} {a a' : AppState}
    {line : Bytes} {out : Printed} (hr : appLine env lib readFile now mode a line = .ok (.next mode' out a')) :
    ∀ n st dir, mode' = .inside n st dir → n ∈ a'.disk.map Prod.fst := by
  have he : ∀ n, enterNamespace env a n = .ok (.next mode' out a') → ∀ n st dir, mode' = .inside n st dir → n ∈ a'.disk.map Prod.fst := by
    intro n h m st dir e
    unfold enterNamespace at h
    split at h
    · cases h
    · rw [Res.bind_eq_ok] at h
      obtain ⟨st1, _, h⟩ := h
      simp only [Res.ok.injEq, AppStep.next.injEq] at h
      obtain ⟨rfl, _, rfl⟩ := h
      cases e
      simp [GoMap.set]
  intro n st dir e
  cases mode with
  | menu =>
    unfold appLine at hr
    dsimp only at hr
    repeat' split at hr
    all_goals first
      | (cases hr; done)
      | exact he _ hr n st dir e
      | (simp only [Res.ok.injEq, AppStep.next.injEq] at hr
         obtain ⟨rfl, _, rfl⟩ := hr
         cases e)
  | confirm m =>
    unfold appLine at hr
    dsimp only at hr
    split at hr
    · exact he _ hr n st dir e
    · simp only [Res.ok.injEq, AppStep.next.injEq] at hr
      obtain ⟨rfl, _, rfl⟩ := hr
      cases e
  | inside m st0 dir0 =>
    unfold appLine at hr
    dsimp only at hr
    rw [Res.bind_eq_ok] at hr
    obtain ⟨r, _, hr⟩ := hr
    cases r with
    | stay o st1 d1 =>
      simp only [Res.ok.injEq, AppStep.next.injEq] at hr
      obtain ⟨rfl, _, rfl⟩ := hr
      cases e
      simp [GoMap.set]
    | leave =>
      simp only [Res.ok.injEq, AppStep.next.injEq] at hr
      obtain ⟨rfl, _, rfl⟩ := hr
      cases e
    | abandon =>
      simp only [Res.ok.injEq, AppStep.next.injEq] at hr
      obtain ⟨rfl, _, rfl⟩ := hr
      cases e

/-- Sessions of the two models that go together. -/
def SessionsAgree : Res (List Printed × AppMode × AppState) → Res (List Printed × AppMode × PlacedState) → Prop
  | .ok (out, m, a), .ok (out', m', b) => out' = out ∧ m' = m ∧ SamePlaces a b
  | .err, .err => True
  | .crash, .crash => True
  | .block, .block => True
  | _, _ => False

theorem shown_agrees (env : Bytes → StoreEnv) (lib : SortLib) (readFile : Bytes → FileRead) (lines : List (UInt64 × Bytes))
    (hl : ∀ l ∈ lines, PlainLine l.2) {mode : AppMode} {a : AppState} {b : PlacedState} (h : SamePlaces a b) (hm : PlainMode mode)
    (hin : ∀ n st dir, mode = .inside n st dir → n ∈ a.disk.map Prod.fst) :
    SessionsAgree (appShown env lib readFile lines mode a) (placedShown env lib readFile lines mode b) := by
  induction lines generalizing mode a b with
  | nil => exact ⟨rfl, rfl, h⟩
  | cons l lines ih =>
    obtain ⟨now, line⟩ := l
    have ih := @ih fun l hl' => hl l (List.mem_cons_of_mem _ hl')
    have hs := line_agrees env lib readFile now h hm hin line (hl _ List.mem_cons_self)
    have hin' := @appLine_inside env lib readFile now mode
    rw [appShown, placedShown]
    cases hr : appLine env lib readFile now mode a line with
    | err => rw [hr] at hs; cases hp : placedLine env lib readFile now mode b line <;> rw [hp] at hs <;> first | exact hs.elim | trivial
    | crash => rw [hr] at hs; cases hp : placedLine env lib readFile now mode b line <;> rw [hp] at hs <;> first | exact hs.elim | trivial
    | block => rw [hr] at hs; cases hp : placedLine env lib readFile now mode b line <;> rw [hp] at hs <;> first | exact hs.elim | trivial
    | ok r =>
      rw [hr] at hs
      cases hp : placedLine env lib readFile now mode b line with
      | err => rw [hp] at hs; cases r <;> exact hs.elim
      | crash => rw [hp] at hs; cases r <;> exact hs.elim
      | block => rw [hp] at hs; cases r <;> exact hs.elim
      | ok q =>
        rw [hp] at hs
        cases r with
        | next m out a' =>
          cases q with
          | next m' out' b' =>
            obtain ⟨rfl, rfl, h3, h4⟩ := hs
            have := ih h4 h3 (hin' hr)
            simp only [Res.ok_bind]
            revert this
            cases appShown env lib readFile lines m' a' <;> cases placedShown env lib readFile lines m' b' <;> intro this <;>
              first | exact this.elim | trivial | skip
            obtain ⟨e1, e2, e3⟩ := this
            exact ⟨by rw [e1], e2, e3⟩
          | exit b' => exact hs.elim
          | fatal => exact hs.elim
        | exit a' =>
          cases q with
          | next m' out' b' => exact hs.elim
          | fatal => exact hs.elim
          | exit b' =>
            have hs : SamePlaces a' b' := hs
            have h5 : SamePlaces (appStart a'.disk) b'.start :=
              ⟨hs.disk, hs.plain, hs.dirs, hs.dirs, (fun n hn => by
                obtain ⟨e, he, rfl⟩ := List.mem_map.1 hn
                exact hs.plain e he), rfl, fun n hn => by cases hn⟩
            have := ih h5 (mode := .menu) trivial (fun _ _ _ e => by cases e)
            simp only [Res.ok_bind]
            revert this
            cases appShown env lib readFile lines .menu (appStart a'.disk) <;> cases placedShown env lib readFile lines .menu b'.start <;> intro this <;>
              first | exact this.elim | trivial | skip
            obtain ⟨e1, e2, e3⟩ := this
            exact ⟨by rw [e1], e2, e3⟩
        | fatal =>
          cases q with
          | next m' out' b' => exact hs.elim
          | exit b' => exact hs.elim
          | fatal => trivial

end Willow.Props
