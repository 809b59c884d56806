import Verif.Lemmas.Places
import Verif.Lemmas.PlacesNotebook
import Verif.Props.Commands
import Verif.Props.Notebook

/-! Property theorem C138: each namespace has a directory of its own in `willow`. -/

namespace Willow.Props

open Willow Spec

/-- C138, partial: the databases and payloads of a namespace with a plain name lie in `willow`, in the directory of the name, as `entries`,
`payloadrefcounter` and `payload`, and different names have different directories. Missing: all other names (see the violations). -/
theorem C138_own_partial (n m : Bytes) (hn : PlainName n) (hm : PlainName m) :
    resolve (storePath n entriesDir) = (0, [homeName, n, entriesName]) ∧ resolve (storePath n refsDir) = (0, [homeName, n, refsName]) ∧
    resolve (storePath n payloadDir) = (0, [homeName, n, payloadName]) ∧
    (∀ which ∈ [entriesDir, refsDir, payloadDir], resolve (storePath n which) = resolve (storePath m which) ↔ n = m) ∧
    (storePlace n = storePlace m ↔ n = m) := by
  have key : ∀ which ∈ [entriesDir, refsDir, payloadDir], ∀ n, PlainName n → resolve (storePath n which) = (0, [willowDir, n, which]) := by
    intro which hw n hn
    have hp : PlainName which := by
      have : ∀ w ∈ [entriesDir, refsDir, payloadDir], PlainName w := by decide
      exact this which hw
    unfold resolve storePath
    rw [splitSlash_store, splitSlash_append _ hn.slash, splitSlash_single _ hp.slash]
    simp [walk_plain plain_willow, walk_plain hn, walk_plain hp]
  refine ⟨key _ (by simp) n hn, key _ (by simp) n hn, key _ (by simp) n hn, fun which hw => ?_, storePlace_inj hn hm⟩
  rw [key which hw n hn, key which hw m hm]
  simp

example : PlainName [97] ∧ PlainName [46, 46, 46] ∧ PlainName [98, 32, 99] ∧
    resolve (storePath [97] entriesDir) = (0, [[119, 105, 108, 108, 111, 119], [97], [101, 110, 116, 114, 105, 101, 115]]) := by decide

/-- C138, partial: in a session in which `new` is only given plain names, also with the application ended and started again, the
application prints what it prints when each name has a store of its own, and has in `willow` exactly the directories of these
names. Missing: all other names (see the violations). -/
theorem C138_session_partial (env : Bytes → StoreEnv) (lib : SortLib) (readFile : Bytes → FileRead) (lines : List (UInt64 × Bytes))
    (hl : ∀ l ∈ lines, PlainLine l.2) :
    (∀ printed mode app, appShown env lib readFile lines .menu (appStart []) = .ok (printed, mode, app) →
      ∃ app', placedShown env lib readFile lines .menu .none = .ok (printed, mode, app') ∧
        (∀ n, PlainName n → app'.disk.get (storePlace n) = app.disk.get n) ∧ ∀ n, n ∈ app'.dirs ↔ n ∈ app.disk.map Prod.fst) ∧
    (appShown env lib readFile lines .menu (appStart []) = .crash → placedShown env lib readFile lines .menu .none = .crash) := by
  have key := shown_agrees env lib readFile lines hl (mode := .menu) (a := appStart []) (b := .none)
    ⟨rfl, fun e he => (by cases he), fun n => Iff.rfl, fun n => Iff.rfl, fun n hn => (by cases hn), rfl, fun n hn => (by cases hn)⟩ trivial
    (fun _ _ _ e => by cases e)
  refine ⟨fun printed mode app h => ?_, fun h => ?_⟩
  · rw [h] at key
    cases hp : placedShown env lib readFile lines .menu .none with
    | ok r =>
      obtain ⟨out', m', b⟩ := r
      rw [hp] at key
      obtain ⟨rfl, rfl, h3⟩ := key
      exact ⟨b, rfl, fun n hn => by rw [h3.disk, placed_get h3.plain hn], h3.dirs⟩
    | err => rw [hp] at key; exact key.elim
    | crash => rw [hp] at key; exact key.elim
    | block => rw [hp] at key; exact key.elim
  · rw [h] at key
    cases hp : placedShown env lib readFile lines .menu .none with
    | ok r => rw [hp] at key; exact key.elim
    | err => rw [hp] at key; exact key.elim
    | crash => rfl
    | block => rw [hp] at key; exact key.elim

/-- `new n`, `y`, `set s a f`, `exit`, `exit`, `enter n`, `list`. -/
def exPlaced (name again : Bytes) (after : List (UInt64 × Bytes)) : List (UInt64 × Bytes) :=
  [(1, spaced [Word.new, name]), (2, Word.yes), (3, spaced [Word.set, [115], [97], [102]]), (4, Word.exit), (5, Word.exit), (6, again)] ++ after

example : (∀ l ∈ exPlaced [110] (spaced [Word.enter, [110]]) [(7, Word.list)], PlainLine l.2) ∧
    (do
      let (out, _, _) ← placedShown exStores exSort exFiles (exPlaced [110] (spaced [Word.enter, [110]]) [(7, Word.list)]) .menu .none
      Res.ok out) = Res.ok [.message, .message, .pruned [], .message, .message, .message, .listing [([115], 3, [97])]] := by
  refine ⟨?_, by decide +kernel⟩
  intro l hl name more h32 e
  have h : splitSpace l.2 = [110, 101, 119] :: name :: splitSpace (spaced more) ∨ splitSpace l.2 = [[110, 101, 119], name] := by
    rw [e]
    cases more with
    | nil => exact .inr (splitSpace_spaced _ [name] (by
        intro x hx
        simp only [List.mem_cons, List.not_mem_nil, or_false] at hx
        rcases hx with rfl | rfl
        · decide
        · exact h32))
    | cons v more =>
      refine .inl ?_
      show splitSpace ([110, 101, 119] ++ 32 :: (name ++ 32 :: spaced (v :: more))) = _
      rw [splitSpace_append _ (by decide), splitSpace_append _ h32]
  have key : ∀ l ∈ exPlaced [110] (spaced [Word.enter, [110]]) [(7, Word.list)], (splitSpace l.2)[0]? = some [110, 101, 119] →
      (splitSpace l.2)[1]? = some [110] := by decide +kernel
  have := key l hl (by rcases h with h | h <;> rw [h] <;> rfl)
  rcases h with h | h <;> rw [h] at this <;> simp at this <;> subst this <;> decide

/-- C138 is violated: one namespace has many names. `./n`, `n/`, `n/.`, `../willow/n` and `x/../n` for every `x` lead to the directory of
`n`, so that with each of them one is in the store of `n` (or ends the process, if `n` is open). -/
theorem C138_violated_same (lib : KdLib) (sha : Bytes → Bytes) (n x : Bytes) (hn : PlainName n) (hx : PlainName x) (name : Bytes)
    (h : name ∈ [[46, 47] ++ n, n ++ [47], n ++ [47, 46], [46, 46, 47] ++ willowDir ++ [47] ++ n, x ++ [47, 46, 46, 47] ++ n]) :
    name ≠ n ∧ storePlace name = storePlace n ∧
    ∀ app, (storePlace n ∈ app.held → placedEnter (appStore lib sha) app name = .ok .fatal) ∧
      ∀ st dir app', placedEnter (appStore lib sha) app n = .ok (.next (.inside n st dir) .message app') →
        ∃ app'', placedEnter (appStore lib sha) app name = .ok (.next (.inside name st dir) .message app'') ∧ app''.disk = app'.disk := by
  have hne : (47 : UInt8) ∈ name := by
    simp only [List.mem_cons, List.not_mem_nil, or_false] at h
    rcases h with rfl | rfl | rfl | rfl | rfl <;> simp
  have hp : storePlace name = storePlace n := by
    rw [storePlace_plain hn, storePlace_eq]
    simp only [List.mem_cons, List.not_mem_nil, or_false] at h
    have hh : ∀ p : Place, walk p [46] = p := fun p => if_pos (.inr rfl)
    have he : ∀ p : Place, walk p [] = p := fun p => if_pos (.inl rfl)
    rcases h with rfl | rfl | rfl | rfl | rfl
    · rw [show [46, 47] ++ n = [46] ++ 47 :: n from rfl, splitSlash_append _ (by decide), splitSlash_single _ hn.slash]
      simp only [List.foldl_cons, List.foldl_nil, hh, walk_plain hn]
      rfl
    · rw [show n ++ [47] = n ++ 47 :: [] from rfl, splitSlash_append _ hn.slash, splitSlash_single [] (by decide)]
      simp only [List.foldl_cons, List.foldl_nil, he, walk_plain hn]
      rfl
    · rw [show n ++ [47, 46] = n ++ 47 :: [46] from rfl, splitSlash_append _ hn.slash, splitSlash_single [46] (by decide)]
      simp only [List.foldl_cons, List.foldl_nil, hh, walk_plain hn]
      rfl
    · rw [show [46, 46, 47] ++ willowDir ++ [47] ++ n = [46, 46] ++ 47 :: (willowDir ++ 47 :: n) by simp, splitSlash_append _ (by decide),
        splitSlash_append _ (by decide), splitSlash_single _ hn.slash]
      simp only [List.foldl_cons, List.foldl_nil]
      rw [show walk (0, [willowDir]) [46, 46] = (0, []) from rfl, walk_plain plain_willow, walk_plain hn]
      rfl
    · rw [show x ++ [47, 46, 46, 47] ++ n = x ++ 47 :: ([46, 46] ++ 47 :: n) by simp, splitSlash_append _ hx.slash,
        splitSlash_append _ (by decide), splitSlash_single _ hn.slash]
      simp only [List.foldl_cons, List.foldl_nil]
      rw [walk_plain hx, show walk (0, [willowDir] ++ [x]) [46, 46] = (0, [willowDir]) from rfl, walk_plain hn]
      rfl
  refine ⟨fun e => hn.slash (e ▸ hne), hp, fun app => ⟨fun hh => ?_, fun st dir app' hr => ?_⟩⟩
  · unfold placedEnter
    rw [if_pos (by rw [hp]; exact hh)]
  · unfold placedEnter at hr ⊢
    rw [hp]
    by_cases hh : storePlace n ∈ app.held
    · rw [if_pos hh] at hr; cases hr
    · rw [if_neg hh] at hr ⊢
      cases hd : (app.disk.get (storePlace n)).getD (.empty, false) with
      | mk old d =>
        rw [hd] at hr
        dsimp only at hr ⊢
        have e : restart (appStore lib sha name) (fun kv => kv) old = restart (appStore lib sha n) (fun kv => kv) old := rfl
        rw [e]
        cases hs : restart (appStore lib sha n) (fun kv => kv) old with
        | ok s =>
          rw [hs] at hr
          simp only [Res.ok_bind] at hr ⊢
          cases hr
          exact ⟨_, rfl, rfl⟩
        | err => rw [hs] at hr; cases hr
        | crash => rw [hs] at hr; cases hr
        | block => rw [hs] at hr; cases hr

/-- What was stored in `n` is listed in `./n`. -/
example : PlainName [110] ∧ PlainName [120] ∧
    (do
      let (out, _, _) ← placedShown exStores exSort exFiles
        (exPlaced [110] (spaced [Word.new, [46, 47, 110]]) [(7, Word.yes), (8, Word.list)]) .menu .none
      Res.ok out) = Res.ok [.message, .message, .pruned [], .message, .message, .message, .message, .listing [([115], 3, [97])]] := by
  refine ⟨by decide, by decide, by decide +kernel⟩

/-- The name that leads `k + 1` directories up: `..`, `../..`, and so on. -/
def upName : Nat → Bytes
  | 0 => [46, 46]
  | k + 1 => [46, 46] ++ 47 :: upName k

/-- C138 is violated: a namespace can lie outside of `willow`, in the working directory and in every directory above it. -/
theorem C138_violated_up (k : Nat) (which : Bytes) (hw : which ∈ [entriesDir, refsDir, payloadDir]) :
    resolve (storePath (upName k) which) = (k, [which]) := by
  have hp : PlainName which := by
    have : ∀ w ∈ [entriesDir, refsDir, payloadDir], PlainName w := by decide
    exact this which hw
  have up : ∀ k (p : Place), (splitSlash (upName k ++ 47 :: which)).foldl walk p =
      ([46, 46] :: (List.replicate k [46, 46] ++ [which])).foldl walk p := by
    intro k
    induction k with
    | zero =>
      intro p
      rw [upName, splitSlash_append _ (by decide), splitSlash_single _ hp.slash]
      rfl
    | succ k ih =>
      intro p
      rw [show upName (k + 1) ++ 47 :: which = [46, 46] ++ 47 :: (upName k ++ 47 :: which) from by simp [upName], splitSlash_append _ (by decide),
        List.foldl_cons, ih]
      rfl
  have ups : ∀ k j : Nat, (List.replicate k [46, 46] ++ [which]).foldl walk (j, []) = (j + k, [which]) := by
    intro k
    induction k with
    | zero => intro j; simp [walk_plain hp]
    | succ k ih =>
      intro j
      rw [List.replicate_succ, List.cons_append, List.foldl_cons, show walk (j, []) [46, 46] = (j + 1, []) from rfl, ih]
      congr 1
      omega
  unfold resolve storePath
  rw [splitSlash_store, List.foldl_cons, walk_plain plain_willow, up, List.foldl_cons,
    show walk ((0 : Nat), ([] : List Bytes) ++ [willowDir]) [46, 46] = (0, []) from rfl, ups]
  simp

example : upName 1 = [46, 46, 47, 46, 46] ∧ resolve (storePath (upName 1) entriesDir) = (1, [entriesDir]) := by decide

/-- C138 is violated: a namespace whose name has a slash is not found again. After `new a/b` and the end of the application, the
next one knows `a`, which holds nothing, but not `a/b`. -/
theorem C138_violated_lost (env : Bytes → StoreEnv) (lib : SortLib) (readFile : Bytes → FileRead) (t1 t2 t3 t4 t5 : UInt64) (a b : Bytes)
    (ha : PlainName a) (hb : PlainName b) (ha32 : (32 : UInt8) ∉ a) (hb32 : (32 : UInt8) ∉ b) :
    ∃ app, placedShown env lib readFile [(t1, spaced [Word.new, a ++ 47 :: b]), (t2, Word.yes), (t3, Word.back), (t4, Word.exit),
        (t5, spaced [Word.enter, a ++ 47 :: b])] .menu .none = .ok ([.message, .message, .message, .message, .message], .menu, app) ∧
      a ∈ app.known ∧ a ++ 47 :: b ∉ app.known ∧ app.disk.get (storePlace (a ++ 47 :: b)) = some (.empty, false) ∧
      app.disk.get (storePlace a) = none := by
  let name := a ++ 47 :: b
  have hname : (32 : UInt8) ∉ name := by
    show (32 : UInt8) ∉ a ++ 47 :: b
    rw [List.mem_append, List.mem_cons, not_or, not_or]
    exact ⟨ha32, by decide, hb32⟩
  have hsp : ∀ w : Bytes, (32 : UInt8) ∉ w → splitSpace (spaced [w, name]) = [w, name] := fun w h =>
    splitSpace_spaced w [name] (by
      intro x hx
      rcases List.mem_cons.1 hx with rfl | hx
      · exact h
      · rw [List.mem_singleton.1 hx]; exact hname)
  have hmade : ∀ which, PlainName which → madeInWillow name which = [a] := by
    intro which hw
    unfold madeInWillow storePath
    rw [splitSlash_store, show name ++ 47 :: which = a ++ 47 :: (b ++ 47 :: which) by simp [name], splitSlash_append _ ha.slash,
      splitSlash_append _ hb.slash, splitSlash_single _ hw.slash]
    simp [walkAll, walk_plain plain_willow, walk_plain ha, walk_plain hb, walk_plain hw]
  have hplace : storePlace name = (0, [willowDir, a, b]) := by
    rw [storePlace_eq, show name = a ++ 47 :: b from rfl, splitSlash_append _ ha.slash, splitSlash_single _ hb.slash]
    simp [walk_plain ha, walk_plain hb]
  have h1 : placedLine env lib readFile t1 .menu .none (spaced [Word.new, name]) = .ok (.next (.confirm name) .message .none) := by
    unfold placedLine
    dsimp only
    rw [hsp _ (by decide), if_pos (by rfl), if_neg (by simp [PlacedState.none])]
    rfl
  have h2 : placedLine env lib readFile t2 (.confirm name) .none Word.yes =
      .ok (.next (.inside name .empty false) .message ⟨[(storePlace name, .empty, false)], [a, a], [], []⟩) := by
    unfold placedLine
    dsimp only
    rw [if_pos rfl]
    unfold placedEnter
    rw [hmade _ (by decide), hmade _ (by decide)]
    rfl
  have h3 : placedLine env lib readFile t3 (.inside name .empty false) ⟨[(storePlace name, .empty, false)], [a, a], [], []⟩ Word.back =
      .ok (.next .menu .message ⟨[(storePlace name, .empty, false)], [a, a], [], []⟩) := rfl
  have h4 : placedLine env lib readFile t4 .menu ⟨[(storePlace name, .empty, false)], [a, a], [], []⟩ Word.exit =
      .ok (.exit ⟨[(storePlace name, .empty, false)], [a, a], [], []⟩) := rfl
  have hnk : name ∉ [a, a] := by
    intro h
    have e : name = a := by simpa using h
    exact ha.slash (e ▸ (by simp [name] : (47 : UInt8) ∈ name))
  have h5 : placedLine env lib readFile t5 .menu ⟨[(storePlace name, .empty, false)], [a, a], [a, a], []⟩ (spaced [Word.enter, name]) =
      .ok (.next .menu .message ⟨[(storePlace name, .empty, false)], [a, a], [a, a], []⟩) := by
    unfold placedLine
    dsimp only
    rw [hsp _ (by decide), if_neg (by simp; decide), if_neg (by simp; decide), if_pos (by rfl)]
    dsimp only
    rw [if_neg hnk]
  refine ⟨⟨[(storePlace name, .empty, false)], [a, a], [a, a], []⟩, ?_, by simp, hnk, by simp [GoMap.get, name], ?_⟩
  · show placedShown env lib readFile [(t1, spaced [Word.new, name]), _, _, _, (t5, spaced [Word.enter, name])] .menu .none = _
    simp only [placedShown, h1, h2, h3, h4, Res.ok_bind, PlacedState.start, h5]
  · rw [storePlace_plain ha, hplace]
    simp [GoMap.get]

example : PlainName [97] ∧ PlainName [98] ∧ (32 : UInt8) ∉ ([97] : Bytes) ∧ (32 : UInt8) ∉ ([98] : Bytes) := by decide

/-- C138 is violated: `new` with an empty name makes the directories of its databases namespaces of the next run, `entries` and
`payloadrefcounter`, in which nothing was stored. -/
theorem C138_violated_empty (env : Bytes → StoreEnv) (lib : SortLib) (readFile : Bytes → FileRead) (t1 t2 t3 t4 : UInt64) :
    ∃ app, placedShown env lib readFile [(t1, Word.new ++ [32]), (t2, Word.yes), (t3, Word.back), (t4, Word.exit)] .menu .none =
      .ok ([.message, .message, .message, .message], .menu, app) ∧ entriesName ∈ app.known ∧ refsName ∈ app.known ∧
      app.disk.get (storePlace []) = some (.empty, false) := by
  refine ⟨⟨[((0, [willowDir]), .empty, false)], [refsDir, entriesDir], [refsDir, entriesDir], []⟩, rfl, by decide, by decide, ?_⟩
  rfl

example : madeInWillow [] entriesDir = [entriesDir] := by decide

/-- C131, partial: the lines in order of `C131_sessions_partial`, with plain names of namespaces, also show what the book of notes
shows when the namespaces are in their directories. Missing: what is missing there, and other names (see the violations of C138). -/
theorem C131_places_partial (lib : KdLib) (sha : Bytes → Bytes) (hs : ∀ b, (sha b).length = 32) (sort : SortLib)
    (readFile : Bytes → FileRead) (lines : List (UInt64 × Typed)) (ht : ∀ l ∈ lines, l.2.InOrder)
    (hn : ∀ l ∈ lines, ∀ name, l.2 = .new name → PlainName name) (hl : lines.length < 2 ^ 64)
    (hc : NoCollision sha (lines.flatMap fun l => bytesTyped readFile l.2)) (shown : List Shown) (book : Book)
    (hb : Book.first.lines readFile lines = some (shown, book)) :
    ∃ printed mode app, placedShown (appStore lib sha) sort readFile (lines.map fun l => (l.1, l.2.text)) .menu .none =
      .ok (printed, mode, app) ∧ ShowsAll shown printed := by
  obtain ⟨printed, mode, app, h1, h2⟩ := C131_sessions_partial lib sha hs sort readFile lines ht hl hc shown book hb
  obtain ⟨app', h3, _⟩ := (C138_session_partial (appStore lib sha) sort readFile (lines.map fun l => (l.1, l.2.text)) (by
    intro l hl
    obtain ⟨l, hm, rfl⟩ := List.mem_map.1 hl
    exact typed_plain l.2 (ht l hm) (hn l hm))).1 printed mode app h1
  exact ⟨printed, mode, app', h3, h2⟩

example : ∀ l ∈ exBookLines, ∀ name, l.2 = .new name → PlainName name := by
  intro l hl name e
  simp only [exBookLines, List.mem_cons, List.not_mem_nil, or_false] at hl
  rcases hl with rfl | rfl | rfl | rfl | rfl | rfl | rfl | rfl | rfl | rfl | rfl | rfl | rfl <;> cases e
  decide

end Willow.Props
