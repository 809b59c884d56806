import Verif.Lemmas.PropsCommands
import Verif.Props.App

/-! # The command loops (C96, C97) -/

namespace Willow.Props

open Spec

/-- The files of the examples: every file name has itself as contents, except `d`, a directory,
and `x`, which does not exist. -/
def exFiles : Bytes → FileRead
  | [100] => .unreadable
  | [120] => .missing
  | name => .contents name

/-- The stores of the examples. -/
def exStores (name : Bytes) : StoreEnv := appStore listLib toySha name

/-! ## C96: namespaces -/

/-- C96, partial: whatever lines are typed in a session that starts with nothing on disk, each
namespace holds a store that was made by calls of `Set` and by opening it, so that the properties
of such stores (C47-C57, C75, C82) apply. Missing: what comes back on entering a namespace again
(see `C96_enter_partial`), and the sessions that end the process. -/
theorem C96_session_partial (env : Bytes → StoreEnv) (lib : SortLib) (readFile : Bytes → FileRead) (lines : List (UInt64 × Bytes))
    (m : Option AppMode) (app : AppState) (hr : appRun env lib readFile lines .menu (appStart []) = .ok (m, app))
    (name : Bytes) (st : StoreState) (dir : Bool) (hs : app.disk.get name = some (st, dir)) :
    ∃ ops, (∀ op ∈ ops, op = .restart ∨ ∃ now sub path t payload, op = .set now ⟨sub, path, t, payload⟩ sub ∧ path ≠ []) ∧
      runOps (env name) .empty ops = .ok st :=
  appRun_byCommands lines (mode := .menu) (app := appStart [])
    ⟨fun _ _ h => by simp [appStart, GoMap.get] at h, fun _ _ _ h => by cases h⟩ hr name (st, dir) hs

/-- `new n`, `y`, `set s a f`, `back`. -/
def exSession : List (UInt64 × Bytes) :=
  [(1, spaced [Word.new, [110]]), (2, Word.yes), (3, spaced [Word.set, [115], [97], [102]]), (4, Word.back)]

example : (do
    let (_, app) ← appRun exStores exSort exFiles exSession .menu (appStart [])
    Res.ok (app.disk.map fun x => (x.1, x.2.1.kd.map fun k => k.pos))) = Res.ok [([110], [⟨[115], [[97]], 3⟩])] := by
  decide +kernel

/-- C96, partial: a line changes no namespace but the one that one is in. -/
theorem C96_others_partial (env : Bytes → StoreEnv) (lib : SortLib) (readFile : Bytes → FileRead) (now : UInt64) (mode mode' : AppMode)
    (app app' : AppState) (line : Bytes) (out : Printed)
    (hr : appLine env lib readFile now mode app line = .ok (.next mode' out app')) (name : Bytes) (hn : ∀ st dir, mode' ≠ .inside name st dir) :
    app'.disk.get name = app.disk.get name ∧ app'.known = app.known := by
  have he : ∀ n, enterNamespace env app n = .ok (.next mode' out app') → app'.disk.get name = app.disk.get name ∧ app'.known = app.known := by
    intro n h
    unfold enterNamespace at h
    split at h
    · cases h
    · rw [Res.bind_eq_ok] at h
      obtain ⟨st, _, h⟩ := h
      simp only [Res.ok.injEq, AppStep.next.injEq] at h
      obtain ⟨rfl, _, rfl⟩ := h
      refine ⟨?_, rfl⟩
      simp only [GoMap.get_set]
      rw [if_neg fun e => hn st _ (by rw [e])]
  cases mode with
  | menu =>
    unfold appLine at hr
    dsimp only at hr
    repeat' split at hr
    all_goals first
      | (cases hr; done)
      | exact he _ hr
      | (simp only [Res.ok.injEq, AppStep.next.injEq] at hr
         obtain ⟨_, _, rfl⟩ := hr
         exact ⟨rfl, rfl⟩)
  | confirm n =>
    unfold appLine at hr
    dsimp only at hr
    split at hr
    · exact he _ hr
    · simp only [Res.ok.injEq, AppStep.next.injEq] at hr
      obtain ⟨_, _, rfl⟩ := hr
      exact ⟨rfl, rfl⟩
  | inside n st dir =>
    unfold appLine at hr
    dsimp only at hr
    rw [Res.bind_eq_ok] at hr
    obtain ⟨r, _, hr⟩ := hr
    cases r with
    | stay o st1 d1 =>
      simp only [Res.ok.injEq, AppStep.next.injEq] at hr
      obtain ⟨rfl, _, rfl⟩ := hr
      refine ⟨?_, rfl⟩
      simp only [GoMap.get_set]
      rw [if_neg fun e => hn st1 _ (by rw [e])]
    | leave =>
      simp only [Res.ok.injEq, AppStep.next.injEq] at hr
      obtain ⟨_, _, rfl⟩ := hr
      exact ⟨rfl, rfl⟩
    | abandon =>
      simp only [Res.ok.injEq, AppStep.next.injEq] at hr
      obtain ⟨_, _, rfl⟩ := hr
      exact ⟨rfl, rfl⟩

example : ∃ x, (do
    let (_, app) ← appRun exStores exSort exFiles exSession .menu (appStart [])
    match ← appLine exStores exSort exFiles 5 .menu app (spaced [Word.new, [111]]) with
    | .next mode _ app' => Res.ok (mode, app'.disk.get [110] = app.disk.get [110] ∧ (app.disk.get [110]).isSome)
    | _ => .err) = .ok x ∧ x.2 := ⟨_, rfl, rfl, rfl⟩

/-- C96, partial: when the application is started again, a namespace can be entered and holds the
same entries, payloads and positions as before, if it was made by fine calls. Missing: entering it
before (see `C96_violated_enter`). -/
theorem C96_enter_partial (env : Bytes → StoreEnv) (lib : SortLib) (readFile : Bytes → FileRead) (now : UInt64)
    (disk : GoMap Bytes (StoreState × Bool)) (name : Bytes) (hw : IsWord name) (he : EnvOk (env name)) (ops : List StoreOp)
    (hf : ∀ op ∈ ops, FineOp (env name) op) (st : StoreState) (hst : runOps (env name) .empty ops = .ok st)
    (dir : Bool) (hd : disk.get name = some (st, dir)) :
    ∃ st' app', appLine env lib readFile now .menu (appStart disk) (spaced [Word.enter, name]) = .ok (.next (.inside name st' dir) .message app') ∧
      st'.kv = st.kv ∧ st'.refs = st.refs ∧ st'.files = st.files ∧ (st'.kd.map (·.pos)).Perm (st.kd.map (·.pos)) := by
  obtain ⟨st0, st', h1, h2, h3, h4, h5, _, h6⟩ := C56_restart_partial (env name) he ops hf
  rw [hst] at h1
  cases h1
  have hk : name ∈ (appStart disk).known := by
    have key : ∀ m : GoMap Bytes (StoreState × Bool), m.get name = some (st, dir) → name ∈ m.map Prod.fst := by
      intro m
      induction m with
      | nil => intro h; simp [GoMap.get] at h
      | cons e m ih =>
        obtain ⟨a, b⟩ := e
        intro h
        simp only [GoMap.get] at h
        split at h
        · rename_i e; simp [e]
        · simp [ih h]
    exact key disk hd
  refine ⟨st', ⟨disk.set name (st', dir), (appStart disk).known, []⟩, ?_, h3, h4, h5, h6⟩
  unfold appLine
  dsimp only
  rw [splitSpace_spaced Word.enter [name] (by
    intro x hx
    rcases List.mem_cons.1 hx with rfl | hx
    · decide
    · rw [List.mem_singleton.1 hx]; exact isWord_noSpace hw)]
  rw [if_neg (by simp; decide), if_neg (by simp; decide), if_pos (by rfl)]
  dsimp only
  rw [if_pos hk]
  unfold enterNamespace
  rw [if_neg (by simp [appStart])]
  simp only [appStart, hd, Option.getD_some, h2, Res.ok_bind]

example : (do
    let (_, app) ← appRun exStores exSort exFiles exSession .menu (appStart [])
    match ← appLine exStores exSort exFiles 5 .menu (appStart app.disk) (spaced [Word.enter, [110]]) with
    | .next (.inside _ st _) _ _ => Res.ok (some (st.kd.map fun k => k.pos))
    | _ => Res.ok none) = Res.ok (some [⟨[115], [[97]], 3⟩]) := by
  decide +kernel

/-- C96 is violated: a namespace that was just created cannot be entered again after leaving it,
only after the application is started again; it is said not to exist. -/
theorem C96_violated_enter (env : Bytes → StoreEnv) (lib : SortLib) (readFile : Bytes → FileRead) (t1 t2 t3 t4 : UInt64) (name : Bytes)
    (hw : IsWord name) :
    ∃ app, appRun env lib readFile [(t1, spaced [Word.new, name]), (t2, Word.yes), (t3, Word.back), (t4, spaced [Word.enter, name])] .menu
      (appStart []) = .ok (some .menu, app) ∧ app.disk.get name = some (.empty, false) := by
  have hsp : ∀ w : Bytes, (32 : UInt8) ∉ w → splitSpace (spaced [w, name]) = [w, name] := fun w h =>
    splitSpace_spaced w [name] (by
      intro x hx
      rcases List.mem_cons.1 hx with rfl | hx
      · exact h
      · rw [List.mem_singleton.1 hx]; exact isWord_noSpace hw)
  have h1 : appLine env lib readFile t1 .menu (appStart []) (spaced [Word.new, name]) = .ok (.next (.confirm name) .message (appStart [])) := by
    unfold appLine
    dsimp only
    rw [hsp _ (by decide), if_pos (by rfl), if_neg (by simp [appStart])]
    rfl
  have h2 : appLine env lib readFile t2 (.confirm name) (appStart []) Word.yes =
      .ok (.next (.inside name .empty false) .message ⟨[(name, .empty, false)], [], []⟩) := by
    unfold appLine
    dsimp only
    rw [if_pos rfl]
    rfl
  have h3 : appLine env lib readFile t3 (.inside name .empty false) ⟨[(name, .empty, false)], [], []⟩ Word.back =
      .ok (.next .menu .message ⟨[(name, .empty, false)], [], []⟩) := rfl
  have h4 : appLine env lib readFile t4 .menu ⟨[(name, .empty, false)], [], []⟩ (spaced [Word.enter, name]) =
      .ok (.next .menu .message ⟨[(name, .empty, false)], [], []⟩) := by
    unfold appLine
    dsimp only
    rw [hsp _ (by decide), if_neg (by simp; decide), if_neg (by simp; decide), if_pos (by rfl)]
    dsimp only
    rw [if_neg (by simp)]
  refine ⟨⟨[(name, .empty, false)], [], []⟩, ?_, by simp [GoMap.get]⟩
  simp only [appRun, h1, h2, h3, h4, Res.ok_bind]

example : IsWord [110] := by decide

/-- C96 is violated: `new` without a name ends the process. -/
theorem C96_violated_new (env : Bytes → StoreEnv) (lib : SortLib) (readFile : Bytes → FileRead) (now : UInt64) (app : AppState)
    (h : Word.new ∉ app.known) : appLine env lib readFile now .menu app Word.new = .crash := by
  unfold appLine
  dsimp only
  rw [if_pos (by decide), if_neg h]
  rfl

example : Word.new ∉ (appStart [([110], .empty, false)]).known := by decide

/-- C96 is violated: a time that is not understood puts one out of the namespace without closing
its databases, and entering the namespace again ends the process. -/
theorem C96_violated_fatal (env : Bytes → StoreEnv) (lib : SortLib) (readFile : Bytes → FileRead) (t1 t2 t3 t4 : UInt64)
    (name s p f time last payload : Bytes) (hw : ∀ w ∈ [name, s, p, f, time], IsWord w) (hf : readFile f = .contents payload)
    (ht : parseTimeStampToMicroSeconds time = 0) :
    (∃ app, appRun env lib readFile [(t1, spaced [Word.enter, name]), (t2, spaced [Word.set, s, p, f, time])] .menu
      (appStart [(name, .empty, false)]) = .ok (some .menu, app)) ∧
    ∃ app, appRun env lib readFile
      [(t1, spaced [Word.enter, name]), (t2, spaced [Word.set, s, p, f, time]), (t3, spaced [Word.enter, name]), (t4, last)] .menu
      (appStart [(name, .empty, false)]) = .ok (none, app) := by
  have hname := isWord_noSpace (hw name (by simp))
  have hen : splitSpace (spaced [Word.enter, name]) = [Word.enter, name] :=
    splitSpace_spaced _ [name] (by
      intro x hx
      rcases List.mem_cons.1 hx with rfl | hx
      · decide
      · rw [List.mem_singleton.1 hx]; exact hname)
  have h1 : appLine env lib readFile t1 .menu (appStart [(name, .empty, false)]) (spaced [Word.enter, name]) =
      .ok (.next (.inside name .empty false) .message ⟨[(name, .empty, false)], [name], []⟩) := by
    unfold appLine
    dsimp only
    rw [hen, if_neg (by simp; decide), if_neg (by simp; decide), if_pos (by rfl)]
    dsimp only
    rw [if_pos (by simp [appStart])]
    unfold enterNamespace
    rw [if_neg (by simp [appStart])]
    simp [appStart, GoMap.get, GoMap.set, restart, initKeys, StoreState.empty, Res.ok_bind]
  have h2 : appLine env lib readFile t2 (.inside name .empty false) ⟨[(name, .empty, false)], [name], []⟩ (spaced [Word.set, s, p, f, time]) =
      .ok (.next .menu .message ⟨[(name, .empty, false)], [name], [name]⟩) := by
    unfold appLine
    dsimp only
    rw [nsLine_words _ _ _ _ _ _ _ _ _ (by
      intro x hx
      rcases List.mem_cons.1 hx with rfl | hx
      · exact by decide
      · exact hw x (by simp only [List.mem_cons] at hx ⊢; exact .inr hx))]
    rw [if_neg (by decide), if_pos rfl]
    simp [setLine, hf, setCommand, ht, Res.ok_bind]
  have h3 : appLine env lib readFile t3 .menu ⟨[(name, .empty, false)], [name], [name]⟩ (spaced [Word.enter, name]) = .ok .fatal := by
    unfold appLine
    dsimp only
    rw [hen, if_neg (by simp; decide), if_neg (by simp; decide), if_pos (by rfl)]
    simp [enterNamespace]
  refine ⟨⟨⟨[(name, .empty, false)], [name], [name]⟩, by simp only [appRun, h1, h2, Res.ok_bind]⟩, ⟨⟨[(name, .empty, false)], [name], [name]⟩, ?_⟩⟩
  simp only [appRun, h1, h2, h3, Res.ok_bind]

example : (∀ w ∈ [[110], [115], [97], [102], [49, 50]], IsWord w) ∧ exFiles [102] = .contents [102] ∧
    parseTimeStampToMicroSeconds [49, 50] = 0 := by
  exact ⟨by decide, rfl, by decide⟩

/-! ## C97: command lines -/

/-- C97, partial: a line `set subspace path file` of four words stores the contents of the file at
the path, for the time of the clock, and prints the entries pruned. Missing: words with spaces (see
`C97_violated_file`), several spaces between words (see `C97_violated_spaces`). -/
theorem C97_set_partial (env : StoreEnv) (lib : SortLib) (readFile : Bytes → FileRead) (now : UInt64) (st : StoreState) (dir : Bool)
    (s p f payload : Bytes)
    (hw : ∀ w ∈ [s, p, f], IsWord w) (hf : readFile f = .contents payload) :
    (∀ st', storeSet env st now ⟨s, splitSlash p, 0, payload⟩ s = .ok (none, st') →
      nsLine env lib readFile now st dir (spaced [Word.set, s, p, f]) = .ok (.stay .message st' true)) ∧
    (∀ st' pruned, storeSet env st now ⟨s, splitSlash p, 0, payload⟩ s = .ok (some pruned, st') → (∀ e ∈ pruned, e.path ≠ []) →
      ∃ lines, nsLine env lib readFile now st dir (spaced [Word.set, s, p, f]) = .ok (.stay (.pruned lines) st' true) ∧
        lines.map (fun l => (l.1, Res.ok l.2.1, l.2.2)) = pruned.map fun e => (e.subspaceId, makePath e.path, e.timestamp)) := by
  have key := nsLine_words env lib readFile now st dir Word.set s [p, f] (by
    intro x hx
    rcases List.mem_cons.1 hx with rfl | hx
    · decide
    · exact hw x hx)
  rw [if_neg (by decide), if_pos rfl] at key
  constructor
  · intro st' h
    rw [key]
    simp [setLine, hf, setCommand, h, Res.ok_bind]
  · intro st' pruned h hp
    obtain ⟨lines, h1, h2⟩ := printAll_ok (fun (e : Entry) => (makePath e.path).bind fun path => .ok (e.subspaceId, path, e.timestamp)) pruned
      (fun e he => by
        cases hpath : e.path with
        | nil => exact absurd hpath (hp e he)
        | cons a b => exact ⟨_, rfl⟩)
    refine ⟨lines, ?_, ?_⟩
    · rw [key]
      simp [setLine, hf, setCommand, h, h1, Res.ok_bind]
    · clear h1 h key
      induction pruned generalizing lines with
      | nil => cases lines with
        | nil => rfl
        | cons => simp at h2
      | cons e pruned ih =>
        cases lines with
        | nil => simp at h2
        | cons l lines =>
          simp only [List.map_cons, List.cons.injEq] at h2 ⊢
          refine ⟨?_, ih (fun e he => hp e (List.mem_cons_of_mem _ he)) lines h2.2⟩
          have := h2.1
          cases hm : makePath e.path with
          | ok t => rw [hm] at this; simp only [Res.bind, Res.ok.injEq] at this; rw [this]
          | err => rw [hm] at this; cases this
          | crash => rw [hm] at this; cases this
          | block => rw [hm] at this; cases this

example : (do
    let r ← nsLine (exStores [110]) exSort exFiles 3 .empty false (spaced [Word.set, [115], [97, 47, 98], [102]])
    match r with
    | .stay _ st dir => nsLine (exStores [110]) exSort exFiles 4 st dir (spaced [Word.set, [115], [97], [103]])
    | r => .ok r).bind (fun r => match r with
    | .stay out _ _ => Res.ok (some out)
    | _ => .ok none) = Res.ok (some (.pruned [([115], [97, 47, 98], 3)])) := by
  decide +kernel

/-- C97, partial: with a fifth word that is a time, the entry has that time. Missing: as in
`C97_set_partial`, and times that are not understood (see `C96_violated_fatal`). -/
theorem C97_time_partial (env : StoreEnv) (lib : SortLib) (readFile : Bytes → FileRead) (now : UInt64) (st : StoreState) (dir : Bool)
    (s p f time payload : Bytes) (hw : ∀ w ∈ [s, p, f, time], IsWord w) (hf : readFile f = .contents payload)
    (ht : parseTimeStampToMicroSeconds time ≠ 0) (st' : StoreState)
    (h : storeSet env st now ⟨s, splitSlash p, parseTimeStampToMicroSeconds time, payload⟩ s = .ok (some [], st')) :
    nsLine env lib readFile now st dir (spaced [Word.set, s, p, f, time]) = .ok (.stay (.pruned []) st' true) := by
  have key := nsLine_words env lib readFile now st dir Word.set s [p, f, time] (by
    intro x hx
    rcases List.mem_cons.1 hx with rfl | hx
    · decide
    · exact hw x hx)
  rw [if_neg (by decide), if_pos rfl] at key
  rw [key]
  simp [setLine, hf, setCommand, ht, h, printAll, Res.ok_bind]

example : (nsLine (exStores [110]) exSort exFiles 3 .empty false (spaced [Word.set, [115], [97], [102], [48, 58, 49]])).bind (fun r => match r with
    | .stay _ st _ => Res.ok (some (st.kd.map fun k => k.pos))
    | _ => .ok none) = Res.ok (some [⟨[115], [[97]], 60000000⟩]) := by
  decide +kernel

/-- C97, partial: a line `get subspace path` of three words prints the payload that the command
finds, and changes nothing. -/
theorem C97_get_partial (env : StoreEnv) (lib : SortLib) (readFile : Bytes → FileRead) (now : UInt64) (st : StoreState)
    (s p b : Bytes)
    (hw : ∀ w ∈ [s, p], IsWord w) (h : getCommand env st s p = .ok b) :
    nsLine env lib readFile now st true (spaced [Word.get, s, p]) = .ok (.stay (.payload b) st true) := by
  have key := nsLine_words env lib readFile now st true Word.get s [p] (by
    intro x hx
    rcases List.mem_cons.1 hx with rfl | hx
    · decide
    · exact hw x hx)
  rw [if_neg (by decide), if_neg (by decide), if_pos rfl, if_neg (by simp)] at key
  rw [key]
  simp [getLine, h, Res.bind]

example : (nsLine (exStores [110]) exSort exFiles 3 .empty false (spaced [Word.set, [115], [97], [102]])).bind (fun r => match r with
    | .stay _ st _ => (getCommand (exStores [110]) st [115] [97])
    | _ => .err) = Res.ok [102] := by
  decide +kernel

/-- C97, partial: `list` shows every entry once, ordered by subspace, and changes nothing, if no
path is empty. -/
theorem C97_list_partial (env : StoreEnv) (lib : SortLib) (readFile : Bytes → FileRead) (now : UInt64) (st : StoreState) (dir : Bool)
    (h : ∀ k ∈ storeList env st, k.pos.path ≠ []) :
    ∃ lines, nsLine env lib readFile now st dir Word.list = .ok (.stay (.listing lines) st dir) ∧
      (lines.map Res.ok).Perm ((storeList env st).map listLine) ∧
      lines.Pairwise fun a b => ¬BytesLt b.1 a.1 := by
  obtain ⟨lines, h1, h2⟩ := printAll_ok listLine (lib.sorted (storeList env st)) (fun k hk => by
    have := h k ((lib.perm _).mem_iff.1 hk)
    unfold listLine
    cases hp : k.pos.path with
    | nil => exact absurd hp this
    | cons a b => exact ⟨_, rfl⟩)
  refine ⟨lines, ?_, ?_, ?_⟩
  · unfold nsLine
    rw [if_neg (by decide)]
    dsimp only
    rw [show splitSpace (trimSpace Word.list) = [Word.list] by decide]
    rw [if_neg (by decide), if_neg (by decide), if_neg (by decide), if_pos (by rfl), h1]
    rfl
  · rw [h2]
    exact (lib.perm _).map _
  · have ho := lib.ordered (storeList env st)
    clear h1 h
    generalize lib.sorted (storeList env st) = l at h2 ho
    have hfst : ∀ (l : List KdKey) (lines : List (Bytes × UInt64 × Bytes)), lines.map Res.ok = l.map listLine →
        lines.map (fun x => x.1) = l.map fun k => k.pos.subspace := by
      intro l
      induction l with
      | nil => intro lines h; cases lines with
        | nil => rfl
        | cons => simp at h
      | cons k l ih =>
        intro lines h
        cases lines with
        | nil => simp at h
        | cons x lines =>
          simp only [List.map_cons, List.cons.injEq] at h ⊢
          refine ⟨?_, ih lines h.2⟩
          have h3 := h.1
          unfold listLine at h3
          have h3 := h3.symm
          rw [Res.bind_eq_ok] at h3
          obtain ⟨t, _, h3⟩ := h3
          simp only [Res.ok.injEq] at h3
          rw [← h3]
    have e := hfst l lines h2
    have h4 : (l.map fun k => k.pos.subspace).Pairwise fun a b => ¬BytesLt b a := by
      rw [List.pairwise_map]
      exact ho.imp fun h => by rwa [ne_eq, decides_bytes.lt_iff] at h
    rw [← e, List.pairwise_map] at h4
    exact h4

example : (do
    let (mode, _) ← appRun exStores exSort exFiles
      [(1, spaced [Word.new, [110]]), (2, Word.yes), (3, spaced [Word.set, [116], [97], [102]]), (4, spaced [Word.set, [115], [98], [102]])]
      .menu (appStart [])
    match mode with
    | some (.inside _ st dir) => nsLine (exStores [110]) exSort exFiles 5 st dir Word.list
    | _ => .err).bind (fun r => match r with
    | .stay out _ _ => Res.ok (some out)
    | _ => .ok none) = Res.ok (some (.listing [([115], 4, [98]), ([116], 3, [97])])) := by
  decide +kernel

/-- C97, partial: `set` with another number of words than three or four after it, `get` with another
number than two, and words that are no commands change nothing and give a message. -/
theorem C97_words_partial (env : StoreEnv) (lib : SortLib) (readFile : Bytes → FileRead) (now : UInt64) (st : StoreState) (dir : Bool)
    (w v : Bytes) (ws : List Bytes) (hw : ∀ x ∈ w :: v :: ws, IsWord x)
    (h : w = Word.set ∧ (v :: ws).length ≠ 3 ∧ (v :: ws).length ≠ 4 ∨ w = Word.get ∧ (v :: ws).length ≠ 2 ∨
      w ∉ [Word.back, Word.set, Word.get, Word.list]) :
    nsLine env lib readFile now st dir (spaced (w :: v :: ws)) = .ok (.stay .message st dir) := by
  rw [nsLine_words env lib readFile now st dir w v ws hw]
  rcases h with ⟨rfl, h3, h4⟩ | ⟨rfl, h2⟩ | h
  · rw [if_neg (by decide), if_pos rfl]
    unfold setLine
    rw [if_pos]
    simp only [List.length_cons] at *
    omega
  · rw [if_neg (by decide), if_neg (by decide), if_pos rfl, if_pos]
    simp only [List.length_cons] at *
    omega
  · simp only [List.mem_cons, List.not_mem_nil, or_false, not_or] at h
    rw [if_neg h.1, if_neg h.2.1, if_neg h.2.2.1, if_neg h.2.2.2]

example : nsLine (exStores [110]) exSort exFiles 3 .empty false (spaced [Word.set, [115], [97], [102], [48, 58, 49], [120]]) =
    .ok (.stay .message .empty false) := by decide +kernel

/-- C97, partial: white space, also that outside ASCII, before and after a command makes no difference. Missing: the command
`exit` (see `C97_violated_exit`). -/
theorem C97_blanks_partial (env : StoreEnv) (lib : SortLib) (readFile : Bytes → FileRead) (now : UInt64) (st : StoreState) (dir : Bool)
    (before after : List Nat) (hb : ∀ c ∈ before, c ∈ allBlanks) (ha : ∀ c ∈ after, c ∈ allBlanks) (line : Bytes)
    (hx : toLower line ≠ Word.exit) :
    nsLine env lib readFile now st dir (before.flatMap utf8 ++ line ++ after.flatMap utf8) = nsLine env lib readFile now st dir line := by
  have h : toLower (before.flatMap utf8 ++ line ++ after.flatMap utf8) ≠ Word.exit := by
    cases before with
    | cons c before =>
      rw [List.flatMap_cons, List.append_assoc, List.append_assoc]
      simpa using blank_not_exit [] (before.flatMap utf8 ++ (line ++ after.flatMap utf8)) c (hb c (by simp))
    | nil =>
      cases after with
      | cons c after =>
        rw [List.flatMap_cons, ← List.append_assoc]
        exact blank_not_exit _ _ c (ha c (by simp))
      | nil => simpa using hx
  obtain ⟨e1, r1⟩ := blanks_runes before hb
  obtain ⟨e2, r2⟩ := blanks_runes after ha
  unfold nsLine
  rw [if_neg h, if_neg hx, e1, e2, trim_runes _ _ r1 r2 line]

/-- A space, a tab and a no-break space. -/
example : (∀ c ∈ [32, 9, 0xA0], c ∈ allBlanks) ∧ toLower Word.list ≠ Word.exit := by decide

/-- C97 is violated: a blank before or after `exit` and it is not understood. -/
theorem C97_violated_exit (env : StoreEnv) (lib : SortLib) (readFile : Bytes → FileRead) (now : UInt64) (st : StoreState) (dir : Bool)
    (before after : List Nat) (hb : ∀ c ∈ before, c ∈ allBlanks) (ha : ∀ c ∈ after, c ∈ allBlanks) (hn : ¬ (before = [] ∧ after = [])) :
    nsLine env lib readFile now st dir (before.flatMap utf8 ++ Word.exit ++ after.flatMap utf8) = .ok (.stay .message st dir) ∧
    nsLine env lib readFile now st dir Word.exit = .ok .leave := by
  have h : toLower (before.flatMap utf8 ++ Word.exit ++ after.flatMap utf8) ≠ Word.exit := by
    cases before with
    | cons c before =>
      rw [List.flatMap_cons, List.append_assoc, List.append_assoc]
      simpa using blank_not_exit [] (before.flatMap utf8 ++ (Word.exit ++ after.flatMap utf8)) c (hb c (by simp))
    | nil =>
      cases after with
      | cons c after =>
        rw [List.flatMap_cons, ← List.append_assoc]
        exact blank_not_exit _ _ c (ha c (by simp))
      | nil => exact absurd ⟨rfl, rfl⟩ hn
  obtain ⟨e1, r1⟩ := blanks_runes before hb
  obtain ⟨e2, r2⟩ := blanks_runes after ha
  refine ⟨?_, rfl⟩
  unfold nsLine
  rw [if_neg h, e1, e2, trim_runes _ _ r1 r2 Word.exit]
  rfl

/-- An ideographic space after `exit`. -/
example : 0x3000 ∈ allBlanks := by decide

/-- C97 is violated: a note can be stored at a path that ends with white space outside ASCII, but `get` with this path looks for
the path without it: the note cannot be read. -/
theorem C97_violated_wide (env : StoreEnv) (lib : SortLib) (readFile : Bytes → FileRead) (now : UInt64) (st : StoreState) (dir : Bool)
    (s p f : Bytes) (hw : ∀ w ∈ [s, p, f], IsWord w) (c : Nat) (hc : c ∈ wideBlanks) :
    nsLine env lib readFile now st dir (spaced [Word.set, s, p ++ utf8 c, f]) = setLine env readFile now st dir [Word.set, s, p ++ utf8 c, f] ∧
    nsLine env lib readFile now st dir (spaced [Word.get, s, p ++ utf8 c]) = nsLine env lib readFile now st dir (spaced [Word.get, s, p]) := by
  have hca : c ∈ allBlanks := List.mem_append_right _ hc
  constructor
  · have h32 : (32 : UInt8) ∉ p ++ utf8 c := by
      have k : ∀ c ∈ wideBlanks, (32 : UInt8) ∉ utf8 c := by decide
      rw [List.mem_append, not_or]
      exact ⟨isWord_noSpace (hw p (by simp)), k c hc⟩
    have ht : trimSpace (spaced [Word.set, s, p ++ utf8 c, f]) = spaced [Word.set, s, p ++ utf8 c, f] := by
      unfold trimSpace
      have e1 : trimLeft (spaced [Word.set, s, p ++ utf8 c, f]) = spaced [Word.set, s, p ++ utf8 c, f] :=
        trimLeft_word (w := Word.set) (by decide) (Or.inr ⟨_, rfl⟩)
      rw [e1]
      have e2 : spaced [Word.set, s, p ++ utf8 c, f] = (Word.set ++ 32 :: (s ++ 32 :: (p ++ utf8 c ++ [32]))) ++ f := by simp [spaced]
      rw [e2]
      exact trimRight_word (hw f (by simp)) (Or.inr ⟨Word.set ++ 32 :: (s ++ 32 :: (p ++ utf8 c)), by simp⟩)
    unfold nsLine
    rw [if_neg (spaced_not_exit _ _ _)]
    dsimp only
    rw [ht, splitSpace_spaced _ _ (by
      intro x hx
      simp only [List.mem_cons, List.not_mem_nil, or_false] at hx
      rcases hx with rfl | rfl | rfl | rfl
      · decide
      · exact isWord_noSpace (hw _ (by simp))
      · exact h32
      · exact isWord_noSpace (hw _ (by simp)))]
    rw [if_neg (by simp; decide), if_pos (by rfl)]
  · have := C97_blanks_partial env lib readFile now st dir [] [c] (by simp) (by simpa using hca) (spaced [Word.get, s, p])
      (spaced_not_exit _ _ _)
    rw [← this]
    simp [spaced]

/-- The path `a` with a no-break space: stored, but not found. -/
example : (∀ w ∈ ([[115], [97], [102]] : List Bytes), IsWord w) ∧ 0xA0 ∈ wideBlanks ∧
    ((do
      let (_, app) ← appRun exStores exSort exFiles
        [(1, spaced [Word.new, [110]]), (2, Word.yes), (3, spaced [Word.set, [115], [97, 0xC2, 0xA0], [102]])] .menu (appStart [])
      Res.ok (app.disk.map fun x => (x.1, x.2.1.kd.map fun k => k.pos))) = Res.ok [([110], [⟨[115], [[97, 0xC2, 0xA0]], 3⟩])]) := by
  refine ⟨by decide, by decide, by decide +kernel⟩

/-- C97 is violated: `get` in a namespace in which nothing was ever stored ends the process. -/
theorem C97_violated_get (lib : KdLib) (sha : Bytes → Bytes) (ns : Bytes) (sort : SortLib) (readFile : Bytes → FileRead) (now : UInt64)
    (s p : Bytes) (hw : ∀ w ∈ [s, p], IsWord w) :
    nsLine (appStore lib sha ns) sort readFile now .empty false (spaced [Word.get, s, p]) = .crash := by
  have key := nsLine_words (appStore lib sha ns) sort readFile now .empty false Word.get s [p] (by
    intro x hx
    rcases List.mem_cons.1 hx with rfl | hx
    · decide
    · exact hw x hx)
  rw [if_neg (by decide), if_neg (by decide), if_pos rfl, if_neg (by simp)] at key
  rw [key]
  unfold getLine
  rw [if_neg (by decide)]
  rcases entryGet_nothing (appStore lib sha ns) s (splitSlash p) with h | h
  · simp [h, Res.bind]
  · simp [h, Res.bind]

example : nsLine (exStores [110]) exSort exFiles 3 .empty false (spaced [Word.get, [115], [97]]) = .crash := by decide +kernel

/-- C97 is violated: two spaces instead of one after `set` make the empty subspace the subspace, and
the remaining words are moved; with a file whose name is the path, one is put out of the
namespace. -/
theorem C97_violated_spaces (env : StoreEnv) (lib : SortLib) (readFile : Bytes → FileRead) (now : UInt64) (st : StoreState) (dir : Bool)
    (s p f payload : Bytes)
    (hw : ∀ w ∈ [s, p, f], IsWord w) (hf : readFile p = .contents payload) (ht : parseTimeStampToMicroSeconds f = 0) :
    nsLine env lib readFile now st dir (Word.set ++ 32 :: 32 :: spaced [s, p, f]) = .ok .abandon := by
  have e : Word.set ++ 32 :: 32 :: spaced [s, p, f] = spaced (Word.set :: [] :: [s, p, f]) := rfl
  unfold nsLine
  rw [if_neg (by rw [e]; exact spaced_not_exit _ _ _)]
  dsimp only
  have ht' : trimSpace (Word.set ++ 32 :: 32 :: spaced [s, p, f]) = Word.set ++ 32 :: 32 :: spaced [s, p, f] := by
    unfold trimSpace
    rw [trimLeft_word (w := Word.set) (by decide) (Or.inr ⟨_, rfl⟩)]
    have : Word.set ++ 32 :: 32 :: spaced [s, p, f] = (Word.set ++ 32 :: 32 :: (s ++ 32 :: (p ++ [32]))) ++ f := by
      simp [spaced]
    rw [this]
    exact trimRight_word (hw f (by simp)) (Or.inr ⟨Word.set ++ 32 :: 32 :: (s ++ 32 :: p), by simp⟩)
  rw [ht', e, splitSpace_spaced _ _ (by
    intro x hx
    simp only [List.mem_cons, List.not_mem_nil, or_false] at hx
    rcases hx with rfl | rfl | rfl | rfl | rfl
    · decide
    · simp
    all_goals exact isWord_noSpace (hw _ (by simp)))]
  rw [if_neg (by simp; decide), if_pos (by rfl)]
  simp [setLine, hf, setCommand, ht]

example : exFiles [97] = .contents [97] ∧ parseTimeStampToMicroSeconds [102] = 0 := by decide

/-- C97 is violated: a file with a space in its name cannot be stored: the part before the space is
looked for, and the part after it is read as a time. -/
theorem C97_violated_file (env : StoreEnv) (lib : SortLib) (readFile : Bytes → FileRead) (now : UInt64) (st : StoreState) (dir : Bool)
    (s p f g : Bytes)
    (hw : ∀ w ∈ [s, p, f, g], IsWord w) (hf : readFile f = .missing) :
    nsLine env lib readFile now st dir (spaced [Word.set, s, p, f ++ 32 :: g]) = .ok (.stay .message st dir) := by
  have key := nsLine_words env lib readFile now st dir Word.set s [p, f, g] (by
    intro x hx
    rcases List.mem_cons.1 hx with rfl | hx
    · decide
    · exact hw x hx)
  rw [if_neg (by decide), if_pos rfl] at key
  have e : spaced [Word.set, s, p, f ++ 32 :: g] = spaced [Word.set, s, p, f, g] := rfl
  rw [e, key]
  simp [setLine, hf]

example : exFiles [120] = .missing ∧ exFiles [120, 32, 121] = .contents [120, 32, 121] := by decide

end Willow.Props
