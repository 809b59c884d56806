import Verif.Lemmas.Json
import Verif.Lemmas.JsonUnique
import Verif.Lemmas.PropsEntriesFile
import Verif.Props.Commands

/-! # The file `entries.json` (C127) -/

namespace Willow.Props

open Spec

/-- C127, partial: in a session of lines whose words have fewer than 50 bytes, from a disk made by such commands, while one is
in a namespace the file is the text for the keys in its tree, in the order in which the tree library lists them, whose positions are the keys of its
database; and it is the text for no other keys with hexadecimal fingerprints. Missing: longer words (see `C127_violated_limit`). -/
theorem C127_session_partial (lib : KdLib) (sha : Bytes → Bytes) (hs : ∀ b, (sha b).length = 32) (sort : SortLib)
    (readFile : Bytes → FileRead) (isNil : Bool) (disk : GoMap Bytes (StoreState × Bool))
    (hd : ∀ name st, disk.get name = some st → ByFineCommands (appStore lib sha name) st.1)
    (lines : List (UInt64 × Bytes)) (hl : ∀ l ∈ lines, ShortWords 50 l.2) (file0 file : Option Bytes) (app : AppState)
    (name : Bytes) (st : StoreState) (dir : Bool)
    (hr : appRunFile (appStore lib sha) sort readFile isNil lines .menu (appStart disk) file0 = .ok (some (.inside name st dir), app, file)) :
    file = some (entriesJson isNil (lib.values st.kd)) ∧
    (st.kv.map (·.1)).Perm (st.kd.map fun k => encodeKey (appStore lib sha name).p k.pos) ∧
    ∀ keys : List KdKey, (∀ k ∈ keys, ∃ b, k.fingerprint = hexEncode b) → file = some (entriesJson isNil keys) → keys.Perm st.kd := by
  obtain ⟨_, h2⟩ := fileInv_run (fun n => appStore_ok lib sha n hs) (n := 50) (fun _ => ⟨Nat.le_refl _, Nat.le_refl _, Nat.le_refl _⟩) lines
    (mode := .menu) (app := appStart disk) (file := file0) ⟨hd, fun _ _ _ h => by cases h⟩ hl hr
  obtain ⟨⟨ops, ho1, ho2⟩, hf⟩ := h2 _ _ _ rfl
  refine ⟨hf, ?_, fun keys hk he => ?_⟩
  · obtain ⟨st', h3, h4⟩ := C50_sameEntries_partial (appStore lib sha name) (appStore_ok lib sha name hs) ops (fun op h => (ho1 op h).2)
    rw [ho2] at h3
    cases h3
    exact h4
  · rw [hf, Option.some.injEq] at he
    have hq := byCommands_quote hs ⟨ops, fun op h => (ho1 op h).1, ho2⟩
    refine (List.Perm.of_eq (entriesJson_inj (fun k hm => ?_) (fun k hm => hq k ((lib.valuesPerm _).mem_iff.1 hm)) he.symm)).trans (lib.valuesPerm _)
    obtain ⟨b, e⟩ := hk k hm
    rw [e]
    exact hexEncode_quote b

/-- The file after `new n`, `y`, `set s a f`, `set s a/b f`. -/
example : (do
    let (_, _, file) ← appRunFile exStores exSort exFiles false
      (exSession.take 3 ++ [(4, spaced [Word.set, [115], [97, 47, 98], [102]])]) .menu (appStart []) none
    Res.ok file) = Res.ok (some (entriesJson false [⟨⟨[115], [[97]], 3⟩, []⟩, ⟨⟨[115], [[97], [98]], 4⟩, []⟩])) := by
  decide +kernel

example : entriesJson false [⟨⟨[115], [[97], [98, 99]], 1203⟩, [102, 48]⟩] =
    "[{\"Timestamp\":1203,\"Subspace\":\"cw==\",\"Path\":[\"YQ==\",\"YmM=\"],\"Fingerprint\":\"f0\"}]".toUTF8.toList := by
  decide +kernel

/-- C127: the file of a store of the application is a text in JSON: an array (or `null`, if the tree library gives a nil slice) of an object
for each key in the tree, with its timestamp as a number, its subspace and the components of its path in base 64, and its fingerprint,
under their names. -/
theorem C127_text (lib : KdLib) (sha : Bytes → Bytes) (hs : ∀ b, (sha b).length = 32) (ns : Bytes) (isNil : Bool) (st : StoreState)
    (h : ByCommands (appStore lib sha ns) st) :
    (isNil = true ∧ st.kd = [] ∧ JsonText .null (entriesJson isNil (lib.values st.kd))) ∨
    ∃ (keys : List KdKey) (values : List Json), keys.Perm st.kd ∧ JsonText (.array values) (entriesJson isNil (lib.values st.kd)) ∧ values.length = keys.length ∧
      ∀ (i : Nat) k v, keys[i]? = some k → values[i]? = some v → TellsKey k v := by
  unfold entriesJson
  split
  · next he =>
    have := lib.valuesPerm st.kd
    rw [he.1] at this
    exact .inl ⟨he.2, List.nil_perm.1 this, by
      rw [show ([110, 117, 108, 108] : Bytes) = "null".toUTF8.toList by decide +kernel]; exact .null⟩
  · refine .inr ⟨lib.values st.kd, (lib.values st.kd).map keyJson, lib.valuesPerm _,
      array_json _ fun k hk => key_json k (byCommands_plain hs h k ((lib.valuesPerm _).mem_iff.1 hk)), by simp, ?_⟩
    intro i k v h1 h2
    rw [List.getElem?_map, h1] at h2
    cases h2
    exact keyJson_tells k

example : ∃ st, ByCommands (appStore listLib toySha [110]) st ∧ st.kd ≠ [] ∧ (∀ b, (toySha b).length = 32) :=
  ⟨_, ⟨[.set 3 ⟨[115], [[97]], 0, [102]⟩ [115]], by
    intro op ho
    rw [List.mem_singleton.1 ho]
    exact .inr ⟨_, _, _, _, _, rfl, by decide⟩, rfl⟩, by decide +kernel, fun b => by simp [toySha]⟩

/-- C127: whoever reads the file of a store of the application as JSON, in any way, finds an array of objects that tell of
exactly the keys in the tree, or `null` if there are none. -/
theorem C127_read (lib : KdLib) (sha : Bytes → Bytes) (hs : ∀ b, (sha b).length = 32) (ns : Bytes) (isNil : Bool) (st : StoreState)
    (h : ByCommands (appStore lib sha ns) st) (v : Json) (hv : JsonText v (entriesJson isNil (lib.values st.kd))) :
    (v = .null ∧ st.kd = []) ∨
    ∃ values, v = .array values ∧ values.length = st.kd.length ∧ ∀ keys : List KdKey, keys.length = values.length →
      (∀ (i : Nat) k w, keys[i]? = some k → values[i]? = some w → TellsKey k w) → keys.Perm st.kd := by
  have stop : Stops [] := fun c hc => by cases hc
  rcases C127_text lib sha hs ns isNil st h with ⟨-, h1, h2⟩ | ⟨keys, values, h1, h2, h3, h4⟩
  · exact .inl ⟨(jsonText_unique hv h2 (r := []) (r' := []) rfl stop stop).1, h1⟩
  · refine .inr ⟨values, (jsonText_unique hv h2 (r := []) (r' := []) rfl stop stop).1, h3.trans h1.length_eq, fun keys' hl ht => ?_⟩
    have e : keys' = keys := by
      refine List.ext_getElem (hl.trans h3) fun i i1 i2 => ?_
      have i3 : i < values.length := hl ▸ i1
      exact tellsKey_unique (ht i _ _ (List.getElem?_eq_getElem i1) (List.getElem?_eq_getElem i3))
        (h4 i _ _ (List.getElem?_eq_getElem i2) (List.getElem?_eq_getElem i3))
    exact e ▸ h1

example : ∃ st v, ByCommands (appStore listLib toySha [110]) st ∧ st.kd = [⟨⟨[115], [[97]], 3⟩, []⟩] ∧
    JsonText v (entriesJson false (listLib.values st.kd)) := by
  have hb : ByCommands (appStore listLib toySha [110]) (match runOps (appStore listLib toySha [110]) .empty
      [.set 3 ⟨[115], [[97]], 0, [102]⟩ [115]] with | .ok st => st | _ => .empty) :=
    ⟨[.set 3 ⟨[115], [[97]], 0, [102]⟩ [115]], by
      intro op ho
      rw [List.mem_singleton.1 ho]
      exact .inr ⟨_, _, _, _, _, rfl, by decide⟩, rfl⟩
  rcases C127_text listLib toySha (fun b => by simp [toySha]) [110] false _ hb with ⟨h, -⟩ | ⟨_, values, -, h, -⟩
  · cases h
  · exact ⟨_, .array values, hb, by decide +kernel, h⟩

/-- C127, partial: in such a session, whoever reads the file as JSON, in any way, finds exactly the positions at which the
database of the namespace has entries. Missing: longer words (see `C127_violated_limit`). -/
theorem C127_listed_partial (lib : KdLib) (sha : Bytes → Bytes) (hs : ∀ b, (sha b).length = 32) (sort : SortLib)
    (readFile : Bytes → FileRead) (isNil : Bool) (disk : GoMap Bytes (StoreState × Bool))
    (hd : ∀ name st, disk.get name = some st → ByFineCommands (appStore lib sha name) st.1)
    (lines : List (UInt64 × Bytes)) (hl : ∀ l ∈ lines, ShortWords 50 l.2) (file0 file : Option Bytes) (app : AppState)
    (name : Bytes) (st : StoreState) (dir : Bool)
    (hr : appRunFile (appStore lib sha) sort readFile isNil lines .menu (appStart disk) file0 = .ok (some (.inside name st dir), app, file)) :
    ∃ text, file = some text ∧ (∃ v, JsonText v text) ∧ ∀ v, JsonText v text →
      (v = .null ∧ st.kv = []) ∨
      ∃ values, v = .array values ∧ values.length = st.kv.length ∧ ∀ keys : List KdKey, keys.length = values.length →
        (∀ (i : Nat) k w, keys[i]? = some k → values[i]? = some w → TellsKey k w) →
        (st.kv.map (·.1)).Perm (keys.map fun k => encodeKey (appStore lib sha name).p k.pos) := by
  obtain ⟨h1, h2, -⟩ := C127_session_partial lib sha hs sort readFile isNil disk hd lines hl file0 file app name st dir hr
  obtain ⟨-, h3⟩ := fileInv_run (fun n => appStore_ok lib sha n hs) (n := 50) (fun _ => ⟨Nat.le_refl _, Nat.le_refl _, Nat.le_refl _⟩) lines
    (mode := .menu) (app := appStart disk) (file := file0) ⟨hd, fun _ _ _ h => by cases h⟩ hl hr
  obtain ⟨⟨ops, ho1, ho2⟩, -⟩ := h3 _ _ _ rfl
  have hb : ByCommands (appStore lib sha name) st := ⟨ops, fun op h => (ho1 op h).1, ho2⟩
  refine ⟨_, h1, ?_, fun v hv => ?_⟩
  · rcases C127_text lib sha hs name isNil st hb with ⟨-, -, h⟩ | ⟨_, values, -, h, -⟩
    · exact ⟨_, h⟩
    · exact ⟨_, h⟩
  · rcases C127_read lib sha hs name isNil st hb v hv with ⟨e1, e2⟩ | ⟨values, e1, e2, e3⟩
    · rw [e2] at h2
      exact .inl ⟨e1, List.map_eq_nil_iff.1 (List.perm_nil.1 h2)⟩
    · refine .inr ⟨values, e1, ?_, fun keys hk ht => h2.trans ((e3 keys hk ht).map _).symm⟩
      have := h2.length_eq
      simp only [List.length_map] at this
      omega

/-- The file after `new n`, `y`, `set s a f`. -/
example : ∃ r, appRunFile exStores exSort exFiles false (exSession.take 3) .menu (appStart []) none = .ok r ∧
    r.2.2 = some "[{\"Timestamp\":3,\"Subspace\":\"cw==\",\"Path\":[\"YQ==\"],\"Fingerprint\":\"\"}]".toUTF8.toList :=
  exists_ok (by decide +kernel)

/-- C127: the files of two stores of the application differ if the stores hold different keys, whatever commands led to
them. -/
theorem C127_told (lib lib' : KdLib) (sha : Bytes → Bytes) (hs : ∀ b, (sha b).length = 32) (ns ns' : Bytes) (isNil : Bool)
    (st st' : StoreState) (h : ByCommands (appStore lib sha ns) st) (h' : ByCommands (appStore lib' sha ns') st')
    (he : entriesJson isNil (lib.values st.kd) = entriesJson isNil (lib'.values st'.kd)) : st.kd.Perm st'.kd := by
  have e := entriesJson_inj (fun k hk => byCommands_quote hs h k ((lib.valuesPerm _).mem_iff.1 hk))
    (fun k hk => byCommands_quote hs h' k ((lib'.valuesPerm _).mem_iff.1 hk)) he
  exact (lib.valuesPerm _).symm.trans (e ▸ lib'.valuesPerm _)

example : ∃ st, ByCommands (appStore listLib toySha [110]) st ∧ st.kd = [⟨⟨[115], [[97]], 3⟩, []⟩] :=
  ⟨_, ⟨[.set 3 ⟨[115], [[97]], 0, [102]⟩ [115]], by
    intro op ho
    rw [List.mem_singleton.1 ho]
    exact .inr ⟨_, _, _, _, _, rfl, by decide⟩, rfl⟩, by decide +kernel⟩

/-- C127: a line after which one is in no namespace, be it in the menu or at the end, leaves the file as it was. -/
theorem C127_kept (env : Bytes → StoreEnv) (lib : SortLib) (readFile : Bytes → FileRead) (isNil : Bool) (now : UInt64) (line : Bytes)
    (mode : AppMode) (m : Option AppMode) (app app' : AppState) (file0 file : Option Bytes)
    (hr : appRunFile env lib readFile isNil [(now, line)] mode app file0 = .ok (m, app', file))
    (hm : ∀ name st dir, m ≠ some (.inside name st dir)) : file = file0 := by
  unfold appRunFile at hr
  rw [Res.bind_eq_ok] at hr
  obtain ⟨step, _, hr⟩ := hr
  cases step with
  | next next out app1 =>
    simp only [appRunFile, Res.ok.injEq, Prod.mk.injEq] at hr
    obtain ⟨rfl, _, rfl⟩ := hr
    unfold entriesAfter
    cases next with
    | inside n st dir => exact absurd rfl (hm n st dir)
    | menu => cases mode <;> rfl
    | confirm n => cases mode <;> rfl
  | exit app1 =>
    simp only [Res.ok.injEq, Prod.mk.injEq] at hr
    exact hr.2.2.symm
  | fatal =>
    simp only [Res.ok.injEq, Prod.mk.injEq] at hr
    exact hr.2.2.symm

/-- A namespace that is locked is entered: the end, with the file unchanged. -/
example : (do
    let (m, _, file) ← appRunFile exStores exSort exFiles false [(1, spaced [Word.enter, [110]])] .menu
      ⟨[([110], .empty, false)], [[110]], [[110]]⟩ (some [7])
    Res.ok (m.isNone, file)) = Res.ok (true, some [7]) := by
  decide +kernel

/-- C127 is violated: a line `set` with a text of 50 bytes without slashes (or such a text after fewer than 49 slashes), not all
of them 255, when the namespace was made by fine commands and has no entries of the subspace, stores the entry, but the file then
shows another path: it is the text for no keys among which is that of the entry. -/
theorem C127_violated_limit (lib : KdLib) (sha : Bytes → Bytes) (hs : ∀ b, (sha b).length = 32) (sort : SortLib)
    (readFile : Bytes → FileRead) (isNil : Bool) (name : Bytes) (st : StoreState) (dir : Bool)
    (hst : ByFineCommands (appStore lib sha name) st) (app : AppState) (file0 : Option Bytes) (now : UInt64)
    (sub : Bytes) (hno : ∀ k ∈ st.kd, k.pos.subspace ≠ sub) (j : Nat) (hj : j < 49) (c f payload : Bytes)
    (hc : c.length = 50) (hslash : (47 : UInt8) ∉ c) (hff : ∃ b ∈ c, b ≠ 255)
    (hw : ∀ w ∈ [sub, List.replicate j 47 ++ c, f], IsWord w) (hf : readFile f = .contents payload) :
    ∃ st' app' file, appRunFile (appStore lib sha) sort readFile isNil [(now, spaced [Word.set, sub, List.replicate j 47 ++ c, f])]
        (.inside name st dir) app file0 = .ok (some (.inside name st' true), app', some file) ∧
      st'.kv.get (encodeKey (appStore lib sha name).p ⟨sub, splitSlash (List.replicate j 47 ++ c), now⟩) ≠ none ∧
      ∀ keys : List KdKey, (∀ k ∈ keys, ∃ b, k.fingerprint = hexEncode b) → file = entriesJson isNil keys →
        ∀ k ∈ keys, k.pos ≠ ⟨sub, splitSlash (List.replicate j 47 ++ c), now⟩ := by
  obtain ⟨ops, ho1, ho2⟩ := hst
  obtain ⟨c', st', -, hlt, h1, h2, ⟨v, h3⟩, -⟩ := set_fullText lib sha name hs ops (fun op h => (ho1 op h).2) st ho2 sub hno now j hj c
    payload hc hslash hff
  have h1' : storeSet (appStore lib sha name) st now ⟨sub, splitSlash (List.replicate j 47 ++ c), 0, payload⟩ sub = .ok (some [], st') :=
    Option.some.inj h1
  obtain ⟨lines, h4, h5⟩ := (C97_set_partial (appStore lib sha name) sort readFile now st dir sub (List.replicate j 47 ++ c) f payload hw hf).2
    st' [] h1' (by simp)
  have hrun : appRunFile (appStore lib sha) sort readFile isNil [(now, spaced [Word.set, sub, List.replicate j 47 ++ c, f])]
      (.inside name st dir) app file0 = .ok (some (.inside name st' true), { app with disk := app.disk.set name (st', true) },
        some (entriesJson isNil (lib.values st'.kd))) := by
    unfold appRunFile appLine
    dsimp only
    rw [h4]
    rfl
  refine ⟨st', _, _, hrun, ?_, fun keys hk he k hkm hkp => ?_⟩
  · rw [splitSlash_slashes c hslash, h3, KV.get_set, if_pos rfl]
    simp
  · have hq : ∀ k ∈ st'.kd, (34 : UInt8) ∉ k.fingerprint := by
      intro k hk
      rw [h2] at hk
      rcases List.mem_append.1 hk with hk | hk
      · exact byCommands_quote hs ⟨ops, fun op h => (ho1 op h).1, ho2⟩ k hk
      · rw [List.mem_singleton.1 hk]; simp
    have e := entriesJson_inj (fun k hm => hq k ((lib.valuesPerm _).mem_iff.1 hm)) (fun k hm => by
      obtain ⟨b, e⟩ := hk k hm
      rw [e]
      exact hexEncode_quote b) he
    rw [← e, (lib.valuesPerm _).mem_iff, h2] at hkm
    rcases List.mem_append.1 hkm with hkm | hkm
    · exact hno k hkm (by rw [hkp])
    · rw [List.mem_singleton.1 hkm, splitSlash_slashes c hslash, Position.mk.injEq] at hkp
      have := List.append_cancel_left hkp.2.1
      simp only [List.cons.injEq, and_true] at this
      subst this
      exact bytesLt_strictTotal.irrefl _ hlt

example : (do
      let (_, app, file) ← appRunFile exStores exSort exFiles false
        [(1, spaced [Word.enter, [110]]), (2, spaced [Word.set, [115], List.replicate 50 97, [102]])] .menu (appStart [([110], .empty, false)]) none
      Res.ok (app.disk.map fun x => x.2.1.kv.map (·.1), file)) =
    Res.ok ([[encodeKey (exStores [110]).p ⟨[115], [List.replicate 50 97], 2⟩]],
      some (entriesJson false [⟨⟨[115], [List.replicate 49 97 ++ [98]], 2⟩, []⟩])) := by
  decide +kernel

/-- C127 is violated: on entering a namespace again, with the same entries, the file is never the same if some entry was
stored in between: an entry has no fingerprint until its namespace is opened again. -/
theorem C127_violated_again (lib : KdLib) (sha : Bytes → Bytes) (hs : ∀ b, (sha b).length = 32) (ns : Bytes) (isNil : Bool)
    (st st' : StoreState) (h : ByCommands (appStore lib sha ns) st) (hk : ∃ k ∈ st.kd, k.fingerprint = [])
    (hr : restart (appStore lib sha ns) (fun kv => kv) st = .ok st') : entriesJson isNil (lib.values st.kd) ≠ entriesJson isNil (lib.values st'.kd) := by
  intro he
  have e := C127_told lib lib sha hs ns ns isNil st st' h (byCommands_restart h hr) he
  obtain ⟨k, hm, hf⟩ := hk
  rw [e.mem_iff] at hm
  unfold restart at hr
  rw [Res.bind_eq_ok] at hr
  obtain ⟨keys, h1, hr⟩ := hr
  cases hr
  obtain ⟨ops, ho, h2⟩ := h
  have hm' := marked_run (appStore_ok lib sha ns hs) ops ho (st := .empty) ⟨(fun e he => nomatch he), (fun k hk => nomatch hk)⟩ h2
  obtain ⟨x, hx⟩ := marked_keys (appStore_ok lib sha ns hs) _ hm'.1 h1 k hm
  rw [hf] at hx
  have hl : (hexEncode (sha x)).length = 0 := congrArg List.length hx.symm
  have := hs x
  cases hsx : sha x with
  | nil => rw [hsx] at this; cases this
  | cons b bs => rw [hsx] at hl; simp [hexEncode] at hl

example : (do
    let st ← runOps (exStores [110]) .empty [.set 3 ⟨[115], [[97]], 0, [102]⟩ [115]]
    let st' ← restart (exStores [110]) (fun kv => kv) st
    Res.ok (st.kd, st'.kd.map (·.pos))) = Res.ok ([⟨⟨[115], [[97]], 3⟩, []⟩], [⟨[115], [[97]], 3⟩]) := by
  decide +kernel

/-- C96, partial: in a session of lines whose words have fewer than 50 bytes, from a disk made by such commands, each namespace
holds a store that was made by calls whose paths are handled exactly, so that the theorems about fine calls hold for it. -/
theorem C96_short_partial (lib : KdLib) (sha : Bytes → Bytes) (hs : ∀ b, (sha b).length = 32) (sort : SortLib)
    (readFile : Bytes → FileRead) (disk : GoMap Bytes (StoreState × Bool))
    (hd : ∀ name st, disk.get name = some st → ByFineCommands (appStore lib sha name) st.1)
    (lines : List (UInt64 × Bytes)) (hl : ∀ l ∈ lines, ShortWords 50 l.2) (mode : AppMode) (app : AppState)
    (hr : appRun (appStore lib sha) sort readFile lines .menu (appStart disk) = .ok (some mode, app)) (name : Bytes) (st : StoreState)
    (dir : Bool) (hst : app.disk.get name = some (st, dir)) :
    ∃ ops, (∀ op ∈ ops, FineOp (appStore lib sha name) op) ∧ runOps (appStore lib sha name) .empty ops = .ok st := by
  obtain ⟨file, hf⟩ := appRun_file (isNil := false) lines none hr
  obtain ⟨h1, _⟩ := fileInv_run (fun n => appStore_ok lib sha n hs) (n := 50) (fun _ => ⟨Nat.le_refl _, Nat.le_refl _, Nat.le_refl _⟩) lines
    (mode := .menu) (app := appStart disk) (file := none) ⟨hd, fun _ _ _ h => by cases h⟩ hl hf
  obtain ⟨ops, h2, h3⟩ := h1 name _ hst
  exact ⟨ops, fun op h => (h2 op h).2, h3⟩

example : ∀ l ∈ exSession, ShortWords 50 l.2 := by
  have key : ∀ l ∈ exSession, l.2.length < 50 := by decide +kernel
  intro l hl a w b e _
  have := congrArg List.length e
  simp only [List.length_append] at this
  have := key l hl
  omega

end Willow.Props
