import Verif.Lemmas.Concurrent
import Verif.Lemmas.Crash
import Verif.Lemmas.CrashWithin
import Verif.Lemmas.PropsConcurrent
import Verif.Spec.Turns

/-! Calls that take turns after every change do what calls do that take longer turns, up to the files. -/

namespace Willow

open Spec

/-- The change is one of the files. -/
def OfFiles (w : DiskWrite) : Prop := (∃ n c, w = .file n c) ∨ ∃ n, w = .remove n

/-- The change is none of a count of references, or sets one to a number. -/
def CountsWell (w : DiskWrite) : Prop := ∀ k v, w = .refSet k v → ∃ c : UInt64, v = putU64 c.toNat

theorem OfFiles.alike {w : DiskWrite} (h : OfFiles w) (st : StoreState) : Alike st (applyWrite st w) := by
  rcases h with ⟨n, c, rfl⟩ | ⟨n, rfl⟩ <;> exact ⟨rfl, rfl, rfl, rfl⟩

theorem payloadWrites_ofFiles (env : StoreEnv) (b : Bytes) : ∀ w ∈ payloadWrites env b, OfFiles w := by
  unfold payloadWrites
  dsimp only
  split
  · simp
  · intro w hw
    simp only [List.mem_cons, List.not_mem_nil, or_false] at hw
    rcases hw with rfl | rfl <;> exact .inl ⟨_, _, rfl⟩

theorem eraseWrites_ofFiles (env : StoreEnv) (d : Bytes) : ∀ w ∈ eraseWrites env d, OfFiles w := by
  unfold eraseWrites
  dsimp only
  split
  · simp
  · intro w hw
    rw [List.mem_singleton] at hw
    exact .inr ⟨_, hw⟩

theorem OfFiles.countsWell {w : DiskWrite} (h : OfFiles w) : CountsWell w := by
  rcases h with ⟨n, c, rfl⟩ | ⟨n, rfl⟩ <;> intro k v h <;> cases h

theorem pruneWrites_counts (env : StoreEnv) : ∀ (l : List (Entry × Bytes)) (refs : KV), ∀ w ∈ pruneWrites env l refs, CountsWell w
  | [], _ => by simp [pruneWrites]
  | (e, _) :: rest, refs => by
    rw [pruneWrites]
    intro w h
    rcases List.mem_cons.1 h with rfl | h
    · intro k v h; cases h
    · split at h
      · rcases List.mem_cons.1 h with rfl | h
        · intro k v h; cases h; exact ⟨_, rfl⟩
        · rcases List.mem_append.1 h with h | h
          · split at h
            · exact (eraseWrites_ofFiles env _ w h).countsWell
            · cases h
          · exact pruneWrites_counts env rest _ w h
      · cases h

theorem insertWrites_counts (env : StoreEnv) (st : StoreState) (e : Entry) (token : Bytes) :
    ∀ w ∈ insertWrites env st e token, CountsWell w := by
  unfold insertWrites
  dsimp only
  intro w h
  rcases List.mem_append.1 h with h | h
  · exact (payloadWrites_ofFiles env _ w h).countsWell
  · rcases List.mem_cons.1 h with rfl | h
    · intro k v h; cases h
    · split at h
      · cases h
      · split at h
        · rcases List.mem_cons.1 h with rfl | h
          · intro k v h; cases h; exact ⟨_, rfl⟩
          · split at h
            · exact pruneWrites_counts env _ _ w h
            · cases h
        · cases h

theorem replaceWrites_counts (env : StoreEnv) (st : StoreState) (other : Entry) (auth : Bytes) (e : Entry) :
    ∀ w ∈ replaceWrites env st other auth e, CountsWell w := by
  unfold replaceWrites
  intro w h
  rcases List.mem_cons.1 h with rfl | h
  · intro k v h; cases h
  · rcases List.mem_append.1 h with h | h
    · exact (eraseWrites_ofFiles env _ w h).countsWell
    · split at h
      · split at h
        · rcases List.mem_cons.1 h with rfl | h
          · intro k v h; cases h; exact ⟨_, rfl⟩
          · split at h
            · exact (eraseWrites_ofFiles env _ w h).countsWell
            · cases h
        · cases h
      · cases h

theorem ingestWrites_counts (env : StoreEnv) (st : StoreState) (e : Entry) (token : Bytes) :
    ∀ w ∈ ingestWrites env st e token, CountsWell w := by
  unfold ingestWrites
  dsimp only
  intro w h
  repeat' split at h
  all_goals first
    | cases h; done
    | exact insertWrites_counts env _ e token w h
    | (rcases List.mem_append.1 h with h | h
       · exact replaceWrites_counts env _ _ _ e w h
       · first
          | cases h; done
          | exact insertWrites_counts env _ e token w h
          | (split at h
             · exact insertWrites_counts env _ e token w h
             · cases h))

theorem CountsWell.counted {w : DiskWrite} (h : CountsWell w) {st : StoreState} {d : Bytes} (hc : Counted st.refs d) :
    Counted (applyWrite st w).refs d := by
  cases w with
  | refSet k v =>
    obtain ⟨c, rfl⟩ := h k v rfl
    exact counted_set _ _ _ _ (.inl hc)
  | _ => exact hc

/-- What changes make of the databases depends on the databases only. -/
theorem applyWrites_databases : ∀ (ws : List DiskWrite) (a b : StoreState), a.kv = b.kv → a.refs = b.refs →
    (applyWrites a ws).kv = (applyWrites b ws).kv ∧ (applyWrites a ws).refs = (applyWrites b ws).refs
  | [], _, _, h, h' => ⟨h, h'⟩
  | w :: ws, a, b, h, h' => by
    refine applyWrites_databases ws (applyWrite a w) (applyWrite b w) ?_ ?_ <;> cases w <;> simp [applyWrite, h, h']

theorem ingestEntry_locked (env : StoreEnv) {st : StoreState} (h : st.locked = true) (e : Entry) (t : Bytes) : ingestEntry env st e t = .block := by
  unfold ingestEntry
  rw [if_pos h]

/-- Which stage of the longer turns goes with a stage of the shorter ones. -/
inductive Matches (env : StoreEnv) : TurnStage → CallStage → Prop
  | start (c : StoreCall) : Matches env (.start c) (.start c)
  | writing (ws : List DiskWrite) (now : UInt64) (input : EntryInput) (au : Bytes) :
    Matches env (.writing ws (setEntry env now input) (env.authorise (setEntry env now input) au)) (.start (.set now input au))
  | waitSet (e : Entry) (t : Bytes) : Matches env (.waiting e t true) (.written e t)
  | waitIngest (e : Entry) (t : Bytes) : Matches env (.waiting e t false) (.start (.ingest e t))
  | inSet (ws : List DiskWrite) (kd : List KdKey) (l : Bool) (p : List Entry) (d : Bytes) :
    Matches env (.ingesting ws kd l (some p) (some d)) (.ingested d p)
  | inNone (ws : List DiskWrite) (kd : List KdKey) (l : Bool) (c : Option Bytes) : Matches env (.ingesting ws kd l none c) (.done none)
  | inIngest (ws : List DiskWrite) (kd : List KdKey) (l : Bool) (r : Option (List Entry)) : Matches env (.ingesting ws kd l r none) (.done r)
  | ingested (d : Bytes) (p : List Entry) : Matches env (.ingested d p) (.ingested d p)
  | erasing (ws : List DiskWrite) (p : List Entry) : Matches env (.erasing ws p) (.done (some p))
  | done (r : Option (List Entry)) : Matches env (.done r) (.done r)

/-- Nobody is within an ingest. -/
def Idle (stages : List TurnStage) : Prop := ∀ (i : Nat) ws kd l r c, stages[i]? ≠ some (.ingesting ws kd l r c)

/-- The changes to come outside an ingest are of files. -/
def Tame : TurnStage → Prop
  | .writing ws _ _ => ∀ w ∈ ws, OfFiles w
  | .erasing ws _ => ∀ w ∈ ws, OfFiles w
  | _ => True

/-- The calls of the shorter turns and those of the longer ones are equally far. -/
structure Follows (env : StoreEnv) (stages : List TurnStage) (st : StoreState) (calls : List CallStage) (cst : StoreState) : Prop where
  each : ∀ (i : Nat) (x : TurnStage), stages[i]? = some x → ∃ y, calls[i]? = some y ∧ Matches env x y
  tame : ∀ (i : Nat) (x : TurnStage), stages[i]? = some x → Tame x
  idle : Idle stages → Alike st cst
  busy : ∀ (i : Nat) ws kd l r c, stages[i]? = some (.ingesting ws kd l r c) → st.locked = true ∧ (applyWrites st ws).kv = cst.kv ∧
    (applyWrites st ws).refs = cst.refs ∧ kd = cst.kd ∧ l = cst.locked ∧ (∀ w ∈ ws, CountsWell w) ∧
    (∀ d p, r = some p → c = some d → Counted cst.refs d) ∧
    ∀ (j : Nat) ws' kd' l' r' c', stages[j]? = some (.ingesting ws' kd' l' r' c') → j = i
  counted : ∀ (i : Nat) d p, stages[i]? = some (.ingested d p) → Counted st.refs d

theorem set_same {α : Type} {l : List α} {i : Nat} {y : α} (h : l[i]? = some y) : l.set i y = l := by
  apply List.ext_getElem?
  intro j
  rw [List.getElem?_set]
  split
  · rename_i e
    subst e
    rw [if_pos (List.getElem?_eq_some_iff.1 h).1, h]
  · rfl

theorem get_set_cases {α : Type} {l : List α} {i j : Nat} {x y : α} (h : (l.set i x)[j]? = some y) :
    (j = i ∧ y = x) ∨ (j ≠ i ∧ l[j]? = some y) := by
  rw [List.getElem?_set] at h
  split at h
  · rename_i e
    split at h
    · cases h; exact .inl ⟨e.symm, rfl⟩
    · cases h
  · rename_i e
    exact .inr ⟨fun h => e h.symm, h⟩

/-- A turn outside ingests. -/
theorem Follows.quiet {env : StoreEnv} {stages : List TurnStage} {st : StoreState} {calls : List CallStage} {cst : StoreState}
    (h : Follows env stages st calls cst) {i : Nat} {x x' : TurnStage} {y y' : CallStage} {st' cst' : StoreState} (hx : stages[i]? = some x)
    (hy : calls[i]? = some y) (hn : ∀ ws kd l r c, x ≠ .ingesting ws kd l r c) (hn' : ∀ ws kd l r c, x' ≠ .ingesting ws kd l r c)
    (hm : Matches env x' y') (ht : Tame x') (ha : Alike st st') (hc : Alike cst cst') (hcount : ∀ d p, x' = .ingested d p → Counted st.refs d) :
    Follows env (stages.set i x') st' (calls.set i y') cst' := by
  have hkeep : ∀ (j : Nat) ws kd l r c, (stages.set i x')[j]? = some (.ingesting ws kd l r c) → stages[j]? = some (.ingesting ws kd l r c) := by
    intro j ws kd l r c hj
    rcases get_set_cases hj with ⟨_, e⟩ | ⟨_, e⟩
    · exact absurd e.symm (hn' ws kd l r c)
    · exact e
  refine ⟨fun j z hj => ?_, fun j z hj => ?_, fun hi => ?_, fun j ws kd l r c hj => ?_, fun j d p hj => ?_⟩
  · rcases get_set_cases hj with ⟨rfl, rfl⟩ | ⟨e, hj⟩
    · refine ⟨y', ?_, hm⟩
      rw [List.getElem?_set, if_pos rfl, if_pos (List.getElem?_eq_some_iff.1 hy).1]
    · obtain ⟨y, h1, h2⟩ := h.each j z hj
      exact ⟨y, by rw [List.getElem?_set, if_neg (fun e' => e e'.symm)]; exact h1, h2⟩
  · rcases get_set_cases hj with ⟨rfl, rfl⟩ | ⟨e, hj⟩
    · exact ht
    · exact h.tame j z hj
  · refine Alike.trans (Alike.trans (Alike.symm ha) (h.idle fun j ws kd l r c hj => ?_)) hc
    by_cases e : j = i
    · subst e
      rw [hx] at hj
      exact hn ws kd l r c (Option.some.inj hj)
    · exact hi j ws kd l r c (by rw [List.getElem?_set, if_neg (fun e' => e e'.symm)]; exact hj)
  · obtain ⟨b1, b2, b3, b4, b5, b6, b7, b8⟩ := h.busy j ws kd l r c (hkeep _ _ _ _ _ _ hj)
    obtain ⟨q1, q2⟩ := applyWrites_databases ws st' st ha.1.symm ha.2.2.1.symm
    refine ⟨by rw [← ha.2.2.2]; exact b1, by rw [q1, b2, hc.1], by rw [q2, b3, hc.2.2.1], by rw [b4, hc.2.1], by rw [b5, hc.2.2.2], b6,
      fun d p e e' => by rw [← hc.2.2.1]; exact b7 d p e e', fun j' ws' kd' l' r' c' hj' => b8 j' ws' kd' l' r' c' (hkeep _ _ _ _ _ _ hj')⟩
  · rw [← ha.2.2.1]
    rcases get_set_cases hj with ⟨rfl, e⟩ | ⟨e, hj⟩
    · exact hcount d p e.symm
    · exact h.counted j d p hj

/-- An ingest begins. -/
theorem Follows.takes {env : StoreEnv} {stages : List TurnStage} {st : StoreState} {calls : List CallStage} {cst : StoreState}
    (h : Follows env stages st calls cst) {i : Nat} {x : TurnStage} {y y' : CallStage} {cst' : StoreState} (hx : stages[i]? = some x)
    (hy : calls[i]? = some y) {ws : List DiskWrite} {kd : List KdKey} {l : Bool} {r : Option (List Entry)} {c : Option Bytes}
    (hidle : Idle stages) (hm : Matches env (.ingesting ws kd l r c) y') (hkv : (applyWrites st ws).kv = cst'.kv)
    (hrefs : (applyWrites st ws).refs = cst'.refs) (hkd : kd = cst'.kd) (hl : l = cst'.locked) (hw : ∀ w ∈ ws, CountsWell w)
    (hc : ∀ d p, r = some p → c = some d → Counted cst'.refs d) :
    Follows env (stages.set i (.ingesting ws kd l r c)) { st with locked := true } (calls.set i y') cst' := by
  have honly : ∀ (j : Nat) ws' kd' l' r' c', (stages.set i (.ingesting ws kd l r c))[j]? = some (.ingesting ws' kd' l' r' c') →
      j = i ∧ TurnStage.ingesting ws' kd' l' r' c' = .ingesting ws kd l r c := by
    intro j ws' kd' l' r' c' hj
    rcases get_set_cases hj with ⟨e, e'⟩ | ⟨_, e⟩
    · exact ⟨e, e'⟩
    · exact absurd e (hidle j ws' kd' l' r' c')
  refine ⟨fun j z hj => ?_, fun j z hj => ?_, fun hi => ?_, fun j ws' kd' l' r' c' hj => ?_, fun j d p hj => ?_⟩
  · rcases get_set_cases hj with ⟨rfl, rfl⟩ | ⟨e, hj⟩
    · refine ⟨y', ?_, hm⟩
      rw [List.getElem?_set, if_pos rfl, if_pos (List.getElem?_eq_some_iff.1 hy).1]
    · obtain ⟨y, h1, h2⟩ := h.each j z hj
      exact ⟨y, by rw [List.getElem?_set, if_neg (fun e' => e e'.symm)]; exact h1, h2⟩
  · rcases get_set_cases hj with ⟨rfl, rfl⟩ | ⟨e, hj⟩
    · trivial
    · exact h.tame j z hj
  · exact absurd (by rw [List.getElem?_set, if_pos rfl, if_pos (List.getElem?_eq_some_iff.1 hx).1]) (hi i ws kd l r c)
  · obtain ⟨rfl, e⟩ := honly j ws' kd' l' r' c' hj
    cases e
    obtain ⟨q1, q2⟩ := applyWrites_databases ws { st with locked := true } st rfl rfl
    exact ⟨rfl, q1.trans hkv, q2.trans hrefs, hkd, hl, hw, hc, fun j' ws' kd' l' r' c' hj' => (honly j' ws' kd' l' r' c' hj').1⟩
  · rcases get_set_cases hj with ⟨_, e⟩ | ⟨e, hj⟩
    · cases e
    · exact h.counted j d p hj

/-- A change within an ingest. -/
theorem Follows.within {env : StoreEnv} {stages : List TurnStage} {st : StoreState} {calls : List CallStage} {cst : StoreState}
    (h : Follows env stages st calls cst) {i : Nat} {w : DiskWrite} {ws : List DiskWrite} {kd : List KdKey} {l : Bool}
    {r : Option (List Entry)} {c : Option Bytes} (hx : stages[i]? = some (.ingesting (w :: ws) kd l r c)) :
    Follows env (stages.set i (.ingesting ws kd l r c)) (applyWrite st w) calls cst := by
  obtain ⟨b1, b2, b3, b4, b5, b6, b7, b8⟩ := h.busy i _ _ _ _ _ hx
  have honly : ∀ (j : Nat) ws' kd' l' r' c', (stages.set i (.ingesting ws kd l r c))[j]? = some (.ingesting ws' kd' l' r' c') →
      j = i ∧ TurnStage.ingesting ws' kd' l' r' c' = .ingesting ws kd l r c := by
    intro j ws' kd' l' r' c' hj
    rcases get_set_cases hj with ⟨e, e'⟩ | ⟨e', e⟩
    · exact ⟨e, e'⟩
    · exact absurd (b8 j _ _ _ _ _ e) e'
  refine ⟨fun j z hj => ?_, fun j z hj => ?_, fun hi => ?_, fun j ws' kd' l' r' c' hj => ?_, fun j d p hj => ?_⟩
  · rcases get_set_cases hj with ⟨rfl, rfl⟩ | ⟨e, hj⟩
    · obtain ⟨y, h1, h2⟩ := h.each _ _ hx
      refine ⟨y, h1, ?_⟩
      cases h2 <;> constructor
    · exact h.each j z hj
  · rcases get_set_cases hj with ⟨rfl, rfl⟩ | ⟨e, hj⟩
    · trivial
    · exact h.tame j z hj
  · exact absurd (by rw [List.getElem?_set, if_pos rfl, if_pos (List.getElem?_eq_some_iff.1 hx).1]) (hi i ws kd l r c)
  · obtain ⟨rfl, e⟩ := honly j ws' kd' l' r' c' hj
    cases e
    refine ⟨?_, b2, b3, b4, b5, fun w' hw' => b6 w' (List.mem_cons_of_mem _ hw'), b7,
      fun j' ws' kd' l' r' c' hj' => (honly j' ws' kd' l' r' c' hj').1⟩
    cases w <;> exact b1
  · rcases get_set_cases hj with ⟨_, e⟩ | ⟨e, hj⟩
    · cases e
    · exact (b6 w List.mem_cons_self).counted (h.counted j d p hj)

/-- An ingest ends. -/
theorem Follows.ends {env : StoreEnv} {stages : List TurnStage} {st : StoreState} {calls : List CallStage} {cst : StoreState}
    (h : Follows env stages st calls cst) {i : Nat} {x' : TurnStage} {y : CallStage} {kd : List KdKey} {l : Bool}
    {r : Option (List Entry)} {c : Option Bytes} (hx : stages[i]? = some (.ingesting [] kd l r c)) (hy : calls[i]? = some y)
    (hm : Matches env x' y) (ht : Tame x') (hn' : ∀ ws kd l r c, x' ≠ .ingesting ws kd l r c)
    (hcount : ∀ d p, x' = .ingested d p → r = some p ∧ c = some d) :
    Follows env (stages.set i x') { st with kd := kd, locked := l } calls cst := by
  obtain ⟨b1, b2, b3, b4, b5, b6, b7, b8⟩ := h.busy i _ _ _ _ _ hx
  have hal : Alike { st with kd := kd, locked := l } cst := ⟨b2, b4, b3, b5⟩
  have hno : Idle (stages.set i x') := by
    intro j ws' kd' l' r' c' hj
    rcases get_set_cases hj with ⟨_, e⟩ | ⟨e, hj⟩
    · exact hn' _ _ _ _ _ e.symm
    · exact e (b8 j _ _ _ _ _ hj)
  refine ⟨fun j z hj => ?_, fun j z hj => ?_, fun _ => hal, fun j ws' kd' l' r' c' hj => absurd hj (hno j ws' kd' l' r' c'), fun j d p hj => ?_⟩
  · rcases get_set_cases hj with ⟨rfl, rfl⟩ | ⟨e, hj⟩
    · exact ⟨y, hy, hm⟩
    · exact h.each j z hj
  · rcases get_set_cases hj with ⟨rfl, rfl⟩ | ⟨e, hj⟩
    · exact ht
    · exact h.tame j z hj
  · rcases get_set_cases hj with ⟨_, e⟩ | ⟨e, hj⟩
    · obtain ⟨e1, e2⟩ := hcount d p e.symm
      show Counted st.refs d
      have : st.refs = cst.refs := b3
      rw [this]
      exact b7 d p e1 e2
    · exact h.counted j d p hj

theorem runTogether_one (env : StoreEnv) {calls : List CallStage} {cst cst' : StoreState} {i : Nat} {y y' : CallStage} (hy : calls[i]? = some y)
    (ha : advance env cst y = .ok (y', cst')) : runTogether env [i] calls cst = .ok (calls.set i y', cst') := by
  simp only [runTogether, hy, ha, Res.ok_bind]

/-- Every short turn goes with a few longer ones. -/
theorem Follows.step {env : StoreEnv} {stages : List TurnStage} {st : StoreState} {calls : List CallStage} {cst : StoreState}
    (h : Follows env stages st calls cst) {i : Nat} {x x' : TurnStage} {st' : StoreState} (hx : stages[i]? = some x)
    (ht : turn env st x = .ok (x', st')) :
    ∃ schedule calls' cst', runTogether env schedule calls cst = .ok (calls', cst') ∧ Follows env (stages.set i x') st' calls' cst' := by
  obtain ⟨y, hy, hm⟩ := h.each i x hx
  have htame := h.tame i x hx
  -- the longer turns stand still
  have still : ∀ {x' : TurnStage} {st' : StoreState}, (∀ ws kd l r c, x ≠ .ingesting ws kd l r c) → (∀ ws kd l r c, x' ≠ .ingesting ws kd l r c) →
      Matches env x' y → Tame x' → Alike st st' → (∀ d p, x' = .ingested d p → Counted st.refs d) →
      ∃ schedule calls' cst', runTogether env schedule calls cst = .ok (calls', cst') ∧ Follows env (stages.set i x') st' calls' cst' := by
    intro x' st' a1 a2 a3 a4 a5 a6
    refine ⟨[], calls, cst, rfl, ?_⟩
    have := h.quiet hx hy a1 a2 a3 a4 a5 (Alike.refl cst) a6
    rwa [set_same hy] at this
  cases x with
  | start c =>
    cases hm
    cases c with
    | set now input au =>
      cases ht
      exact still (by simp) (by simp) (.writing _ _ _ _) (payloadWrites_ofFiles env _) (Alike.refl _) (by simp)
    | ingest e t =>
      cases ht
      exact still (by simp) (by simp) (.waitIngest _ _) trivial (Alike.refl _) (by simp)
  | writing ws e t =>
    cases ws with
    | cons w ws =>
      cases ht
      cases hm
      exact still (by simp) (by simp) (.writing _ _ _ _) (fun w' hw' => htame w' (List.mem_cons_of_mem _ hw'))
        ((htame w List.mem_cons_self).alike st) (by simp)
    | nil =>
      generalize hq : TurnStage.writing [] e t = q at hm
      cases hm with
      | writing ws now input au =>
        cases hq
        cases hau : env.authorise (setEntry env now input) au with
        | none =>
          rw [hau] at ht
          cases ht
          refine ⟨[i], _, { cst with files := (payloadSet env cst.files input.payload).1 },
            runTogether_one env hy (y' := .done none) (by simp only [advance, hau]), ?_⟩
          exact h.quiet hx hy (by simp) (by simp) (.done _) trivial (Alike.refl _) ⟨rfl, rfl, rfl, rfl⟩ (by simp)
        | some token =>
          rw [hau] at ht
          cases ht
          refine ⟨[i], _, { cst with files := (payloadSet env cst.files input.payload).1 },
            runTogether_one env hy (y' := .written (setEntry env now input) token) (by simp only [advance, hau]), ?_⟩
          exact h.quiet hx hy (by simp) (by simp) (.waitSet _ _) trivial (Alike.refl _) ⟨rfl, rfl, rfl, rfl⟩ (by simp)
      | _ => cases hq
  | waiting e t s =>
    simp only [turn] at ht
    cases hi : ingestEntry env st e t with
    | err => rw [hi] at ht; cases ht
    | crash => rw [hi] at ht; cases ht
    | block =>
      rw [hi] at ht
      cases ht
      exact still (by simp) (by simp) hm trivial (Alike.refl _) (by simp)
    | ok w =>
      obtain ⟨r, st1⟩ := w
      rw [hi] at ht
      cases ht
      have hidle : Idle stages := by
        intro j ws kd l r c hj
        rw [ingestEntry_locked env (h.busy j _ _ _ _ _ hj).1] at hi
        cases hi
      have hal := h.idle hidle
      have hra := ingestEntry_alike env hal e t
      rw [hi] at hra
      generalize hci : ingestEntry env cst e t = q at hra
      cases hra with
      | ok ha =>
        rename_i cst1
        have hdisk := ingestWrites_all env st st1 e t r hi
        have hgo : ∀ {y' : CallStage} {c : Option Bytes}, advance env cst y = .ok (y', cst1) →
            Matches env (.ingesting (ingestWrites env st e t) st1.kd st1.locked r c) y' → (∀ d p, r = some p → c = some d → d = e.payloadDigest) →
            ∃ schedule calls' cst', runTogether env schedule calls cst = .ok (calls', cst') ∧
              Follows env (stages.set i (.ingesting (ingestWrites env st e t) st1.kd st1.locked r c)) { st with locked := true } calls' cst' := by
          intro y' c g1 g2 g3
          refine ⟨[i], _, cst1, runTogether_one env hy g1, ?_⟩
          refine h.takes hx hy hidle g2 (hdisk.kv.trans ha.1) (hdisk.refs.trans ha.2.2.1) ha.2.1 ha.2.2.2 (ingestWrites_counts env st e t) ?_
          intro d p e1 e2
          exact counted_ingest env d hci (.inr ⟨g3 d p e1 e2, by rw [e1]; simp⟩)
        cases hm with
        | waitSet =>
          cases r with
          | none => exact hgo (y' := .done none) (by simp only [advance, hci]) (.inNone _ _ _ _) (by simp)
          | some p => exact hgo (y' := .ingested e.payloadDigest p) (by simp only [advance, hci]) (.inSet _ _ _ _ _) (by simp)
        | waitIngest => exact hgo (y' := .done r) (by simp only [advance, hci]) (.inIngest _ _ _ _) (by simp)
  | ingesting ws kd l r c =>
    cases ws with
    | cons w ws =>
      cases ht
      exact ⟨[], calls, cst, rfl, h.within hx⟩
    | nil =>
      refine ⟨[], calls, cst, rfl, ?_⟩
      cases hm with
      | inSet =>
        cases ht
        exact h.ends hx hy (.ingested _ _) trivial (by simp) (by simp)
      | inNone =>
        cases ht
        exact h.ends hx hy (.done _) trivial (by simp) (by simp)
      | inIngest =>
        have ht : Res.ok (TurnStage.done r, { st with kd := kd, locked := l }) = .ok (x', st') := by
          cases r <;> exact ht
        cases ht
        exact h.ends hx hy (.done _) trivial (by simp) (by simp)
  | ingested d p =>
    cases hm
    obtain ⟨n, hn⟩ := h.counted i d p hx
    -- the longer turns count and erase at once
    have hcc : Counted cst.refs d := by
      by_cases hidle : Idle stages
      · rw [← (h.idle hidle).2.2.1]; exact ⟨n, hn⟩
      · have : ∃ (j : Nat) (ws : List DiskWrite) (kd : List KdKey) (l : Bool) (r : Option (List Entry)) (c : Option Bytes),
            stages[j]? = some (.ingesting ws kd l r c) := by
          refine Classical.byContradiction fun hno => hidle fun j ws kd l r c hj => hno ⟨j, ws, kd, l, r, c, hj⟩
        obtain ⟨j, ws, kd, l, r, c, hj⟩ := this
        obtain ⟨b1, b2, b3, b4, b5, b6, b7, b8⟩ := h.busy j _ _ _ _ _ hj
        rw [← b3]
        clear hj b1 b2 b3 b4 b5 b7 b8
        have hst : Counted st.refs d := ⟨n, hn⟩
        clear hn hx ht still h hidle
        induction ws generalizing st with
        | nil => exact hst
        | cons w ws ih => exact ih (st := applyWrite st w) (fun w' hw' => b6 w' (List.mem_cons_of_mem _ hw')) ((b6 w List.mem_cons_self).counted hst)
    obtain ⟨m, hm⟩ := hcc
    have hco : ∃ schedule cst', runTogether env schedule calls cst = .ok (calls.set i (.done (some p)), cst') ∧ Alike cst cst' := by
      by_cases h0 : m = 0
      · refine ⟨[i, i], { cst with files := payloadErase env cst.files d }, ?_, ⟨rfl, rfl, rfl, rfl⟩⟩
        have hget : (calls.set i (CallStage.counted d p))[i]? = some (.counted d p) := by
          rw [List.getElem?_set, if_pos rfl, if_pos (List.getElem?_eq_some_iff.1 hy).1]
        simp only [runTogether, hy, advance, hm, if_pos h0, Res.ok_bind, hget, List.set_set]
      · refine ⟨[i], cst, runTogether_one env hy (by simp only [advance, hm, if_neg h0]), Alike.refl _⟩
    obtain ⟨schedule, cst', c1, c2⟩ := hco
    refine ⟨schedule, _, cst', c1, ?_⟩
    simp only [turn, hn] at ht
    cases ht
    split
    · exact h.quiet hx hy (by simp) (by simp) (.erasing _ _) (eraseWrites_ofFiles env d) (Alike.refl _) c2 (by simp)
    · exact h.quiet hx hy (by simp) (by simp) (.done _) trivial (Alike.refl _) c2 (by simp)
  | erasing ws p =>
    cases hm
    cases ws with
    | cons w ws =>
      cases ht
      exact still (by simp) (by simp) (.erasing _ _) (fun w' hw' => htame w' (List.mem_cons_of_mem _ hw'))
        ((htame w List.mem_cons_self).alike st) (by simp)
    | nil =>
      cases ht
      exact still (by simp) (by simp) (.done _) trivial (Alike.refl _) (by simp)
  | done r =>
    cases hm
    cases ht
    exact still (by simp) (by simp) (.done _) trivial (Alike.refl _) (by simp)

/-- Every schedule of short turns goes with one of longer turns. -/
theorem Follows.run {env : StoreEnv} : ∀ (schedule : List Nat) {stages : List TurnStage} {st : StoreState} {calls : List CallStage}
    {cst : StoreState} {stages' : List TurnStage} {st' : StoreState}, Follows env stages st calls cst →
    runTurns env schedule stages st = .ok (stages', st') →
    ∃ longer calls' cst', runTogether env longer calls cst = .ok (calls', cst') ∧ Follows env stages' st' calls' cst'
  | [], stages, st, calls, cst, stages', st', h, hr => by
    cases hr
    exact ⟨[], calls, cst, rfl, h⟩
  | i :: schedule, stages, st, calls, cst, stages', st', h, hr => by
    simp only [runTurns] at hr
    cases hx : stages[i]? with
    | none => rw [hx] at hr; exact Follows.run schedule h hr
    | some x =>
      rw [hx] at hr
      obtain ⟨⟨x1, st1⟩, h1, h2⟩ := Res.bind_eq_ok.1 hr
      obtain ⟨s1, calls1, cst1, c1, c2⟩ := h.step hx h1
      obtain ⟨s2, calls2, cst2, c3, c4⟩ := Follows.run schedule c2 h2
      refine ⟨s1 ++ s2, calls2, cst2, ?_, c4⟩
      rw [runTogether_append, c1]
      exact c3

theorem Follows.begin (env : StoreEnv) (st : StoreState) (calls : List StoreCall) : Follows env (calls.map .start) st (calls.map .start) st := by
  have hst : ∀ (i : Nat) (x : TurnStage), (calls.map TurnStage.start)[i]? = some x → ∃ c, calls[i]? = some c ∧ x = .start c := by
    intro i x h
    rw [List.getElem?_map, Option.map_eq_some_iff] at h
    obtain ⟨c, h1, h2⟩ := h
    exact ⟨c, h1, h2.symm⟩
  refine ⟨fun i x hx => ?_, fun i x hx => ?_, fun _ => Alike.refl _, fun i ws kd l r c hx => ?_, fun i d p hx => ?_⟩
  · obtain ⟨c, h1, rfl⟩ := hst i x hx
    exact ⟨.start c, by rw [List.getElem?_map, h1]; rfl, .start c⟩
  · obtain ⟨c, h1, rfl⟩ := hst i x hx
    trivial
  · obtain ⟨c, h1, h2⟩ := hst i _ hx
    cases h2
  · obtain ⟨c, h1, h2⟩ := hst i _ hx
    cases h2

theorem Follows.explains {env : StoreEnv} {st0 : StoreState} {calls : List StoreCall} {stages : List TurnStage} {st : StoreState}
    {cstages : List CallStage} {cst : StoreState} (h : Follows env stages st cstages cst) {order : List Nat}
    (he : Explains env st0 calls cstages cst order) : ExplainsTurns env st0 calls stages st order := by
  obtain ⟨h1, h2, ⟨rs, s, h3, h4, h5⟩, h6⟩ := he
  refine ⟨h1, h2, ⟨rs, s, h3, fun hi => Alike.trans h4 (Alike.symm (h.idle fun i ws kd l r c hc => ?_)), fun i r hr => ?_⟩, fun i c hc => ?_⟩
  · exact hi _ (List.mem_of_getElem? hc) ws kd l r c rfl
  · obtain ⟨y, hy, hm⟩ := h.each i _ hr
    cases hm
    exact h5 i r hy
  · obtain ⟨y, hy, hm⟩ := h.each i _ hc
    cases hm
    exact h6 i c hy

/-! ### Calls come to their end -/

/-- How many parts of the call are still to come. -/
def TurnStage.rank : TurnStage → Nat
  | .start _ => 6
  | .writing _ _ _ => 5
  | .waiting _ _ _ => 4
  | .ingesting _ _ _ _ _ => 3
  | .ingested _ _ => 2
  | .erasing _ _ => 1
  | .done _ => 0

/-- How many changes of this part are still to come. -/
def TurnStage.pending : TurnStage → Nat
  | .writing ws _ _ => ws.length
  | .ingesting ws _ _ _ _ => ws.length
  | .erasing ws _ => ws.length
  | _ => 0

/-- The first stage is nearer to the end. -/
def Nearer (x x' : TurnStage) : Prop := x'.rank < x.rank ∨ (x'.rank = x.rank ∧ x'.pending < x.pending)

/-- The store and the calls are such that every turn goes well. -/
structure InOrder (env : StoreEnv) (st0 : StoreState) (scalls : List StoreCall) (stages : List TurnStage) (st : StoreState)
    (calls : List CallStage) (cst : StoreState) (order : List Nat) (rs : List (Option (List Entry))) (s : StoreState) : Prop where
  follows : Follows env stages st calls cst
  ready : Ready env calls cst
  going : Going env st0 scalls calls cst order rs s

theorem InOrder.turn_ok {env : StoreEnv} (he : EnvOk env) {st0 : StoreState} {scalls : List StoreCall} {stages : List TurnStage} {st : StoreState}
    {calls : List CallStage} {cst : StoreState} {order : List Nat} {rs : List (Option (List Entry))} {s : StoreState}
    (h : InOrder env st0 scalls stages st calls cst order rs s) {i : Nat} {x : TurnStage} (hx : stages[i]? = some x) :
    ∃ x' st', turn env st x = .ok (x', st') ∧ ((Idle stages ∨ ∃ ws kd l r c, x = .ingesting ws kd l r c) → Nearer x x' ∨ ∃ r, x = .done r) := by
  obtain ⟨y, hy, hm⟩ := h.follows.each i x hx
  cases x with
  | start c => cases c <;> exact ⟨_, _, rfl, fun _ => .inl (by simp [Nearer, TurnStage.rank, TurnStage.pending])⟩
  | writing ws e t =>
    cases ws with
    | cons w ws => exact ⟨_, _, rfl, fun _ => .inl (by simp [Nearer, TurnStage.rank, TurnStage.pending])⟩
    | nil => cases t <;> exact ⟨_, _, rfl, fun _ => .inl (by simp [Nearer, TurnStage.rank, TurnStage.pending])⟩
  | waiting e t b =>
    by_cases hidle : Idle stages
    · have hal := h.follows.idle hidle
      have hfine : Comfortable env.p e.path ∧ e.payloadDigest.length < 2 ^ 64 := by
        cases hm with
        | waitSet => exact h.ready.written i e t hy
        | waitIngest => exact h.ready.start i _ hy e t rfl
      obtain ⟨A, leak, habs⟩ := h.ready.abs
      obtain ⟨r, st', h1, _⟩ := ingest_ok he habs h.ready.unlocked e t hfine.1 hfine.2
      have hra := ingestEntry_alike env hal e t
      rw [h1] at hra
      generalize hq : ingestEntry env st e t = q at hra
      cases hra with
      | ok ha =>
        simp only [turn, hq]
        exact ⟨_, _, rfl, fun _ => .inl (by simp [Nearer, TurnStage.rank, TurnStage.pending])⟩
    · have : ∃ (j : Nat) (ws : List DiskWrite) (kd : List KdKey) (l : Bool) (r : Option (List Entry)) (c : Option Bytes),
          stages[j]? = some (.ingesting ws kd l r c) :=
        Classical.byContradiction fun hno => hidle fun j ws kd l r c hj => hno ⟨j, ws, kd, l, r, c, hj⟩
      obtain ⟨j, ws, kd, l, r, c, hj⟩ := this
      simp only [turn, ingestEntry_locked env (h.follows.busy j _ _ _ _ _ hj).1]
      exact ⟨_, _, rfl, fun hi => hi.elim (fun hi => absurd hi hidle) fun ⟨_, _, _, _, _, e⟩ => by cases e⟩
  | ingesting ws kd l r c =>
    cases ws with
    | cons w ws => exact ⟨_, _, rfl, fun _ => .inl (by simp [Nearer, TurnStage.rank, TurnStage.pending])⟩
    | nil =>
      cases r with
      | none => exact ⟨_, _, rfl, fun _ => .inl (by simp [Nearer, TurnStage.rank, TurnStage.pending])⟩
      | some p => cases c <;> exact ⟨_, _, rfl, fun _ => .inl (by simp [Nearer, TurnStage.rank, TurnStage.pending])⟩
  | ingested d p =>
    obtain ⟨n, hn⟩ := h.follows.counted i d p hx
    simp only [turn, hn]
    refine ⟨_, _, rfl, fun _ => .inl ?_⟩
    split <;> simp [Nearer, TurnStage.rank, TurnStage.pending]
  | erasing ws p => cases ws <;> exact ⟨_, _, rfl, fun _ => .inl (by simp [Nearer, TurnStage.rank, TurnStage.pending])⟩
  | done r => exact ⟨_, _, rfl, fun _ => .inr ⟨r, rfl⟩⟩

theorem InOrder.step {env : StoreEnv} (he : EnvOk env) {st0 : StoreState} {scalls : List StoreCall} {stages : List TurnStage} {st : StoreState}
    {calls : List CallStage} {cst : StoreState} {order : List Nat} {rs : List (Option (List Entry))} {s : StoreState}
    (h : InOrder env st0 scalls stages st calls cst order rs s) {i : Nat} {x x' : TurnStage} {st' : StoreState} (hx : stages[i]? = some x)
    (ht : turn env st x = .ok (x', st')) :
    ∃ calls' cst' more rs' s', InOrder env st0 scalls (stages.set i x') st' calls' cst' (order ++ more) rs' s' := by
  obtain ⟨schedule, calls', cst', h1, h2⟩ := h.follows.step hx ht
  obtain ⟨calls1, cst1, r1, _, r2, _⟩ := h.ready.run_on he schedule h.going
  rw [h1] at r1
  cases r1
  obtain ⟨more, rs', s', hg⟩ := h.going.run_on schedule h1
  exact ⟨_, _, more, rs', s', h2, r2, hg⟩

/-- Every schedule goes well. -/
theorem InOrder.run {env : StoreEnv} (he : EnvOk env) {st0 : StoreState} {scalls : List StoreCall} : ∀ (schedule : List Nat)
    {stages : List TurnStage} {st : StoreState} {calls : List CallStage} {cst : StoreState} {order : List Nat}
    {rs : List (Option (List Entry))} {s : StoreState}, InOrder env st0 scalls stages st calls cst order rs s →
    ∃ stages' st' calls' cst' order' rs' s', runTurns env schedule stages st = .ok (stages', st') ∧ stages'.length = stages.length ∧
      InOrder env st0 scalls stages' st' calls' cst' order' rs' s'
  | [], stages, st, calls, cst, order, rs, s, h => ⟨stages, st, calls, cst, order, rs, s, rfl, rfl, h⟩
  | i :: schedule, stages, st, calls, cst, order, rs, s, h => by
    simp only [runTurns]
    cases hx : stages[i]? with
    | none => exact InOrder.run he schedule h
    | some x =>
      obtain ⟨x', st', h1, _⟩ := h.turn_ok he hx
      obtain ⟨_, _, _, _, _, h2⟩ := h.step he hx h1
      obtain ⟨stages', st', calls', cst', order', rs', s', h3, h4, h5⟩ := InOrder.run he schedule h2
      refine ⟨stages', st', calls', cst', order', rs', s', ?_, by rw [h4, List.length_set], h5⟩
      dsimp only
      rw [h1]
      exact h3

theorem sum_set (f : TurnStage → Nat) : ∀ (l : List TurnStage) (i : Nat) (a b : TurnStage), l[i]? = some a →
    ((l.set i b).map f).sum + f a = (l.map f).sum + f b
  | x :: l, 0, a, b, h => by
    cases h
    simp only [List.set_cons_zero, List.map_cons, List.sum_cons]
    omega
  | x :: l, i + 1, a, b, h => by
    have := sum_set f l i a b h
    simp only [List.set_cons_succ, List.map_cons, List.sum_cons]
    omega

/-- From everywhere the calls can come to their end. -/
theorem InOrder.finish {env : StoreEnv} (he : EnvOk env) {st0 : StoreState} {scalls : List StoreCall} (n m : Nat)
    {stages : List TurnStage} {st : StoreState} {calls : List CallStage} {cst : StoreState} {order : List Nat}
    {rs : List (Option (List Entry))} {s : StoreState} (h : InOrder env st0 scalls stages st calls cst order rs s)
    (hn : (stages.map TurnStage.rank).sum = n) (hm : (stages.map TurnStage.pending).sum = m) :
    ∃ later stages' st', runTurns env later stages st = .ok (stages', st') ∧ ∀ x ∈ stages', ∃ r, x = .done r := by
  by_cases hall : ∀ x ∈ stages, ∃ r, x = .done r
  · exact ⟨[], stages, st, rfl, hall⟩
  · -- the call within an ingest, or any
    have hpick : ∃ (i : Nat) (x : TurnStage), stages[i]? = some x ∧ (∀ r, x ≠ .done r) ∧ (Idle stages ∨ ∃ ws kd l r c, x = .ingesting ws kd l r c) := by
      by_cases hidle : Idle stages
      · have : ∃ x ∈ stages, ∀ r, x ≠ .done r := by
          refine Classical.byContradiction fun hno => hall fun x hx => Classical.byContradiction fun hr => hno ⟨x, hx, fun r e => hr ⟨r, e⟩⟩
        obtain ⟨x, hx, hr⟩ := this
        obtain ⟨i, hi, rfl⟩ := List.mem_iff_getElem.1 hx
        exact ⟨i, _, List.getElem?_eq_getElem hi, hr, .inl hidle⟩
      · have : ∃ (j : Nat) (ws : List DiskWrite) (kd : List KdKey) (l : Bool) (r : Option (List Entry)) (c : Option Bytes),
            stages[j]? = some (.ingesting ws kd l r c) :=
          Classical.byContradiction fun hno => hidle fun j ws kd l r c hj => hno ⟨j, ws, kd, l, r, c, hj⟩
        obtain ⟨j, ws, kd, l, r, c, hj⟩ := this
        exact ⟨j, _, hj, by simp, .inr ⟨ws, kd, l, r, c, rfl⟩⟩
    obtain ⟨i, x, hx, hnd, hor⟩ := hpick
    obtain ⟨x', st', h1, h2⟩ := h.turn_ok he hx
    have hnear := (h2 hor).resolve_right fun ⟨r, e⟩ => hnd r e
    obtain ⟨_, _, _, _, _, h3⟩ := h.step he hx h1
    have e1 := sum_set TurnStage.rank stages i x x' hx
    have e2 := sum_set TurnStage.pending stages i x x' hx
    have hdec : ((stages.set i x').map TurnStage.rank).sum < n ∨
        (((stages.set i x').map TurnStage.rank).sum = n ∧ ((stages.set i x').map TurnStage.pending).sum < m) := by
      rcases hnear with hlt | ⟨heq, hlt⟩
      · left; omega
      · right; omega
    obtain ⟨later, stages', st'', h4, h5⟩ := InOrder.finish he _ _ h3 rfl rfl
    refine ⟨i :: later, stages', st'', ?_, h5⟩
    simp only [runTurns, hx, h1, Res.ok_bind, h4]
termination_by (n, m)
decreasing_by
  rcases hdec with hd | ⟨hd, hd'⟩
  · exact Prod.Lex.left _ _ hd
  · rw [hd]; exact Prod.Lex.right _ hd'

/-! ### A call alone -/

/-- A call alone comes from a stage and a state to its end with a result and a state. -/
def ComesTo (env : StoreEnv) (x : TurnStage) (st : StoreState) (r : Option (List Entry)) (st' : StoreState) : Prop :=
  ∃ n, runTurns env (List.replicate n 0) [x] st = .ok ([.done r], st')

theorem ComesTo.turn {env : StoreEnv} {x x' : TurnStage} {st st1 st' : StoreState} {r : Option (List Entry)}
    (ht : turn env st x = .ok (x', st1)) (h : ComesTo env x' st1 r st') : ComesTo env x st r st' := by
  obtain ⟨n, hn⟩ := h
  refine ⟨n + 1, ?_⟩
  simp only [List.replicate_succ, runTurns, List.getElem?_cons_zero, ht, Res.ok_bind, List.set_cons_zero, hn]

theorem ComesTo.done {env : StoreEnv} {st : StoreState} {r : Option (List Entry)} : ComesTo env (.done r) st r st := ⟨0, rfl⟩

theorem ComesTo.writing {env : StoreEnv} {e : Entry} {t : Option Bytes} {r : Option (List Entry)} {st' : StoreState} :
    ∀ (ws : List DiskWrite) {st : StoreState}, ComesTo env (.writing [] e t) (applyWrites st ws) r st' → ComesTo env (.writing ws e t) st r st'
  | [], _, h => h
  | w :: ws, st, h => .turn rfl (ComesTo.writing ws h)

theorem ComesTo.ingesting {env : StoreEnv} {kd : List KdKey} {l : Bool} {q : Option (List Entry)} {c : Option Bytes} {r : Option (List Entry)}
    {st' : StoreState} : ∀ (ws : List DiskWrite) {st : StoreState}, ComesTo env (.ingesting [] kd l q c) (applyWrites st ws) r st' →
    ComesTo env (.ingesting ws kd l q c) st r st'
  | [], _, h => h
  | w :: ws, st, h => .turn rfl (ComesTo.ingesting ws h)

theorem ComesTo.erasing {env : StoreEnv} {p : List Entry} {r : Option (List Entry)} {st' : StoreState} :
    ∀ (ws : List DiskWrite) {st : StoreState}, ComesTo env (.erasing [] p) (applyWrites st ws) r st' → ComesTo env (.erasing ws p) st r st'
  | [], _, h => h
  | w :: ws, st, h => .turn rfl (ComesTo.erasing ws h)

/-- At the end of an ingest everything is as the ingest leaves it. -/
theorem after_ingest {env : StoreEnv} {st st1 : StoreState} {e : Entry} {t : Bytes} {r : Option (List Entry)}
    (h : ingestEntry env st e t = .ok (r, st1)) :
    { applyWrites { st with locked := true } (ingestWrites env st e t) with kd := st1.kd, locked := st1.locked } = st1 := by
  have h1 := ingestWrites_all env st st1 e t r h
  have h2 : SameDisk { st with locked := true } st := ⟨rfl, rfl, rfl, rfl⟩
  obtain ⟨a, b, c, d⟩ := (h2.writes (ingestWrites env st e t)).trans h1
  obtain ⟨kv, kd, refs, files, partials, locked⟩ := st1
  simp only at a b c d
  simp only [a, b, c, d]

theorem ComesTo.ingest {env : StoreEnv} {st st1 : StoreState} {e : Entry} {t : Bytes} {r : Option (List Entry)}
    (h : ingestEntry env st e t = .ok (r, st1)) : ComesTo env (.waiting e t false) st r st1 := by
  refine .turn (x' := .ingesting (ingestWrites env st e t) st1.kd st1.locked r none) (st1 := { st with locked := true })
    (by simp only [Willow.turn, h]; rfl) (.ingesting _ (.turn (x' := .done r) (st1 := st1) ?_ .done))
  have hx := after_ingest h
  cases r <;> simp only [Willow.turn] <;> rw [hx]

theorem ComesTo.set {env : StoreEnv} {st st' : StoreState} {now : UInt64} {input : EntryInput} {au : Bytes} {r : Option (List Entry)}
    (h : storeSet env st now input au = .ok (r, st')) : ComesTo env (.start (.set now input au)) st r st' := by
  refine .turn rfl (.writing _ ?_)
  rw [applyWrites_payload]
  unfold storeSet at h
  dsimp only at h
  cases hau : env.authorise (setEntry env now input) au with
  | none =>
    rw [hau] at h
    cases h
    exact .turn rfl .done
  | some t =>
    rw [hau] at h
    dsimp only at h
    refine .turn rfl ?_
    cases hi : ingestEntry env { st with files := (payloadSet env st.files input.payload).1 } (setEntry env now input) t with
    | err => rw [hi] at h; cases h
    | crash => rw [hi] at h; cases h
    | block => rw [hi] at h; cases h
    | ok w =>
      obtain ⟨q, st1⟩ := w
      have hx := after_ingest hi
      rw [hi] at h
      refine .turn (x' := .ingesting (ingestWrites env { st with files := (payloadSet env st.files input.payload).1 } (setEntry env now input) t)
        st1.kd st1.locked q (some (setEntry env now input).payloadDigest)) (by simp only [Willow.turn, hi]; rfl) (.ingesting _ ?_)
      cases q with
      | none =>
        cases h
        refine .turn (x' := .done none) (st1 := st') ?_ .done
        simp only [Willow.turn]
        rw [hx]
      | some p =>
        refine .turn (x' := .ingested (setEntry env now input).payloadDigest p) (st1 := st1) (by simp only [Willow.turn]; rw [hx]) ?_
        have hdig : (payloadSet env st.files input.payload).2.1 = (setEntry env now input).payloadDigest := rfl
        rw [hdig] at h
        dsimp only at h
        cases hc : refCount st1.refs (setEntry env now input).payloadDigest with
        | crash => rw [hc] at h; cases h
        | block => rw [hc] at h; cases h
        | err =>
          rw [hc] at h
          cases h
          exact .turn (x' := .done none) (st1 := st') (by simp only [Willow.turn, hc]) .done
        | ok c =>
          rw [hc] at h
          cases h
          by_cases h0 : c = 0
          · rw [if_pos h0]
            refine .turn (x' := .erasing (eraseWrites env (setEntry env now input).payloadDigest) p) (st1 := st1)
              (by simp only [Willow.turn, hc, if_pos h0]) (.erasing _ ?_)
            rw [applyWrites_erase]
            exact .turn rfl .done
          · rw [if_neg h0]
            exact .turn (x' := .done (some p)) (st1 := st1) (by simp only [Willow.turn, hc, if_neg h0]) .done

end Willow
