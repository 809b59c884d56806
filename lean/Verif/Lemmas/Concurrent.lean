import Verif.Spec.Concurrent
import Verif.Lemmas.Kv

/-! Lemmas for the theorems of `Verif/Props/Concurrent.lean`. -/

namespace Willow

open Spec

/-- The same outcome with states alike. -/
inductive ResAlike {α : Type} : Res (α × StoreState) → Res (α × StoreState) → Prop
  | ok {r : α} {s t : StoreState} (h : Alike s t) : ResAlike (.ok (r, s)) (.ok (r, t))
  | err : ResAlike .err .err
  | crash : ResAlike .crash .crash
  | block : ResAlike .block .block

theorem Alike.refl (s : StoreState) : Alike s s := ⟨rfl, rfl, rfl, rfl⟩

theorem Alike.symm {s t : StoreState} (h : Alike s t) : Alike t s := ⟨h.1.symm, h.2.1.symm, h.2.2.1.symm, h.2.2.2.symm⟩

theorem Alike.trans {s t u : StoreState} (h : Alike s t) (h' : Alike t u) : Alike s u :=
  ⟨h.1.trans h'.1, h.2.1.trans h'.2.1, h.2.2.1.trans h'.2.2.1, h.2.2.2.trans h'.2.2.2⟩

theorem entryGet_alike (env : StoreEnv) {s t : StoreState} (h : Alike s t) (sub : Bytes) (path : Path) :
    entryGet env s sub path = entryGet env t sub path := by
  unfold entryGet; rw [h.1, h.2.1]

theorem prunableLoop_alike (env : StoreEnv) {s t : StoreState} (h : Alike s t) (time : UInt64) :
    ∀ l, prunableLoop env s time l = prunableLoop env t time l
  | [] => rfl
  | k :: l => by
    unfold prunableLoop
    rw [entryGet_alike env h, prunableLoop_alike env h time l]

theorem prunableEntries_alike (env : StoreEnv) {s t : StoreState} (h : Alike s t) (pos : Position) :
    prunableEntries env s pos = prunableEntries env t pos := by
  unfold prunableEntries
  rw [h.2.1]
  congr 1
  funext l
  exact prunableLoop_alike env h _ l

theorem pruneLoop_alike (env : StoreEnv) : ∀ l {s t : StoreState}, Alike s t → ResAlike (pruneLoop env l s) (pruneLoop env l t)
  | [], _, _, h => .ok h
  | (e, a) :: l, s, t, h => by
    obtain ⟨kv, kd, refs, files, partials, locked⟩ := s
    obtain ⟨kv', kd', refs', files', partials', locked'⟩ := t
    obtain ⟨rfl, rfl, rfl, rfl⟩ := h
    simp only [pruneLoop, entryDelete]
    cases refDecrement refs e.payloadDigest with
    | err => exact .ok ⟨rfl, rfl, rfl, rfl⟩
    | crash => exact .crash
    | block => exact .block
    | ok x =>
      obtain ⟨count, refs2⟩ := x
      dsimp only
      have hr := pruneLoop_alike env l
        (s := if count = 0 then ⟨kv.delete (encodeKey env.p e.position), kdDelete kd e.position, refs2, payloadErase env files e.payloadDigest, partials, locked⟩
          else ⟨kv.delete (encodeKey env.p e.position), kdDelete kd e.position, refs2, files, partials, locked⟩)
        (t := if count = 0 then ⟨kv.delete (encodeKey env.p e.position), kdDelete kd e.position, refs2, payloadErase env files' e.payloadDigest, partials', locked⟩
          else ⟨kv.delete (encodeKey env.p e.position), kdDelete kd e.position, refs2, files', partials', locked⟩)
        (by split <;> exact ⟨rfl, rfl, rfl, rfl⟩)
      generalize pruneLoop env l _ = x at hr ⊢
      generalize pruneLoop env l _ = y at hr ⊢
      cases hr with
      | @ok r _ _ h => cases r <;> exact .ok h
      | err => exact .err
      | crash => exact .crash
      | block => exact .block

theorem insertEntry_alike (env : StoreEnv) {s t : StoreState} (h : Alike s t) (e : Entry) (token : Bytes) :
    ResAlike (insertEntry env s e token) (insertEntry env t e token) := by
  obtain ⟨kv, kd, refs, files, partials, locked⟩ := s
  obtain ⟨kv', kd', refs', files', partials', locked'⟩ := t
  obtain ⟨rfl, rfl, rfl, rfl⟩ := h
  simp only [insertEntry, entryInsert, payloadSet]
  cases kdAdd kd ⟨e.position, []⟩ with
  | none => exact .ok ⟨rfl, rfl, rfl, rfl⟩
  | some kd2 =>
    dsimp only
    cases refIncrement refs e.payloadDigest with
    | err => exact .err
    | crash => exact .crash
    | block => exact .block
    | ok x =>
      obtain ⟨c, refs2⟩ := x
      dsimp only
      generalize hs : StoreState.mk _ _ _ _ partials locked = s
      generalize ht : StoreState.mk _ _ _ _ partials' locked = t
      have hst : Alike s t := by subst hs ht; exact ⟨rfl, rfl, rfl, rfl⟩
      rw [prunableEntries_alike env hst]
      cases prunableEntries env t e.position with
      | err => exact .err
      | crash => exact .crash
      | block => exact .block
      | ok x =>
        cases x with
        | none => exact .ok hst
        | some l => exact pruneLoop_alike env l hst

theorem replaceOther_alike (env : StoreEnv) {s t : StoreState} (h : Alike s t) (other : Entry) (auth : Bytes) (e : Entry) :
    ResAlike (replaceOther env s other auth e) (replaceOther env t other auth e) := by
  obtain ⟨kv, kd, refs, files, partials, locked⟩ := s
  obtain ⟨kv', kd', refs', files', partials', locked'⟩ := t
  obtain ⟨rfl, rfl, rfl, rfl⟩ := h
  simp only [replaceOther, entryDelete]
  split
  · cases refDecrement refs other.payloadDigest with
    | err => exact .ok ⟨rfl, rfl, rfl, rfl⟩
    | crash => exact .crash
    | block => exact .block
    | ok x => obtain ⟨c, refs2⟩ := x; dsimp only; split <;> exact .ok ⟨rfl, rfl, rfl, rfl⟩
  · exact .ok ⟨rfl, rfl, rfl, rfl⟩

theorem finishIngest_alike (env : StoreEnv) {s t : StoreState} (h : Alike s t) (e : Entry) (token : Bytes) :
    ResAlike (finishIngest env s e token) (finishIngest env t e token) := by
  have hr := insertEntry_alike env h e token
  unfold finishIngest
  generalize insertEntry env s e token = x at hr ⊢
  generalize insertEntry env t e token = y at hr ⊢
  cases hr with
  | @ok r _ _ h => cases r <;> first | exact .ok h | exact .ok ⟨h.1, h.2.1, h.2.2.1, rfl⟩
  | err => exact .err
  | crash => exact .crash
  | block => exact .block

/-- An ingest does not look at files. -/
theorem ingestEntry_alike (env : StoreEnv) {s t : StoreState} (h : Alike s t) (e : Entry) (token : Bytes) :
    ResAlike (ingestEntry env s e token) (ingestEntry env t e token) := by
  have hh : Alike { s with locked := true } { t with locked := true } := ⟨h.1, h.2.1, h.2.2.1, rfl⟩
  have hg := entryGet_alike env hh e.subspaceId e.path
  unfold ingestEntry
  dsimp only
  rw [hg, h.2.2.2, show driverPrefixesOf env.lib env.p s.kd e.subspaceId e.path = driverPrefixesOf env.lib env.p t.kd e.subspaceId e.path
    by rw [h.2.1]]
  by_cases hl : t.locked = true
  · simp only [hl, if_true]; exact .block
  simp only [hl, if_false, Bool.false_eq_true]
  split
  · exact .ok h
  split
  · exact .ok h
  cases driverPrefixesOf env.lib env.p t.kd e.subspaceId e.path with
  | err => exact .err
  | crash => exact .crash
  | block => exact .block
  | ok prefixes =>
    dsimp only
    split
    · exact .ok h
    cases entryGet env { t with locked := true } e.subspaceId e.path with
    | err => exact .err
    | crash => exact .crash
    | block => exact .block
    | ok g =>
      cases g with
      | error => exact .ok hh
      | missing => exact finishIngest_alike env hh e token
      | found other auth =>
        dsimp only
        split
        · split
          · exact .ok h
          have hr := replaceOther_alike env hh other auth e
          generalize replaceOther env { s with locked := true } other auth e = x at hr ⊢
          generalize replaceOther env { t with locked := true } other auth e = y at hr ⊢
          cases hr with
          | @ok r _ _ h => cases r <;> first | exact finishIngest_alike env h e token | exact .ok h
          | err => exact .err
          | crash => exact .crash
          | block => exact .block
        · exact finishIngest_alike env hh e token

/-! ### Counts stay -/

/-- The payload digest has a count. -/
def Counted (refs : KV) (d : Bytes) : Prop := ∃ c, refCount refs d = .ok c

theorem counted_set (refs : KV) (d : Bytes) (k : Bytes) (c : UInt64) (h : Counted refs d ∨ d = k) :
    Counted (refs.set k (putU64 c.toNat)) d := by
  unfold Counted refCount
  rw [KV.get_set]
  by_cases hd : d = k
  · rw [if_pos hd]; exact ⟨c, bigEndianUint64_putU64 c⟩
  · rw [if_neg hd]; exact h.resolve_right hd

theorem counted_decrement {refs : KV} {d k : Bytes} (h : Counted refs d) {c : UInt64} {refs' : KV}
    (hd : refDecrement refs k = .ok (c, refs')) : Counted refs' d := by
  unfold refDecrement at hd
  cases hg : refs.get k with
  | none => rw [hg] at hd; cases hd
  | some b =>
    rw [hg] at hd
    dsimp only at hd
    obtain ⟨c0, h1, h2⟩ := Res.bind_eq_ok.1 hd
    cases h2
    exact counted_set refs d k _ (.inl h)

theorem counted_increment {refs : KV} {d k : Bytes} (h : Counted refs d ∨ d = k) {c : UInt64} {refs' : KV}
    (hd : refIncrement refs k = .ok (c, refs')) : Counted refs' d := by
  unfold refIncrement at hd
  obtain ⟨c0, h1, h2⟩ := Res.bind_eq_ok.1 hd
  cases h2
  exact counted_set refs d k _ h

theorem counted_pruneLoop (env : StoreEnv) (d : Bytes) : ∀ l (s : StoreState) r s', Counted s.refs d →
    pruneLoop env l s = .ok (r, s') → Counted s'.refs d
  | [], s, r, s', h, hr => by simp only [pruneLoop] at hr; cases hr; exact h
  | (e, a) :: l, s, r, s', h, hr => by
    simp only [pruneLoop, entryDelete] at hr
    cases hd : refDecrement s.refs e.payloadDigest with
    | err => rw [hd] at hr; cases hr; exact h
    | crash => rw [hd] at hr; cases hr
    | block => rw [hd] at hr; cases hr
    | ok x =>
      obtain ⟨c, refs'⟩ := x
      rw [hd] at hr
      dsimp only at hr
      have hc := counted_decrement h hd
      generalize hs : (if c = 0 then _ else _ : StoreState) = s1 at hr
      have hs1 : Counted s1.refs d := by subst hs; split <;> exact hc
      cases hp : pruneLoop env l s1 with
      | err => rw [hp] at hr; cases hr
      | crash => rw [hp] at hr; cases hr
      | block => rw [hp] at hr; cases hr
      | ok y =>
        obtain ⟨o, s2⟩ := y
        rw [hp] at hr
        have := counted_pruneLoop env d l s1 o s2 hs1 hp
        cases o <;> · cases hr; exact this

theorem counted_insertEntry (env : StoreEnv) (d : Bytes) {s : StoreState} {e : Entry} {token : Bytes} {r s'}
    (hr : insertEntry env s e token = .ok (r, s')) (h : Counted s.refs d ∨ (d = e.payloadDigest ∧ r ≠ none)) : Counted s'.refs d := by
  simp only [insertEntry, entryInsert] at hr
  cases hk : kdAdd s.kd ⟨e.position, []⟩ with
  | none => rw [hk] at hr; cases hr; exact h.resolve_right fun h => h.2 rfl
  | some kd2 =>
    rw [hk] at hr
    dsimp only at hr
    cases hi : refIncrement s.refs e.payloadDigest with
    | err => rw [hi] at hr; cases hr
    | crash => rw [hi] at hr; cases hr
    | block => rw [hi] at hr; cases hr
    | ok x =>
      obtain ⟨c, refs2⟩ := x
      rw [hi] at hr
      dsimp only at hr
      have hc : Counted refs2 d := counted_increment (h.imp_right (·.1)) hi
      generalize hs : StoreState.mk _ _ _ _ _ _ = s1 at hr
      have hs1 : Counted s1.refs d := by subst hs; exact hc
      cases hp : prunableEntries env s1 e.position with
      | err => rw [hp] at hr; cases hr
      | crash => rw [hp] at hr; cases hr
      | block => rw [hp] at hr; cases hr
      | ok o =>
        rw [hp] at hr
        cases o with
        | none => cases hr; exact hs1
        | some l => exact counted_pruneLoop env d l s1 r s' hs1 hr

theorem counted_finishIngest (env : StoreEnv) (d : Bytes) {s : StoreState} {e : Entry} {token : Bytes} {r s'}
    (hr : finishIngest env s e token = .ok (r, s')) (h : Counted s.refs d ∨ (d = e.payloadDigest ∧ r ≠ none)) : Counted s'.refs d := by
  unfold finishIngest at hr
  cases hi : insertEntry env s e token with
  | err => rw [hi] at hr; cases hr
  | crash => rw [hi] at hr; cases hr
  | block => rw [hi] at hr; cases hr
  | ok x =>
    obtain ⟨o, s1⟩ := x
    rw [hi] at hr
    have hc := fun h => counted_insertEntry env d hi h
    cases o with
    | none => cases hr; exact hc h
    | some l => cases hr; exact hc h

theorem counted_ingest (env : StoreEnv) (d : Bytes) {s : StoreState} {e : Entry} {token : Bytes} {r s'}
    (hr : ingestEntry env s e token = .ok (r, s')) (h : Counted s.refs d ∨ (d = e.payloadDigest ∧ r ≠ none)) : Counted s'.refs d := by
  have hsame : r = none → Counted s.refs d := fun hn => h.resolve_right fun h => h.2 hn
  unfold ingestEntry at hr
  split at hr
  · cases hr
  dsimp only at hr
  split at hr
  · cases hr; exact hsame rfl
  split at hr
  · cases hr; exact hsame rfl
  split at hr
  · split at hr
    · cases hr; exact hsame rfl
    split at hr
    · cases hr; exact hsame rfl
    · exact counted_finishIngest env d hr h
    · split at hr
      · split at hr
        · cases hr; exact hsame rfl
        rename_i other auth _ _ _
        have hrep : ∀ o s1, replaceOther env { s with locked := true } other auth e = .ok (o, s1) → Counted s.refs d → Counted s1.refs d := by
          intro o s1 ho hc
          simp only [replaceOther, entryDelete] at ho
          split at ho
          · cases hd : refDecrement s.refs other.payloadDigest with
            | err => rw [hd] at ho; cases ho; exact hc
            | crash => rw [hd] at ho; cases ho
            | block => rw [hd] at ho; cases ho
            | ok x =>
              obtain ⟨c, refs2⟩ := x
              rw [hd] at ho
              dsimp only at ho
              cases ho
              split <;> exact counted_decrement hc hd
          · cases ho; exact hc
        split at hr
        · rename_i u s1 hu
          exact counted_finishIngest env d hr (h.imp_left (hrep _ _ hu))
        · rename_i s1 hu
          cases hr; exact hrep _ _ hu (hsame rfl)
        · cases hr
        · cases hr
        · cases hr
      · exact counted_finishIngest env d hr h
    · cases hr
    · cases hr
    · cases hr
  · cases hr
  · cases hr
  · cases hr

/-! ### Any schedule -/

theorem oneByOne_append (env : StoreEnv) : ∀ (ops : List StoreOp) (st : StoreState) (rs : List (Option (List Entry)))
    (s : StoreState) (op : StoreOp) (r : Option (List Entry)) (s' : StoreState), oneByOne env st ops = .ok (rs, s) →
    runOp env s op = .ok (r, s') → oneByOne env st (ops ++ [op]) = .ok (rs ++ [r], s')
  | [], st, rs, s, op, r, s', h, h' => by
    simp only [oneByOne] at h
    cases h
    simp only [List.nil_append, oneByOne, h', Res.ok_bind]
  | o :: ops, st, rs, s, op, r, s', h, h' => by
    simp only [oneByOne] at h
    obtain ⟨⟨r1, s1⟩, h1, h2⟩ := Res.bind_eq_ok.1 h
    obtain ⟨⟨rs2, s2⟩, h3, h4⟩ := Res.bind_eq_ok.1 h2
    cases h4
    simp only [List.cons_append, oneByOne, h1, Res.ok_bind, oneByOne_append env ops s1 rs2 _ op r s' h3 h', List.cons_append]

/-- A call of the sequence does what the ingest of a call under way does. -/
theorem runOp_set_alike (env : StoreEnv) {s st : StoreState} (h : Alike s st) (now : UInt64) (input : EntryInput) (au token : Bytes)
    (hau : env.authorise (setEntry env now input) au = some token) {r st'}
    (hi : ingestEntry env st (setEntry env now input) token = .ok (r, st')) :
    ∃ s', runOp env s (.set now input au) = .ok (r, s') ∧ Alike s' st' := by
  unfold runOp storeSet
  have hdig : (payloadSet env s.files input.payload).2.1 = (setEntry env now input).payloadDigest := rfl
  dsimp only
  rw [hdig, hau]
  generalize setEntry env now input = e at hi ⊢
  have ha : Alike { s with files := (payloadSet env s.files input.payload).1 } st := h
  have hr := ingestEntry_alike env ha e token
  rw [hi] at hr
  dsimp only
  generalize hx : ingestEntry env { s with files := (payloadSet env s.files input.payload).1 } e token = x at hr ⊢
  cases hr with
  | ok hal =>
    cases r with
    | none => exact ⟨_, rfl, hal⟩
    | some pruned =>
      obtain ⟨c, hc⟩ := counted_ingest env e.payloadDigest hx (.inr ⟨rfl, by simp⟩)
      dsimp only
      rw [hc]
      dsimp only
      split
      · exact ⟨_, rfl, hal⟩
      · exact ⟨_, rfl, hal⟩

/-- How the calls stand after some steps. -/
structure Going (env : StoreEnv) (st0 : StoreState) (calls : List StoreCall) (stages : List CallStage) (st : StoreState)
    (order : List Nat) (rs : List (Option (List Entry))) (s : StoreState) : Prop where
  nodup : order.Nodup
  bound : ∀ i ∈ order, i < calls.length
  run : oneByOne env st0 (order.filterMap fun i => calls[i]?.map asOp) = .ok (rs, s)
  len : rs.length = order.length
  alike : Alike s st
  start : ∀ (i : Nat) (c : StoreCall), stages[i]? = some (.start c) → calls[i]? = some c ∧ i ∉ order
  written : ∀ (i : Nat) (e : Entry) (t : Bytes), stages[i]? = some (.written e t) → i ∉ order ∧
    ∃ now input au, calls[i]? = some (.set now input au) ∧ e = setEntry env now input ∧ env.authorise e au = some t
  ingested : ∀ (i : Nat) (d : Bytes) (pruned : List Entry), stages[i]? = some (.ingested d pruned) →
    Counted st.refs d ∧ ∃ k : Nat, order[k]? = some i ∧ rs[k]? = some (some pruned)
  counted : ∀ (i : Nat) (d : Bytes) (pruned : List Entry), stages[i]? = some (.counted d pruned) →
    ∃ k : Nat, order[k]? = some i ∧ rs[k]? = some (some pruned)
  done : ∀ (i : Nat) (r : Option (List Entry)), stages[i]? = some (.done r) → ∃ k : Nat, order[k]? = some i ∧ rs[k]? = some r

theorem Going.explains {env : StoreEnv} {st0 : StoreState} {calls : List StoreCall} {stages : List CallStage} {st : StoreState}
    {order : List Nat} {rs : List (Option (List Entry))} {s : StoreState} (h : Going env st0 calls stages st order rs s) :
    Explains env st0 calls stages st order :=
  ⟨h.nodup, h.bound, ⟨rs, s, h.run, h.alike, h.done⟩, fun i c hi => (h.start i c hi).2⟩

theorem Going.begin (env : StoreEnv) (st0 : StoreState) (calls : List StoreCall) :
    Going env st0 calls (calls.map .start) st0 [] [] st0 := by
  have hst : ∀ (i : Nat) (x : CallStage), (calls.map CallStage.start)[i]? = some x → ∃ c, calls[i]? = some c ∧ x = .start c := by
    intro i x h
    rw [List.getElem?_map, Option.map_eq_some_iff] at h
    obtain ⟨c, h1, h2⟩ := h
    exact ⟨c, h1, h2.symm⟩
  refine ⟨List.nodup_nil, fun i h => by simp at h, rfl, rfl, Alike.refl _, fun i c h => ?_, fun i e t h => ?_, fun i d p h => ?_,
    fun i d p h => ?_, fun i r h => ?_⟩
  all_goals obtain ⟨c', h1, h2⟩ := hst i _ h
  · cases h2; exact ⟨h1, by simp⟩
  all_goals cases h2

/-- A step that leaves the entries alone and takes no call into the order. -/
theorem Going.keep {env : StoreEnv} {st0 : StoreState} {calls : List StoreCall} {stages : List CallStage} {st : StoreState}
    {order : List Nat} {rs : List (Option (List Entry))} {s : StoreState} (h : Going env st0 calls stages st order rs s)
    {i : Nat} {x : CallStage} {st' : StoreState} (hal : Alike st st')
    (hstart : ∀ c, x = .start c → stages[i]? = some x)
    (hwritten : ∀ e t, x = .written e t → i ∉ order ∧
      ∃ now input au, calls[i]? = some (.set now input au) ∧ e = setEntry env now input ∧ env.authorise e au = some t)
    (hingested : ∀ d p, x = .ingested d p → stages[i]? = some x)
    (hcounted : ∀ d p, x = .counted d p → ∃ k : Nat, order[k]? = some i ∧ rs[k]? = some (some p))
    (hdone : ∀ r, x = .done r → ∃ k : Nat, order[k]? = some i ∧ rs[k]? = some r) :
    Going env st0 calls (stages.set i x) st' order rs s := by
  have hset : ∀ (j : Nat) (y : CallStage), (stages.set i x)[j]? = some y → (j = i ∧ y = x) ∨ (j ≠ i ∧ stages[j]? = some y) := by
    intro j y hy
    rw [List.getElem?_set] at hy
    split at hy
    · rename_i hij
      split at hy
      · exact .inl ⟨hij.symm, (Option.some.inj hy).symm⟩
      · cases hy
    · rename_i hij
      exact .inr ⟨fun h => hij h.symm, hy⟩
  refine ⟨h.nodup, h.bound, h.run, h.len, Alike.trans h.alike hal, fun j c hj => ?_, fun j e t hj => ?_, fun j d p hj => ?_,
    fun j d p hj => ?_, fun j r hj => ?_⟩
  · rcases hset j _ hj with ⟨rfl, rfl⟩ | ⟨_, hj⟩
    · exact h.start _ _ (hstart _ rfl)
    · exact h.start _ _ hj
  · rcases hset j _ hj with ⟨rfl, rfl⟩ | ⟨_, hj⟩
    · exact hwritten _ _ rfl
    · exact h.written _ _ _ hj
  · rw [← hal.2.2.1]
    rcases hset j _ hj with ⟨rfl, rfl⟩ | ⟨_, hj⟩
    · exact h.ingested _ _ _ (hingested _ _ rfl)
    · exact h.ingested _ _ _ hj
  · rcases hset j _ hj with ⟨rfl, rfl⟩ | ⟨_, hj⟩
    · exact hcounted _ _ rfl
    · exact h.counted _ _ _ hj
  · rcases hset j _ hj with ⟨rfl, rfl⟩ | ⟨_, hj⟩
    · exact hdone _ rfl
    · exact h.done _ _ hj

/-- A step by which a call enters the order. -/
theorem Going.enter {env : StoreEnv} {st0 : StoreState} {calls : List StoreCall} {stages : List CallStage} {st : StoreState}
    {order : List Nat} {rs : List (Option (List Entry))} {s : StoreState} (h : Going env st0 calls stages st order rs s)
    {i : Nat} {x : CallStage} {st' s' : StoreState} {c : StoreCall} {r : Option (List Entry)} (hc : calls[i]? = some c) (hni : i ∉ order)
    (hop : runOp env s (asOp c) = .ok (r, s')) (hal : Alike s' st') (hcnt : ∀ d, Counted st.refs d → Counted st'.refs d)
    (hx : x = .done r ∨ ∃ d p, x = .ingested d p ∧ r = some p ∧ Counted st'.refs d) :
    Going env st0 calls (stages.set i x) st' (order ++ [i]) (rs ++ [r]) s' := by
  have hset : ∀ (j : Nat) (y : CallStage), (stages.set i x)[j]? = some y → (j = i ∧ y = x) ∨ (j ≠ i ∧ stages[j]? = some y) := by
    intro j y hy
    rw [List.getElem?_set] at hy
    split at hy
    · rename_i hij
      split at hy
      · exact .inl ⟨hij.symm, (Option.some.inj hy).symm⟩
      · cases hy
    · rename_i hij
      exact .inr ⟨fun h => hij h.symm, hy⟩
  have hnew : (order ++ [i])[order.length]? = some i ∧ (rs ++ [r])[order.length]? = some r := by
    constructor
    · simp
    · rw [← h.len]; simp
  have hold : ∀ (k j : Nat) (q : Option (List Entry)), order[k]? = some j → rs[k]? = some q →
      (order ++ [i])[k]? = some j ∧ (rs ++ [r])[k]? = some q := by
    intro k j q h1 h2
    exact ⟨by rw [List.getElem?_append_left (List.getElem?_eq_some_iff.1 h1).1, h1],
      by rw [List.getElem?_append_left (List.getElem?_eq_some_iff.1 h2).1, h2]⟩
  refine ⟨?_, ?_, ?_, by simp [h.len], hal, fun j c' hj => ?_, fun j e t hj => ?_, fun j d p hj => ?_,
    fun j d p hj => ?_, fun j q hj => ?_⟩
  · rw [List.nodup_append]
    exact ⟨h.nodup, by simp, fun a ha b hb => by
      rw [List.mem_singleton] at hb
      subst hb
      exact fun hab => hni (hab ▸ ha)⟩
  · intro j hj
    rcases List.mem_append.1 hj with hj | hj
    · exact h.bound j hj
    · rw [List.mem_singleton] at hj
      subst hj
      exact (List.getElem?_eq_some_iff.1 hc).1
  · rw [List.filterMap_append]
    have : ([i] : List Nat).filterMap (fun i => calls[i]?.map asOp) = [asOp c] := by simp [hc]
    rw [this]
    exact oneByOne_append env _ _ _ _ _ _ _ h.run hop
  · rcases hset j _ hj with ⟨rfl, rfl⟩ | ⟨hne, hj⟩
    · rcases hx with hx | ⟨_, _, hx, _⟩ <;> cases hx
    · have := h.start _ _ hj
      exact ⟨this.1, fun hm => by
        rcases List.mem_append.1 hm with hm | hm
        · exact this.2 hm
        · exact hne (List.mem_singleton.1 hm)⟩
  · rcases hset j _ hj with ⟨rfl, rfl⟩ | ⟨hne, hj⟩
    · rcases hx with hx | ⟨_, _, hx, _⟩ <;> cases hx
    · have := h.written _ _ _ hj
      exact ⟨fun hm => by
        rcases List.mem_append.1 hm with hm | hm
        · exact this.1 hm
        · exact hne (List.mem_singleton.1 hm), this.2⟩
  · rcases hset j _ hj with ⟨rfl, rfl⟩ | ⟨hne, hj⟩
    · rcases hx with hx | ⟨d', p', hx, hr, hcc⟩
      · cases hx
      · cases hx; subst hr; exact ⟨hcc, _, hnew⟩
    · obtain ⟨h1, k, h2, h3⟩ := h.ingested _ _ _ hj
      exact ⟨hcnt _ h1, k, hold k _ _ h2 h3⟩
  · rcases hset j _ hj with ⟨rfl, rfl⟩ | ⟨hne, hj⟩
    · rcases hx with hx | ⟨_, _, hx, _⟩ <;> cases hx
    · obtain ⟨k, h2, h3⟩ := h.counted _ _ _ hj
      exact ⟨k, hold k _ _ h2 h3⟩
  · rcases hset j _ hj with ⟨rfl, rfl⟩ | ⟨hne, hj⟩
    · rcases hx with hx | ⟨d', p', hx, hr, hcc⟩
      · cases hx; exact ⟨_, hnew⟩
      · cases hx
    · obtain ⟨k, h2, h3⟩ := h.done _ _ hj
      exact ⟨k, hold k _ _ h2 h3⟩

theorem Going.step {env : StoreEnv} {st0 : StoreState} {calls : List StoreCall} {stages : List CallStage} {st : StoreState}
    {order : List Nat} {rs : List (Option (List Entry))} {s : StoreState} (h : Going env st0 calls stages st order rs s)
    {i : Nat} {x x' : CallStage} {st' : StoreState} (hx : stages[i]? = some x) (ha : advance env st x = .ok (x', st')) :
    ∃ more rs' s', Going env st0 calls (stages.set i x') st' (order ++ more) rs' s' := by
  have hkeep : ∀ {x' : CallStage} {st' : StoreState}, Going env st0 calls (stages.set i x') st' order rs s →
      ∃ more rs' s', Going env st0 calls (stages.set i x') st' (order ++ more) rs' s' := by
    intro x' st' hg
    exact ⟨[], rs, s, by rw [List.append_nil]; exact hg⟩
  cases x with
  | start c =>
    obtain ⟨hc, hni⟩ := h.start i c hx
    cases c with
    | set now input au =>
      simp only [advance] at ha
      cases hau : env.authorise (setEntry env now input) au with
      | none =>
        rw [hau] at ha
        cases ha
        refine ⟨[i], rs ++ [none], { s with files := (payloadSet env s.files input.payload).1 },
          h.enter (r := none) hc hni ?_ h.alike (fun _ hd => hd) (.inl rfl)⟩
        simp only [asOp, runOp, storeSet, hau]
      | some token =>
        rw [hau] at ha
        cases ha
        exact hkeep (h.keep ⟨rfl, rfl, rfl, rfl⟩ (fun _ h => by cases h)
          (fun _ _ h => by cases h; exact ⟨hni, now, input, au, hc, rfl, hau⟩)
          (fun _ _ h => by cases h) (fun _ _ h => by cases h) (fun _ h => by cases h))
    | ingest e token =>
      simp only [advance] at ha
      have hr := ingestEntry_alike env h.alike e token
      cases hi : ingestEntry env st e token with
      | err => rw [hi] at ha; cases ha
      | crash => rw [hi] at ha; cases ha
      | block =>
        rw [hi] at ha
        cases ha
        exact hkeep (h.keep (Alike.refl _) (fun _ h => by cases h; exact hx) (fun _ _ h => by cases h)
          (fun _ _ h => by cases h) (fun _ _ h => by cases h) (fun _ h => by cases h))
      | ok y =>
        obtain ⟨r, st2⟩ := y
        rw [hi] at ha hr
        cases ha
        generalize hz : ingestEntry env s e token = z at hr
        cases hr with
        | @ok _ s2 _ hal =>
          exact ⟨[i], _, _, h.enter hc hni hz hal (fun d hd => counted_ingest env d hi (.inl hd)) (.inl rfl)⟩
  | written e t =>
    obtain ⟨hni, now, input, au, hc, rfl, hau⟩ := h.written i e t hx
    simp only [advance] at ha
    cases hi : ingestEntry env st (setEntry env now input) t with
    | err => rw [hi] at ha; cases ha
    | crash => rw [hi] at ha; cases ha
    | block =>
      rw [hi] at ha
      cases ha
      exact hkeep (h.keep (Alike.refl _) (fun _ h => by cases h)
        (fun _ _ h => by cases h; exact ⟨hni, now, input, au, hc, rfl, hau⟩)
        (fun _ _ h => by cases h) (fun _ _ h => by cases h) (fun _ h => by cases h))
    | ok y =>
      obtain ⟨r, st2⟩ := y
      obtain ⟨s2, hop, hal⟩ := runOp_set_alike env h.alike now input au t hau hi
      rw [hi] at ha
      cases r with
      | none =>
        cases ha
        exact ⟨[i], _, _, h.enter hc hni hop hal (fun d hd => counted_ingest env d hi (.inl hd)) (.inl rfl)⟩
      | some pruned =>
        cases ha
        exact ⟨[i], _, _, h.enter hc hni hop hal (fun d hd => counted_ingest env d hi (.inl hd))
          (.inr ⟨_, _, rfl, rfl, counted_ingest env _ hi (.inr ⟨rfl, by simp⟩)⟩)⟩
  | ingested d pruned =>
    obtain ⟨⟨c, hcc⟩, hk⟩ := h.ingested i d pruned hx
    simp only [advance, hcc] at ha
    cases ha
    refine hkeep (h.keep (Alike.refl _) (fun _ h => ?_) (fun _ _ h => ?_) (fun _ _ h => ?_) (fun _ _ h => ?_) (fun _ h => ?_))
    all_goals split at h <;> cases h
    all_goals exact hk
  | counted d pruned =>
    have hk := h.counted i d pruned hx
    simp only [advance] at ha
    cases ha
    exact hkeep (h.keep ⟨rfl, rfl, rfl, rfl⟩ (fun _ h => by cases h) (fun _ _ h => by cases h) (fun _ _ h => by cases h)
      (fun _ _ h => by cases h) (fun _ h => by cases h; exact hk))
  | done r =>
    have hk := h.done i r hx
    simp only [advance] at ha
    cases ha
    exact hkeep (h.keep (Alike.refl _) (fun _ h => by cases h) (fun _ _ h => by cases h) (fun _ _ h => by cases h)
      (fun _ _ h => by cases h) (fun _ h => by cases h; exact hk))

theorem Going.run_on {env : StoreEnv} {st0 : StoreState} {calls : List StoreCall} : ∀ (schedule : List Nat) {stages : List CallStage}
    {st : StoreState} {order : List Nat} {rs : List (Option (List Entry))} {s : StoreState},
    Going env st0 calls stages st order rs s → ∀ {stages' st'}, runTogether env schedule stages st = .ok (stages', st') →
    ∃ more rs' s', Going env st0 calls stages' st' (order ++ more) rs' s'
  | [], stages, st, order, rs, s, h, stages', st', hr => by
    simp only [runTogether] at hr
    cases hr
    exact ⟨[], rs, s, by rw [List.append_nil]; exact h⟩
  | i :: schedule, stages, st, order, rs, s, h, stages', st', hr => by
    simp only [runTogether] at hr
    cases hx : stages[i]? with
    | none => rw [hx] at hr; exact Going.run_on schedule h hr
    | some x =>
      rw [hx] at hr
      obtain ⟨⟨x', st1⟩, h1, h2⟩ := Res.bind_eq_ok.1 hr
      obtain ⟨more, rs', s', hg⟩ := h.step hx h1
      obtain ⟨more2, rs2, s2, hg2⟩ := Going.run_on schedule hg h2
      exact ⟨more ++ more2, rs2, s2, by rw [← List.append_assoc]; exact hg2⟩

theorem runTogether_append (env : StoreEnv) : ∀ (xs ys : List Nat) (stages : List CallStage) (st : StoreState),
    runTogether env (xs ++ ys) stages st = (do
      let (stages, st) ← runTogether env xs stages st
      runTogether env ys stages st)
  | [], ys, stages, st => rfl
  | i :: xs, ys, stages, st => by
    simp only [List.cons_append, runTogether]
    cases stages[i]? with
    | none => exact runTogether_append env xs ys stages st
    | some x =>
      dsimp only
      cases advance env st x with
      | ok y => exact runTogether_append env xs ys _ _
      | err => rfl
      | crash => rfl
      | block => rfl

end Willow
