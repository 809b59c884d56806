import Verif.Lemmas.Turns
import Verif.Lemmas.TurnsShape
import Verif.Lemmas.PropsConcurrentFiles

/-! The payload files under calls that take turns after every change. -/

namespace Willow.Props

open Willow Spec

/-- The call has taken the lock, or returned without. -/
def gone : TurnStage → Bool
  | .start _ => false
  | .writing _ _ _ => false
  | .waiting _ _ _ => false
  | _ => true

/-- The stage is one of the call. -/
def TurnOf (env : StoreEnv) (c : StoreCall) : TurnStage → Prop
  | .start c' => c' = c
  | .writing ws e t => ∃ now input au k, c = .set now input au ∧ e = setEntry env now input ∧ t = env.authorise e au ∧
      ws = (payloadWrites env input.payload).drop k
  | .waiting e t b => ∃ now input au, c = .set now input au ∧ e = setEntry env now input ∧ env.authorise e au = some t ∧ b = true
  | .ingesting _ _ _ _ d => ∀ d', d = some d' → d' = digestOf env c
  | .ingested d _ => d = digestOf env c
  | .erasing ws _ => ∀ w ∈ ws, w = .remove (env.fileKey (digestOf env c))
  | .done _ => True

/-- What the store will be when nobody is within an ingest. -/
def Final (stages : List TurnStage) (st fin : StoreState) : Prop :=
  (Idle stages ∧ fin = st) ∨
  ∃ (i : Nat) (ws : List DiskWrite) (kd : List KdKey) (l : Bool) (r : Option (List Entry)) (c : Option Bytes), stages[i]? = some (.ingesting ws kd l r c) ∧
    fin = { applyWrites st ws with kd := kd, locked := l }

/-- The change does not touch the file. -/
def Spares (n : Bytes) (w : DiskWrite) : Prop := (∀ c, w ≠ .file n c) ∧ w ≠ .remove n

/-- The stage needs its payload to be in its file. -/
def Needs : TurnStage → Option Entry
  | .writing [] e (some _) => some e
  | .waiting e _ _ => some e
  | _ => none

/-- The calls are under way, and the payloads of all entries are in their files. -/
structure KeptAll (env : StoreEnv) (calls : List StoreCall) (stages : List TurnStage) (st : StoreState) (A : List Item)
    (leak : Bytes → Nat) : Prop where
  abs : ∀ fin, Final stages st fin → Abs env fin A leak ∧ fin.locked = false ∧ ∀ a ∈ A, Filed env fin.files a.val.payloadDigest
  locked : ∀ (i : Nat) ws kd l r c, stages[i]? = some (.ingesting ws kd l r c) → st.locked = true
  one : ∀ (i j : Nat) ws kd l r c ws' kd' l' r' c', stages[i]? = some (.ingesting ws kd l r c) → stages[j]? = some (.ingesting ws' kd' l' r' c') → i = j
  len : stages.length = calls.length
  stage : ∀ (i : Nat) (c : StoreCall) (x : TurnStage), calls[i]? = some c → stages[i]? = some x → TurnOf env c x
  brought : Allowed env (calls.map asOp) A
  origin : ∀ a ∈ A, ∃ (i : Nat) (c : StoreCall) (x : TurnStage), calls[i]? = some c ∧ stages[i]? = some x ∧ gone x = true ∧
    a.val.payloadDigest = digestOf env c
  bound : ∀ d, refsTo A d + leak d ≤ stages.countP gone
  ready : ∀ (i : Nat) (x : TurnStage) (e : Entry), stages[i]? = some x → Needs x = some e → Filed env st.files e.payloadDigest
  spares : ∀ (i : Nat) ws kd l r c, stages[i]? = some (.ingesting ws kd l r c) → ∀ w ∈ ws, ∀ (j : Nat) (cj : StoreCall) (x : TurnStage),
    calls[j]? = some cj → stages[j]? = some x → gone x = false → (∃ e t, attempt env (asOp cj) = some (e, t)) → Spares (env.fileKey (digestOf env cj)) w
  counts : ∀ (i : Nat) ws kd l r c, stages[i]? = some (.ingesting ws kd l r c) → ∀ k v, .refSet k v ∈ ws → ∀ a ∈ A, a.val.payloadDigest = k →
    ∃ ci, calls[i]? = some ci ∧ k = digestOf env ci
  none : ∀ (i : Nat) ws p c, stages[i]? = some (.erasing ws p) → calls[i]? = some c → ∀ a ∈ A, a.val.payloadDigest ≠ digestOf env c

theorem Spares.get {n : Bytes} {w : DiskWrite} (h : Spares n w) (st : StoreState) : (applyWrite st w).files.get n = st.files.get n := by
  cases w with
  | file m c =>
    show (st.files.set m c).get n = _
    rw [KV.get_set, if_neg]
    intro e
    subst e
    exact h.1 c rfl
  | remove m =>
    show (st.files.delete m).get n = _
    rw [KV.get_delete, if_neg]
    intro e
    subst e
    exact h.2 rfl
  | _ => rfl

theorem get_writes {n : Bytes} : ∀ (ws : List DiskWrite) (a b : StoreState), a.files.get n = b.files.get n →
    (applyWrites a ws).files.get n = (applyWrites b ws).files.get n
  | [], _, _, h => h
  | w :: ws, a, b, h => by
    refine get_writes ws (applyWrite a w) (applyWrite b w) ?_
    cases w with
    | file m c =>
      show (a.files.set m c).get n = (b.files.set m c).get n
      rw [KV.get_set, KV.get_set, h]
    | remove m =>
      show (a.files.delete m).get n = (b.files.delete m).get n
      rw [KV.get_delete, KV.get_delete, h]
    | _ => exact h

theorem refs_writes {d : Bytes} : ∀ (ws : List DiskWrite) (st : StoreState), (∀ v, .refSet d v ∉ ws) →
    (applyWrites st ws).refs.get d = st.refs.get d
  | [], _, _ => rfl
  | w :: ws, st, h => by
    show (applyWrites (applyWrite st w) ws).refs.get d = _
    rw [refs_writes ws (applyWrite st w) fun v hv => h v (List.mem_cons_of_mem _ hv)]
    cases w with
    | refSet k v =>
      show (st.refs.set k v).get d = _
      rw [KV.get_set, if_neg]
      intro e
      subst e
      exact h v List.mem_cons_self
    | _ => rfl

theorem get_set_self {α : Type} {l : List α} {i : Nat} {x y : α} (h : l[i]? = some x) : (l.set i y)[i]? = some y := by
  rw [List.getElem?_set, if_pos rfl, if_pos (List.getElem?_eq_some_iff.1 h).1]

theorem get_set_other {α : Type} {l : List α} {i j : Nat} {y z : α} (hne : j ≠ i) (h : l[j]? = some z) : (l.set i y)[j]? = some z := by
  rw [List.getElem?_set, if_neg fun e => hne e.symm]; exact h

theorem gone_set_ge {stages : List TurnStage} {i : Nat} {x x' : TurnStage} (hx : stages[i]? = some x)
    (h : gone x = true → gone x' = true) : stages.countP gone ≤ (stages.set i x').countP gone := by
  obtain ⟨hi, hxi⟩ := List.getElem?_eq_some_iff.1 hx
  rw [List.countP_set hi, hxi]
  by_cases h1 : gone x = true
  · rw [if_pos h1, if_pos (h h1)]; omega
  · rw [if_neg h1]; omega

theorem gone_set_more {stages : List TurnStage} {i : Nat} {x x' : TurnStage} (hx : stages[i]? = some x)
    (h : gone x = false) (h' : gone x' = true) : stages.countP gone + 1 ≤ (stages.set i x').countP gone := by
  obtain ⟨hi, hxi⟩ := List.getElem?_eq_some_iff.1 hx
  rw [List.countP_set hi, hxi, if_neg (by simp [h]), if_pos h']
  omega

theorem gone_lt {stages : List TurnStage} {i : Nat} {x : TurnStage} (hx : stages[i]? = some x)
    (h : gone x = false) : stages.countP gone < stages.length := by
  refine Nat.lt_of_le_of_ne List.countP_le_length fun heq => ?_
  have := List.countP_eq_length.1 heq x (List.mem_of_getElem? hx)
  rw [h] at this
  cases this

/-- What is asked of the calls. -/
structure Distinct (env : StoreEnv) (calls : List StoreCall) : Prop where
  names : GoodNames env
  set : ∀ c ∈ calls, IsSet c
  fine : ∀ c ∈ calls, FineOp env (asOp c)
  tokens : TokensApart env (calls.map asOp)
  diff : ∀ (j k : Nat) (c d : StoreCall), calls[j]? = some c → calls[k]? = some d → digestOf env c = digestOf env d → j = k
  few : calls.length < 2 ^ 64

theorem Distinct.name {env : StoreEnv} {calls : List StoreCall} (h : Distinct env calls) {j k : Nat} {c d : StoreCall} (hj : calls[j]? = some c)
    (hk : calls[k]? = some d) (hne : j ≠ k) : env.fileKey (digestOf env c) ≠ env.fileKey (digestOf env d) := by
  intro e
  obtain ⟨_, _, _, rfl⟩ := h.set _ (List.mem_of_getElem? hj)
  obtain ⟨_, _, _, rfl⟩ := h.set _ (List.mem_of_getElem? hk)
  exact hne (h.diff j k _ _ hj hk (h.names.inj _ _ e))

theorem KeptAll.call {env : StoreEnv} {calls : List StoreCall} {stages : List TurnStage} {st : StoreState} {A : List Item} {leak : Bytes → Nat}
    (h : KeptAll env calls stages st A leak) {i : Nat} {x : TurnStage} (hx : stages[i]? = some x) : ∃ c, calls[i]? = some c :=
  ⟨calls[i]'(h.len ▸ (List.getElem?_eq_some_iff.1 hx).1), List.getElem?_eq_getElem _⟩

/-- No entry has the digest of a call that has not taken the lock. -/
theorem KeptAll.fresh {env : StoreEnv} {calls : List StoreCall} (hd : Distinct env calls) {stages : List TurnStage} {st : StoreState} {A : List Item}
    {leak : Bytes → Nat} (h : KeptAll env calls stages st A leak) {i : Nat} {c : StoreCall} {x : TurnStage} (hc : calls[i]? = some c)
    (hx : stages[i]? = some x) (hg : gone x = false) : ∀ a ∈ A, a.val.payloadDigest ≠ digestOf env c := by
  intro a ha heq
  obtain ⟨k, c2, z, g1, g2, g3, g4⟩ := h.origin a ha
  have := hd.diff k i c2 c g1 hc (g4.symm.trans heq)
  subst this
  rw [hx] at g2
  cases g2
  rw [hg] at g3
  cases g3

/-- The digest that a stage needs is that of its call. -/
theorem TurnOf.needs {env : StoreEnv} {c : StoreCall} {x : TurnStage} (h : TurnOf env c x) {e : Entry} (hn : Needs x = some e) :
    e.payloadDigest = digestOf env c ∧ gone x = false ∧ ∃ e' t', attempt env (asOp c) = some (e', t') := by
  cases x with
  | writing ws e' t =>
    cases ws with
    | cons w ws => cases hn
    | nil =>
      cases t with
      | none => cases hn
      | some t =>
        cases hn
        obtain ⟨now, input, au, k, rfl, rfl, h3, _⟩ := h
        refine ⟨rfl, rfl, setEntry env now input, t, ?_⟩
        show (env.authorise (setEntry env now input) au).map _ = _
        rw [← h3]
        rfl
  | waiting e' t b =>
    cases hn
    obtain ⟨now, input, au, rfl, rfl, h3, _⟩ := h
    refine ⟨rfl, rfl, setEntry env now input, t, ?_⟩
    show (env.authorise (setEntry env now input) au).map _ = _
    rw [h3]
    rfl
  | _ => cases hn

theorem Filed.same {env : StoreEnv} {f g : KV} {d : Bytes} (h : Filed env f d) (he : g.get (env.fileKey d) = f.get (env.fileKey d)) : Filed env g d := by
  obtain ⟨b, h1, h2⟩ := h
  exact ⟨b, he.trans h1, h2⟩

/-- A turn outside ingests, in which only the own file changes, if no entry needs it. -/
theorem KeptAll.quiet {env : StoreEnv} {calls : List StoreCall} (hd : Distinct env calls) {stages : List TurnStage} {st : StoreState} {A : List Item}
    {leak : Bytes → Nat} (h : KeptAll env calls stages st A leak) {i : Nat} {c : StoreCall} {x x' : TurnStage} {f : KV} (hc : calls[i]? = some c)
    (hx : stages[i]? = some x) (hn : ∀ ws kd l r c, x ≠ .ingesting ws kd l r c) (hn' : ∀ ws kd l r c, x' ≠ .ingesting ws kd l r c)
    (hg : gone x = true → gone x' = true) (hs : TurnOf env c x')
    (hf : f = st.files ∨ ((∀ m, m ≠ env.fileKey (digestOf env c) → f.get m = st.files.get m) ∧ ∀ a ∈ A, a.val.payloadDigest ≠ digestOf env c))
    (hown : ∀ e, Needs x' = some e → Filed env f e.payloadDigest)
    (hnone : ∀ ws p, x' = .erasing ws p → ∀ a ∈ A, a.val.payloadDigest ≠ digestOf env c) :
    KeptAll env calls (stages.set i x') { st with files := f } A leak := by
  have hback : ∀ (j : Nat) ws kd l r q, (stages.set i x')[j]? = some (.ingesting ws kd l r q) → stages[j]? = some (.ingesting ws kd l r q) := by
    intro j ws kd l r q hj
    rcases get_set_cases hj with ⟨_, e⟩ | ⟨_, e⟩
    · exact absurd e.symm (hn' ws kd l r q)
    · exact e
  have hforth : ∀ (j : Nat) ws kd l r q, stages[j]? = some (.ingesting ws kd l r q) → (stages.set i x')[j]? = some (.ingesting ws kd l r q) := by
    intro j ws kd l r q hj
    refine get_set_other (fun e => ?_) hj
    subst e
    rw [hx] at hj
    exact hn ws kd l r q (Option.some.inj hj)
  -- the files of others
  have hother : ∀ (j : Nat) cj, calls[j]? = some cj → j ≠ i → f.get (env.fileKey (digestOf env cj)) = st.files.get (env.fileKey (digestOf env cj)) := by
    intro j cj hj hne
    rcases hf with rfl | ⟨hf, _⟩
    · rfl
    · exact hf _ (hd.name hj hc hne)
  have hitem : ∀ a ∈ A, f.get (env.fileKey a.val.payloadDigest) = st.files.get (env.fileKey a.val.payloadDigest) := by
    intro a ha
    rcases hf with rfl | ⟨hf, hno⟩
    · rfl
    · refine hf _ fun e => ?_
      obtain ⟨k, c2, z, g1, g2, g3, g4⟩ := h.origin a ha
      by_cases hki : k = i
      · subst hki
        rw [hc] at g1
        cases g1
        exact hno a ha g4
      · rw [g4] at e
        exact hd.name g1 hc hki e
  refine ⟨fun fin hfin => ?_, fun j ws kd l r q hj => h.locked j _ _ _ _ _ (hback j _ _ _ _ _ hj),
    fun j k ws kd l r q ws' kd' l' r' q' hj hk => h.one j k _ _ _ _ _ _ _ _ _ _ (hback _ _ _ _ _ _ hj) (hback _ _ _ _ _ _ hk),
    by rw [List.length_set, h.len], fun j cj y hj hy => ?_, h.brought, fun a ha => ?_, fun d => Nat.le_trans (h.bound d) (gone_set_ge hx hg),
    fun j y e hy hne => ?_, fun j ws kd l r q hj w hw k ck y hk hy hgy hat => ?_, fun j ws kd l r q hj => h.counts j _ _ _ _ _ (hback _ _ _ _ _ _ hj),
    fun j ws p cj hj hcj => ?_⟩
  · rcases hfin with ⟨hid, rfl⟩ | ⟨j, ws, kd, l, r, q, hj, rfl⟩
    · obtain ⟨h1, h2, h3⟩ := h.abs st (.inl ⟨fun j ws kd l r q hj => hid j ws kd l r q (hforth j ws kd l r q hj), rfl⟩)
      exact ⟨h1.ofSame rfl rfl rfl, h2, fun a ha => (h3 a ha).same (hitem a ha)⟩
    · obtain ⟨h1, h2, h3⟩ := h.abs _ (.inr ⟨j, ws, kd, l, r, q, hback _ _ _ _ _ _ hj, rfl⟩)
      obtain ⟨e1, e2⟩ := applyWrites_databases ws { st with files := f } st rfl rfl
      refine ⟨h1.ofSame e1 rfl e2, h2, fun a ha => (h3 a ha).same ?_⟩
      exact get_writes ws { st with files := f } st (hitem a ha)
  · rcases get_set_cases hy with ⟨rfl, rfl⟩ | ⟨_, hy⟩
    · rw [hc] at hj; cases hj; exact hs
    · exact h.stage j cj y hj hy
  · obtain ⟨j, cj, y, h1, h2, h3, h4⟩ := h.origin a ha
    by_cases hij : j = i
    · subst hij
      rw [hx] at h2
      cases h2
      exact ⟨j, cj, x', h1, get_set_self hx, hg h3, h4⟩
    · exact ⟨j, cj, y, h1, get_set_other hij h2, h3, h4⟩
  · rcases get_set_cases hy with ⟨rfl, rfl⟩ | ⟨hji, hy⟩
    · exact hown e hne
    · obtain ⟨cj, hcj⟩ := h.call hy
      obtain ⟨q1, _, _⟩ := (h.stage j cj y hcj hy).needs hne
      refine (h.ready j y e hy hne).same ?_
      rw [q1]
      exact hother j cj hcj hji
  · have hj' := hback _ _ _ _ _ _ hj
    rcases get_set_cases hy with ⟨rfl, rfl⟩ | ⟨hki, hy⟩
    · refine h.spares j _ _ _ _ _ hj' w hw k ck x hk hx ?_ hat
      cases hgx : gone x with
      | false => rfl
      | true => rw [hg hgx] at hgy; cases hgy
    · exact h.spares j _ _ _ _ _ hj' w hw k ck y hk hy hgy hat
  · rcases get_set_cases hj with ⟨rfl, e⟩ | ⟨_, hj⟩
    · rw [hc] at hcj
      cases hcj
      exact hnone ws p e.symm
    · exact h.none j ws p cj hj hcj

/-- A change within an ingest. -/
theorem KeptAll.within {env : StoreEnv} {calls : List StoreCall} {stages : List TurnStage} {st : StoreState} {A : List Item}
    {leak : Bytes → Nat} (h : KeptAll env calls stages st A leak) {i : Nat} {w : DiskWrite} {ws : List DiskWrite} {kd : List KdKey} {l : Bool}
    {r : Option (List Entry)} {q : Option Bytes} (hx : stages[i]? = some (.ingesting (w :: ws) kd l r q)) :
    KeptAll env calls (stages.set i (.ingesting ws kd l r q)) (applyWrite st w) A leak := by
  have honly : ∀ (j : Nat) ws' kd' l' r' c', (stages.set i (.ingesting ws kd l r q))[j]? = some (.ingesting ws' kd' l' r' c') →
      j = i ∧ TurnStage.ingesting ws' kd' l' r' c' = .ingesting ws kd l r q := by
    intro j ws' kd' l' r' c' hj
    rcases get_set_cases hj with ⟨e, e'⟩ | ⟨e', e⟩
    · exact ⟨e, e'⟩
    · exact absurd (h.one j i _ _ _ _ _ _ _ _ _ _ e hx) e'
  refine ⟨fun fin hfin => ?_, fun j ws' kd' l' r' q' hj => ?_,
    fun j k ws1 kd1 l1 r1 q1 ws' kd' l' r' q' hj hk => (honly j _ _ _ _ _ hj).1.trans (honly k _ _ _ _ _ hk).1.symm,
    by rw [List.length_set, h.len], fun j cj y hj hy => ?_, h.brought, fun a ha => ?_,
    fun d => Nat.le_trans (h.bound d) (gone_set_ge hx fun _ => rfl),
    fun j y e hy hne => ?_, fun j ws' kd' l' r' q' hj w' hw' k ck y hk hy hgy hat => ?_, fun j ws' kd' l' r' q' hj k v hkv => ?_, fun j ws' p cj hj hcj => ?_⟩
  · rcases hfin with ⟨hid, rfl⟩ | ⟨j, ws', kd', l', r', q', hj, rfl⟩
    · exact absurd (get_set_self hx) (hid i _ _ _ _ _)
    · obtain ⟨rfl, e⟩ := honly j _ _ _ _ _ hj
      cases e
      exact h.abs _ (.inr ⟨j, _, _, _, _, _, hx, rfl⟩)
  · have := h.locked i _ _ _ _ _ hx
    cases w <;> exact this
  · rcases get_set_cases hy with ⟨rfl, rfl⟩ | ⟨_, hy⟩
    · have := h.stage j cj (.ingesting (w :: ws) kd l r q) hj hx
      exact this
    · exact h.stage j cj y hj hy
  · obtain ⟨j, cj, y, h1, h2, h3, h4⟩ := h.origin a ha
    by_cases hij : j = i
    · subst hij
      exact ⟨j, cj, _, h1, get_set_self hx, rfl, h4⟩
    · exact ⟨j, cj, y, h1, get_set_other hij h2, h3, h4⟩
  · rcases get_set_cases hy with ⟨rfl, rfl⟩ | ⟨hji, hy⟩
    · cases hne
    · obtain ⟨cj, hcj⟩ := h.call hy
      obtain ⟨q1, q2, q3⟩ := (h.stage j cj y hcj hy).needs hne
      refine (h.ready j y e hy hne).same ?_
      rw [q1]
      exact (h.spares i _ _ _ _ _ hx w List.mem_cons_self j cj y hcj hy q2 q3).get st
  · obtain ⟨rfl, e⟩ := honly j _ _ _ _ _ hj
    cases e
    rcases get_set_cases hy with ⟨_, rfl⟩ | ⟨_, hy⟩
    · cases hgy
    · exact h.spares j _ _ _ _ _ hx w' (List.mem_cons_of_mem _ hw') k ck y hk hy hgy hat
  · obtain ⟨rfl, e⟩ := honly j _ _ _ _ _ hj
    cases e
    exact h.counts j _ _ _ _ _ hx k v (List.mem_cons_of_mem _ hkv)
  · rcases get_set_cases hj with ⟨_, e⟩ | ⟨_, hj⟩
    · cases e
    · exact h.none j ws' p cj hj hcj

/-- An ingest ends. -/
theorem KeptAll.ends {env : StoreEnv} {calls : List StoreCall} {stages : List TurnStage} {st : StoreState} {A : List Item}
    {leak : Bytes → Nat} (h : KeptAll env calls stages st A leak) {i : Nat} {c : StoreCall} {x' : TurnStage} {kd : List KdKey} {l : Bool}
    {r : Option (List Entry)} {q : Option Bytes} (hc : calls[i]? = some c) (hx : stages[i]? = some (.ingesting [] kd l r q))
    (hn' : (∃ r, x' = .done r) ∨ ∃ d p, x' = .ingested d p) (hs : TurnOf env c x') :
    KeptAll env calls (stages.set i x') { st with kd := kd, locked := l } A leak := by
  have hni : ∀ ws kd l r c, x' ≠ .ingesting ws kd l r c := by
    rcases hn' with ⟨_, rfl⟩ | ⟨_, _, rfl⟩ <;> simp
  have hno : ∀ (j : Nat) ws' kd' l' r' c', (stages.set i x')[j]? ≠ some (.ingesting ws' kd' l' r' c') := by
    intro j ws' kd' l' r' c' hj
    rcases get_set_cases hj with ⟨_, e⟩ | ⟨e, hj⟩
    · exact hni _ _ _ _ _ e.symm
    · exact e (h.one j i _ _ _ _ _ _ _ _ _ _ hj hx)
  have hg : gone x' = true := by rcases hn' with ⟨_, rfl⟩ | ⟨_, _, rfl⟩ <;> rfl
  have hne : Needs x' = .none := by rcases hn' with ⟨_, rfl⟩ | ⟨_, _, rfl⟩ <;> rfl
  refine ⟨fun fin hfin => ?_, fun j ws' kd' l' r' q' hj => absurd hj (hno _ _ _ _ _ _),
    fun j k ws1 kd1 l1 r1 q1 ws' kd' l' r' q' hj hk => absurd hj (hno _ _ _ _ _ _),
    by rw [List.length_set, h.len], fun j cj y hj hy => ?_, h.brought, fun a ha => ?_,
    fun d => Nat.le_trans (h.bound d) (gone_set_ge hx fun _ => hg),
    fun j y e hy hne' => ?_, fun j ws' kd' l' r' q' hj => absurd hj (hno _ _ _ _ _ _), fun j ws' kd' l' r' q' hj => absurd hj (hno _ _ _ _ _ _),
    fun j ws' p cj hj hcj => ?_⟩
  · rcases hfin with ⟨hid, rfl⟩ | ⟨j, ws', kd', l', r', q', hj, rfl⟩
    · exact h.abs _ (.inr ⟨i, _, _, _, _, _, hx, rfl⟩)
    · exact absurd hj (hno _ _ _ _ _ _)
  · rcases get_set_cases hy with ⟨rfl, rfl⟩ | ⟨_, hy⟩
    · rw [hc] at hj; cases hj; exact hs
    · exact h.stage j cj y hj hy
  · obtain ⟨j, cj, y, h1, h2, h3, h4⟩ := h.origin a ha
    by_cases hij : j = i
    · subst hij
      exact ⟨j, cj, _, h1, get_set_self hx, hg, h4⟩
    · exact ⟨j, cj, y, h1, get_set_other hij h2, h3, h4⟩
  · rcases get_set_cases hy with ⟨rfl, rfl⟩ | ⟨hji, hy⟩
    · rw [hne] at hne'; cases hne'
    · exact h.ready j y e hy hne'
  · rcases get_set_cases hj with ⟨_, e⟩ | ⟨_, hj⟩
    · rcases hn' with ⟨_, rfl⟩ | ⟨_, _, rfl⟩ <;> cases e
    · exact h.none j ws' p cj hj hcj

/-- Entries with the same digest are the same. -/
theorem Distinct.same {env : StoreEnv} {calls : List StoreCall} (hd : Distinct env calls) {A : List Item} (hb : Allowed env (calls.map asOp) A)
    {a b : Item} (ha : a ∈ A) (hb' : b ∈ A) (e : a.val.payloadDigest = b.val.payloadDigest) : a = b := by
  obtain ⟨op, ho, e1, t1, g1, _, rfl⟩ := hb a ha
  obtain ⟨op', ho', e2, t2, g2, _, rfl⟩ := hb b hb'
  obtain ⟨c, hc, rfl⟩ := List.mem_map.1 ho
  obtain ⟨c', hc', rfl⟩ := List.mem_map.1 ho'
  obtain ⟨i, hi, rfl⟩ := List.mem_iff_getElem.1 hc
  obtain ⟨j, hj, rfl⟩ := List.mem_iff_getElem.1 hc'
  have key : ∀ (k : Nat) (hk : k < calls.length) e t, attempt env (asOp calls[k]) = some (e, t) → e.payloadDigest = digestOf env calls[k] := by
    intro k hk e t g
    obtain ⟨now, input, au, hset⟩ := hd.set _ (List.getElem_mem hk)
    rw [hset] at g ⊢
    simp only [asOp, attempt, Option.map_eq_some_iff, Prod.mk.injEq] at g
    obtain ⟨_, _, rfl, _⟩ := g
    rfl
  have hij := hd.diff i j _ _ (List.getElem?_eq_getElem hi) (List.getElem?_eq_getElem hj) (by
    rw [← key i hi _ _ g1, ← key j hj _ _ g2]
    exact e)
  subst hij
  rw [g1] at g2
  cases g2
  rfl

/-- An ingest begins. -/
theorem KeptAll.takes {env : StoreEnv} (he : EnvOk env) {calls : List StoreCall} (hd : Distinct env calls) {stages : List TurnStage} {st : StoreState}
    {A : List Item} {leak : Bytes → Nat} (h : KeptAll env calls stages st A leak) {i : Nat} {e : Entry} {t : Bytes}
    (hx : stages[i]? = some (.waiting e t true)) {r : Option (List Entry)} {st1 : StoreState} (hi : ingestEntry env st e t = .ok (r, st1)) :
    ∃ A' leak', KeptAll env calls (stages.set i (.ingesting (ingestWrites env st e t) st1.kd st1.locked r (some e.payloadDigest))) { st with locked := true }
      A' leak' := by
  have hidle : Idle stages := by
    intro j ws kd l r c hj
    rw [ingestEntry_locked env (h.locked j _ _ _ _ _ hj)] at hi
    cases hi
  obtain ⟨habs, hul, hfiled⟩ := h.abs st (.inl ⟨hidle, rfl⟩)
  obtain ⟨c, hc⟩ := h.call hx
  obtain ⟨now, input, au, rfl, hent, hau, _⟩ := h.stage i c _ hc hx
  have hcm : StoreCall.set now input au ∈ calls := List.mem_of_getElem? hc
  have hat : attempt env (asOp (.set now input au)) = some (e, t) := by
    show (env.authorise (setEntry env now input) au).map (fun token => (setEntry env now input, token)) = _
    rw [← hent, hau]
    rfl
  have hopm : asOp (.set now input au) ∈ calls.map asOp := List.mem_map.2 ⟨_, hcm, rfl⟩
  have hdig : e.payloadDigest = digestOf env (.set now input au) := by rw [hent]; rfl
  obtain ⟨hcf, hdl⟩ := hd.fine _ hcm e t hat
  have hfin := after_ingest hi
  have honly : ∀ (j : Nat) ws' kd' l' r' c', (stages.set i (.ingesting (ingestWrites env st e t) st1.kd st1.locked r (some e.payloadDigest)))[j]? =
      some (.ingesting ws' kd' l' r' c') →
      j = i ∧ TurnStage.ingesting ws' kd' l' r' c' = .ingesting (ingestWrites env st e t) st1.kd st1.locked r (some e.payloadDigest) := by
    intro j ws' kd' l' r' c' hj
    rcases get_set_cases hj with ⟨e, e'⟩ | ⟨_, e⟩
    · exact ⟨e, e'⟩
    · exact absurd e (hidle j ws' kd' l' r' c')
  have hfresh : ∀ (j : Nat) (c' : StoreCall) (y : TurnStage), calls[j]? = some c' → stages[j]? = some y → gone y = false →
      ∀ a ∈ A, a.val.payloadDigest ≠ digestOf env c' := fun j c' y hj hy hg => h.fresh hd hj hy hg
  -- what does not depend on whether the entry is accepted
  have hgo : ∀ A' leak', Abs env st1 A' leak' → st1.locked = false → (∀ a ∈ A', Filed env st1.files a.val.payloadDigest) → Allowed env (calls.map asOp) A' →
      (∀ a ∈ A', a ∈ A ∨ a.val.payloadDigest = e.payloadDigest) → (∀ d, refsTo A' d + leak' d ≤ stages.countP gone + 1) →
      (∀ w ∈ ingestWrites env st e t, ∀ (j : Nat) (cj : StoreCall) (x : TurnStage), j ≠ i → calls[j]? = some cj → stages[j]? = some x → gone x = false →
        (∃ e t, attempt env (asOp cj) = some (e, t)) → Spares (env.fileKey (digestOf env cj)) w) →
      (∀ k v, .refSet k v ∈ ingestWrites env st e t → ∀ a ∈ A', a.val.payloadDigest = k → k = e.payloadDigest) →
      KeptAll env calls (stages.set i (.ingesting (ingestWrites env st e t) st1.kd st1.locked r (some e.payloadDigest))) { st with locked := true }
        A' leak' := by
    intro A' leak' g1 g2 g3 g4 g5 g6 g7 g8
    refine ⟨fun fin hf => ?_, fun j ws' kd' l' r' q' hj => rfl,
      fun j k ws1 kd1 l1 r1 q1 ws' kd' l' r' q' hj hk => (honly j _ _ _ _ _ hj).1.trans (honly k _ _ _ _ _ hk).1.symm,
      by rw [List.length_set, h.len], fun j cj y hj hy => ?_, g4, fun a ha => ?_,
      fun d => Nat.le_trans (g6 d) (gone_set_more hx rfl rfl),
      fun j y e' hy hne => ?_, fun j ws' kd' l' r' q' hj w' hw' k ck y hk hy hgy hat' => ?_, fun j ws' kd' l' r' q' hj k v hkv a ha hak => ?_,
      fun j ws' p cj hj hcj => ?_⟩
    · rcases hf with ⟨hid, rfl⟩ | ⟨j, ws', kd', l', r', q', hj, rfl⟩
      · exact absurd (get_set_self hx) (hid i _ _ _ _ _)
      · obtain ⟨rfl, e'⟩ := honly j _ _ _ _ _ hj
        cases e'
        rw [hfin]
        exact ⟨g1, g2, g3⟩
    · rcases get_set_cases hy with ⟨rfl, rfl⟩ | ⟨_, hy⟩
      · rw [hc] at hj
        cases hj
        intro d' hd'
        cases hd'
        exact hdig
      · exact h.stage j cj y hj hy
    · rcases g5 a ha with ha' | ha'
      · obtain ⟨j, cj, y, h1, h2, h3, h4⟩ := h.origin a ha'
        have hij : j ≠ i := fun hij => by
          subst hij
          rw [hx] at h2
          cases h2
          cases h3
        exact ⟨j, cj, y, h1, get_set_other hij h2, h3, h4⟩
      · exact ⟨i, _, _, hc, get_set_self hx, rfl, ha'.trans hdig⟩
    · rcases get_set_cases hy with ⟨rfl, rfl⟩ | ⟨hji, hy⟩
      · cases hne
      · exact h.ready j y e' hy hne
    · obtain ⟨rfl, e'⟩ := honly j _ _ _ _ _ hj
      cases e'
      rcases get_set_cases hy with ⟨_, rfl⟩ | ⟨hkj, hy⟩
      · cases hgy
      · exact g7 w' hw' k ck y hkj hk hy hgy hat'
    · obtain ⟨rfl, e'⟩ := honly j _ _ _ _ _ hj
      cases e'
      exact ⟨_, hc, (g8 k v hkv a ha hak).trans hdig⟩
    · rcases get_set_cases hj with ⟨_, e'⟩ | ⟨hji, hj⟩
      · cases e'
      · intro a ha hac
        rcases g5 a ha with ha' | ha'
        · exact h.none j ws' p cj hj hcj a ha' hac
        · exact hji (hd.diff j i _ _ hcj hc (hac.symm.trans (ha'.trans hdig)))
  by_cases hacc : Acceptable env A e t
  · obtain ⟨B, st2, h1, h2, h3, h4, h5, h6⟩ := ingestEntry_accepted he habs hul e t hcf hdl hacc.1 hacc.2.1 hacc.2.2
    rw [h1] at hi
    cases hi
    have hcount := gone_lt hx rfl
    have hlen' := h.len
    have hfew := hd.few
    have hfi := h6 fun d => by have := h.bound d; omega
    have hwithin := within_ingest he habs hul e t hcf hdl hacc
    -- names of tokens
    have htok : ∀ op ∈ calls.map asOp, ∀ e2 t2, attempt env op = some (e2, t2) → ∀ op' ∈ calls.map asOp, ∀ e' t', attempt env op' = some (e', t') →
        ∀ x, env.hash x = e'.payloadDigest → env.fileKey (env.hash (env.tokenEncode t2)) ≠ env.fileKey e'.payloadDigest := by
      intro op ho e2 t2 ha2 op' ho' e' t' ha' x hx hk
      rw [← hx] at hk
      have := hd.names.inj _ _ hk
      rw [hx] at this
      exact hd.tokens op ho op' ho' e2 t2 e' t' ha2 ha' this
    refine ⟨_, _, hgo _ _ h3 h4 (fun a ha => ?_) ?_ (fun a ha => ?_) (fun d => ?_) (fun w hw j cj y hji hcj hy hgy ⟨e', t', hat'⟩ => ?_)
      (fun k v hkv a ha hak => ?_)⟩
    · -- the payloads
      have hflA : Filed env st.files a.val.payloadDigest := by
        rcases List.mem_cons.1 ha with rfl | ha
        · exact h.ready i _ e hx rfl
        · exact hfiled a (List.mem_filter.1 ha).1
      obtain ⟨o2, ho2, e2, t2, ha2, _, ha2'⟩ : ∃ op ∈ calls.map asOp, ∃ e' t', attempt env op = some (e', t') ∧
          env.isAuthorised e' t' = true ∧ a = newItem env e' t' := by
        rcases List.mem_cons.1 ha with rfl | ha
        · exact ⟨_, hopm, e, t, hat, hacc.2.1, rfl⟩
        · exact h.brought a (List.mem_filter.1 ha).1
      obtain ⟨x, hx1, hx2⟩ := hflA
      have had : a.val.payloadDigest = e2.payloadDigest := by rw [ha2']; rfl
      refine ⟨x, ?_, hx2⟩
      rw [hfi.kept _ (fun hk => ?_) (fun o ho _ _ hk => ?_) (fun b hb hdis hz hk => ?_)]
      · exact hx1
      · rw [had] at hk hx2
        exact htok _ hopm e t hat o2 ho2 e2 t2 ha2 x hx2 hk.symm
      · obtain ⟨o3, ho3, e3, t3, ha3, _, rfl⟩ := h.brought o ho
        rw [had] at hk hx2
        exact htok o3 ho3 e3 t3 ha3 o2 ho2 e2 t2 ha2 x hx2 hk
      · obtain ⟨xb, _, hxb⟩ := hfiled b hb
        rw [← hxb, ← hx2] at hk
        have := hd.names.inj _ _ hk
        rw [hxb, hx2] at this
        rw [this] at hz
        have := refsTo_pos ha
        omega
    · intro a ha
      rcases List.mem_cons.1 ha with rfl | ha
      · exact ⟨_, hopm, e, t, hat, hacc.2.1, rfl⟩
      · exact h.brought a (List.mem_filter.1 ha).1
    · rcases List.mem_cons.1 ha with rfl | ha
      · exact .inr rfl
      · exact .inl (List.mem_filter.1 ha).1
    · have g1 := refs_run (env := env) [.ingest e t] A leak d
      have hspec : specStep env A (.ingest e t) = afterInsert A (newItem env e t) := by
        unfold specStep
        have ha : attempt env (.ingest e t) = some (e, t) := rfl
        rw [ha]
        dsimp only
        rw [if_pos hacc]
      have hleak : leakStep env A (.ingest e t) leak = leakAfter A e leak := by
        unfold leakStep
        have ha : attempt env (.ingest e t) = some (e, t) := rfl
        rw [ha]
        dsimp only
        rw [if_pos hacc]
      simp only [specRun, leakRun, hspec, hleak, List.length_cons, List.length_nil] at g1
      have g2 := h.bound d
      omega
    · -- the files of calls that wait
      obtain ⟨now', input', au', rfl⟩ := hd.set _ (List.mem_of_getElem? hcj)
      have hopj : asOp (.set now' input' au') ∈ calls.map asOp := List.mem_map.2 ⟨_, List.mem_of_getElem? hcj, rfl⟩
      have hdj : e'.payloadDigest = env.hash input'.payload := by
        simp only [asOp, attempt, Option.map_eq_some_iff, Prod.mk.injEq] at hat'
        obtain ⟨_, _, rfl, _⟩ := hat'
        rfl
      have hw' := hwithin w hw
      have hname : env.fileKey (digestOf env (.set now' input' au')) = env.fileKey e'.payloadDigest := by rw [hdj]; rfl
      constructor
      · intro cc hcc
        subst hcc
        have : env.fileKey (digestOf env (.set now' input' au')) = env.fileKey (env.hash (env.tokenEncode t)) := hw'
        exact htok _ hopm e t hat _ hopj e' t' hat' _ hdj.symm (this.symm.trans hname)
      · intro hcc
        subst hcc
        rcases hw' with ⟨o, ho, hk⟩ | ⟨b, hb, _, hk⟩
        · obtain ⟨o3, ho3, e3, t3, ha3, _, rfl⟩ := h.brought o ho
          exact htok o3 ho3 e3 t3 ha3 _ hopj e' t' hat' _ hdj.symm (hk.symm.trans hname)
        · obtain ⟨xb, _, hxb⟩ := hfiled b hb
          rw [← hxb] at hk
          have := hd.names.inj input'.payload xb hk
          rw [hxb] at this
          exact hfresh j _ _ hcj hy hgy b hb this.symm
    · -- counts
      rcases hwithin _ hkv with hk | ⟨b, hb, hdis, hk⟩
      · exact hk
      · rcases List.mem_cons.1 ha with rfl | ha
        · exact hak.symm
        · obtain ⟨ha1, ha2⟩ := List.mem_filter.1 ha
          have := hd.same h.brought ha1 hb (hak.trans hk)
          subst this
          exact absurd hdis (of_decide_eq_true ha2)
  · rw [ingestEntry_refused habs.core hul e t hcf hacc] at hi
    cases hi
    have hnil : ingestWrites env st e t = [] := ingestWrites_refused habs.core e t hcf hacc
    refine ⟨A, leak, hgo A leak habs hul hfiled h.brought (fun a ha => .inl ha) (fun d => ?_) ?_ ?_⟩
    · have := h.bound d; omega
    · rw [hnil]; simp
    · rw [hnil]; simp

theorem KeptAll.step {env : StoreEnv} (he : EnvOk env) {calls : List StoreCall} (hd : Distinct env calls) {stages : List TurnStage} {st : StoreState}
    {A : List Item} {leak : Bytes → Nat} (h : KeptAll env calls stages st A leak) {i : Nat} {x x' : TurnStage} {st' : StoreState}
    (hx : stages[i]? = some x) (ht : turn env st x = .ok (x', st')) : ∃ A' leak', KeptAll env calls (stages.set i x') st' A' leak' := by
  obtain ⟨c, hc⟩ := h.call hx
  have hso := h.stage i c x hc hx
  -- nothing changes but the stage
  have still : ∀ {x' : TurnStage}, (∀ ws kd l r c, x ≠ .ingesting ws kd l r c) → (∀ ws kd l r c, x' ≠ .ingesting ws kd l r c) →
      (gone x = true → gone x' = true) → TurnOf env c x' → (∀ e, Needs x' = some e → Filed env st.files e.payloadDigest) →
      (∀ ws p, x' = .erasing ws p → ∀ a ∈ A, a.val.payloadDigest ≠ digestOf env c) → ∃ A' leak', KeptAll env calls (stages.set i x') st A' leak' :=
    fun a1 a2 a3 a4 a5 a6 => ⟨A, leak, h.quiet hd hc hx a1 a2 a3 a4 (.inl rfl) a5 a6⟩
  cases x with
  | start c' =>
    have hso : c' = c := hso
    subst hso
    obtain ⟨now, input, au, rfl⟩ := hd.set _ (List.mem_of_getElem? hc)
    cases ht
    refine still (by simp) (by simp) (fun hg => by cases hg) ⟨now, input, au, 0, rfl, rfl, rfl, rfl⟩ (fun e hn => ?_) (by simp)
    unfold payloadWrites at hn
    dsimp only at hn
    rw [if_neg (hd.names.ne _)] at hn
    cases hn
  | writing ws e t =>
    obtain ⟨now, input, au, k, rfl, rfl, hau, hws⟩ := hso
    cases ws with
    | cons w ws =>
      cases ht
      have hpw : payloadWrites env input.payload = [.file (env.fileKey (env.hash input.payload)) [], .file (env.fileKey (env.hash input.payload)) input.payload] := by
        unfold payloadWrites
        dsimp only
        rw [if_neg (hd.names.ne _)]
      have hmem : w ∈ payloadWrites env input.payload := List.mem_of_mem_drop (hws ▸ List.mem_cons_self)
      have hw : ∃ b, w = .file (env.fileKey (env.hash input.payload)) b ∧ (ws = [] → b = input.payload) := by
        rw [hpw] at hmem hws
        match k, hws with
        | 0, hws => cases hws; exact ⟨_, rfl, fun e => by cases e⟩
        | 1, hws => cases hws; exact ⟨_, rfl, fun _ => rfl⟩
        | k + 2, hws => simp at hws
      obtain ⟨b, rfl, hb⟩ := hw
      refine ⟨A, leak, h.quiet hd hc hx (by simp) (by simp) (fun hg => by cases hg) ⟨now, input, au, k + 1, rfl, rfl, hau, ?_⟩
        (.inr ⟨fun m hm => ?_, h.fresh hd hc hx rfl⟩) (fun e hn => ?_) (by simp)⟩
      · rw [← List.drop_drop, ← hws]
        rfl
      · rw [KV.get_set]
        exact if_neg hm
      · cases ws with
        | cons w ws => cases hn
        | nil =>
          cases t with
          | none => cases hn
          | some t =>
            cases hn
            refine ⟨input.payload, ?_, rfl⟩
            show (st.files.set (env.fileKey (env.hash input.payload)) b).get (env.fileKey (env.hash input.payload)) = _
            rw [KV.get_set, if_pos rfl, hb rfl]
    | nil =>
      cases t with
      | none =>
        cases ht
        exact still (by simp) (by simp) (fun _ => rfl) trivial (fun e hn => by cases hn) (by simp)
      | some t =>
        cases ht
        refine still (by simp) (by simp) (fun hg => by cases hg) ⟨now, input, au, rfl, rfl, hau.symm, rfl⟩ (fun e hn => ?_) (by simp)
        cases hn
        exact h.ready i _ _ hx rfl
  | waiting e t b =>
    obtain ⟨now, input, au, hcc, hent, hau, rfl⟩ := hso
    simp only [turn] at ht
    cases hi : ingestEntry env st e t with
    | err => rw [hi] at ht; cases ht
    | crash => rw [hi] at ht; cases ht
    | block =>
      rw [hi] at ht
      cases ht
      exact still (by simp) (by simp) (fun hg => by cases hg) ⟨now, input, au, hcc, hent, hau, rfl⟩ (fun e' hn => h.ready i _ e' hx hn) (by simp)
    | ok w =>
      obtain ⟨r, st1⟩ := w
      rw [hi] at ht
      cases ht
      exact h.takes he hd hx hi
  | ingesting ws kd l r q =>
    cases ws with
    | cons w ws =>
      cases ht
      exact ⟨A, leak, h.within hx⟩
    | nil =>
      cases r with
      | none => cases ht; exact ⟨A, leak, h.ends hc hx (.inl ⟨_, rfl⟩) trivial⟩
      | some p =>
        cases q with
        | none => cases ht; exact ⟨A, leak, h.ends hc hx (.inl ⟨_, rfl⟩) trivial⟩
        | some d => cases ht; exact ⟨A, leak, h.ends hc hx (.inr ⟨_, _, rfl⟩) (hso d rfl)⟩
  | ingested d p =>
    have hdc : d = digestOf env c := hso
    simp only [turn] at ht
    cases hr : refCount st.refs d with
    | crash => rw [hr] at ht; cases ht
    | block => rw [hr] at ht; cases ht
    | err =>
      rw [hr] at ht
      cases ht
      exact still (by simp) (by simp) (fun _ => rfl) trivial (fun e hn => by cases hn) (by simp)
    | ok count =>
      rw [hr] at ht
      cases ht
      by_cases h0 : count = 0
      · rw [if_pos h0]
        refine still (by simp) (by simp) (fun _ => rfl) ?_ (fun e hn => by cases hn) (fun ws p' _ a haA had => ?_)
        · intro w hw
          unfold eraseWrites at hw
          dsimp only at hw
          split at hw
          · cases hw
          · rw [List.mem_singleton] at hw
            rw [hw, hdc]
        · -- the count of an entry that is there is not zero
          have hfin : ∃ fin, Final stages st fin ∧ fin.refs.get d = st.refs.get d := by
            by_cases hidle : Idle stages
            · exact ⟨st, .inl ⟨hidle, rfl⟩, rfl⟩
            · have : ∃ (j : Nat) (ws : List DiskWrite) (kd : List KdKey) (l : Bool) (r : Option (List Entry)) (c : Option Bytes),
                  stages[j]? = some (.ingesting ws kd l r c) :=
                Classical.byContradiction fun hno => hidle fun j ws kd l r c hj => hno ⟨j, ws, kd, l, r, c, hj⟩
              obtain ⟨j, ws, kd, l, r, q, hj⟩ := this
              refine ⟨_, .inr ⟨j, ws, kd, l, r, q, hj, rfl⟩, ?_⟩
              refine refs_writes ws st fun v hv => ?_
              obtain ⟨cj, hcj, hdj⟩ := h.counts j _ _ _ _ _ hj d v hv a haA (had.trans hdc.symm)
              have := hd.diff j i _ _ hcj hc (hdj.symm.trans hdc)
              subst this
              rw [hx] at hj
              cases hj
          obtain ⟨fin, hfin, hsame⟩ := hfin
          obtain ⟨habs, _, _⟩ := h.abs fin hfin
          have hpos : 0 < refsTo A d := by
            unfold refsTo
            exact List.countP_pos_iff.2 ⟨a, haA, by simp [had, hdc]⟩
          have hle := h.bound d
          have hcl := List.countP_le_length (p := gone) (l := stages)
          have hlen := h.len
          have hfew := hd.few
          rcases habs.refs d with ⟨_, h1, _⟩ | hg
          · omega
          · rw [hsame] at hg
            unfold refCount at hr
            rw [hg] at hr
            dsimp only at hr
            rw [bigEndianUint64_putU64] at hr
            cases hr
            have := congrArg UInt64.toNat h0
            rw [UInt64.toNat_ofNat'] at this
            have hz : (0 : UInt64).toNat = 0 := rfl
            rw [hz, Nat.mod_eq_of_lt (by omega)] at this
            omega
      · rw [if_neg h0]
        exact still (by simp) (by simp) (fun _ => rfl) trivial (fun e hn => by cases hn) (by simp)
  | erasing ws p =>
    cases ws with
    | cons w ws =>
      cases ht
      have hw : w = .remove (env.fileKey (digestOf env c)) := hso w List.mem_cons_self
      subst hw
      have hno := h.none i _ _ c hx hc
      refine ⟨A, leak, h.quiet hd hc hx (by simp) (by simp) (fun _ => rfl) (fun w hw => hso w (List.mem_cons_of_mem _ hw))
        (.inr ⟨fun m hm => ?_, hno⟩) (fun e hn => by cases hn) (fun _ _ _ => hno)⟩
      rw [KV.get_delete, if_neg hm]
    | nil =>
      cases ht
      exact still (by simp) (by simp) (fun _ => rfl) trivial (fun e hn => by cases hn) (by simp)
  | done r =>
    cases ht
    exact still (by simp) (by simp) (fun _ => rfl) trivial (fun e hn => by cases hn) (by simp)

theorem KeptAll.run_on {env : StoreEnv} (he : EnvOk env) {calls : List StoreCall} (hd : Distinct env calls) : ∀ (schedule : List Nat)
    {stages : List TurnStage} {st : StoreState} {A : List Item} {leak : Bytes → Nat}, KeptAll env calls stages st A leak → ∀ {stages' st'},
    runTurns env schedule stages st = .ok (stages', st') → ∃ A' leak', KeptAll env calls stages' st' A' leak'
  | [], stages, st, A, leak, h, stages', st', hr => by
    simp only [runTurns] at hr
    cases hr
    exact ⟨A, leak, h⟩
  | i :: schedule, stages, st, A, leak, h, stages', st', hr => by
    simp only [runTurns] at hr
    cases hx : stages[i]? with
    | none => rw [hx] at hr; exact KeptAll.run_on he hd schedule h hr
    | some x =>
      rw [hx] at hr
      obtain ⟨⟨x', st1⟩, h1, h2⟩ := Res.bind_eq_ok.1 hr
      obtain ⟨A1, leak1, hg⟩ := h.step he hd hx h1
      exact KeptAll.run_on he hd schedule hg h2

theorem KeptAll.begin (env : StoreEnv) (calls : List StoreCall) : KeptAll env calls (calls.map .start) .empty [] (fun _ => 0) := by
  have hst : ∀ (i : Nat) (x : TurnStage), (calls.map TurnStage.start)[i]? = some x → ∃ c, calls[i]? = some c ∧ x = .start c := by
    intro i x h
    rw [List.getElem?_map, Option.map_eq_some_iff] at h
    obtain ⟨c, h1, h2⟩ := h
    exact ⟨c, h1, h2.symm⟩
  have hno : ∀ (i : Nat) ws kd l r q, (calls.map TurnStage.start)[i]? ≠ some (.ingesting ws kd l r q) := by
    intro i ws kd l r q h
    obtain ⟨_, _, e⟩ := hst i _ h
    cases e
  refine ⟨fun fin hfin => ?_, fun i ws kd l r q hi => absurd hi (hno _ _ _ _ _ _), fun i j ws kd l r q _ _ _ _ _ hi => absurd hi (hno _ _ _ _ _ _), by simp,
    fun i c x hc hx => ?_, fun a h => by simp at h, fun a h => by simp at h, fun d => by simp [refsTo], fun i x e hi hn => ?_,
    fun i ws kd l r q hi => absurd hi (hno _ _ _ _ _ _), fun i ws kd l r q hi => absurd hi (hno _ _ _ _ _ _), fun i ws p c hi => ?_⟩
  · rcases hfin with ⟨_, rfl⟩ | ⟨i, ws, kd, l, r, q, hi, _⟩
    · exact ⟨abs_empty env, rfl, fun a h => by simp at h⟩
    · exact absurd hi (hno _ _ _ _ _ _)
  · obtain ⟨c', h1, rfl⟩ := hst i x hx
    rw [hc] at h1
    cases h1
    rfl
  · obtain ⟨_, _, rfl⟩ := hst i x hi
    cases hn
  · obtain ⟨_, _, e⟩ := hst i _ hi
    cases e

end Willow.Props
