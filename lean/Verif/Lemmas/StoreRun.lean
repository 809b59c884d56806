import Verif.Lemmas.Ingest

/-! What sequences of calls do to the items a store stands for. -/

namespace Willow

open Spec Props

theorem exists_map_of_perm {α β : Type} {f : α → β} {l : List β} : ∀ {A : List α}, l.Perm (A.map f) → ∃ L : List α, L.Perm A ∧ l = L.map f := by
  intro A h
  generalize hm : A.map f = m at h
  induction h generalizing A with
  | nil => exact ⟨[], by cases A <;> simp_all, rfl⟩
  | cons x _ ih =>
    cases A with
    | nil => simp at hm
    | cons a A =>
      rw [List.map_cons, List.cons.injEq] at hm
      obtain ⟨L, h1, h2⟩ := ih hm.2
      exact ⟨a :: L, h1.cons a, by rw [List.map_cons, ← h2, hm.1]⟩
  | swap x y l =>
    match A, hm with
    | a :: b :: A, hm =>
      simp only [List.map_cons, List.cons.injEq] at hm
      refine ⟨b :: a :: A, List.Perm.swap _ _ _, ?_⟩
      simp only [List.map_cons, hm.1, hm.2.1, hm.2.2]
  | trans _ _ ih1 ih2 =>
    obtain ⟨L2, h3, h4⟩ := ih2 hm
    obtain ⟨L1, h5, h6⟩ := ih1 h4.symm
    exact ⟨L1, h5.trans h3, h6⟩

/-! ### Restarting -/

theorem initKeys_ok {env : StoreEnv} (he : EnvOk env) : ∀ L : List Item, (∀ a ∈ L, Fine env.p a) →
    initKeys env.p (L.map (Item.pair env.p)) = .ok (L.map fun a => ⟨a.pos, a.val.authDigest⟩)
  | [], _ => rfl
  | a :: L, h => by
    have ha := h a List.mem_cons_self
    rw [List.map_cons]
    unfold Item.pair initKeys
    simp only [C23_roundtrip_partial env.p a.pos (shortPath_of_limits he.cc he.cl ha.path.valid), Res.ok_bind,
      C24_roundtrip a.val ha.digest ha.auth]
    have ih := initKeys_ok he L fun x hx => h x (List.mem_cons_of_mem _ hx)
    unfold Item.pair at ih
    rw [ih]
    rfl

theorem restart_ok {env : StoreEnv} (he : EnvOk env) {st : StoreState} {A : List Item} {leak : Bytes → Nat}
    (h : Abs env st A leak) :
    ∃ L : List Item, L.Perm A ∧ restart env (fun kv => kv) st =
        .ok { st with kd := L.map fun a => ⟨a.pos, a.val.authDigest⟩, locked := false } ∧
      Abs env { st with kd := L.map fun a => ⟨a.pos, a.val.authDigest⟩, locked := false } A leak := by
  obtain ⟨L, h1, h2⟩ := exists_map_of_perm h.core.kv_perm
  refine ⟨L, h1, ?_, ⟨⟨h.core.sorted, h.core.kv_perm, ?_, h.core.fine, h.core.apart⟩, h.refs⟩⟩
  · unfold restart
    dsimp only
    rw [h2, initKeys_ok he L fun a ha => h.core.fine a (h1.mem_iff.1 ha)]
    rfl
  · dsimp only
    rw [List.map_map]
    exact h1.map _

/-! ### One call -/

/-- The surplus of the reference counts after a call. -/
def leakStep (env : StoreEnv) (A : List Item) (op : StoreOp) (leak : Bytes → Nat) : Bytes → Nat :=
  match attempt env op with
  | none => leak
  | some (e, token) => if Acceptable env A e token then leakAfter A e leak else leak

/-- The result a call should return. -/
def ResultOk (env : StoreEnv) (A : List Item) (op : StoreOp) (r : Option (List Entry)) : Prop :=
  match attempt env op with
  | none => op = .restart ∨ r = none
  | some (e, token) =>
    if Acceptable env A e token then
      ∃ B : List Item, r = some (B.map (Item.entry env.namespaceId)) ∧ B.Perm (A.filter fun a => decide (Prunes e.position a.pos))
    else r = none

theorem Abs.ofSame {env : StoreEnv} {st st' : StoreState} {A : List Item} {leak : Bytes → Nat} (h : Abs env st A leak)
    (h1 : st'.kv = st.kv) (h2 : st'.kd = st.kd) (h3 : st'.refs = st.refs) : Abs env st' A leak :=
  ⟨by rw [h1, h2]; exact h.core, by rw [h3]; exact h.refs⟩

theorem ingest_ok {env : StoreEnv} (he : EnvOk env) {st : StoreState} {A : List Item} {leak : Bytes → Nat}
    (h : Abs env st A leak) (hl : st.locked = false) (e : Entry) (token : Bytes) (hc : Comfortable env.p e.path)
    (hd : e.payloadDigest.length < 2 ^ 64) :
    ∃ r st', ingestEntry env st e token = .ok (r, st') ∧ Abs env st' (specStep env A (.ingest e token)) (leakStep env A (.ingest e token) leak) ∧
      st'.locked = false ∧ ResultOk env A (.ingest e token) r := by
  unfold specStep leakStep ResultOk
  have ha : attempt env (.ingest e token) = some (e, token) := rfl
  rw [ha]
  dsimp only
  by_cases hacc : Acceptable env A e token
  · simp only [if_pos hacc]
    obtain ⟨B, st', h1, h2, h3, h4, h5, h6⟩ := ingestEntry_accepted he h hl e token hc hd hacc.1 hacc.2.1 hacc.2.2
    exact ⟨_, st', h1, h3, h4, B, rfl, h2⟩
  · simp only [if_neg hacc]
    exact ⟨none, st, ingestEntry_refused h.core hl e token hc hacc, h, hl, rfl⟩

theorem runOp_ok {env : StoreEnv} (he : EnvOk env) {st : StoreState} {A : List Item} {leak : Bytes → Nat}
    (h : Abs env st A leak) (hl : st.locked = false) (op : StoreOp) (hf : FineOp env op) :
    ∃ r st', runOp env st op = .ok (r, st') ∧ Abs env st' (specStep env A op) (leakStep env A op leak) ∧
      st'.locked = false ∧ ResultOk env A op r := by
  cases op with
  | restart =>
    obtain ⟨L, h1, h2, h3⟩ := restart_ok he h
    exact ⟨some [], _, by unfold runOp; rw [h2]; rfl, h3, rfl, .inl rfl⟩
  | ingest e token =>
    obtain ⟨hc, hd⟩ := hf e token rfl
    exact ingest_ok he h hl e token hc hd
  | set now input authorisation =>
    have hset : ∀ e, setEntry env now input = e → attempt env (.set now input authorisation) =
        (env.authorise e authorisation).map fun token => (e, token) := by
      intro e he; subst he; rfl
    unfold runOp storeSet
    have hfiles : Abs env { st with files := (payloadSet env st.files input.payload).1 } A leak := ⟨h.core, h.refs⟩
    have hdig : (payloadSet env st.files input.payload).2.1 = (setEntry env now input).payloadDigest := rfl
    dsimp only
    rw [hdig]
    generalize (payloadSet env st.files input.payload).1 = files at hfiles ⊢
    generalize hentry : setEntry env now input = e
    specialize hset e hentry
    cases hau : env.authorise e authorisation with
    | none =>
      rw [hau] at hset
      refine ⟨none, _, rfl, ?_, hl, ?_⟩
      · unfold specStep leakStep
        rw [hset]
        exact hfiles
      · unfold ResultOk
        rw [hset]
        exact .inr rfl
    | some token =>
      rw [hau] at hset
      obtain ⟨hc, hd⟩ := hf e token hset
      obtain ⟨r, st', h1, h2, h3, h4⟩ := ingest_ok he hfiles hl e token hc hd
      dsimp only
      rw [h1]
      have hspec : specStep env A (.set now input authorisation) = specStep env A (.ingest e token) := by
        unfold specStep; rw [hset]; rfl
      have hleak : leakStep env A (.set now input authorisation) leak = leakStep env A (.ingest e token) leak := by
        unfold leakStep; rw [hset]; rfl
      have hres : ∀ r, ResultOk env A (.set now input authorisation) r ↔ ResultOk env A (.ingest e token) r := by
        intro r; unfold ResultOk; rw [hset]; rfl
      rw [hspec, hleak]
      simp only [hres]
      cases r with
      | none => exact ⟨none, st', rfl, h2, h3, h4⟩
      | some pruned =>
        dsimp only
        have hacc : Acceptable env A e token := by
          unfold ResultOk at h4
          have ha : attempt env (.ingest e token) = some (e, token) := rfl
          rw [ha] at h4
          dsimp only at h4
          by_cases hac : Acceptable env A e token
          · exact hac
          · rw [if_neg hac] at h4; cases h4
        have hcount : ∃ c, refCount st'.refs e.payloadDigest = .ok c := by
          have hr := h2.refs e.payloadDigest
          have hspec2 : specStep env A (.ingest e token) = afterInsert A (newItem env e token) := by
            unfold specStep
            have ha : attempt env (.ingest e token) = some (e, token) := rfl
            rw [ha]
            dsimp only
            rw [if_pos hacc]
          unfold refCount
          rcases hr with ⟨_, hr, _⟩ | hr
          · rw [hspec2] at hr
            unfold afterInsert at hr
            rw [refsTo_cons] at hr
            simp [newItem] at hr
          · rw [hr]
            exact ⟨_, bigEndianUint64_putU64 _⟩
        obtain ⟨c, hcc⟩ := hcount
        rw [hcc]
        dsimp only
        split
        · exact ⟨_, _, rfl, h2.ofSame rfl rfl rfl, h3, h4⟩
        · exact ⟨_, _, rfl, h2, h3, h4⟩

/-- The surplus after some calls. -/
def leakRun (env : StoreEnv) (A : List Item) (leak : Bytes → Nat) : List StoreOp → Bytes → Nat
  | [] => leak
  | op :: ops => leakRun env (specStep env A op) (leakStep env A op leak) ops

theorem runOps_ok {env : StoreEnv} (he : EnvOk env) : ∀ (ops : List StoreOp) (st : StoreState) (A : List Item) (leak : Bytes → Nat),
    Abs env st A leak → st.locked = false → (∀ op ∈ ops, FineOp env op) →
    ∃ st', runOps env st ops = .ok st' ∧ Abs env st' (specRun env A ops) (leakRun env A leak ops) ∧ st'.locked = false
  | [], st, A, leak, h, hl, _ => ⟨st, rfl, h, hl⟩
  | op :: ops, st, A, leak, h, hl, hf => by
    obtain ⟨r, st1, h1, h2, h3, _⟩ := runOp_ok he h hl op (hf op List.mem_cons_self)
    obtain ⟨st', h5, h6, h7⟩ := runOps_ok he ops st1 _ _ h2 h3 fun o ho => hf o (List.mem_cons_of_mem _ ho)
    exact ⟨st', by unfold runOps; rw [h1]; exact h5, h6, h7⟩

theorem abs_empty (env : StoreEnv) : Abs env StoreState.empty [] (fun _ => 0) :=
  ⟨⟨List.Pairwise.nil, List.Perm.refl _, List.Perm.refl _, fun _ h => by simp at h, List.Pairwise.nil⟩,
    fun _ => .inl ⟨rfl, rfl, rfl⟩⟩

/-- From an empty store. -/
theorem run_ok {env : StoreEnv} (he : EnvOk env) (ops : List StoreOp) (hf : ∀ op ∈ ops, FineOp env op) :
    ∃ st, runOps env StoreState.empty ops = .ok st ∧ Abs env st (specRun env [] ops) (leakRun env [] (fun _ => 0) ops) ∧
      st.locked = false :=
  runOps_ok he ops _ _ _ (abs_empty env) rfl hf

theorem runOps_append (env : StoreEnv) : ∀ (xs ys : List StoreOp) (st : StoreState),
    runOps env st (xs ++ ys) = (do let st' ← runOps env st xs; runOps env st' ys)
  | [], ys, st => by simp [runOps]
  | x :: xs, ys, st => by
    simp only [List.cons_append, runOps]
    cases runOp env st x with
    | ok a => simp only [Res.ok_bind]; exact runOps_append env xs ys a.2
    | err => rfl
    | crash => rfl
    | block => rfl

theorem specRun_append (env : StoreEnv) : ∀ (xs ys : List StoreOp) (A : List Item),
    specRun env A (xs ++ ys) = specRun env (specRun env A xs) ys
  | [], _, _ => rfl
  | x :: xs, ys, A => specRun_append env xs ys (specStep env A x)

/-! ### Reading the abstraction -/

theorem Core.of_get {env : StoreEnv} (he : EnvOk env) {kv : KV} {kd : List KdKey} {A : List Item} (h : Core env.p kv kd A)
    {pos : Position} (hv : ValidPath env.p pos.path) {x : Bytes} (hg : kv.get (encodeKey env.p pos) = some x) :
    ∃ a ∈ A, a.pos = pos ∧ x = encodeValues a.val := by
  have := KV.get_mem hg
  rw [h.kv_perm.mem_iff] at this
  obtain ⟨a, ha, hp⟩ := List.mem_map.1 this
  unfold Item.pair at hp
  rw [Prod.mk.injEq] at hp
  exact ⟨a, ha, C23_injective_partial env.p a.pos pos (shortPath_of_limits he.cc he.cl (h.fine a ha).path.valid)
    (shortPath_of_limits he.cc he.cl hv) hp.1, hp.2.symm⟩

theorem Fine.proper {p : PathParams} {a : Item} (h : Fine p a) : Proper p a := ⟨h.path.valid, h.digest, h.auth⟩

theorem Abs.holds {env : StoreEnv} (he : EnvOk env) {st : StoreState} {A : List Item} {leak : Bytes → Nat}
    (h : Abs env st A leak) {a : Item} (hp : Proper env.p a) : Holds env st a.pos a.val ↔ a ∈ A := by
  constructor
  · rintro ⟨h1, _⟩
    obtain ⟨b, hb, hbp, hbv⟩ := h.core.of_get he hp.valid h1
    have hf := h.core.fine b hb
    have h2 := C24_roundtrip a.val hp.digest hp.auth
    rw [hbv, C24_roundtrip b.val hf.digest hf.auth] at h2
    have h3 : b.val = a.val := Res.ok.inj h2
    have : b = a := by
      cases a; cases b
      simp only at hbp h3
      rw [hbp, h3]
    rwa [this] at hb
  · intro ha
    exact ⟨h.core.get ha, h.core.in_kd ha⟩

theorem KV.eq_of_perm_sorted {a b : KV} (hp : a.Perm b) (ha : a.Sorted) (hb : b.Sorted) : a = b :=
  List.Perm.eq_of_pairwise (fun x y _ _ h1 h2 => absurd h2 (bytesLt_strictTotal.asymm h1)) ha hb hp

/-! ### Surplus -/

theorem leakAfter_eq {A : List Item} (hap : A.Pairwise Apart) (e : Entry) (leak : Bytes → Nat) (d : Bytes) :
    leakAfter A e leak d = leak d + @ite Nat (e.payloadDigest = d ∧ ∃ a ∈ A, a.pos.subspace = e.subspaceId ∧ a.pos.path = e.path ∧
      a.val.payloadDigest = d) (Classical.propDecidable _) 1 0 := by
  unfold leakAfter
  congr 1
  by_cases hex : e.payloadDigest = d ∧ ∃ a ∈ A, a.pos.subspace = e.subspaceId ∧ a.pos.path = e.path ∧ a.val.payloadDigest = d
  · rw [if_pos hex]
    obtain ⟨hd, a, ha, h1, h2, h3⟩ := hex
    obtain ⟨A0, hA0⟩ : ∃ A0, A.Perm (a :: A0) := ⟨A.erase a, List.perm_cons_erase ha⟩
    have hap0 := (List.pairwise_cons.1 (hA0.pairwise hap fun h => h.symm)).1
    rw [hA0.countP_eq, List.countP_cons, List.countP_eq_zero.2]
    · simp [h1, h2, h3, hd]
    · intro b hb hc
      rw [decide_eq_true_eq] at hc
      exact hap0 b hb ⟨h1.trans hc.1.1.symm, h2.trans hc.1.2.symm⟩
  · rw [if_neg hex, List.countP_eq_zero]
    intro a ha hc
    rw [decide_eq_true_eq] at hc
    exact hex ⟨hc.2.2.symm, a, ha, hc.1.1, hc.1.2, hc.2.1.trans hc.2.2.symm⟩

theorem leakStep_eq {env : StoreEnv} {A : List Item} (hap : A.Pairwise Apart) (op : StoreOp) (leak : Bytes → Nat) (d : Bytes) :
    leakStep env A op leak d = leak d + @ite Nat (Rewrites env A op d) (Classical.propDecidable _) 1 0 := by
  unfold leakStep
  cases ha : attempt env op with
  | none =>
    dsimp only
    rw [if_neg]
    · rfl
    · rintro ⟨e, t, h, _⟩
      rw [ha] at h; cases h
  | some et =>
    obtain ⟨e, t⟩ := et
    dsimp only
    by_cases hacc : Acceptable env A e t
    · rw [if_pos hacc, leakAfter_eq hap]
      congr 1
      have : Rewrites env A op d ↔ (e.payloadDigest = d ∧ ∃ a ∈ A, a.pos.subspace = e.subspaceId ∧ a.pos.path = e.path ∧
          a.val.payloadDigest = d) := by
        constructor
        · rintro ⟨e', t', h, h1, h2, h3⟩
          rw [ha] at h; cases h
          exact ⟨h2, h3⟩
        · rintro ⟨h2, h3⟩
          exact ⟨e, t, ha, hacc, h2, h3⟩
      by_cases hr : Rewrites env A op d
      · rw [if_pos hr, if_pos (this.1 hr)]
      · rw [if_neg hr, if_neg (mt this.2 hr)]
    · rw [if_neg hacc, if_neg]
      · rfl
      · rintro ⟨e', t', h, h1, _⟩
        rw [ha] at h; cases h
        exact hacc h1

theorem apart_afterInsert {A : List Item} (hap : A.Pairwise Apart) (new : Item) : (afterInsert A new).Pairwise Apart := by
  unfold afterInsert
  refine List.pairwise_cons.2 ⟨fun a ha hc => ?_, hap.filter _⟩
  have := (List.mem_filter.1 ha).2
  simp only [decide_eq_true_eq] at this
  exact this (.inl ⟨hc.1.symm, hc.2.symm⟩)

theorem apart_specStep {env : StoreEnv} {A : List Item} (hap : A.Pairwise Apart) (op : StoreOp) :
    (specStep env A op).Pairwise Apart := by
  unfold specStep
  cases attempt env op with
  | none => exact hap
  | some et =>
    dsimp only
    split
    · exact apart_afterInsert hap _
    · exact hap

theorem leakRun_eq {env : StoreEnv} : ∀ (ops : List StoreOp) (A : List Item) (leak : Bytes → Nat), A.Pairwise Apart → ∀ d,
    leakRun env A leak ops d = leak d + rewrites env A ops d
  | [], _, _, _, _ => rfl
  | op :: ops, A, leak, hap, d => by
    unfold leakRun rewrites
    rw [leakRun_eq ops _ _ (apart_specStep hap op), leakStep_eq hap]
    omega

end Willow
