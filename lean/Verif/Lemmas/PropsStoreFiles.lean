import Verif.Lemmas.Files
import Verif.Lemmas.PropsStoreAuth
import Verif.Lemmas.PropsPayload
import Verif.Spec.PropsStoreFiles

/-! Lemmas for the theorems of `Verif/Props/StoreFiles.lean`. -/

namespace Willow.Props

open Willow Spec

/-- The file for a digest is there and has the digest. -/
def Filed (env : StoreEnv) (files : KV) (digest : Bytes) : Prop :=
  ∃ b, files.get (env.fileKey digest) = some b ∧ env.hash b = digest

/-- All items were brought by the calls. -/
def Brought (env : StoreEnv) (ops : List StoreOp) (A : List Item) : Prop :=
  ∀ a ∈ A, ∃ op ∈ ops, ∃ e token, attempt env op = some (e, token) ∧ a = newItem env e token

theorem filed_payloadSet {env : StoreEnv} (hn : GoodNames env) {files : KV} {digest : Bytes} (x : Bytes)
    (h : Filed env files digest) : Filed env (payloadSet env files x).1 digest := by
  obtain ⟨b, h1, h2⟩ := h
  by_cases hk : env.fileKey digest = env.fileKey (env.hash x)
  · refine ⟨x, ?_, ?_⟩
    · rw [hk]; exact payloadSet_get_self env files x (hn.ne x)
    · rw [← h2] at hk ⊢; exact (hn.inj _ _ hk).symm
  · exact ⟨b, by rw [payloadSet_get_ne env files x _ hk]; exact h1, h2⟩

theorem set_digest {env : StoreEnv} {op : StoreOp} (hw : IsWrite op) {e : Entry} {t : Bytes} (h : attempt env op = some (e, t)) :
    ∃ x, e.payloadDigest = env.hash x := by
  rcases hw with rfl | ⟨now, input, au, rfl⟩
  · cases h
  · simp only [attempt, Option.map_eq_some_iff, Prod.mk.injEq] at h
    obtain ⟨_, _, rfl, _⟩ := h
    exact ⟨_, rfl⟩

theorem filed_step {env : StoreEnv} (he : EnvOk env) (hn : GoodNames env) {all : List StoreOp} (hw : ∀ op ∈ all, IsWrite op)
    (hta : TokensApart env all) (hts : TokensShared env all) {st : StoreState} {A : List Item} {leak : Bytes → Nat}
    (h : Abs env st A leak) (hl : st.locked = false) (hbr : Brought env all A)
    (hfiled : ∀ a ∈ A, Filed env st.files a.val.payloadDigest ∧ Filed env st.files a.val.authDigest)
    (hb : ∀ d, refsTo A d + leak d + 1 < 2 ^ 64) (op : StoreOp) (hop : op ∈ all) (hf : FineOp env op)
    (st' : StoreState) (r : Option (List Entry)) (hrun : runOp env st op = .ok (r, st')) :
    Brought env all (specStep env A op) ∧
    ∀ a ∈ specStep env A op, Filed env st'.files a.val.payloadDigest ∧ Filed env st'.files a.val.authDigest := by
  rcases hw op hop with rfl | ⟨now, input, au, rfl⟩
  · obtain ⟨L, _, h2, _⟩ := restart_ok he h
    unfold runOp at hrun
    rw [h2] at hrun
    cases hrun
    exact ⟨hbr, hfiled⟩
  · rcases set_files he h hl now input au hf hb st' r hrun with ⟨h1, h2⟩ | ⟨e, token, hat, hacc, hdig, h1, hfi⟩
    · rw [h1, h2]
      exact ⟨hbr, fun a ha => ⟨filed_payloadSet hn _ (hfiled a ha).1, filed_payloadSet hn _ (hfiled a ha).2⟩⟩
    · rw [h1]
      have hbr' : Brought env all (afterInsert A (newItem env e token)) := by
        intro a ha
        rcases List.mem_cons.1 ha with rfl | ha
        · exact ⟨_, hop, e, token, hat, rfl⟩
        · exact hbr a (List.mem_filter.1 ha).1
      refine ⟨hbr', ?_⟩
      have hpd : ∀ a ∈ afterInsert A (newItem env e token), ∃ x, a.val.payloadDigest = env.hash x := by
        intro a ha
        obtain ⟨op', hop', e', t', hat', rfl⟩ := hbr' a ha
        exact set_digest (hw op' hop') hat'
      have hpdA : ∀ a ∈ A, ∃ x, a.val.payloadDigest = env.hash x := by
        intro a ha
        obtain ⟨op', hop', e', t', hat', rfl⟩ := hbr a ha
        exact set_digest (hw op' hop') hat'
      have hadA : ∀ a ∈ A, ∃ x, a.val.authDigest = env.hash x := by
        intro a ha
        obtain ⟨op', hop', e', t', hat', rfl⟩ := hbr a ha
        exact ⟨_, rfl⟩
      -- digests of tokens and of payloads differ
      have hapart : ∀ a b, (a ∈ A ∨ a = newItem env e token) → (b ∈ A ∨ b = newItem env e token) →
          a.val.authDigest ≠ b.val.payloadDigest := by
        have hb2 : ∀ a, (a ∈ A ∨ a = newItem env e token) → ∃ op ∈ all, ∃ e t, attempt env op = some (e, t) ∧ a = newItem env e t := by
          rintro a (ha | rfl)
          · exact hbr a ha
          · exact ⟨_, hop, e, token, hat, rfl⟩
        intro a b ha hb
        obtain ⟨o1, ho1, e1, t1, ha1, rfl⟩ := hb2 a ha
        obtain ⟨o2, ho2, e2, t2, ha2, rfl⟩ := hb2 b hb
        exact hta o1 ho1 o2 ho2 e1 t1 e2 t2 ha1 ha2
      have hfk : ∀ x y : Bytes, (∃ a, x = env.hash a) → (∃ a, y = env.hash a) → env.fileKey x = env.fileKey y → x = y := by
        rintro _ _ ⟨a, rfl⟩ ⟨b, rfl⟩ h
        exact hn.inj a b h
      have hnew : ∃ x, (newItem env e token).val.authDigest = env.hash x := ⟨_, rfl⟩
      have hinA : ∀ a ∈ afterInsert A (newItem env e token), a ∈ A ∨ a = newItem env e token := by
        intro a ha
        rcases List.mem_cons.1 ha with h | h
        · exact .inr h
        · exact .inl (List.mem_filter.1 h).1
      have hrefs : ∀ a ∈ afterInsert A (newItem env e token), 0 < refsTo (afterInsert A (newItem env e token)) a.val.payloadDigest := by
        intro a ha
        unfold refsTo
        exact List.countP_pos_iff.2 ⟨a, ha, by simp⟩
      -- payload of every item after the write
      have hpay : ∀ a ∈ afterInsert A (newItem env e token), st'.files.get (env.fileKey a.val.payloadDigest) =
          (payloadSet env st.files input.payload).1.get (env.fileKey a.val.payloadDigest) := by
        intro a ha
        refine hfi.kept _ (fun h => ?_) (fun o ho _ _ h => ?_) (fun b hb _ hz h => ?_)
        · exact hapart _ a (.inr rfl) (hinA a ha) (hfk _ _ (hpd a ha) hnew h).symm
        · exact hapart o a (.inl ho) (hinA a ha) (hfk _ _ (hadA o ho) (hpd a ha) h)
        · have := hfk _ _ (hpdA b hb) (hpd a ha) h
          rw [this] at hz
          have := hrefs a ha
          omega
      have htok : Filed env st'.files (newItem env e token).val.authDigest := by
        refine ⟨env.tokenEncode token, hfi.token (hn.ne _) fun b hb _ _ h => ?_, rfl⟩
        exact hapart _ b (.inr rfl) (.inl hb) (hfk _ _ (hpdA b hb) hnew h).symm
      intro a ha
      constructor
      · rcases List.mem_cons.1 ha with rfl | ha'
        · refine ⟨input.payload, ?_, hdig.symm⟩
          rw [hpay _ ha]
          have : (newItem env e token).val.payloadDigest = env.hash input.payload := hdig
          rw [this]
          exact payloadSet_get_self env st.files input.payload (hn.ne _)
        · obtain ⟨b, hb1, hb2⟩ := filed_payloadSet hn input.payload (hfiled a (List.mem_filter.1 ha').1).1
          exact ⟨b, by rw [hpay a ha]; exact hb1, hb2⟩
      · rcases List.mem_cons.1 ha with rfl | ha'
        · exact htok
        · obtain ⟨haA, hnd⟩ := List.mem_filter.1 ha'
          simp only [decide_eq_true_eq] at hnd
          by_cases hsame : a.val.authDigest = (newItem env e token).val.authDigest
          · rw [hsame]; exact htok
          · obtain ⟨b, hb1, hb2⟩ := filed_payloadSet hn input.payload (hfiled a haA).2
            refine ⟨b, ?_, hb2⟩
            rw [hfi.kept _ (fun h => hsame (hfk _ _ (hadA a haA) hnew h)) (fun o ho hos hop' h => ?_) (fun c hc _ _ h => ?_)]
            · exact hb1
            · have hoa := hfk _ _ (hadA o ho) (hadA a haA) h
              have hplace : ¬ (a.pos.subspace = o.pos.subspace ∧ a.pos.path = o.pos.path) := fun ⟨h1, h2⟩ =>
                hnd (.inl ⟨h1.trans hos, h2.trans hop'⟩)
              obtain ⟨o1, ho1, e1, t1, ha1, rfl⟩ := hbr a haA
              obtain ⟨o2, ho2, e2, t2, ha2, rfl⟩ := hbr o ho
              have := hts o1 ho1 o2 ho2 _ hop e1 t1 e2 t2 e token ha1 ha2 hat hplace hoa.symm hos.symm hop'.symm
              exact hsame (hoa.symm.trans this.symm)
            · exact hapart a c (.inl haA) (.inl hc) (hfk _ _ (hpdA c hc) (hadA a haA) h).symm

theorem filed_run {env : StoreEnv} (he : EnvOk env) (hn : GoodNames env) {all : List StoreOp} (hw : ∀ op ∈ all, IsWrite op)
    (hta : TokensApart env all) (hts : TokensShared env all) : ∀ (ops : List StoreOp) (st : StoreState) (A : List Item)
    (leak : Bytes → Nat), (∀ op ∈ ops, op ∈ all) → (∀ op ∈ ops, FineOp env op) →
    Abs env st A leak → st.locked = false → Brought env all A →
    (∀ a ∈ A, Filed env st.files a.val.payloadDigest ∧ Filed env st.files a.val.authDigest) →
    (∀ d, refsTo A d + leak d + ops.length < 2 ^ 64) →
    ∃ st', runOps env st ops = .ok st' ∧ Abs env st' (specRun env A ops) (leakRun env A leak ops) ∧
      ∀ a ∈ specRun env A ops, Filed env st'.files a.val.payloadDigest ∧ Filed env st'.files a.val.authDigest
  | [], st, A, leak, _, _, h, _, _, hfl, _ => ⟨st, rfl, h, hfl⟩
  | op :: ops, st, A, leak, hall, hf, h, hl, hbr, hfl, hb => by
    obtain ⟨r, st1, h1, h2, h3, _⟩ := runOp_ok he h hl op (hf op List.mem_cons_self)
    obtain ⟨hbr', hfl'⟩ := filed_step he hn hw hta hts h hl hbr hfl
      (fun d => by have := hb d; simp only [List.length_cons] at this; omega) op (hall op List.mem_cons_self)
      (hf op List.mem_cons_self) st1 r h1
    have hb' : ∀ d, refsTo (specStep env A op) d + leakStep env A op leak d + ops.length < 2 ^ 64 := by
      intro d
      have h0 := hb d
      simp only [List.length_cons] at h0
      unfold specStep leakStep
      cases hat : attempt env op with
      | none => dsimp only; omega
      | some et =>
        obtain ⟨e, t⟩ := et
        dsimp only
        by_cases hacc : Acceptable env A e t
        · simp only [if_pos hacc]
          have := refs_bound A e t (env := env) leak d
          omega
        · simp only [if_neg hacc]; omega
    obtain ⟨st', h5, h6, h7⟩ := filed_run he hn hw hta hts ops st1 _ _ (fun o ho => hall o (List.mem_cons_of_mem _ ho))
      (fun o ho => hf o (List.mem_cons_of_mem _ ho)) h2 h3 hbr' hfl' hb'
    exact ⟨st', by unfold runOps; rw [h1]; exact h5, h6, h7⟩

theorem payload_step {env : StoreEnv} (he : EnvOk env) (hn : GoodNames env) {all : List StoreOp} (hw : ∀ op ∈ all, IsWrite op)
    (hts : TokensBySubspace env all) {st : StoreState} {A : List Item} {leak : Bytes → Nat}
    (h : Abs env st A leak) (hl : st.locked = false) (hbr : Brought env all A)
    (hfiled : ∀ a ∈ A, Filed env st.files a.val.payloadDigest)
    (hb : ∀ d, refsTo A d + leak d + 1 < 2 ^ 64) (op : StoreOp) (hop : op ∈ all) (hf : FineOp env op)
    (st' : StoreState) (r : Option (List Entry)) (hrun : runOp env st op = .ok (r, st')) :
    Brought env all (specStep env A op) ∧ ∀ a ∈ specStep env A op, Filed env st'.files a.val.payloadDigest := by
  rcases hw op hop with rfl | ⟨now, input, au, rfl⟩
  · obtain ⟨L, _, h2, _⟩ := restart_ok he h
    unfold runOp at hrun
    rw [h2] at hrun
    cases hrun
    exact ⟨hbr, hfiled⟩
  · rcases set_files he h hl now input au hf hb st' r hrun with ⟨h1, h2⟩ | ⟨e, token, hat, hacc, hdig, h1, hfi⟩
    · rw [h1, h2]
      exact ⟨hbr, fun a ha => filed_payloadSet hn _ (hfiled a ha)⟩
    · rw [h1]
      have hbr' : Brought env all (afterInsert A (newItem env e token)) := by
        intro a ha
        rcases List.mem_cons.1 ha with rfl | ha
        · exact ⟨_, hop, e, token, hat, rfl⟩
        · exact hbr a (List.mem_filter.1 ha).1
      refine ⟨hbr', fun a ha => ?_⟩
      have hpd : ∀ a ∈ afterInsert A (newItem env e token), ∃ x, a.val.payloadDigest = env.hash x := by
        intro a ha
        obtain ⟨op', hop', e', t', hat', rfl⟩ := hbr' a ha
        exact set_digest (hw op' hop') hat'
      have hpdA : ∀ a ∈ A, ∃ x, a.val.payloadDigest = env.hash x := by
        intro a ha
        obtain ⟨op', hop', e', t', hat', rfl⟩ := hbr a ha
        exact set_digest (hw op' hop') hat'
      have hfk : ∀ x y : Bytes, (∃ a, x = env.hash a) → (∃ a, y = env.hash a) → env.fileKey x = env.fileKey y → x = y := by
        rintro _ _ ⟨a, rfl⟩ ⟨b, rfl⟩ h
        exact hn.inj a b h
      have hrefs : 0 < refsTo (afterInsert A (newItem env e token)) a.val.payloadDigest := by
        unfold refsTo
        exact List.countP_pos_iff.2 ⟨a, ha, by simp⟩
      have hgone : ∀ b ∈ A, Displaces (newItem env e token).pos b.pos →
          refsTo (afterInsert A (newItem env e token)) b.val.payloadDigest + leakAfter A e leak b.val.payloadDigest = 0 →
          env.fileKey b.val.payloadDigest ≠ env.fileKey a.val.payloadDigest := by
        intro b hb _ hz h
        rw [hfk _ _ (hpdA b hb) (hpd a ha) h] at hz
        omega
      by_cases hsame : env.fileKey a.val.payloadDigest = env.fileKey (newItem env e token).val.authDigest
      · have hd := hfk _ _ (hpd a ha) ⟨_, rfl⟩ hsame
        refine ⟨env.tokenEncode token, ?_, hd.symm⟩
        rw [hsame]
        exact hfi.token (hn.ne _) fun b hb hdis hz => hsame ▸ hgone b hb hdis hz
      · have hkeep : st'.files.get (env.fileKey a.val.payloadDigest) =
            (payloadSet env st.files input.payload).1.get (env.fileKey a.val.payloadDigest) := by
          refine hfi.kept _ hsame (fun o ho hos hop' h => ?_) hgone
          obtain ⟨o2, ho2, e2, t2, ha2, rfl⟩ := hbr o ho
          have : (newItem env e2 t2).val.authDigest = (newItem env e token).val.authDigest := hts o2 ho2 _ hop e2 t2 e token ha2 hat hos
          rw [this] at h
          exact hsame h.symm
        rcases List.mem_cons.1 ha with rfl | ha'
        · refine ⟨input.payload, ?_, hdig.symm⟩
          rw [hkeep]
          have : (newItem env e token).val.payloadDigest = env.hash input.payload := hdig
          rw [this]
          exact payloadSet_get_self env st.files input.payload (hn.ne _)
        · obtain ⟨b, hb1, hb2⟩ := filed_payloadSet hn input.payload (hfiled a (List.mem_filter.1 ha').1)
          exact ⟨b, by rw [hkeep]; exact hb1, hb2⟩

theorem payload_run {env : StoreEnv} (he : EnvOk env) (hn : GoodNames env) {all : List StoreOp} (hw : ∀ op ∈ all, IsWrite op)
    (hts : TokensBySubspace env all) : ∀ (ops : List StoreOp) (st : StoreState) (A : List Item)
    (leak : Bytes → Nat), (∀ op ∈ ops, op ∈ all) → (∀ op ∈ ops, FineOp env op) →
    Abs env st A leak → st.locked = false → Brought env all A →
    (∀ a ∈ A, Filed env st.files a.val.payloadDigest) →
    (∀ d, refsTo A d + leak d + ops.length < 2 ^ 64) →
    ∃ st', runOps env st ops = .ok st' ∧ Abs env st' (specRun env A ops) (leakRun env A leak ops) ∧
      ∀ a ∈ specRun env A ops, Filed env st'.files a.val.payloadDigest
  | [], st, A, leak, _, _, h, _, _, hfl, _ => ⟨st, rfl, h, hfl⟩
  | op :: ops, st, A, leak, hall, hf, h, hl, hbr, hfl, hb => by
    obtain ⟨r, st1, h1, h2, h3, _⟩ := runOp_ok he h hl op (hf op List.mem_cons_self)
    obtain ⟨hbr', hfl'⟩ := payload_step he hn hw hts h hl hbr hfl
      (fun d => by have := hb d; simp only [List.length_cons] at this; omega) op (hall op List.mem_cons_self)
      (hf op List.mem_cons_self) st1 r h1
    have hb' : ∀ d, refsTo (specStep env A op) d + leakStep env A op leak d + ops.length < 2 ^ 64 := by
      intro d
      have h0 := hb d
      have h1 := refs_run (env := env) [op] A leak d
      simp only [specRun, leakRun, List.length_cons, List.length_nil] at h0 h1
      omega
    obtain ⟨st', h5, h6, h7⟩ := payload_run he hn hw hts ops st1 _ _ (fun o ho => hall o (List.mem_cons_of_mem _ ho))
      (fun o ho => hf o (List.mem_cons_of_mem _ ho)) h2 h3 hbr' hfl' hb'
    exact ⟨st', by unfold runOps; rw [h1]; exact h5, h6, h7⟩

/-- What a refused fine write leaves. -/
theorem refused_set (env : StoreEnv) (he : EnvOk env) (ops : List StoreOp) (hf : ∀ op ∈ ops, FineOp env op)
    (st st' : StoreState) (hrun : runOps env .empty ops = .ok st) (now : UInt64) (input : EntryInput) (authorisation : Bytes)
    (hfs : FineOp env (.set now input authorisation)) (h : storeSet env st now input authorisation = .ok (none, st')) :
    st' = { st with files := (payloadSet env st.files input.payload).1 } := by
  obtain ⟨st0, h1, h2, h3⟩ := run_ok he ops hf
  rw [hrun] at h1
  cases h1
  unfold storeSet at h
  have hset : ∀ e, setEntry env now input = e → attempt env (.set now input authorisation) =
      (env.authorise e authorisation).map fun token => (e, token) := by
    intro e he; subst he; rfl
  have hfiles : Abs env { st with files := (payloadSet env st.files input.payload).1 } _ _ := ⟨h2.core, h2.refs⟩
  have hdig : (payloadSet env st.files input.payload).2.1 = (setEntry env now input).payloadDigest := rfl
  dsimp only at h
  rw [hdig] at h
  generalize (payloadSet env st.files input.payload).1 = files at hfiles h ⊢
  generalize hentry : setEntry env now input = e at h
  specialize hset e hentry
  cases hau : env.authorise e authorisation with
  | none => rw [hau] at h; cases h; rfl
  | some token =>
    rw [hau] at h hset
    obtain ⟨hc, hd⟩ := hfs e token hset
    dsimp only at h
    by_cases hacc : Acceptable env (specRun env [] ops) e token
    · obtain ⟨B, st1, i1, i2, i3, i4, i5, i6⟩ := ingestEntry_accepted he hfiles h3 e token hc hd hacc.1 hacc.2.1 hacc.2.2
      rw [i1] at h
      dsimp only at h
      exfalso
      have hr := i3.refs e.payloadDigest
      have hpos : 0 < refsTo (afterInsert (specRun env [] ops) (newItem env e token)) e.payloadDigest := by
        unfold afterInsert
        rw [refsTo_cons]
        simp [newItem]
      unfold refCount at h
      rcases hr with ⟨_, hr, _⟩ | hr
      · omega
      · rw [hr] at h
        dsimp only at h
        rw [bigEndianUint64_putU64] at h
        cases h
    · rw [ingestEntry_refused hfiles.core h3 e token hc hacc] at h
      cases h
      rfl

/-- The calls of the examples meet the conditions of the theorems about payloads. -/
theorem exampleOps_kept : EnvOk cutEnv ∧ GoodNames cutEnv ∧ (∀ op ∈ exampleOps, IsWrite op) ∧ TokensApart cutEnv exampleOps ∧
    TokensShared cutEnv exampleOps ∧ TokensBySubspace cutEnv exampleOps ∧ (∀ op ∈ exampleOps, FineOp cutEnv op) := by
  have hat : ∀ op ∈ exampleOps, ∀ e t, attempt cutEnv op = some (e, t) → t = [7] ∧ (e.payloadDigest = [1, 9] ∨ e.payloadDigest = [1, 8]) := by
    simp only [exampleOps, List.forall_mem_cons, List.not_mem_nil, false_implies, implies_true, and_true]
    refine ⟨?_, ?_, ?_, ?_, ?_⟩
    all_goals
      intro e t h
      simp only [put, attempt, cutEnv, testEnv, Option.map_some, Option.some.injEq, Prod.mk.injEq, reduceCtorEq] at h
    all_goals
      obtain ⟨rfl, rfl⟩ := h
      decide
  refine ⟨cutEnv_ok, ⟨fun _ _ h => h, fun _ => List.cons_ne_nil _ _⟩, ?_, ?_, ?_, ?_, example_fine⟩
  · simp only [exampleOps, List.forall_mem_cons, List.not_mem_nil, false_implies, implies_true, and_true]
    exact ⟨.inr ⟨_, _, _, rfl⟩, .inr ⟨_, _, _, rfl⟩, .inr ⟨_, _, _, rfl⟩, .inl rfl, .inr ⟨_, _, _, rfl⟩⟩
  · intro op ho op' ho' e t e' t' h h'
    rw [(hat op ho e t h).1]
    rcases (hat op' ho' e' t' h').2 with h | h <;> rw [h] <;> decide
  · intro op ho op' ho' op'' ho'' e t e' t' e'' t'' h h' h'' _ _ _ _
    rw [(hat op' ho' _ _ h').1, (hat op'' ho'' _ _ h'').1]
  · intro op ho op' ho' e t e' t' h h' _
    rw [(hat op ho _ _ h).1, (hat op' ho' _ _ h').1]

end Willow.Props
