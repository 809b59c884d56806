import Verif.Lemmas.PropsStoreFiles
import Verif.Spec.PropsStoreKept
import Verif.Props.FileNames

/-! Lemmas for the theorems of `Verif/Props/StoreKept.lean`. -/

namespace Willow.Props

open Willow Spec

/-- A result that is computed. -/
theorem exists_ok {α : Type} {r : Res α} {P : α → Prop} [DecidablePred P]
    (h : (match r with | .ok a => decide (P a) | _ => false) = true) : ∃ a, r = .ok a ∧ P a := by
  cases r with
  | ok a => exact ⟨a, rfl, by simpa using h⟩
  | err => cases h
  | crash => cases h
  | block => cases h

/-- A position that is not acceptable stays so. -/
theorem not_accepts_after {A : List Item} {new : Item} (hacc : Accepts A new.pos) {p : Position} (h : ¬ Accepts A p) :
    ¬ Accepts (afterInsert A new) p := by
  intro h'
  apply h
  intro c hc hs hp
  by_cases hd : Displaces new.pos c.pos
  · have hnew : new ∈ afterInsert A new := List.mem_cons_self
    rcases hd with ⟨hs', hp'⟩ | ⟨hs', hp', _, ht⟩
    · have h1 := hacc c hc hs' (hp' ▸ List.prefix_refl _)
      have h2 := h' new hnew (hs'.symm.trans hs) (hp' ▸ hp)
      exact UInt64.lt_trans h1 h2
    · exact UInt64.lt_trans ht (h' new hnew (hs'.symm.trans hs) (hp'.trans hp))
  · exact h' c (List.mem_cons_of_mem _ (List.mem_filter.2 ⟨hc, by simpa using hd⟩)) hs hp

/-- What a call leaves in the files. -/
theorem op_files {env : StoreEnv} (he : EnvOk env) {st : StoreState} {A : List Item} {leak : Bytes → Nat}
    (h : Abs env st A leak) (hl : st.locked = false) (op : StoreOp) (hf : FineOp env op)
    (hb : ∀ d, refsTo A d + leak d + 1 < 2 ^ 64) (st' : StoreState)
    (r : Option (List Entry)) (hrun : runOp env st op = .ok (r, st')) :
    ∃ files, (files = st.files ∨ ∃ x, files = (payloadSet env st.files x).1) ∧
      ((specStep env A op = A ∧ st'.files = files) ∨
        ∃ e token, attempt env op = some (e, token) ∧ Acceptable env A e token ∧
          specStep env A op = afterInsert A (newItem env e token) ∧
          FilesIngest env A (afterInsert A (newItem env e token)) (newItem env e token) (env.tokenEncode token) (leakAfter A e leak)
            files st'.files) := by
  cases op with
  | restart =>
    obtain ⟨L, _, h2, _⟩ := restart_ok he h
    unfold runOp at hrun
    rw [h2] at hrun
    cases hrun
    exact ⟨st.files, .inl rfl, .inl ⟨rfl, rfl⟩⟩
  | set now input au =>
    refine ⟨_, .inr ⟨input.payload, rfl⟩, ?_⟩
    rcases set_files he h hl now input au hf hb st' r hrun with ⟨h1, h2⟩ | ⟨e, token, hat, hacc, _, h1, hfi⟩
    · exact .inl ⟨h1, h2⟩
    · exact .inr ⟨e, token, hat, hacc, h1, hfi⟩
  | ingest e token =>
    refine ⟨_, .inl rfl, ?_⟩
    obtain ⟨hc, hd⟩ := hf e token rfl
    have hspec : specStep env A (.ingest e token) = if Acceptable env A e token then afterInsert A (newItem env e token) else A := rfl
    replace hrun : ingestEntry env st e token = .ok (r, st') := hrun
    by_cases hacc : Acceptable env A e token
    · rw [if_pos hacc] at hspec
      obtain ⟨B, st1, h1, h2, h3, h4, h5, h6⟩ := ingestEntry_accepted he h hl e token hc hd hacc.1 hacc.2.1 hacc.2.2
      rw [h1] at hrun
      cases hrun
      exact .inr ⟨e, token, rfl, hacc, hspec, h6 hb⟩
    · rw [if_neg hacc] at hspec
      rw [ingestEntry_refused h.core hl e token hc hacc] at hrun
      cases hrun
      exact .inl ⟨hspec, rfl⟩

/-- Of the entries at the position of `a` there will only be `a`, and its payload is filed. -/
def Keeps (env : StoreEnv) (A : List Item) (files : KV) (a : Item) : Prop :=
  ¬ Accepts A a.pos ∧ ∀ b ∈ A, b.pos = a.pos → b = a ∧ Filed env files a.val.payloadDigest

/-- All items were brought by the calls, with authorisation. -/
def Allowed (env : StoreEnv) (ops : List StoreOp) (A : List Item) : Prop :=
  ∀ a ∈ A, ∃ op ∈ ops, ∃ e token, attempt env op = some (e, token) ∧ env.isAuthorised e token = true ∧ a = newItem env e token

theorem brought_step {env : StoreEnv} {all : List StoreOp} {A : List Item} (hbr : Allowed env all A) {op : StoreOp} (hop : op ∈ all) :
    Allowed env all (specStep env A op) := by
  unfold specStep
  cases hat : attempt env op with
  | none => exact hbr
  | some et =>
    obtain ⟨e, t⟩ := et
    dsimp only
    by_cases hacc : Acceptable env A e t
    · rw [if_pos hacc]
      intro a ha
      rcases List.mem_cons.1 ha with rfl | ha
      · exact ⟨_, hop, e, t, hat, hacc.2.1, rfl⟩
      · exact hbr a (List.mem_filter.1 ha).1
    · rw [if_neg hacc]; exact hbr

/-- The file of a payload stays when an entry is ingested that leaves an entry with the payload. -/
theorem filed_ingest {env : StoreEnv} (hn : GoodNames env) {all : List StoreOp} (hts : TokensAlike env all) (hdn : DigestsNamed env all)
    {A : List Item} (hbr : Allowed env all A) {op : StoreOp} (hop : op ∈ all) {e : Entry} {token : Bytes}
    (hat : attempt env op = some (e, token)) (hau : env.isAuthorised e token = true) {leak' : Bytes → Nat} {files files' : KV}
    (hfi : FilesIngest env A (afterInsert A (newItem env e token)) (newItem env e token) (env.tokenEncode token) leak' files files')
    {a : Item} (ha : a ∈ afterInsert A (newItem env e token)) (hfl : Filed env files a.val.payloadDigest) :
    Filed env files' a.val.payloadDigest := by
  obtain ⟨x, hx1, hx2⟩ := hfl
  have hrefs : 0 < refsTo (afterInsert A (newItem env e token)) a.val.payloadDigest := by
    unfold refsTo
    exact List.countP_pos_iff.2 ⟨a, ha, by simp⟩
  have hgone : ∀ b ∈ A, Displaces (newItem env e token).pos b.pos →
      refsTo (afterInsert A (newItem env e token)) b.val.payloadDigest + leak' b.val.payloadDigest = 0 →
      env.fileKey b.val.payloadDigest ≠ env.fileKey a.val.payloadDigest := by
    intro b hb _ hz h
    obtain ⟨o, ho, e', t', hat', _, rfl⟩ := hbr b hb
    rw [← hx2] at h
    have : (newItem env e' t').val.payloadDigest = env.hash x := hdn o ho e' t' hat' x h
    rw [this, hx2] at hz
    omega
  by_cases hsame : env.fileKey a.val.payloadDigest = env.fileKey (newItem env e token).val.authDigest
  · have hd : a.val.payloadDigest = (newItem env e token).val.authDigest := by
      rw [← hx2] at hsame ⊢
      exact hn.inj _ _ hsame
    refine ⟨env.tokenEncode token, ?_, hd.symm⟩
    rw [hsame]
    exact hfi.token (hn.ne _) fun b hb hdis hz => hsame ▸ hgone b hb hdis hz
  · refine ⟨x, ?_, hx2⟩
    rw [hfi.kept _ hsame (fun o ho hos hop' h => ?_) hgone]
    · exact hx1
    · obtain ⟨o2, ho2, e2, t2, ha2, hau2, rfl⟩ := hbr o ho
      have : (newItem env e2 t2).val.authDigest = (newItem env e token).val.authDigest := hts o2 ho2 _ hop e2 t2 e token ha2 hat hau2 hau hos
      rw [this] at h
      exact hsame h.symm

theorem keeps_step {env : StoreEnv} (he : EnvOk env) (hn : GoodNames env) {all : List StoreOp}
    (hts : TokensAlike env all) (hdn : DigestsNamed env all) {st : StoreState} {A : List Item} {leak : Bytes → Nat}
    (h : Abs env st A leak) (hl : st.locked = false) (hbr : Allowed env all A) {a : Item} (hk : Keeps env A st.files a)
    (hb : ∀ d, refsTo A d + leak d + 1 < 2 ^ 64) (op : StoreOp) (hop : op ∈ all) (hf : FineOp env op)
    (st' : StoreState) (r : Option (List Entry)) (hrun : runOp env st op = .ok (r, st')) :
    Keeps env (specStep env A op) st'.files a := by
  obtain ⟨files, hfs, hcase⟩ := op_files he h hl op hf hb st' r hrun
  have hk' : Keeps env A files a := by
    refine ⟨hk.1, fun b hb hp => ⟨(hk.2 b hb hp).1, ?_⟩⟩
    rcases hfs with rfl | ⟨x, rfl⟩
    · exact (hk.2 b hb hp).2
    · exact filed_payloadSet hn x (hk.2 b hb hp).2
  rcases hcase with ⟨h1, h2⟩ | ⟨e, token, hat, hacc, h1, hfi⟩
  · rw [h1, h2]; exact hk'
  · rw [h1]
    have hne : (newItem env e token).pos ≠ a.pos := fun hp => hk.1 (hp ▸ hacc.2.2)
    refine ⟨not_accepts_after hacc.2.2 hk.1, fun b hb hp => ?_⟩
    rcases List.mem_cons.1 hb with rfl | hb'
    · exact absurd hp hne
    · obtain ⟨rfl, hfl⟩ := hk'.2 b (List.mem_filter.1 hb').1 hp
      exact ⟨rfl, filed_ingest hn hts hdn hbr hop hat hacc.2.1 hfi hb hfl⟩

theorem keeps_run {env : StoreEnv} (he : EnvOk env) (hn : GoodNames env) {all : List StoreOp}
    (hts : TokensAlike env all) (hdn : DigestsNamed env all) {a : Item} : ∀ (ops : List StoreOp) (st : StoreState) (A : List Item)
    (leak : Bytes → Nat), (∀ op ∈ ops, op ∈ all) → (∀ op ∈ ops, FineOp env op) →
    Abs env st A leak → st.locked = false → Allowed env all A → Keeps env A st.files a →
    (∀ d, refsTo A d + leak d + ops.length < 2 ^ 64) →
    ∃ st', runOps env st ops = .ok st' ∧ Abs env st' (specRun env A ops) (leakRun env A leak ops) ∧
      Keeps env (specRun env A ops) st'.files a
  | [], st, A, leak, _, _, h, _, _, hk, _ => ⟨st, rfl, h, hk⟩
  | op :: ops, st, A, leak, hall, hf, h, hl, hbr, hk, hb => by
    obtain ⟨r, st1, h1, h2, h3, _⟩ := runOp_ok he h hl op (hf op List.mem_cons_self)
    have hk' := keeps_step he hn hts hdn h hl hbr hk
      (fun d => by have := hb d; simp only [List.length_cons] at this; omega) op (hall op List.mem_cons_self)
      (hf op List.mem_cons_self) st1 r h1
    have hb' : ∀ d, refsTo (specStep env A op) d + leakStep env A op leak d + ops.length < 2 ^ 64 := by
      intro d
      have h0 := hb d
      have h1 := refs_run (env := env) [op] A leak d
      simp only [specRun, leakRun, List.length_cons, List.length_nil] at h0 h1
      omega
    obtain ⟨st', h5, h6, h7⟩ := keeps_run he hn hts hdn ops st1 _ _ (fun o ho => hall o (List.mem_cons_of_mem _ ho))
      (fun o ho => hf o (List.mem_cons_of_mem _ ho)) h2 h3 (brought_step hbr (hall op List.mem_cons_self)) hk' hb'
    exact ⟨st', by unfold runOps; rw [h1]; exact h5, h6, h7⟩

theorem brought_run {env : StoreEnv} {all : List StoreOp} : ∀ (ops : List StoreOp) (A : List Item), (∀ op ∈ ops, op ∈ all) →
    Allowed env all A → Allowed env all (specRun env A ops)
  | [], _, _, h => h
  | op :: ops, _, ho, h =>
    brought_run ops _ (fun o h' => ho o (List.mem_cons_of_mem _ h')) (brought_step h (ho op List.mem_cons_self))

theorem hexEncode_inj {a b : Bytes} (h : hexEncode a = hexEncode b) : a = b := by
  have := congrArg hexDecode h
  rw [hexDecode_encode, hexDecode_encode] at this
  exact Option.some.inj this

theorem appStore_tokens (lib : KdLib) (sha : Bytes → Bytes) (ns : Bytes) (ops : List StoreOp) : TokensAlike (appStore lib sha ns) ops := by
  intro op _ op' _ e t e' t' _ _ h h' hs
  have h1 : e.subspaceId = t := (orderBytes_spec _ _).2.1 (of_decide_eq_true h)
  have h2 : e'.subspaceId = t' := (orderBytes_spec _ _).2.1 (of_decide_eq_true h')
  rw [← h1, ← h2, hs]

theorem upperCase_inj {c d : UInt8} (hc : ¬ IsCapital c) (hd : ¬ IsCapital d) (h : upperCase c = upperCase d) : c = d := by
  unfold IsCapital at hc hd
  unfold upperCase at h
  simp only [← UInt8.toNat_inj, UInt8.le_iff_toNat_le] at *
  have n65 : (65 : UInt8).toNat = 65 := rfl
  have n90 : (90 : UInt8).toNat = 90 := rfl
  have n97 : (97 : UInt8).toNat = 97 := rfl
  have n122 : (122 : UInt8).toNat = 122 := rfl
  have n32 : (32 : UInt8).toNat = 32 := rfl
  have hcl := c.toNat_lt
  have hdl := d.toNat_lt
  split at h <;> split at h <;> (try simp only [UInt8.toNat_sub, n32] at h) <;> omega

theorem map_upperCase_inj : ∀ {s t : Bytes}, (∀ c ∈ s, ¬ IsCapital c) → (∀ c ∈ t, ¬ IsCapital c) →
    s.map upperCase = t.map upperCase → s = t
  | [], [], _, _, _ => rfl
  | [], _ :: _, _, _, h => by simp at h
  | _ :: _, [], _, _, h => by simp at h
  | c :: s, d :: t, hs, ht, h => by
    simp only [List.map_cons, List.cons.injEq] at h
    rw [upperCase_inj (hs c List.mem_cons_self) (ht d List.mem_cons_self) h.1,
      map_upperCase_inj (fun x hx => hs x (List.mem_cons_of_mem _ hx)) (fun x hx => ht x (List.mem_cons_of_mem _ hx)) h.2]

theorem hexEncode_small : ∀ b : Bytes, ∀ c ∈ hexEncode b, ¬ IsCapital c
  | [], _, h => by simp [hexEncode] at h
  | x :: b, c, h => by
    have key : ∀ x : UInt8, ¬ IsCapital (hexDigit (x >>> 4)) ∧ ¬ IsCapital (hexDigit (x &&& 0x0f)) := by
      apply forall_byte
      decide +kernel
    simp only [hexEncode, List.mem_cons] at h
    rcases h with rfl | rfl | h
    · exact (key x).1
    · exact (key x).2
    · exact hexEncode_small b c h

theorem appStore_digests (lib : KdLib) (sha : Bytes → Bytes) (ns : Bytes) (hs : ∀ b, (sha b).length = 32) (ops : List StoreOp)
    (hd : ∀ e t, .ingest e t ∈ ops → ∀ c ∈ e.payloadDigest, ¬ IsCapital c) : DigestsNamed (appStore lib sha ns) ops := by
  intro op ho e t hat x hx
  have hx' : appFileKey e.payloadDigest = appFileKey (hexEncode (sha x)) := hx
  have hne : appFileKey (hexEncode (sha x)) ≠ [] := (C42_application lib sha ns hs).ne x
  have h1 := (C107_same (hexEncode (sha x)) e.payloadDigest hne).1 hx'.symm
  refine (map_upperCase_inj (hexEncode_small _) ?_ h1).symm
  cases op with
  | restart => cases hat
  | ingest e' t' =>
    simp only [attempt, Option.some.injEq, Prod.mk.injEq] at hat
    rw [← hat.1]
    exact hd e' t' ho
  | set now input au =>
    simp only [attempt, Option.map_eq_some_iff, Prod.mk.injEq] at hat
    obtain ⟨_, _, rfl, _⟩ := hat
    exact hexEncode_small _

end Willow.Props
