import Verif.Lemmas.Storage
import Verif.Props.Encoding

/-! What the state of a store stands for, and what one ingest does to it. -/

namespace Willow

open Spec Props

/-- The configuration is one for which keys and values can be told apart: fewer than 2^32
components of fewer than 2^32 bytes, digests shorter than 2^64 bytes. -/
structure EnvOk (env : StoreEnv) : Prop where
  cc : env.p.cc < 2 ^ 32
  cl : env.p.cl < 2 ^ 32
  hash : ∀ b, (env.hash b).length < 2 ^ 64

/-- The pair stored for an item. -/
def Item.pair (p : PathParams) (a : Item) : Bytes × Bytes := (encodeKey p a.pos, encodeValues a.val)

/-- An item that the path arithmetic and the encodings handle exactly. -/
structure Fine (p : PathParams) (a : Item) : Prop where
  path : Comfortable p a.pos.path
  digest : a.val.payloadDigest.length < 2 ^ 64
  auth : a.val.authDigest.length < 2 ^ 64

/-- The two items are at different subspaces or paths. -/
def Apart (a b : Item) : Prop := ¬ (a.pos.subspace = b.pos.subspace ∧ a.pos.path = b.pos.path)

theorem Apart.symm {a b : Item} (h : Apart a b) : Apart b a := fun ⟨h1, h2⟩ => h ⟨h1.symm, h2.symm⟩

theorem Apart.ne {a b : Item} (h : Apart a b) : a.pos ≠ b.pos := fun e => h (by rw [e]; exact ⟨rfl, rfl⟩)

/-- Database and tree hold exactly the items. -/
structure Core (p : PathParams) (kv : KV) (kd : List KdKey) (A : List Item) : Prop where
  sorted : kv.Sorted
  kv_perm : kv.Perm (A.map (Item.pair p))
  kd_perm : (kd.map (·.pos)).Perm (A.map (·.pos))
  fine : ∀ a ∈ A, Fine p a
  apart : A.Pairwise Apart

/-- Number of items with a payload digest. -/
def refsTo (A : List Item) (d : Bytes) : Nat := A.countP fun a => decide (a.val.payloadDigest = d)

/-- The reference counts are those of the items plus a surplus (modulo 2^64). -/
def RefsOk (refs : KV) (A : List Item) (leak : Bytes → Nat) : Prop :=
  ∀ d, (refs.get d = none ∧ refsTo A d = 0 ∧ leak d = 0) ∨
    refs.get d = some (putU64 (UInt64.ofNat (refsTo A d + leak d)).toNat)

/-- What the state stands for. -/
structure Abs (env : StoreEnv) (st : StoreState) (A : List Item) (leak : Bytes → Nat) : Prop where
  core : Core env.p st.kv st.kd A
  refs : RefsOk st.refs A leak

/-! ### Permutations -/

theorem Core.perm {p : PathParams} {kv : KV} {kd : List KdKey} {A B : List Item} (h : Core p kv kd A) (hp : A.Perm B) :
    Core p kv kd B :=
  ⟨h.sorted, h.kv_perm.trans (hp.map _), h.kd_perm.trans (hp.map _), fun a ha => h.fine a (hp.mem_iff.2 ha),
    hp.pairwise h.apart fun h => h.symm⟩

theorem refsTo_perm {A B : List Item} (hp : A.Perm B) (d : Bytes) : refsTo A d = refsTo B d := hp.countP_eq _

theorem RefsOk.perm {refs : KV} {A B : List Item} {leak : Bytes → Nat} (h : RefsOk refs A leak) (hp : A.Perm B) :
    RefsOk refs B leak := by
  intro d
  rw [← refsTo_perm hp d]
  exact h d

theorem Abs.perm {env : StoreEnv} {st : StoreState} {A B : List Item} {leak : Bytes → Nat} (h : Abs env st A leak)
    (hp : A.Perm B) : Abs env st B leak := ⟨h.core.perm hp, h.refs.perm hp⟩

/-! ### Lookup -/

theorem Core.get {p : PathParams} {kv : KV} {kd : List KdKey} {A : List Item} (h : Core p kv kd A) {a : Item} (ha : a ∈ A) :
    kv.get (encodeKey p a.pos) = some (encodeValues a.val) :=
  KV.get_of_mem h.sorted (h.kv_perm.mem_iff.2 (List.mem_map.2 ⟨a, ha, rfl⟩))

theorem Core.mem_kd {p : PathParams} {kv : KV} {kd : List KdKey} {A : List Item} (h : Core p kv kd A) {k : KdKey} (hk : k ∈ kd) :
    ∃ a ∈ A, a.pos = k.pos := by
  have : k.pos ∈ kd.map (·.pos) := List.mem_map.2 ⟨k, hk, rfl⟩
  rw [h.kd_perm.mem_iff] at this
  simpa using this

theorem Core.in_kd {p : PathParams} {kv : KV} {kd : List KdKey} {A : List Item} (h : Core p kv kd A) {a : Item} (ha : a ∈ A) :
    ∃ k ∈ kd, k.pos = a.pos := by
  have : a.pos ∈ A.map (·.pos) := List.mem_map.2 ⟨a, ha, rfl⟩
  rw [← h.kd_perm.mem_iff] at this
  simpa using this

theorem apart_unique {A : List Item} (h : A.Pairwise Apart) {a b : Item} (ha : a ∈ A) (hb : b ∈ A)
    (hs : a.pos.subspace = b.pos.subspace) (hp : a.pos.path = b.pos.path) : a = b := by
  induction A with
  | nil => simp at ha
  | cons x xs ih =>
    obtain ⟨h1, h2⟩ := List.pairwise_cons.1 h
    rcases List.mem_cons.1 ha with rfl | ha' <;> rcases List.mem_cons.1 hb with rfl | hb'
    · rfl
    · exact absurd ⟨hs, hp⟩ (h1 b hb')
    · exact absurd ⟨hs.symm, hp.symm⟩ (h1 a ha')
    · exact ih h2 ha' hb'

theorem apart_count {A : List Item} (h : A.Pairwise Apart) (s : Bytes) (path : Path) :
    (A.filter fun a => decide (a.pos.subspace = s ∧ a.pos.path = path)).length ≤ 1 := by
  have h1 := h.filter (fun a => decide (a.pos.subspace = s ∧ a.pos.path = path))
  have h2 : ∀ x ∈ A.filter (fun a => decide (a.pos.subspace = s ∧ a.pos.path = path)), x.pos.subspace = s ∧ x.pos.path = path :=
    fun x hx => by simpa using (List.mem_filter.1 hx).2
  generalize A.filter (fun a => decide (a.pos.subspace = s ∧ a.pos.path = path)) = l at h1 h2
  match l with
  | [] => exact Nat.zero_le _
  | [_] => exact Nat.le_refl _
  | a :: b :: _ =>
    obtain ⟨a1, a2⟩ := h2 a (by simp)
    obtain ⟨b1, b2⟩ := h2 b (by simp)
    exact absurd ⟨a1.trans b1.symm, a2.trans b2.symm⟩ ((List.pairwise_cons.1 h1).1 b (by simp))

theorem Core.count {p : PathParams} {kv : KV} {kd : List KdKey} {A : List Item} (h : Core p kv kd A) (s : Bytes) (path : Path) :
    (kd.filter fun k => decide (k.pos.subspace = s ∧ k.pos.path = path)).length ≤ 1 := by
  have h1 := (h.kd_perm.filter fun q => decide (q.subspace = s ∧ q.path = path)).length_eq
  rw [List.filter_map, List.filter_map, List.length_map, List.length_map] at h1
  have h2 := apart_count h.apart s path
  exact Nat.le_trans (Nat.le_of_eq h1) h2

/-- Looking up an entry. -/
theorem Core.entryGet {env : StoreEnv} {st : StoreState} {A : List Item} (h : Core env.p st.kv st.kd A)
    (s : Bytes) (path : Path) (hv : ValidPath env.p path) (hl : path.length < env.p.cc ∨ Comfortable env.p path) :
    (entryGet env st s path = .ok .missing ∧ ∀ a ∈ A, ¬ (a.pos.subspace = s ∧ a.pos.path = path)) ∨
    (∃ a ∈ A, a.pos.subspace = s ∧ a.pos.path = path ∧
      entryGet env st s path = .ok (.found (a.entry env.namespaceId) a.val.authDigest)) := by
  obtain ⟨o, h1, h2⟩ := storageGet_ok env.lib env.p st.kd s path hv
    (hl.imp_right fun hc => .inl ⟨hc, fun k hk => by
      obtain ⟨a, ha, hak⟩ := h.mem_kd hk
      rw [← hak]
      exact (h.fine a ha).path.valid⟩) (h.count s path)
  unfold Willow.entryGet
  rw [h1]
  cases o with
  | none =>
    refine .inl ⟨rfl, fun a ha hc => ?_⟩
    obtain ⟨k, hk, hk'⟩ := h.in_kd ha
    have := (h2 a.pos).2 ⟨hc.1, hc.2, k, hk, hk'⟩
    simp at this
  | some pos =>
    obtain ⟨ha, hb, k, hk, rfl⟩ := (h2 pos).1 rfl
    obtain ⟨a, haA, hak⟩ := h.mem_kd hk
    rw [← hak] at ha hb ⊢
    refine .inr ⟨a, haA, ha, hb, ?_⟩
    have hf := h.fine a haA
    simp only [Res.ok_bind, h.get haA, C24_roundtrip a.val hf.digest hf.auth]
    rw [Item.entry, ha, hb]

/-! ### Deleting and inserting -/

theorem Core.key_inj {env : StoreEnv} (he : EnvOk env) {kv : KV} {kd : List KdKey} {A : List Item} (h : Core env.p kv kd A)
    {a b : Item} (ha : a ∈ A) (hb : b ∈ A) (hk : encodeKey env.p a.pos = encodeKey env.p b.pos) : a.pos = b.pos :=
  C23_injective_partial env.p a.pos b.pos (shortPath_of_limits he.cc he.cl (h.fine a ha).path.valid)
    (shortPath_of_limits he.cc he.cl (h.fine b hb).path.valid) hk

theorem kdDelete_map (kd : List KdKey) (pos : Position) : (kdDelete kd pos).map (·.pos) = (kd.map (·.pos)).erase pos := by
  unfold kdDelete
  induction kd with
  | nil => rfl
  | cons k ks ih =>
    rw [List.eraseP_cons, List.map_cons, List.erase_cons]
    by_cases hk : k.pos = pos
    · simp [hk]
    · simp [hk, ih]

theorem Core.delete {env : StoreEnv} (he : EnvOk env) {st : StoreState} {a : Item} {A : List Item}
    (h : Core env.p st.kv st.kd (a :: A)) :
    Core env.p (st.kv.delete (encodeKey env.p a.pos)) (kdDelete st.kd a.pos) A := by
  obtain ⟨hp1, hp2⟩ := List.pairwise_cons.1 h.apart
  refine ⟨KV.sorted_delete h.sorted _, ?_, ?_, fun x hx => h.fine x (List.mem_cons_of_mem _ hx), hp2⟩
  · unfold KV.delete
    refine (h.kv_perm.filter _).trans ?_
    rw [List.map_cons, List.filter_cons_of_neg (by simp [Item.pair])]
    rw [List.filter_eq_self.2]
    intro e hx
    obtain ⟨x, hxA, rfl⟩ := List.mem_map.1 hx
    rw [decide_eq_true_eq]
    intro hk
    exact (hp1 x hxA).ne (h.key_inj he (List.mem_cons_of_mem _ hxA) List.mem_cons_self hk).symm
  · rw [kdDelete_map]
    have := h.kd_perm.erase a.pos
    rwa [List.map_cons, List.erase_cons_head] at this

theorem Core.insert {env : StoreEnv} (he : EnvOk env) {kv : KV} {kd : List KdKey} {A : List Item} (h : Core env.p kv kd A)
    (a : Item) (fp : Bytes) (hf : Fine env.p a) (hn : ∀ x ∈ A, Apart a x) :
    Core env.p (kv.set (encodeKey env.p a.pos) (encodeValues a.val)) (kd ++ [⟨a.pos, fp⟩]) (a :: A) := by
  refine ⟨KV.sorted_set h.sorted _ _, ?_, ?_, ?_, List.pairwise_cons.2 ⟨hn, h.apart⟩⟩
  · refine (KV.set_perm _ fun e hx hk => ?_).trans (h.kv_perm.cons _)
    rw [h.kv_perm.mem_iff] at hx
    obtain ⟨x, hxA, rfl⟩ := List.mem_map.1 hx
    exact (hn x hxA).ne (C23_injective_partial env.p a.pos x.pos (shortPath_of_limits he.cc he.cl hf.path.valid)
      (shortPath_of_limits he.cc he.cl (h.fine x hxA).path.valid) hk.symm)
  · rw [List.map_append]
    exact (List.perm_append_singleton _ _).trans (h.kd_perm.cons _)
  · intro x hx
    rcases List.mem_cons.1 hx with rfl | hx
    · exact hf
    · exact h.fine x hx

/-! ### Reference counts -/

theorem refsTo_cons (a : Item) (A : List Item) (d : Bytes) :
    refsTo (a :: A) d = refsTo A d + if a.val.payloadDigest = d then 1 else 0 := by
  unfold refsTo; rw [List.countP_cons]; simp

theorem RefsOk.decrement {refs : KV} {a : Item} {A : List Item} {leak : Bytes → Nat} (h : RefsOk refs (a :: A) leak) :
    ∃ refs', refDecrement refs a.val.payloadDigest =
        .ok (UInt64.ofNat (refsTo A a.val.payloadDigest + leak a.val.payloadDigest), refs') ∧ RefsOk refs' A leak := by
  have hg : refs.get a.val.payloadDigest =
      some (putU64 (UInt64.ofNat (refsTo (a :: A) a.val.payloadDigest + leak a.val.payloadDigest)).toNat) := by
    rcases h a.val.payloadDigest with ⟨_, h2, _⟩ | h1
    · rw [refsTo_cons] at h2; simp at h2
    · exact h1
  have hc : UInt64.ofNat (refsTo (a :: A) a.val.payloadDigest + leak a.val.payloadDigest) - 1 =
      UInt64.ofNat (refsTo A a.val.payloadDigest + leak a.val.payloadDigest) := by
    rw [refsTo_cons, if_pos rfl, show ∀ x y : Nat, x + 1 + y = (x + y) + 1 from fun x y => by omega, UInt64.ofNat_add]
    simp
  unfold refDecrement
  rw [hg]
  simp only [bigEndianUint64_putU64, Res.ok_bind, hc]
  refine ⟨_, rfl, fun d => ?_⟩
  rw [KV.get_set]
  by_cases hd : d = a.val.payloadDigest
  · subst hd; right; simp
  · rw [if_neg hd]
    have h1 := h d
    rw [refsTo_cons, if_neg (fun h => hd h.symm)] at h1
    exact h1

theorem RefsOk.increment {refs : KV} {A : List Item} {leak : Bytes → Nat} (h : RefsOk refs A leak) (a : Item) :
    ∃ n refs', refIncrement refs a.val.payloadDigest = .ok (n, refs') ∧ RefsOk refs' (a :: A) leak := by
  unfold refIncrement
  have hothers : ∀ (v : UInt64), v = UInt64.ofNat (refsTo (a :: A) a.val.payloadDigest + leak a.val.payloadDigest) →
      RefsOk (refs.set a.val.payloadDigest (putU64 v.toNat)) (a :: A) leak := by
    intro v hv d
    rw [KV.get_set]
    by_cases hd : d = a.val.payloadDigest
    · subst hd; right; simp [hv]
    · rw [if_neg hd]
      have h1 := h d
      rw [refsTo_cons, if_neg (fun h => hd h.symm)]
      exact h1
  rcases h a.val.payloadDigest with ⟨h1, h2, h3⟩ | h1
  · rw [h1]
    refine ⟨_, _, rfl, hothers _ ?_⟩
    rw [refsTo_cons, h2, h3]; simp
  · rw [h1]
    simp only [bigEndianUint64_putU64]
    refine ⟨_, _, rfl, hothers _ ?_⟩
    rw [refsTo_cons, if_pos rfl, show ∀ x y : Nat, x + 1 + y = (x + y) + 1 from fun x y => by omega,
      UInt64.ofNat_add (_ + _) 1]
    rfl

end Willow
