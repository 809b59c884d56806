import Verif.Lemmas.PropsPayload
import Verif.Model.Store
import Verif.Lemmas.Kv
import Verif.Props.Successor

/-! Properties of the payload files (C42, C43). -/

namespace Willow.Props

open Willow Spec

/-! ## C42 -/

/-- C42: a stored payload can be read back, whole, from an offset, and by length. -/
theorem C42_get (env : StoreEnv) (hn : GoodNames env) (files files' : KV) (payload digest : Bytes) (n : UInt64)
    (h : payloadSet env files payload = (files', digest, n)) :
    payloadGet env files' digest = some payload ∧ n = UInt64.ofNat payload.length ∧ payloadLengthOf payload = n ∧
    ∀ offset, offset < payload.length → payloadBytesWithOffset payload offset = some (payload.drop offset) := by
  unfold payloadSet at h
  simp only [Prod.mk.injEq] at h
  obtain ⟨rfl, rfl, rfl⟩ := h
  refine ⟨?_, rfl, rfl, fun o ho => if_neg (by omega)⟩
  unfold payloadGet
  dsimp only
  rw [if_neg (hn.ne payload), if_neg (hn.ne payload), KV.get_set_self]

example (lib : KdLib) : GoodNames (testEnv lib) ∧ payloadSet (testEnv lib) [([1, 5], [5])] [6, 7] = ([([1, 5], [5]), ([1, 6, 7], [6, 7])], [1, 6, 7], 2) ∧
    payloadGet (testEnv lib) [([1, 5], [5]), ([1, 6, 7], [6, 7])] [1, 6, 7] = some [6, 7] ∧ payloadBytesWithOffset [6, 7] 1 = some [7] :=
  ⟨testEnv_goodNames lib, rfl, rfl, rfl⟩

/-- C42: storing or erasing a payload leaves every payload with another digest as it is. -/
theorem C42_others (env : StoreEnv) (hn : GoodNames env) (files files' : KV) (payload other digest : Bytes) (n : UInt64)
    (hne : env.hash other ≠ env.hash payload) (h : payloadSet env files payload = (files', digest, n)) :
    payloadGet env files' (env.hash other) = payloadGet env files (env.hash other) ∧
    payloadGet env (payloadErase env files' digest) (env.hash other) = payloadGet env files (env.hash other) := by
  unfold payloadSet at h
  simp only [Prod.mk.injEq] at h
  obtain ⟨rfl, rfl, rfl⟩ := h
  have hk : env.fileKey (env.hash other) ≠ env.fileKey (env.hash payload) := fun h => hne (hn.inj _ _ h)
  unfold payloadGet payloadErase
  dsimp only
  rw [if_neg (hn.ne other), if_neg (hn.ne other), if_neg (hn.ne other), if_neg (hn.ne payload), if_neg (hn.ne payload),
    KV.get_delete, if_neg hk, KV.get_set_ne _ _ hk]
  exact ⟨rfl, rfl⟩

example (lib : KdLib) : GoodNames (testEnv lib) ∧ (testEnv lib).hash [5] ≠ (testEnv lib).hash [6, 7] ∧
    payloadGet (testEnv lib) (payloadSet (testEnv lib) [([1, 5], [5])] [6, 7]).1 ((testEnv lib).hash [5]) = some [5] :=
  ⟨testEnv_goodNames lib, by simp [testEnv], rfl⟩

/-- C42: an erased payload cannot be read. -/
theorem C42_erased (env : StoreEnv) (hn : GoodNames env) (files : KV) (payload : Bytes) :
    payloadGet env (payloadErase env files (env.hash payload)) (env.hash payload) = none := by
  unfold payloadGet payloadErase
  dsimp only
  rw [if_neg (hn.ne payload), if_neg (hn.ne payload), KV.get_delete, if_pos rfl]

example (lib : KdLib) : GoodNames (testEnv lib) ∧ payloadSet (testEnv lib) [([1, 5], [5])] [6, 7] = ([([1, 5], [5]), ([1, 6, 7], [6, 7])], [1, 6, 7], 2) :=
  ⟨testEnv_goodNames lib, rfl⟩

/-! ## C43 -/

/-- Receiving the two parts of a payload, as `IngestPayload` would do: the first part is
committed as partial, the second part at the offset where it ended as complete. The result is
the digest and the length that were reported for the second part, and the files. -/
def receiveBoth (env : StoreEnv) (files partials : KV) (first second digest : Bytes) : Res (Bytes × Nat × KV × KV) := do
  let (_, _, files, partials) ← receiveCommit env files partials first 0 digest false
  receiveCommit env files partials second first.length digest true

/-- C43, exact: what is stored in the end is the second part after as many zero bytes as the
first part has, and the reported digest and length are those of what is stored; this is the
concatenation exactly when the first part consists of zeros.
Partial: for other first parts the payload is wrong (see `C43_violated`). -/
theorem C43_resume_partial (env : StoreEnv) (files partials : KV) (first second digest : Bytes)
    (hne : env.fileKey digest ≠ []) :
    ∃ files' partials', receiveBoth env files partials first second digest =
        .ok (env.hash (List.replicate first.length 0 ++ second), first.length + second.length, files', partials') ∧
      payloadGet env files' digest = some (List.replicate first.length 0 ++ second) ∧
      (payloadGet env files' digest = some (first ++ second) ↔ ∀ b ∈ first, b = 0) := by
  have hget : ∀ x, payloadGet env (files.set (env.fileKey digest) x) digest = some x := by
    intro x
    unfold payloadGet
    dsimp only
    rw [if_neg hne, KV.get_set_self]
  have hiff : payloadGet env (files.set (env.fileKey digest) (List.replicate first.length 0 ++ second)) digest =
      some (first ++ second) ↔ ∀ b ∈ first, b = 0 := by
    rw [hget, Option.some.injEq]
    constructor
    · intro h
      have := (List.append_inj h (by simp)).1
      rw [← this]
      intro b hb
      exact (List.mem_replicate.1 hb).2
    · intro h
      rw [List.eq_replicate_iff.2 ⟨rfl, h⟩]
      simp
  refine ⟨files.set (env.fileKey digest) (List.replicate first.length 0 ++ second), partials.set (env.fileKey digest) first,
    ?_, hget _, hiff⟩
  unfold receiveBoth receiveCommit receiveStaging
  by_cases hf : first = []
  · subst hf; simp [hne]
  · have : first.length > 0 := List.length_pos_iff.2 hf
    simp [this, hne, KV.get_set_self]

example (lib : KdLib) : (testEnv lib).fileKey [9] ≠ [] ∧ ∃ digest files partials,
    receiveBoth (testEnv lib) [] [] [5, 0] [6] [9] = .ok (digest, 3, files, partials) ∧ payloadGet (testEnv lib) files [9] = some [0, 0, 6] :=
  ⟨by simp [testEnv], _, _, _, rfl, rfl⟩

/-- C43 is violated: a payload received in two parts does not read back as the concatenation,
and the reported digest is not its digest. -/
theorem C43_violated (lib : KdLib) : ∃ digest files partials,
    receiveBoth (testEnv lib) [] [] [5] [6] ((testEnv lib).hash [5, 6]) = .ok (digest, 2, files, partials) ∧
    digest ≠ (testEnv lib).hash [5, 6] ∧
    payloadGet (testEnv lib) files ((testEnv lib).hash [5, 6]) = some [0, 6] := by
  obtain ⟨f, q, h1, h2, _⟩ := C43_resume_partial (testEnv lib) [] [] [5] [6] ((testEnv lib).hash [5, 6]) (List.cons_ne_nil _ _)
  exact ⟨_, f, q, h1, by show (1 :: [0, 6] : Bytes) ≠ 1 :: [5, 6]; decide, h2⟩

/-- C43, partial: a payload received in one part is stored as it is, and its digest is the
digest of the received bytes. -/
theorem C43_whole_partial (env : StoreEnv) (files partials : KV) (payload digest : Bytes) (hne : env.fileKey digest ≠ []) :
    ∃ files', receiveCommit env files partials payload 0 digest true = .ok (env.hash payload, payload.length, files', partials) ∧
      payloadGet env files' digest = some payload := by
  refine ⟨files.set (env.fileKey digest) payload, ?_, ?_⟩
  · simp [receiveCommit, receiveStaging, hne]
  · unfold payloadGet
    dsimp only
    rw [if_neg hne, KV.get_set_self]

example (lib : KdLib) : (testEnv lib).fileKey ((testEnv lib).hash [5, 6]) ≠ [] := List.cons_ne_nil _ _

/-- C43 is violated: a payload whose expected digest is empty, so that its file has no name, is reported
as received, with its digest and length, but it is not stored: it reads back as no bytes. -/
theorem C43_violated_nameless (env : StoreEnv) (files partials : KV) (payload digest : Bytes) (isComplete : Bool)
    (hn : env.fileKey digest = []) :
    receiveCommit env files partials payload 0 digest isComplete = .ok (env.hash payload, payload.length, files, partials) ∧
      payloadGet env files digest = some [] := by
  refine ⟨by simp [receiveCommit, receiveStaging, hn], ?_⟩
  unfold payloadGet
  dsimp only
  rw [if_pos hn]

example (lib : KdLib) : (testEnv lib).fileKey [] = [] := rfl

end Willow.Props
