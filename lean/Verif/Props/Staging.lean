import Verif.Lemmas.Staging
import Verif.Spec.PropsPayload

/-! Properties of the directory that payloads are received in (C122). -/

namespace Willow.Props

open Willow Spec

/-- C122, partial: when no call has panicked, the staging files are exactly those of the transfers that have
been begun and neither committed nor rejected, and each holds the bytes received, after zeros up to the offset.
Missing: commits of whole payloads whose digest has no file name (`C122_violated_nameless`), and calls that
panic (`C122_violated_panic`). -/
theorem C122_staging_partial (env : StoreEnv) (files partials : KV) (ops : List RecvOp) (fs : RecvFiles)
    (h : recvRun env ⟨files, partials, []⟩ ops = (fs, true)) (hn : ∀ t d, .commit t d true ∈ ops → env.fileKey d ≠ [])
    (temp content : Bytes) :
    fs.staging.get temp = some content ↔
      ∃ payload offset, Unfinished temp payload offset ops ∧ content = List.replicate offset.toNat 0 ++ payload := by
  rw [staging_run h hn temp content]
  constructor
  · rintro (h | ⟨h, -⟩)
    · exact h
    · cases h
  · exact .inl

/-- C122, partial: when every transfer has been committed or rejected, the staging directory is empty. Missing: as
in `C122_staging_partial`. -/
theorem C122_empty_partial (env : StoreEnv) (files partials : KV) (ops : List RecvOp) (fs : RecvFiles)
    (h : recvRun env ⟨files, partials, []⟩ ops = (fs, true)) (hn : ∀ t d, .commit t d true ∈ ops → env.fileKey d ≠ [])
    (hf : ∀ temp payload offset, ¬ Unfinished temp payload offset ops) : fs.staging = [] := by
  refine List.eq_nil_iff_forall_not_mem.2 fun e he => ?_
  have : fs.staging.get e.1 = none := by
    cases hg : fs.staging.get e.1 with
    | none => rfl
    | some c =>
      obtain ⟨p, o, hu, -⟩ := (C122_staging_partial env files partials ops fs h hn e.1 c).1 hg
      exact absurd hu (hf _ _ _)
  exact KV.get_eq_none.1 this e he rfl

/-- Two transfers at once, of which the first is committed and the second rejected. -/
def exampleTransfers : List RecvOp :=
  [.receive [1] [5, 6] 0 [1, 5, 6], .receive [2] [7] 0 [1, 7, 8], .commit [1] [1, 5, 6] true, .reject [2]]

example (lib : KdLib) : recvRun (testEnv lib) ⟨[], [], []⟩ exampleTransfers = (⟨[([1, 5, 6], [5, 6])], [], []⟩, true) ∧
    (∀ t d, .commit t d true ∈ exampleTransfers → (testEnv lib).fileKey d ≠ []) ∧
    ∀ temp payload offset, ¬ Unfinished temp payload offset exampleTransfers := by
  refine ⟨rfl, ?_, ?_⟩
  · intro t d h
    simp only [exampleTransfers, List.mem_cons, RecvOp.commit.injEq, reduceCtorEq, List.not_mem_nil, false_or, or_false] at h
    rw [h.2.1]
    exact List.cons_ne_nil _ _
  · intro temp payload offset h
    simp only [exampleTransfers, unfinished_cons, List.forall_mem_cons, RecvOp.receive.injEq, Touches, reduceCtorEq] at h
    have h0 : ¬ Unfinished temp payload offset [] := by
      rintro ⟨b, d, a, he, -⟩
      exact absurd he (by simp)
    rcases h with ((((h | ⟨⟨d, hd⟩, -⟩) | ⟨⟨d, hd⟩, -⟩) | ⟨⟨d, hd, -⟩, -, h, -⟩) | ⟨⟨d, hd, -⟩, -, h, -⟩)
    · exact h0 h
    · exact hd
    · exact hd
    · exact h hd
    · exact h hd

/-- C122, partial: committing a transfer that has not been ended as a whole payload puts the bytes received, after
zeros up to the offset, in the file of the digest, and changes no other file. Missing: the bytes before the
offset (C43), the file of the part received before (`C122_violated_part`), and that these bytes are those
whose digest was reported (`C122_violated_negative`). -/
theorem C122_commit_partial (env : StoreEnv) (files partials : KV) (ops : List RecvOp) (fs : RecvFiles)
    (h : recvRun env ⟨files, partials, []⟩ ops = (fs, true)) (hn : ∀ t d, .commit t d true ∈ ops → env.fileKey d ≠ [])
    (temp payload digest : Bytes) (offset : Int) (hu : Unfinished temp payload offset ops) (hd : env.fileKey digest ≠ []) :
    ∃ fs', recvRun env ⟨files, partials, []⟩ (ops ++ [.commit temp digest true]) = (fs', true) ∧
      fs'.files.get (env.fileKey digest) = some (List.replicate offset.toNat 0 ++ payload) ∧
      (∀ name, name ≠ env.fileKey digest → fs'.files.get name = fs.files.get name) ∧ fs'.partials = fs.partials ∧
      fs'.staging.get temp = none := by
  have hg := (C122_staging_partial env files partials ops fs h hn temp _).2 ⟨payload, offset, hu, rfl⟩
  refine ⟨commitStaged env fs temp digest true, ?_, ?_⟩
  · rw [recvRun_snoc, h]
    rfl
  · unfold commitStaged
    simp only [hg, if_true, if_neg hd]
    exact ⟨KV.get_set_self _ _ _, fun name hne => KV.get_set_ne _ _ hne, trivial, by simp [KV.get_delete]⟩

example : Unfinished [2] [7] 0 [.receive [1] [5, 6] 0 [1, 5, 6], .receive [2] [7] 0 [1, 7], .commit [1] [1, 5, 6] true] :=
  ⟨[.receive [1] [5, 6] 0 [1, 5, 6]], [1, 7], [.commit [1] [1, 5, 6] true], rfl, by simp [Touches]⟩

/-- C122 is violated: after a payload has been received in two parts and stored, the file of the first part
is still there. -/
theorem C122_violated_part (env : StoreEnv) (first second digest t u : Bytes) (h1 : first ≠ []) (hd : env.fileKey digest ≠ [])
    (files partials : KV) :
    ∃ fs, recvRun env ⟨files, partials, []⟩ [.receive t first 0 digest, .commit t digest false,
        .receive u second first.length digest, .commit u digest true] = (fs, true) ∧
      fs.files.get (env.fileKey digest) = some (List.replicate first.length 0 ++ second) ∧
      fs.partials.get (env.fileKey digest) = some first := by
  refine ⟨⟨files.set (env.fileKey digest) (List.replicate first.length 0 ++ second), partials.set (env.fileKey digest) first,
    KV.delete (KV.set (KV.delete (KV.set [] t first) t) u (List.replicate first.length 0 ++ second)) u⟩, ?_,
    KV.get_set_self _ _ _, KV.get_set_self _ _ _⟩
  simp only [recvRun]
  rw [receive_step_ok (by simp) (by omega)]
  simp only [RecvOp.step.eq_2, commitStaged, KV.get_set_self, Int.toNat_zero, List.replicate_zero, List.nil_append,
    Bool.false_eq_true, if_false, if_neg hd]
  rw [receive_step_ok (by simp [KV.get_set_self]) (by omega)]
  simp only [KV.get_set_self, Int.toNat_natCast, if_true, if_neg hd]

example (lib : KdLib) : (testEnv lib).fileKey [1, 5, 6] ≠ [] := List.cons_ne_nil _ _

/-- C122 is violated: a whole payload whose digest has no file name stays in the staging directory when it is
committed, and is not stored. -/
theorem C122_violated_nameless (env : StoreEnv) (payload digest t : Bytes) (hd : env.fileKey digest = []) (files partials : KV) :
    recvRun env ⟨files, partials, []⟩ [.receive t payload 0 digest, .commit t digest true] =
      (⟨files, partials, [(t, payload)]⟩, true) := by
  simp only [recvRun]
  rw [receive_step_ok (by simp) (by omega)]
  simp only [RecvOp.step.eq_2, commitStaged, KV.set, KV.get, if_true, hd, Int.toNat_zero, List.replicate_zero, List.nil_append]

example (lib : KdLib) : (testEnv lib).fileKey [] = [] := rfl

/-- C122 is violated: with an offset below zero the digest and the length that are reported are those of the
bytes without the last ones, but the whole is stored when it is committed. -/
theorem C122_violated_negative (env : StoreEnv) (payload more digest t : Bytes) (hm : more ≠ []) (hl : payload.length < 2 ^ 63)
    (hd : env.fileKey digest ≠ []) (files partials : KV) :
    ∃ fs, receiveStaged env ⟨files, partials, []⟩ t (payload ++ more) (-more.length) digest =
        (fs, .ok (env.hash payload, UInt64.ofNat payload.length)) ∧
      (commitStaged env fs t digest true).files.get (env.fileKey digest) = some (payload ++ more) ∧
      payload ++ more ≠ payload := by
  have hpos := List.length_pos_iff.2 hm
  have h1 : ¬ (-(more.length : Int) > 0) := by omega
  have h2 : -(more.length : Int) + (payload ++ more).length = payload.length := by
    rw [List.length_append]; omega
  refine ⟨⟨files, partials, KV.set [] t (payload ++ more)⟩, ?_, ?_, ?_⟩
  · simp only [receiveStaged, h1, false_and, if_false, h2]
    have h3 : (-(more.length : Int)).toNat = 0 := by omega
    have h4 : ¬ ((payload.length : Int) < 0) := by omega
    simp [h3, h4]
  · simp [commitStaged, KV.get_set_self, hd]
  · intro h
    have := congrArg List.length h
    simp at this
    exact hm this

example : ([9] : Bytes) ≠ [] ∧ ([5, 6] : Bytes).length < 2 ^ 63 := by decide

/-- C122 is violated: with an offset so far below zero that the length would be negative the call panics and
leaves a staging file, which no commit or reject can remove. -/
theorem C122_violated_panic (env : StoreEnv) (payload digest t : Bytes) (k : Nat) (hk : payload.length < k) (files partials : KV)
    (ops : List RecvOp) :
    recvRun env ⟨files, partials, []⟩ (.receive t payload (-k) digest :: ops) = (⟨files, partials, [(t, payload)]⟩, false) := by
  have h1 : ¬ (-(k : Int) > 0) := by omega
  have h2 : -(k : Int) + payload.length < 0 := by omega
  have h3 : (-(k : Int)).toNat = 0 := by omega
  simp only [recvRun, RecvOp.step, receiveStaged, h1, h2, h3, KV.set, false_and, if_false, if_true, List.replicate_zero,
    List.nil_append]

example : ([5, 6] : Bytes).length < 3 := by decide

end Willow.Props
