import Verif.Spec.Staging
import Verif.Lemmas.Kv

/-! Lemmas about the staging directory. -/

namespace Willow

open Spec

theorem unfinished_cons {temp payload : Bytes} {offset : Int} {op : RecvOp} {ops : List RecvOp} :
    Unfinished temp payload offset (op :: ops) ↔ Unfinished temp payload offset ops ∨
      ((∃ d, op = .receive temp payload offset d) ∧ ∀ o ∈ ops, ¬ Touches temp o) := by
  constructor
  · rintro ⟨before, d, after, he, h⟩
    cases before with
    | nil =>
      simp only [List.nil_append, List.cons.injEq] at he
      exact .inr ⟨⟨d, he.1⟩, he.2 ▸ h⟩
    | cons b before =>
      simp only [List.cons_append, List.cons.injEq] at he
      exact .inl ⟨before, d, after, he.2, h⟩
  · rintro (⟨before, d, after, he, h⟩ | ⟨⟨d, rfl⟩, h⟩)
    · exact ⟨op :: before, d, after, by rw [he]; rfl, h⟩
    · exact ⟨[], d, ops, rfl, h⟩

theorem receive_step {env : StoreEnv} {fs fs' : RecvFiles} {t p d : Bytes} {o : Int} {b : Bool}
    (h : (RecvOp.receive t p o d).step env fs = (fs', b)) :
    fs' = { fs with staging := fs.staging.set t (List.replicate o.toNat 0 ++ p) } ∨ (fs' = fs ∧ b = false) := by
  simp only [RecvOp.step, receiveStaged] at h
  split at h
  · rename_i x fs1 r hx
    split at hx
    · cases hx
    · split at hx
      · cases hx
      · cases hx; cases h; exact .inl rfl
  · rename_i x fs1 r hr hx
    split at hx
    · cases hx; cases h; exact .inr ⟨rfl, rfl⟩
    · split at hx
      · cases hx; cases h; exact .inl rfl
      · cases hx; exact absurd rfl (hr _)

theorem staging_step {env : StoreEnv} {fs fs' : RecvFiles} {op : RecvOp} (h : op.step env fs = (fs', true))
    (hn : ∀ t d, op = .commit t d true → env.fileKey d ≠ []) (temp c : Bytes) :
    fs'.staging.get temp = some c ↔
      (∃ p o d, op = .receive temp p o d ∧ c = List.replicate o.toNat 0 ++ p) ∨
        (fs.staging.get temp = some c ∧ ¬ Touches temp op) := by
  cases op with
  | receive t p o d =>
    rcases receive_step h with rfl | ⟨-, hf⟩
    · simp only [KV.get_set, Touches]
      by_cases ht : temp = t
      · subst ht
        simp only [if_true, Option.some.injEq, not_true, and_false, or_false]
        constructor
        · rintro rfl; exact ⟨p, o, d, rfl, rfl⟩
        · rintro ⟨p', o', d', he, hc⟩
          cases he; exact hc.symm
      · rw [if_neg ht]
        constructor
        · exact fun h => .inr ⟨h, Ne.symm ht⟩
        · rintro (⟨p', o', d', he, -⟩ | ⟨h, -⟩)
          · cases he; exact absurd rfl ht
          · exact h
    · cases hf
  | commit t d complete =>
    simp only [RecvOp.step, Prod.mk.injEq, and_true] at h
    subst h
    have key : (commitStaged env fs t d complete).staging.get temp = if temp = t then none else fs.staging.get temp := by
      unfold commitStaged
      dsimp only
      split
      · rename_i hg
        split
        · rename_i ht; rw [ht, hg]
        · rfl
      · split
        · rename_i hc
          rw [if_neg (hn t d (by rw [hc]))]
          exact KV.get_delete _ _ _
        · exact KV.get_delete _ _ _
    rw [key]
    simp only [Touches, reduceCtorEq, false_and, exists_false, false_or]
    by_cases ht : temp = t
    · subst ht; simp
    · rw [if_neg ht]; exact ⟨fun h => ⟨h, Ne.symm ht⟩, fun h => h.1⟩
  | reject t =>
    simp only [RecvOp.step, rejectStaged, Prod.mk.injEq, and_true] at h
    subst h
    simp only [KV.get_delete, Touches, reduceCtorEq, false_and, exists_false, false_or]
    by_cases ht : temp = t
    · subst ht; simp
    · rw [if_neg ht]; exact ⟨fun h => ⟨h, Ne.symm ht⟩, fun h => h.1⟩

theorem staging_run {env : StoreEnv} : ∀ {ops : List RecvOp} {fs fs' : RecvFiles}, recvRun env fs ops = (fs', true) →
    (∀ t d, .commit t d true ∈ ops → env.fileKey d ≠ []) → ∀ temp c,
    (fs'.staging.get temp = some c ↔
      (∃ p o, Unfinished temp p o ops ∧ c = List.replicate o.toNat 0 ++ p) ∨
        (fs.staging.get temp = some c ∧ ∀ op ∈ ops, ¬ Touches temp op))
  | [], fs, fs', h, _, temp, c => by
    simp only [recvRun, Prod.mk.injEq, and_true] at h
    subst h
    constructor
    · exact fun h => .inr ⟨h, by simp⟩
    · rintro (⟨p, o, ⟨b, d, a, he, -⟩, -⟩ | ⟨h, -⟩)
      · exact absurd he (by simp)
      · exact h
  | op :: ops, fs, fs', h, hn, temp, c => by
    simp only [recvRun] at h
    split at h
    · rename_i fs1 hs
      rw [staging_run h (fun t d hm => hn t d (List.mem_cons_of_mem _ hm)) temp c,
        staging_step hs (fun t d he => hn t d (by rw [he]; exact List.mem_cons_self)) temp c]
      simp only [unfinished_cons, List.forall_mem_cons]
      constructor
      · rintro (⟨p, o, hu, hc⟩ | ⟨⟨p, o, d, rfl, hc⟩ | ⟨hg, ht⟩, hr⟩)
        · exact .inl ⟨p, o, .inl hu, hc⟩
        · exact .inl ⟨p, o, .inr ⟨⟨d, rfl⟩, hr⟩, hc⟩
        · exact .inr ⟨hg, ht, hr⟩
      · rintro (⟨p, o, hu | ⟨⟨d, rfl⟩, hr⟩, hc⟩ | ⟨hg, ht, hr⟩)
        · exact .inl ⟨p, o, hu, hc⟩
        · exact .inr ⟨.inl ⟨p, o, d, rfl, hc⟩, hr⟩
        · exact .inr ⟨.inr ⟨hg, ht⟩, hr⟩
    · cases h

theorem recvRun_snoc (env : StoreEnv) (ops : List RecvOp) (op : RecvOp) : ∀ fs,
    recvRun env fs (ops ++ [op]) =
      (match recvRun env fs ops with
        | (fs, true) => op.step env fs
        | (fs, false) => (fs, false)) := by
  induction ops with
  | nil =>
    intro fs
    simp only [List.nil_append, recvRun]
    rcases op.step env fs with ⟨fs, _ | _⟩ <;> rfl
  | cons o ops ih =>
    intro fs
    simp only [List.cons_append, recvRun]
    rcases o.step env fs with ⟨fs', _ | _⟩
    · rfl
    · exact ih fs'

theorem receive_step_ok {env : StoreEnv} {fs : RecvFiles} {t p d : Bytes} {o : Int}
    (h1 : o > 0 → (fs.partials.get (env.fileKey d)).isSome) (h2 : 0 ≤ o + p.length) :
    (RecvOp.receive t p o d).step env fs =
      ({ fs with staging := fs.staging.set t (List.replicate o.toNat 0 ++ p) }, true) := by
  have h3 : ¬ (o > 0 ∧ (fs.partials.get (env.fileKey d)).isNone) := by
    rintro ⟨a, b⟩
    have := h1 a
    rw [Option.isNone_iff_eq_none] at b
    rw [b] at this
    cases this
  simp only [RecvOp.step, receiveStaged]
  rw [if_neg h3, if_neg (by omega)]

end Willow
