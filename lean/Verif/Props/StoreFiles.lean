import Verif.Lemmas.PropsStoreFiles
import Verif.Lemmas.Files
import Verif.Props.StoreAuth
import Verif.Props.Payload

/-! Property C52: payloads and tokens of stored entries stay in the payload files. -/

namespace Willow.Props

open Willow Spec

/-! ## C52 -/

/-- C52, partial: after any fine writes and restarts, reading the payload of a stored entry
returns bytes with its payload digest and reading its token returns bytes with its token
digest. Missing: payloads that are also tokens (see `C52_violated_payload`), tokens shared by some of the
entries only (see `C52_violated_token`), the empty path, and paths at a limit. -/
theorem C52_retrievable_partial (env : StoreEnv) (he : EnvOk env) (hn : GoodNames env) (ops : List StoreOp)
    (hw : ∀ op ∈ ops, IsWrite op) (hta : TokensApart env ops) (hts : TokensShared env ops)
    (hf : ∀ op ∈ ops, FineOp env op) (hlen : ops.length < 2 ^ 64) :
    ∃ st, runOps env .empty ops = .ok st ∧ ∀ a : Item, Proper env.p a → Holds env st a.pos a.val →
      (∃ b, storeGetPayload env st a.pos = .ok (some b) ∧ env.hash b = a.val.payloadDigest) ∧
      (∃ t, payloadGet env st.files a.val.authDigest = some t ∧ env.hash t = a.val.authDigest) := by
  obtain ⟨st, h1, h2, h3⟩ := filed_run he hn hw hta hts ops .empty [] (fun _ => 0) (fun _ h => h) hf (abs_empty env) rfl
    (fun a h => by simp at h) (fun a h => by simp at h) (fun d => by simp [refsTo]; exact hlen)
  refine ⟨st, h1, fun a hpr ha => ?_⟩
  obtain ⟨⟨b, hb1, hb2⟩, ⟨t, ht1, ht2⟩⟩ := h3 a ((h2.holds he hpr).1 ha)
  refine ⟨⟨b, ?_, hb2⟩, t, ?_, ht2⟩
  · unfold storeGetPayload
    rw [ha.1]
    dsimp only
    rw [C24_roundtrip a.val hpr.digest hpr.auth]
    show Res.ok (payloadGet env st.files a.val.payloadDigest) = _
    unfold payloadGet
    dsimp only
    rw [if_neg (by rw [← hb2]; exact hn.ne b), hb1]
  · unfold payloadGet
    dsimp only
    rw [if_neg (by rw [← ht2]; exact hn.ne t), ht1]

example : EnvOk cutEnv ∧ GoodNames cutEnv ∧ (∀ op ∈ exampleOps, IsWrite op) ∧ TokensApart cutEnv exampleOps ∧
    TokensShared cutEnv exampleOps ∧ (∀ op ∈ exampleOps, FineOp cutEnv op) ∧
    ∃ st, runOps cutEnv .empty exampleOps = .ok st ∧ (∃ k ∈ st.kd, k.pos = ⟨[7], [[1]], 7⟩) ∧
      storeGetPayload cutEnv st ⟨[7], [[1]], 7⟩ = .ok (some [8]) ∧ payloadGet cutEnv st.files (cutEnv.hash [7]) = some [7] :=
  ⟨exampleOps_kept.1, exampleOps_kept.2.1, exampleOps_kept.2.2.1, exampleOps_kept.2.2.2.1, exampleOps_kept.2.2.2.2.1, example_fine,
    _, rfl, by decide +kernel, by decide +kernel, by decide +kernel⟩

/-- C52, partial: if the entries of a subspace have the same token, as in the application, the
payload of every stored entry can be read after any fine writes and restarts, even if some
payload is also a token. Missing: as for `C52_retrievable_partial`. -/
theorem C52_payload_partial (env : StoreEnv) (he : EnvOk env) (hn : GoodNames env) (ops : List StoreOp)
    (hw : ∀ op ∈ ops, IsWrite op) (hts : TokensBySubspace env ops)
    (hf : ∀ op ∈ ops, FineOp env op) (hlen : ops.length < 2 ^ 64) :
    ∃ st, runOps env .empty ops = .ok st ∧ ∀ a : Item, Proper env.p a → Holds env st a.pos a.val →
      ∃ b, storeGetPayload env st a.pos = .ok (some b) ∧ env.hash b = a.val.payloadDigest := by
  obtain ⟨st, h1, h2, h3⟩ := payload_run he hn hw hts ops .empty [] (fun _ => 0) (fun _ h => h) hf (abs_empty env) rfl
    (fun a h => by simp at h) (fun a h => by simp at h) (fun d => by simp [refsTo]; exact hlen)
  refine ⟨st, h1, fun a hpr ha => ?_⟩
  obtain ⟨b, hb1, hb2⟩ := h3 a ((h2.holds he hpr).1 ha)
  refine ⟨b, ?_, hb2⟩
  unfold storeGetPayload
  rw [ha.1]
  dsimp only
  rw [C24_roundtrip a.val hpr.digest hpr.auth]
  show Res.ok (payloadGet env st.files a.val.payloadDigest) = _
  unfold payloadGet
  dsimp only
  rw [if_neg (by rw [← hb2]; exact hn.ne b), hb1]

example : EnvOk cutEnv ∧ GoodNames cutEnv ∧ (∀ op ∈ exampleOps, IsWrite op) ∧ TokensBySubspace cutEnv exampleOps ∧
    (∀ op ∈ exampleOps, FineOp cutEnv op) ∧
    ∃ st, runOps cutEnv .empty exampleOps = .ok st ∧ (∃ k ∈ st.kd, k.pos = ⟨[7], [[3]], 6⟩) ∧
      storeGetPayload cutEnv st ⟨[7], [[3]], 6⟩ = .ok (some [8]) :=
  ⟨exampleOps_kept.1, exampleOps_kept.2.1, exampleOps_kept.2.2.1, exampleOps_kept.2.2.2.2.2.1, example_fine,
    _, rfl, by decide +kernel, by decide +kernel⟩

/-- C52 is violated: the payload of an entry equals the token (in the application: the name of
the subspace); when the entry is pruned the file goes, and with it the token of every other
entry of the subspace. -/
theorem C52_violated_payload : ∃ (lib : KdLib) (st : StoreState) (v : Values),
    runOps (appEnv lib) .empty [put [[1], [2]] 5 [7], put [[1]] 6 [8]] = .ok st ∧
    Holds (appEnv lib) st ⟨[7], [[1]], 6⟩ v ∧ payloadGet (appEnv lib) st.files v.authDigest = none := by
  refine ⟨listLib, _, ⟨1, [1, 8], [1, 7]⟩, rfl, ⟨by decide +kernel, ⟨⟨⟨[7], [[1]], 6⟩, []⟩, by decide +kernel, rfl⟩⟩, ?_⟩
  decide +kernel

/-- C52 is violated: replacing an entry erases its token, which another entry still has. -/
theorem C52_violated_token : ∃ (env : StoreEnv) (st : StoreState) (v : Values),
    runOps env .empty [.set 0 ⟨[7], [[1]], 5, [3]⟩ [7], .set 0 ⟨[7], [[2]], 5, [4]⟩ [7], .set 0 ⟨[7], [[1]], 6, [5]⟩ [9]] = .ok st ∧
    Holds env st ⟨[7], [[2]], 5⟩ v ∧ payloadGet env st.files v.authDigest = none := by
  refine ⟨{ appEnv listLib with isAuthorised := fun _ _ => true }, _, ⟨1, [1, 4], [1, 7]⟩, rfl,
    ⟨by decide +kernel, ⟨⟨⟨[7], [[2]], 5⟩, []⟩, by decide +kernel, rfl⟩⟩, ?_⟩
  decide +kernel

end Willow.Props
