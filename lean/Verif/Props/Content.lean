import Verif.Lemmas.Content
import Verif.Props.App

/-! C100: payload files hold the bytes that their names say; with it, C42, C52 and C82 for the bytes
themselves. -/

namespace Willow.Props

open Willow Spec

/-! ## C100 -/

/-- C100: after any calls, accepted or refused, and restarts, every payload file has the name of the
digest of its contents, and its contents were given to one of the calls. -/
theorem C100_named (env : StoreEnv) (ops : List StoreOp) (st : StoreState) (h : runOps env .empty ops = .ok st)
    (name content : Bytes) (hg : st.files.get name = some content) :
    name = env.fileKey (env.hash content) ∧ ∃ op ∈ ops, content ∈ bytesGiven env op := by
  refine allFiles_runOps (P := fun name content => name = env.fileKey (env.hash content) ∧ ∃ op ∈ ops, content ∈ bytesGiven env op)
    ops .empty st ?_ ?_ h name content hg
  · intro name content hc
    cases hc
  · intro op ho x hx
    exact ⟨rfl, op, ho, hx⟩

example : ∃ st, runOps cutEnv .empty [put [[1], [2]] 5 [9], put [[3]] 6 [8]] = .ok st ∧
    st.files.get (cutEnv.fileKey (cutEnv.hash [9])) = some [9] ∧ [9] ∈ bytesGiven cutEnv (put [[1], [2]] 5 [9]) :=
  ⟨_, rfl, by decide +kernel, by decide +kernel⟩

/-- C100: what is read for the digest of some bytes has this digest. -/
theorem C100_digest (env : StoreEnv) (hn : GoodNames env) (ops : List StoreOp) (st : StoreState) (h : runOps env .empty ops = .ok st)
    (x b : Bytes) (hg : payloadGet env st.files (env.hash x) = some b) : env.hash b = env.hash x ∧ ∃ op ∈ ops, b ∈ bytesGiven env op := by
  unfold payloadGet at hg
  dsimp only at hg
  rw [if_neg (hn.ne x)] at hg
  obtain ⟨h1, h2⟩ := C100_named env ops st h _ b hg
  exact ⟨(hn.inj _ _ h1).symm, h2⟩

example : ∃ st, runOps cutEnv .empty [put [[1], [2]] 5 [9], put [[3]] 6 [8]] = .ok st ∧
    payloadGet cutEnv st.files (cutEnv.hash [8]) = some [8] := ⟨_, rfl, by decide +kernel⟩

/-- C100: if the digests of the bytes given to the calls do not collide, what is read for the digest
of some of these bytes are these bytes. -/
theorem C100_bytes (env : StoreEnv) (hn : GoodNames env) (ops : List StoreOp) (hc : NoCollision env.hash (ops.flatMap (bytesGiven env)))
    (st : StoreState) (h : runOps env .empty ops = .ok st) (x b : Bytes) (hx : ∃ op ∈ ops, x ∈ bytesGiven env op)
    (hg : payloadGet env st.files (env.hash x) = some b) : b = x := by
  obtain ⟨h1, h2⟩ := C100_digest env hn ops st h x b hg
  exact hc b (List.mem_flatMap.2 h2) x (List.mem_flatMap.2 hx) h1

/-- Calls of which the last but one is refused. -/
def exGiven : List StoreOp := [put [[1], [2]] 5 [9], put [[3]] 6 [8], put [[1]] 6 [9], put [[3]] 4 [5], .restart]

example : (∃ st, runOps cutEnv .empty exGiven = .ok st ∧ payloadGet cutEnv st.files (cutEnv.hash [8]) = some [8] ∧
      st.files.get (cutEnv.fileKey (cutEnv.hash [5])) = some [5]) ∧
    NoCollision cutEnv.hash (exGiven.flatMap (bytesGiven cutEnv)) := by
  refine ⟨⟨_, rfl, by decide +kernel, by decide +kernel⟩, ?_⟩
  have : exGiven.flatMap (bytesGiven cutEnv) = [[9], [7], [8], [7], [9], [7], [5], [7]] := by decide +kernel
  rw [this]
  intro x hx y hy
  revert x y
  decide +kernel

/-! ## C52 -/

/-- C52, partial: if no digests collide, the payload read for an entry is the one with which it was
set. Missing: as for `C52_payload_partial`. -/
theorem C52_bytes_partial (env : StoreEnv) (he : EnvOk env) (hn : GoodNames env) (ops : List StoreOp)
    (hw : ∀ op ∈ ops, IsWrite op) (hts : TokensBySubspace env ops)
    (hf : ∀ op ∈ ops, FineOp env op) (hlen : ops.length < 2 ^ 64) (hc : NoCollision env.hash (ops.flatMap (bytesGiven env)))
    (st : StoreState) (h : runOps env .empty ops = .ok st) (a : Item) (hp : Proper env.p a) (ha : Holds env st a.pos a.val)
    (now : UInt64) (input : EntryInput) (au : Bytes) (ho : .set now input au ∈ ops) (hd : a.val.payloadDigest = env.hash input.payload) :
    storeGetPayload env st a.pos = .ok (some input.payload) := by
  obtain ⟨st', h1, h2⟩ := C52_payload_partial env he hn ops hw hts hf hlen
  rw [h] at h1
  cases h1
  obtain ⟨b, h3, h4⟩ := h2 a hp ha
  have h5 : storeGetPayload env st a.pos = .ok (payloadGet env st.files a.val.payloadDigest) := by
    unfold storeGetPayload
    rw [ha.1]
    dsimp only
    rw [C24_roundtrip a.val hp.digest hp.auth]
    rfl
  rw [h5, Res.ok.injEq, hd] at h3
  rw [h5, hd, h3, C100_bytes env hn ops hc st h input.payload b ⟨_, ho, by simp [bytesGiven]⟩ h3]

/-- The calls of the example beside `C52_payload_partial` meet the hypothesis about digests, too. -/
example : NoCollision cutEnv.hash (exampleOps.flatMap (bytesGiven cutEnv)) ∧ ∃ st, runOps cutEnv .empty exampleOps = .ok st ∧
    storeGetPayload cutEnv st ⟨[7], [[3]], 6⟩ = .ok (some [8]) := by
  refine ⟨?_, _, rfl, by decide +kernel⟩
  intro x hx y hy
  have : exampleOps.flatMap (bytesGiven cutEnv) = [[9], [7], [8], [7], [8], [7], [8], [7]] := by decide +kernel
  rw [this] at hx hy
  revert x y
  decide +kernel

/-! ## C82 -/

/-- C82, partial: if the digests of the payloads and names of subspaces do not collide, `get` prints
the bytes that were stored, after an accepted fine `set` and any later fine ones (and restarts)
without a newer one at the path or above it. Missing: the empty path and paths at a limit (see
`C82_violated`). -/
theorem C82_bytes_partial (lib : KdLib) (sha : Bytes → Bytes) (ns : Bytes) (hs : ∀ b, (sha b).length = 32)
    (before later : List StoreOp) (now : UInt64) (sub path payload : Bytes) (t : UInt64) (ops : List StoreOp)
    (hops : ops = before ++ .set now ⟨sub, splitSlash path, t, payload⟩ sub :: later)
    (hw : ∀ op ∈ ops, op = .restart ∨ ∃ now sub path t payload, op = .set now ⟨sub, path, t, payload⟩ sub)
    (hf : ∀ op ∈ ops, FineOp (appStore lib sha ns) op) (hlen : ops.length < 2 ^ 64)
    (hc : NoCollision sha (ops.flatMap (bytesGiven (appStore lib sha ns))))
    (st st1 : StoreState) (r : List Entry) (hrun : runOps (appStore lib sha ns) .empty before = .ok st)
    (hset : storeSet (appStore lib sha ns) st now ⟨sub, splitSlash path, t, payload⟩ sub = .ok (some r, st1))
    (hno : ∀ op ∈ later, ∀ now' path' t' payload', op = .set now' ⟨sub, path', t', payload'⟩ sub → path' <+: splitSlash path →
      (if t' = 0 then now' else t') ≤ if t = 0 then now else t) :
    ∃ st2, runOps (appStore lib sha ns) st1 later = .ok st2 ∧ getCommand (appStore lib sha ns) st2 sub path = .ok payload := by
  obtain ⟨st2, b, h1, h2, h3, h4⟩ := C82_get_partial lib sha ns hs before later now sub path payload t ops hops hw hf hlen
    st st1 r hrun hset hno
  have hall : runOps (appStore lib sha ns) .empty ops = .ok st2 := by
    rw [hops, runOps_append, hrun]
    have : runOp (appStore lib sha ns) st (.set now ⟨sub, splitSlash path, t, payload⟩ sub) = .ok (some r, st1) := hset
    simp only [Res.ok_bind, runOps, this, h1]
  obtain ⟨_, h5⟩ := C100_digest _ (C42_application lib sha ns hs) ops st2 hall payload b h4
  have hb : b = payload := hc b (List.mem_flatMap.2 h5) payload (List.mem_flatMap.2 ⟨_, by rw [hops]; exact List.mem_append_right _ List.mem_cons_self,
    by simp [bytesGiven]⟩) h3
  rw [hb] at h2
  exact ⟨st2, h1, h2⟩

/-- The hypotheses about digests hold for calls that repeat a payload. -/
example : NoCollision toySha (([.set 1 ⟨[115], splitSlash [97, 47, 98], 5, [9]⟩ [115], .set 1 ⟨[115], splitSlash [99], 6, [9]⟩ [115]] : List StoreOp).flatMap
    (bytesGiven (appStore listLib toySha [110]))) := by
  have : ([.set 1 ⟨[115], splitSlash [97, 47, 98], 5, [9]⟩ [115], .set 1 ⟨[115], splitSlash [99], 6, [9]⟩ [115]] : List StoreOp).flatMap
    (bytesGiven (appStore listLib toySha [110])) = [[9], [115], [9], [115]] := by decide +kernel
  rw [this]
  intro x hx y hy
  revert x y
  decide +kernel

end Willow.Props
