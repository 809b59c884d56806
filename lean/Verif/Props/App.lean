import Verif.Lemmas.PropsApp
import Verif.Lemmas.PropsFullComponent
import Verif.Lemmas.App
import Verif.Props.StoreMore

/-! Properties of the command line application: C42 for its file names, C75 (paths as texts), C81 (times as
texts) and C82 (`get` prints what `set` stored). -/

namespace Willow.Props

open Willow Spec

/-! ## C42 for the application -/

/-- The file names of the application tell digests apart, for every digest function with
results of 32 bytes. -/
theorem C42_application (lib : KdLib) (sha : Bytes → Bytes) (ns : Bytes) (hs : ∀ b, (sha b).length = 32) :
    GoodNames (appStore lib sha ns) := by
  have hk : ∀ b, (appStore lib sha ns).fileKey ((appStore lib sha ns).hash b) = base32Encode (sha b) := by
    intro b
    show base32Encode ((hexDecode (hexEncode (sha b))).getD []) = _
    rw [hexDecode_encode]
    rfl
  refine ⟨fun a b h => ?_, fun a h => ?_⟩
  · rw [hk, hk] at h
    have := base32Encode_inj 6 _ _ (hs a) (hs b) h
    show hexEncode (sha a) = hexEncode (sha b)
    rw [this]
  · rw [hk] at h
    refine base32Encode_ne _ (fun h0 => ?_) h
    have := hs a
    rw [h0] at this
    cases this

/-- A digest function of 32 bytes for examples. -/
def toySha (b : Bytes) : Bytes := (b ++ List.replicate 32 0).take 32

example : (∀ b, (toySha b).length = 32) ∧ toySha [1] ≠ toySha [2] := ⟨fun b => by simp [toySha], by decide⟩

/-! ## C46 for the application -/

/-- C46 for the application: an entry is refused, and nothing changes, when it is of another
namespace or the token is not its subspace. -/
theorem C46_application (lib : KdLib) (sha : Bytes → Bytes) (ns : Bytes) (st : StoreState) (e : Entry) (token : Bytes)
    (hl : st.locked = false) (h : e.namespaceId ≠ ns ∨ token ≠ e.subspaceId) :
    ingestEntry (appStore lib sha ns) st e token = .ok (none, st) := by
  refine C46_rejected _ _ _ _ hl ?_
  rcases h with h | h
  · exact .inl (decide_eq_false fun h0 => h ((orderBytes_spec _ _).2.1 h0).symm)
  · exact .inr (decide_eq_false fun h0 => h ((orderBytes_spec _ _).2.1 h0).symm)

example : ∃ st, runOps (appStore listLib toySha [42]) .empty [.set 1 ⟨[7], [[97]], 0, [9]⟩ [7]] = .ok st ∧ st.locked = false ∧
    ingestEntry (appStore listLib toySha [42]) st ⟨[42], [7], [[98]], [1, 4], 1, 6⟩ [8] = .ok (none, st) :=
  ⟨_, rfl, rfl, rfl⟩

/-- C46 for the application: after any calls, everything in the database was brought by a call
with an entry of the namespace and its subspace as the token. -/
theorem C46_applicationStored (lib : KdLib) (sha : Bytes → Bytes) (ns : Bytes) (ops : List StoreOp) (st : StoreState)
    (h : runOps (appStore lib sha ns) .empty ops = .ok st) (k v : Bytes) (hkv : st.kv.get k = some v) :
    ∃ op ∈ ops, ∃ e token, attempt (appStore lib sha ns) op = some (e, token) ∧ e.namespaceId = ns ∧ token = e.subspaceId ∧
      k = encodeKey (appStore lib sha ns).p ⟨e.subspaceId, e.path, e.timestamp⟩ := by
  obtain ⟨op, ho, e, token, h1, h2, h3, h4, _⟩ := C46_authorised _ ops st h k v hkv
  exact ⟨op, ho, e, token, h1, ((orderBytes_spec _ _).2.1 (of_decide_eq_true h2)).symm,
    ((orderBytes_spec _ _).2.1 (of_decide_eq_true h3)).symm, h4⟩

example (lib : KdLib) : ∃ (st : StoreState) (e : Entry), st.locked = false ∧ st.kv ≠ [] ∧ ([8] : Bytes) ≠ e.subspaceId ∧
    (appStore lib toySha [42]).isAuthorised e [7] = true ∧ (appStore lib toySha [42]).isAuthorised e [8] = false :=
  ⟨{ StoreState.empty with kv := [([1], [2])] }, ⟨[42], [7], [[1]], [1, 4], 1, 6⟩, rfl, by decide, by decide, rfl, rfl⟩

example : (do
    let st ← runOps (appStore listLib toySha [110]) .empty [.set 1 ⟨[115], [[97]], 5, [9]⟩ [115], .ingest ⟨[110], [116], [[98]], [1], 1, 6⟩ [115]]
    Res.ok st.kv.length) = Res.ok 1 := by
  decide +kernel

/-! ## C75 -/

/-- C75: the text of the components made from a text is that text, and no component contains a
slash. -/
theorem C75_display (s : Bytes) : makePath (splitSlash s) = .ok s ∧ ∀ c ∈ splitSlash s, (47 : UInt8) ∉ c :=
  ⟨makePath_split s, splitSlash_noSlash s⟩

example : makePath (splitSlash [47, 97, 47, 47]) = .ok [47, 97, 47, 47] ∧ splitSlash [47, 97, 47, 47] = [[], [97], [], []] := by decide

/-- C75: every path with components that contain no slash is made from its text. -/
theorem C75_split (path : Path) (hne : path ≠ []) (h : ∀ c ∈ path, (47 : UInt8) ∉ c) :
    ∃ s, makePath path = .ok s ∧ splitSlash s = path := by
  cases path with
  | nil => exact absurd rfl hne
  | cons a rest => exact ⟨_, rfl, split_makePathLoop rest a (h a List.mem_cons_self) fun c hc => h c (List.mem_cons_of_mem _ hc)⟩

example : makePath (splitSlash [97, 47, 98, 47]) = .ok [97, 47, 98, 47] ∧ splitSlash [97, 47, 98, 47] = [[97], [98], []] := by decide

/-- C75, partial: after any fine `set` commands (and restarts), every line of `list` shows the text of a path
that was typed. Missing: the empty path, paths at a limit (see `C75_violated`). -/
theorem C75_list_partial (lib : KdLib) (sha : Bytes → Bytes) (ns : Bytes) (hs : ∀ b, (sha b).length = 32) (texts : List Bytes)
    (ops : List StoreOp) (hops : ∀ op ∈ ops, op = .restart ∨ ∃ now sub t payload, ∃ s ∈ texts, op = .set now ⟨sub, splitSlash s, t, payload⟩ sub)
    (hf : ∀ op ∈ ops, FineOp (appStore lib sha ns) op) :
    ∃ st, runOps (appStore lib sha ns) .empty ops = .ok st ∧ ∀ k ∈ storeList (appStore lib sha ns) st, ∃ s ∈ texts, listLine k = .ok (k.pos.subspace, k.pos.time, s) := by
  obtain ⟨st, h1, h2, _⟩ := run_ok (appStore_ok lib sha ns hs) ops hf
  refine ⟨st, h1, fun k hk => ?_⟩
  obtain ⟨a, ha, hp⟩ := h2.core.mem_kd ((lib.valuesPerm st.kd).mem_iff.1 hk)
  obtain ⟨op, ho, e, t, hat, rfl⟩ := brought_specRun _ ops ops [] (fun _ h => h) (fun a h => by simp at h) a ha
  rcases hops op ho with rfl | ⟨now, sub, tm, payload, s, hsm, rfl⟩
  · cases hat
  · refine ⟨s, hsm, ?_⟩
    simp only [attempt, Option.map_eq_some_iff, Prod.mk.injEq] at hat
    obtain ⟨_, _, rfl, _⟩ := hat
    unfold listLine
    rw [← hp]
    show (do let path ← makePath (splitSlash s); Res.ok _) = _
    rw [makePath_split]
    rfl

example : (∀ op ∈ [StoreOp.set 1 ⟨[115], splitSlash [97, 47, 98], 0, [9]⟩ [115], .restart], FineOp (appStore listLib toySha [110]) op) ∧
    (do
      let st ← runOps (appStore listLib toySha [110]) .empty [.set 1 ⟨[115], splitSlash [97, 47, 98], 0, [9]⟩ [115], .restart]
      Res.ok ((storeList (appStore listLib toySha [110]) st).map listLine)) = Res.ok [.ok ([115], 1, [97, 47, 98])] := by
  refine ⟨?_, by decide +kernel⟩
  simp only [List.forall_mem_cons, List.not_mem_nil, false_implies, implies_true, and_true]
  refine ⟨fun e t h => ?_, fun e t h => by cases h⟩
  simp only [attempt, appStore, if_true, Option.map_some, Option.some.injEq, Prod.mk.injEq] at h
  obtain ⟨rfl, rfl⟩ := h
  exact ⟨.of_last ⟨by decide +kernel, by decide +kernel, by decide +kernel⟩ (by decide +kernel) (by decide +kernel)
    (by intro c hc; simp [splitSlash] at hc; subst hc; decide), by decide +kernel⟩

/-- C75 is violated: after `set` with a text of 50 bytes without slashes (or such a text after fewer than 49 slashes), not all
of them 255, in a store made by fine calls that has no entries of the subspace, `list` shows another text. -/
theorem C75_violated (lib : KdLib) (sha : Bytes → Bytes) (ns : Bytes) (hs : ∀ b, (sha b).length = 32) (ops : List StoreOp)
    (hf : ∀ op ∈ ops, FineOp (appStore lib sha ns) op) (st : StoreState) (hrun : runOps (appStore lib sha ns) .empty ops = .ok st)
    (sub : Bytes) (hno : ∀ k ∈ st.kd, k.pos.subspace ≠ sub) (now : UInt64) (j : Nat) (hj : j < 49) (c payload : Bytes)
    (hc : c.length = 50) (hslash : (47 : UInt8) ∉ c) (hff : ∃ b ∈ c, b ≠ 255) :
    ∃ st' text, setCommand (appStore lib sha ns) st now sub (List.replicate j 47 ++ c) payload none = some (.ok (some [], st')) ∧
      text ≠ List.replicate j 47 ++ c ∧
      (∃ k ∈ storeList (appStore lib sha ns) st', k.pos.subspace = sub) ∧
      ∀ k ∈ storeList (appStore lib sha ns) st', k.pos.subspace = sub → listLine k = .ok (sub, now, text) := by
  obtain ⟨c', st', -, hlt, h1, h2, -, -⟩ := set_fullText lib sha ns hs ops hf st hrun sub hno now j hj c payload hc hslash hff
  have hm : ∀ k, k ∈ storeList (appStore lib sha ns) st' ↔ k ∈ st.kd ++ [⟨⟨sub, List.replicate j [] ++ [c'], now⟩, []⟩] := fun k => by
    rw [← h2]; exact (lib.valuesPerm st'.kd).mem_iff
  refine ⟨st', List.replicate j 47 ++ c', h1, fun h => ?_, ⟨_, (hm _).2 (List.mem_append_right _ (List.mem_singleton.2 rfl)), rfl⟩, fun k hk hks => ?_⟩
  · have := List.append_cancel_left h
    subst this
    exact bytesLt_strictTotal.irrefl _ hlt
  · rcases List.mem_append.1 ((hm k).1 hk) with hk | hk
    · exact absurd hks (hno k hk)
    · rw [List.mem_singleton.1 hk]
      unfold listLine
      rw [makePath_slashes]
      rfl

example : (do
    let st ← runOps (appStore listLib toySha [110]) .empty [.set 1 ⟨[115], [List.replicate 50 97], 0, [9]⟩ [115]]
    let k ← (match storeList (appStore listLib toySha [110]) st with | [k] => Res.ok k | _ => .err)
    listLine k) = Res.ok ([115], 1, List.replicate 49 97 ++ [98]) := by
  decide +kernel

/-! ## C81 -/

/-- C81, partial: hours and minutes are converted to microseconds as long as the result fits 64
bits. Missing: larger numbers (see `C81_violated_wraps`), and midnight (see
`C81_violated_midnight`). -/
theorem C81_time_partial (hs ms : List Nat) (hh : ∀ d ∈ hs, d < 10) (hm : ∀ d ∈ ms, d < 10) (h0 : hs ≠ []) (m0 : ms ≠ [])
    (hfit : (digitValue hs * 60 + digitValue ms) * 60000000 < 2 ^ 64) :
    (parseTimeStampToMicroSeconds (digitText hs ++ 58 :: digitText ms)).toNat = (digitValue hs * 60 + digitValue ms) * 60000000 := by
  unfold parseTimeStampToMicroSeconds
  rw [splitColon_append _ (digitText_noColon hs hh), splitColon_single _ (digitText_noColon ms hm)]
  have key : ∀ ds : List Nat, (∀ d ∈ ds, d < 10) → ds ≠ [] → digitValue ds < 2 ^ 64 → parseUint (digitText ds) = some (UInt64.ofNat (digitValue ds)) := by
    intro ds h1 h2 h3
    unfold parseUint
    rw [if_neg (by simpa [digitText] using h2), parseDigits_text ds 0 h1 h3]
    rfl
  dsimp only
  rw [key hs hh h0 (by omega)]
  dsimp only
  rw [key ms hm m0 (by omega)]
  dsimp only
  generalize digitValue hs = a at *
  generalize digitValue ms = b at *
  simp only [UInt64.toNat_add, UInt64.toNat_mul, UInt64.toNat_ofNat', UInt64.reduceToNat]
  omega

example : (digitValue [1, 2] * 60 + digitValue [3, 4]) * 60000000 < 2 ^ 64 ∧ (∀ d ∈ [3, 4], d < 10) ∧
    (parseTimeStampToMicroSeconds (digitText [1, 2] ++ 58 :: digitText [3, 4])).toNat = 45240000000 := by decide +kernel

/-- C81, partial: what is accepted has exactly one colon, with decimal digits before and after
it. Missing: minutes above 59 are not rejected (see `C81_violated_minutes`). -/
theorem C81_rejects_partial (s : Bytes) (h : parseTimeStampToMicroSeconds s ≠ 0) :
    ∃ a b, splitColon s = [a, b] ∧ a ≠ [] ∧ b ≠ [] ∧ (∀ c ∈ a ++ b, 48 ≤ c ∧ c ≤ 57) := by
  have hd : ∀ (x : Bytes) (n m : Nat), parseDigits x n = some m → ∀ c ∈ x, 48 ≤ c ∧ c ≤ 57 := by
    intro x
    induction x with
    | nil => intro _ _ _ c hc; cases hc
    | cons y x ih =>
      intro n m h c hc
      unfold parseDigits at h
      split at h
      · rename_i hy
        dsimp only at h
        split at h
        · rcases List.mem_cons.1 hc with rfl | hc
          · exact hy
          · exact ih _ _ h c hc
        · cases h
      · cases h
  have hp : ∀ (x : Bytes) (v : UInt64), parseUint x = some v → x ≠ [] ∧ ∀ c ∈ x, 48 ≤ c ∧ c ≤ 57 := by
    intro x v h
    unfold parseUint at h
    split at h
    · cases h
    · rename_i hx
      rw [Option.map_eq_some_iff] at h
      obtain ⟨m, hm, _⟩ := h
      exact ⟨hx, hd x 0 m hm⟩
  unfold parseTimeStampToMicroSeconds at h
  split at h
  · rename_i a b hs
    split at h
    · exact absurd rfl h
    · rename_i va ha
      split at h
      · exact absurd rfl h
      · rename_i vb hb
        obtain ⟨a1, a2⟩ := hp a va ha
        obtain ⟨b1, b2⟩ := hp b vb hb
        refine ⟨a, b, hs, a1, b1, fun c hc => ?_⟩
        rcases List.mem_append.1 hc with hc | hc
        · exact a2 c hc
        · exact b2 c hc
  · exact absurd rfl h

example : parseTimeStampToMicroSeconds [49, 50, 58, 51, 52] ≠ 0 ∧ splitColon [49, 50, 58, 51, 52] = [[49, 50], [51, 52]] ∧
    parseTimeStampToMicroSeconds [49, 50, 58] = 0 ∧ parseTimeStampToMicroSeconds [49, 58, 50, 58, 51] = 0 := by decide +kernel

/-- C81 is violated: the number of microseconds is computed modulo 2^64; here 5124095577 hours
become less than an hour. -/
theorem C81_violated_wraps : (parseTimeStampToMicroSeconds (digitText [5, 1, 2, 4, 0, 9, 5, 5, 7, 7] ++ 58 :: digitText [0])).toNat < 3600000000 := by
  decide +kernel

/-- C81 is violated: midnight is taken for an invalid time, and the application leaves the
namespace. -/
theorem C81_violated_midnight (env : StoreEnv) (st : StoreState) (now : UInt64) (subspace path payload : Bytes) :
    setCommand env st now subspace path payload (some (digitText [0, 0] ++ 58 :: digitText [0, 0])) = none := rfl

example : parseTimeStampToMicroSeconds (digitText [1, 2] ++ 58 :: digitText [3, 4]) = 45240000000 ∧
    parseTimeStampToMicroSeconds (digitText [1, 2] ++ digitText [3, 4]) = 0 := by decide +kernel

/-- C81 is violated: more than 59 minutes and more than 23 hours are not reported as invalid. -/
theorem C81_violated_minutes : parseTimeStampToMicroSeconds (digitText [1] ++ 58 :: digitText [6, 0]) = 7200000000 ∧
    parseTimeStampToMicroSeconds (digitText [2, 4] ++ 58 :: digitText [0]) = 86400000000 := by decide +kernel

/-- C81, exactly what is computed for every text: two numbers around a colon give the microseconds of
that many hours and minutes, modulo 2^64; every other text gives 0, which is reported as invalid. -/
theorem C81_exact (s : Bytes) :
    (∀ hs ms, IsTimeText s hs ms →
      (parseTimeStampToMicroSeconds s).toNat = (digitValue hs * 60 + digitValue ms) * 60000000 % 2 ^ 64) ∧
    ((¬ ∃ hs ms, IsTimeText s hs ms) → parseTimeStampToMicroSeconds s = 0) := by
  constructor
  · rintro hs ms ⟨rfl, h0, m0, hd, hh, hm⟩
    have dh : ∀ d ∈ hs, d < 10 := fun d h => hd d (List.mem_append.2 (.inl h))
    have dm : ∀ d ∈ ms, d < 10 := fun d h => hd d (List.mem_append.2 (.inr h))
    unfold parseTimeStampToMicroSeconds
    rw [splitColon_append _ (digitText_noColon hs dh), splitColon_single _ (digitText_noColon ms dm)]
    have key : ∀ ds : List Nat, (∀ d ∈ ds, d < 10) → ds ≠ [] → digitValue ds < 2 ^ 64 → parseUint (digitText ds) = some (UInt64.ofNat (digitValue ds)) := by
      intro ds h1 h2 h3
      unfold parseUint
      rw [if_neg (by simpa [digitText] using h2), parseDigits_text ds 0 h1 h3]
      rfl
    dsimp only
    rw [key hs dh h0 hh]
    dsimp only
    rw [key ms dm m0 hm]
    dsimp only
    generalize digitValue hs = a at *
    generalize digitValue ms = b at *
    simp only [UInt64.toNat_add, UInt64.toNat_mul, UInt64.toNat_ofNat', UInt64.reduceToNat]
    omega
  · intro hn
    unfold parseTimeStampToMicroSeconds
    split
    · rename_i a b hs
      split
      · rfl
      · rename_i x hx
        split
        · rfl
        · rename_i y hy
          obtain ⟨ds, d1, d2, d3, d4⟩ := parseUint_some hx
          obtain ⟨es, e1, e2, e3, e4⟩ := parseUint_some hy
          refine absurd ⟨ds, es, ?_, d2, e2, ?_, ?_, ?_⟩ hn
          · rw [splitColon_two hs, d3, e3]
          · intro d hd
            rcases List.mem_append.1 hd with h | h
            · exact d1 d h
            · exact e1 d h
          · rw [d4]; exact x.toNat_lt
          · rw [e4]; exact y.toNat_lt
    · rfl

example : IsTimeText (digitText [1, 2] ++ 58 :: digitText [3, 4]) [1, 2] [3, 4] ∧
    ¬ ∃ hs ms, IsTimeText [] hs ms := by
  refine ⟨⟨rfl, by decide, by decide, by decide, by decide, by decide⟩, ?_⟩
  rintro ⟨hs, ms, h, -⟩
  simp at h

/-! ## C82 -/

/-- C82, partial: after an accepted fine `set` and any later fine ones (and restarts) without a newer one at the
path or above it, `get` prints bytes with the digest of those that were stored, read from the file for this
digest. Missing: the empty path, paths at a limit (see `C82_violated`), and that the bytes themselves are equal
(see `C82_bytes_partial`). -/
theorem C82_get_partial (lib : KdLib) (sha : Bytes → Bytes) (ns : Bytes) (hs : ∀ b, (sha b).length = 32)
    (before later : List StoreOp) (now : UInt64) (sub path payload : Bytes) (t : UInt64) (ops : List StoreOp)
    (hops : ops = before ++ .set now ⟨sub, splitSlash path, t, payload⟩ sub :: later)
    (hw : ∀ op ∈ ops, op = .restart ∨ ∃ now sub path t payload, op = .set now ⟨sub, path, t, payload⟩ sub)
    (hf : ∀ op ∈ ops, FineOp (appStore lib sha ns) op) (hlen : ops.length < 2 ^ 64)
    (st st1 : StoreState) (r : List Entry) (hrun : runOps (appStore lib sha ns) .empty before = .ok st)
    (hset : storeSet (appStore lib sha ns) st now ⟨sub, splitSlash path, t, payload⟩ sub = .ok (some r, st1))
    (hno : ∀ op ∈ later, ∀ now' path' t' payload', op = .set now' ⟨sub, path', t', payload'⟩ sub → path' <+: splitSlash path →
      (if t' = 0 then now' else t') ≤ if t = 0 then now else t) :
    ∃ st2 b, runOps (appStore lib sha ns) st1 later = .ok st2 ∧ getCommand (appStore lib sha ns) st2 sub path = .ok b ∧
      sha b = sha payload ∧ payloadGet (appStore lib sha ns) st2.files (hexEncode (sha payload)) = some b := by
  have he := appStore_ok lib sha ns hs
  have hn := C42_application lib sha ns hs
  have hat : ∀ op e tk, attempt (appStore lib sha ns) op = some (e, tk) → op ∈ ops →
      tk = e.subspaceId ∧ ∃ now path t payload, op = .set now ⟨e.subspaceId, path, t, payload⟩ e.subspaceId ∧
        e.payloadDigest = hexEncode (sha payload) ∧ e.path = path ∧ e.timestamp = if t = 0 then now else t := by
    intro op e tk ha ho
    rcases hw op ho with rfl | ⟨now, sub, path, t, payload, rfl⟩
    · cases ha
    · simp only [attempt, Option.map_eq_some_iff, Prod.mk.injEq] at ha
      obtain ⟨tk', h1, rfl, rfl⟩ := ha
      have : tk' = sub := by
        simp only [appStore] at h1
        simpa using h1.symm
      subst this
      exact ⟨rfl, now, path, t, payload, rfl, rfl, rfl, rfl⟩
  have hexinj : ∀ a b : Bytes, hexEncode a = hexEncode b → a = b := by
    intro a b h
    have := congrArg hexDecode h
    rw [hexDecode_encode, hexDecode_encode] at this
    exact Option.some.inj this
  have hw' : ∀ op ∈ ops, IsWrite op := by
    intro op ho
    rcases hw op ho with h | ⟨_, _, _, _, _, h⟩
    · exact .inl h
    · exact .inr ⟨_, _, _, h⟩
  have hts : TokensBySubspace (appStore lib sha ns) ops := by
    intro op ho op' ho' e tk e' tk' h h' hsub
    rw [(hat op e tk h ho).1, (hat op' e' tk' h' ho').1, hsub]
  have hsetop : StoreOp.set now ⟨sub, splitSlash path, t, payload⟩ sub ∈ ops := by rw [hops]; simp
  obtain ⟨st2, ad, h1, h2⟩ := C55_readBack_partial (appStore lib sha ns) he before later now ⟨sub, splitSlash path, t, payload⟩ sub
    (by rw [← hops]; exact hf) st st1 r hrun hset (by
      intro op ho e tk ha hsub hp
      obtain ⟨rfl, now', path', t', payload', rfl, _, hpath, htime⟩ := hat op e tk ha (by rw [hops]; simp [ho])
      rw [htime]
      rw [hpath] at hp
      simp only at hsub
      rw [hsub] at ho
      exact hno _ ho now' path' t' payload' rfl hp)
  obtain ⟨st', h3, h4, h5⟩ := payload_run he hn hw' hts ops .empty [] (fun _ => 0) (fun _ h => h) hf (abs_empty _) rfl
    (fun a h => by simp at h) (fun a h => by simp at h) (fun d => by simp [refsTo]; exact hlen)
  have hst : st' = st2 := by
    rw [hops, runOps_append, hrun] at h3
    simp only [Res.ok_bind, runOps] at h3
    have : runOp (appStore lib sha ns) st (.set now ⟨sub, splitSlash path, t, payload⟩ sub) = .ok (some r, st1) := hset
    rw [this] at h3
    simp only [Res.ok_bind] at h3
    rw [h1] at h3
    exact (Res.ok.inj h3).symm
  subst hst
  have hcomf : Comfortable (appStore lib sha ns).p (splitSlash path) := by
    have := hf _ hsetop _ sub (by
      simp only [attempt, appStore]
      rfl)
    exact this.1
  refine ⟨st', ?_⟩
  rcases h4.core.entryGet sub (splitSlash path) hcomf.valid (.inr hcomf) with ⟨hm, _⟩ | ⟨a, ha, _, _, hg⟩
  · rw [hm] at h2; cases h2
  · rw [hg] at h2
    have hpd : a.val.payloadDigest = hexEncode (sha payload) := by
      have := congrArg (fun x => match x with | Res.ok (GetRes.found e _) => e.payloadDigest | _ => []) h2
      exact this
    obtain ⟨b, hb1, hb2⟩ := h5 a ha
    refine ⟨b, h1, ?_, hexinj _ _ (hb2.trans hpd), by
      unfold payloadGet
      dsimp only
      rw [← hpd, if_neg (by rw [← hb2]; exact hn.ne b), hb1]⟩
    unfold getCommand
    rw [hg]
    show (match payloadGet (appStore lib sha ns) st'.files a.val.payloadDigest with | some b => Res.ok b | none => Res.crash) = _
    unfold payloadGet
    dsimp only
    rw [if_neg (by rw [← hb2]; exact hn.ne b), hb1]

example : let ops : List StoreOp := [.set 1 ⟨[115], splitSlash [97], 5, [0xab]⟩ [115], .set 2 ⟨[115], splitSlash [98], 0, [8]⟩ [115]]
    (∀ op ∈ ops, FineOp (appStore listLib toySha [110]) op) ∧ (∀ b, (toySha b).length = 32) ∧ ¬ splitSlash [98] <+: splitSlash [97] ∧
    (do
      let (_, st) ← storeSet (appStore listLib toySha [110]) .empty 1 ⟨[115], splitSlash [97], 5, [0xab]⟩ [115]
      let st ← runOps (appStore listLib toySha [110]) st [.set 2 ⟨[115], splitSlash [98], 0, [8]⟩ [115]]
      getCommand (appStore listLib toySha [110]) st [115] [97]) = Res.ok [0xab] := by
  refine ⟨?_, fun b => by simp [toySha], by decide, by decide +kernel⟩
  simp only [List.forall_mem_cons, List.not_mem_nil, false_implies, implies_true, and_true]
  constructor
  all_goals
    intro e t h
    simp only [attempt, appStore, if_true, Option.map_some, Option.some.injEq, Prod.mk.injEq] at h
    obtain ⟨rfl, rfl⟩ := h
    exact ⟨.of_last ⟨by decide +kernel, by decide +kernel, by decide +kernel⟩ (by decide +kernel) (by decide +kernel)
      (by intro c hc; simp [splitSlash] at hc; subst hc; decide), by decide +kernel⟩

/-- C82 is violated: `get` after the `set` commands of `C75_violated` prints an empty line, whatever was stored. -/
theorem C82_violated (lib : KdLib) (sha : Bytes → Bytes) (ns : Bytes) (hs : ∀ b, (sha b).length = 32) (ops : List StoreOp)
    (hf : ∀ op ∈ ops, FineOp (appStore lib sha ns) op) (st : StoreState) (hrun : runOps (appStore lib sha ns) .empty ops = .ok st)
    (sub : Bytes) (hno : ∀ k ∈ st.kd, k.pos.subspace ≠ sub) (now : UInt64) (j : Nat) (hj : j < 49) (c payload : Bytes)
    (hc : c.length = 50) (hslash : (47 : UInt8) ∉ c) (hff : ∃ b ∈ c, b ≠ 255) :
    ∃ st', setCommand (appStore lib sha ns) st now sub (List.replicate j 47 ++ c) payload none = some (.ok (some [], st')) ∧
      getCommand (appStore lib sha ns) st' sub (List.replicate j 47 ++ c) = .ok [] := by
  obtain ⟨c', st', -, hlt, h1, h2, -, -⟩ := set_fullText lib sha ns hs ops hf st hrun sub hno now j hj c payload hc hslash hff
  refine ⟨st', h1, ?_⟩
  have hv : ValidPath (appStore lib sha ns).p (List.replicate j [] ++ [c]) := by
    refine ⟨by simp [appStore]; omega, fun d hd => ?_, ?_⟩
    · rcases List.mem_append.1 hd with hd | hd
      · rw [(List.mem_replicate.1 hd).2]; exact Nat.zero_le _
      · rw [List.mem_singleton.1 hd]; exact Nat.le_of_eq hc
    · rw [pathBytes_append, pathBytes_empties, pathBytes_cons, hc]
      exact Nat.le_refl _
  have hget : entryGet (appStore lib sha ns) st' sub (splitSlash (List.replicate j 47 ++ c)) = .ok .missing := by
    rw [splitSlash_slashes c hslash]
    unfold entryGet storageGet pointRange
    rw [successorPath_short hv (by simp [appStore]; omega)]
    simp only [Res.ok_bind, Option.getD_some]
    rw [query_nil _ _ _ fun k hk h => ?_]
    · rfl
    · rw [h2] at hk
      rcases List.mem_append.1 hk with hk | hk
      · exact hno k hk ((subspaceRange_iff _ _).1 h.1)
      · rw [List.mem_singleton.1 hk] at h
        have := (pathPoint_iff _ _).1 h.2.1
        have := List.append_cancel_left this
        simp only [List.cons.injEq, and_true] at this
        subst this
        exact bytesLt_strictTotal.irrefl _ hlt
  unfold getCommand
  rw [hget]
  rfl

example : (do
    let st ← runOps (appStore listLib toySha [110]) .empty [.set 1 ⟨[115], [List.replicate 50 97], 0, [9]⟩ [115]]
    getCommand (appStore listLib toySha [110]) st [115] (List.replicate 50 97)) = Res.ok [] := by
  decide +kernel

example : (do
    let st ← runOps (appStore listLib toySha [110]) .empty [.set 1 ⟨[115], splitSlash [97, 47, 98], 5, [9]⟩ [115]]
    let (r, st) ← storeSet (appStore listLib toySha [110]) st 1 ⟨[115], splitSlash [97], 6, [8]⟩ [115]
    let b ← getCommand (appStore listLib toySha [110]) st [115] [97]
    Res.ok (r.map List.length, b)) = Res.ok (some 1, [8]) := by
  decide +kernel

end Willow.Props
