import Verif.Lemmas.PropsForged
import Verif.Lemmas.PropsLimits
import Verif.Lemmas.PropsApp
import Verif.Lemmas.App

/-! Entries whose last component has the greatest length allowed. -/

namespace Willow
open Spec Props

/-- The last byte below 255. -/
theorem exists_last_below : ∀ c : Bytes, (∃ b ∈ c, b ≠ 255) → ∃ x b k, b ≠ 255 ∧ c = x ++ b :: List.replicate k 255
  | [], h => by simp at h
  | d :: c, h => by
    by_cases hc : ∃ b ∈ c, b ≠ 255
    · obtain ⟨x, b, k, hb, rfl⟩ := exists_last_below c hc
      exact ⟨d :: x, b, k, hb, rfl⟩
    · refine ⟨[], d, c.length, ?_, ?_⟩
      · obtain ⟨b, hb, hn⟩ := h
        rcases List.mem_cons.1 hb with rfl | hb
        · exact hn
        · exact absurd ⟨b, hb, hn⟩ hc
      · rw [List.nil_append, List.cons.injEq]
        refine ⟨rfl, List.eq_replicate_iff.2 ⟨rfl, fun b hb => ?_⟩⟩
        refine Classical.byContradiction fun hn => hc ⟨b, hb, hn⟩

section
variable {env : StoreEnv} {s : Bytes} {pre : Path} {x : Bytes} {b : UInt8} {k : Nat}
  (hb : b ≠ 255) (hlen : (x ++ b :: List.replicate k 255).length = env.p.cl)
  (hv : ValidPath env.p (pre ++ [x ++ b :: List.replicate k 255])) (hroom : pre.length + 1 < env.p.cc)
include hb hlen hv hroom

theorem belowRange_fullEnd : belowRange env.p s (pre ++ [x ++ b :: List.replicate k 255]) =
    .ok ⟨⟨s, successorSubspaceId s, false⟩, ⟨pre ++ [x ++ (b + 1) :: List.replicate k 255] ++ [[]], pre ++ [x ++ [b + 1]], false⟩,
      ⟨0, 2, true⟩⟩ := by
  have h1 := successorPath_short hv (by simpa using hroom)
  have h2 := successorPrefix_full (post := []) hb hlen (by simp) hv
  have h3 := successorPrefixMutated_full (pre := pre) (post := []) hb hlen (by simp)
  unfold belowRange
  rw [h1, h2, h3]
  simp only [Res.ok_bind, Option.getD_some]
  rw [if_pos (by simp), List.drop_left]

/-- The first entry of its subspace whose last component is full is stored in the tree under another path. -/
theorem ingest_fullEnd {st : StoreState} {e : Entry} {tok : Bytes} (hl : st.locked = false)
    (hns : env.nsEqual env.namespaceId e.namespaceId = true) (ha : env.isAuthorised e tok = true)
    (hkd : ∀ k ∈ st.kd, k.pos.subspace ≠ e.subspaceId) (hp : e.path = pre ++ [x ++ b :: List.replicate k 255])
    {c : UInt64} {refs : KV} (hrefs : refIncrement st.refs e.payloadDigest = .ok (c, refs)) :
    ingestEntry env st e tok = .ok (some [], { st with
      kv := st.kv.set (encodeKey env.p e.position) (encodeValues ⟨e.payloadLength, e.payloadDigest, (payloadSet env st.files (env.tokenEncode tok)).2.1⟩)
      kd := st.kd ++ [⟨⟨e.subspaceId, pre ++ [x ++ (b + 1) :: List.replicate k 255], e.timestamp⟩, []⟩], refs := refs,
      files := (payloadSet env st.files (env.tokenEncode tok)).1, locked := false }) := by
  have h3 : successorPrefixMutated e.path env.p = pre ++ [x ++ (b + 1) :: List.replicate k 255] := by
    rw [hp]
    exact successorPrefixMutated_full (pre := pre) (post := []) hb hlen (by simp)
  have := ingest_mutated (st := st) hl hns ha hkd (by rw [hp]; simp) (fun q hq _ => by
      rw [hp] at hq
      have hql := hq.length_le
      refine ⟨_, successorPath_short ⟨?_, fun c hc => ?_, ?_⟩ ?_⟩
      · simp at hql; omega
      · exact hv.comp c (hq.subset hc)
      · obtain ⟨t, ht⟩ := hq
        have := hv.total
        rw [← ht, pathBytes_append] at this
        omega
      · simp at hql; omega)
    (by rw [hp]; exact belowRange_fullEnd hb hlen hv hroom) (by
      rw [h3, Bool.eq_false_iff]
      intro h
      refine ((isIncluded3d_iff decides_subspace _ _).1 h).2.1.1 ?_
      exact lexLt_append _ (by simp)) hrefs
  rw [h3] at this
  exact this
end

theorem splitSlash_slashes (c : Bytes) (hc : (47 : UInt8) ∉ c) : ∀ j, splitSlash (List.replicate j 47 ++ c) = List.replicate j [] ++ [c]
  | 0 => splitSlash_single c hc
  | j + 1 => by
    rw [List.replicate_succ, List.replicate_succ, List.cons_append, splitSlash, if_pos rfl, splitSlash_slashes c hc j]
    rfl

theorem pathBytes_empties (j : Nat) : pathBytes (List.replicate j []) = 0 := by
  induction j with
  | zero => rfl
  | succ j ih => rw [List.replicate_succ, pathBytes_cons, ih]; rfl

/-- The `set` command with a text that is some slashes and a component of 50 bytes, in a store without entries of the
subspace. -/
theorem set_fullText (lib : KdLib) (sha : Bytes → Bytes) (ns : Bytes) (hs : ∀ b, (sha b).length = 32) (ops : List StoreOp)
    (hf : ∀ op ∈ ops, FineOp (appStore lib sha ns) op) (st : StoreState) (hrun : runOps (appStore lib sha ns) .empty ops = .ok st)
    (sub : Bytes) (hno : ∀ k ∈ st.kd, k.pos.subspace ≠ sub) (now : UInt64) (j : Nat) (hj : j < 49) (c payload : Bytes)
    (hc : c.length = 50) (hslash : (47 : UInt8) ∉ c) (hff : ∃ b ∈ c, b ≠ 255) :
    ∃ c' st', c'.length = 50 ∧ BytesLt c c' ∧
      setCommand (appStore lib sha ns) st now sub (List.replicate j 47 ++ c) payload none = some (.ok (some [], st')) ∧
      st'.kd = st.kd ++ [⟨⟨sub, List.replicate j [] ++ [c'], now⟩, []⟩] ∧
      (∃ v, st'.kv = st.kv.set (encodeKey (appStore lib sha ns).p ⟨sub, List.replicate j [] ++ [c], now⟩) v) ∧ st'.locked = false := by
  obtain ⟨st0, h1, h2, h3⟩ := run_ok (appStore_ok lib sha ns hs) ops hf
  obtain rfl : st0 = st := by rw [h1] at hrun; exact Res.ok.inj hrun
  obtain ⟨x, b, k, hb, rfl⟩ := exists_last_below c hff
  have hlen : (x ++ b :: List.replicate k 255).length = (appStore lib sha ns).p.cl := hc
  have hv : ValidPath (appStore lib sha ns).p (List.replicate j [] ++ [x ++ b :: List.replicate k 255]) := by
    refine ⟨by simp [appStore]; omega, fun d hd => ?_, ?_⟩
    · rcases List.mem_append.1 hd with hd | hd
      · rw [(List.mem_replicate.1 hd).2]; exact Nat.zero_le _
      · rw [List.mem_singleton.1 hd]; exact Nat.le_of_eq hlen
    · rw [pathBytes_append, pathBytes_empties, pathBytes_cons, hlen]
      exact Nat.le_refl _
  obtain ⟨n, refs, h5, h6⟩ := h2.refs.increment ⟨⟨sub, [], now⟩, ⟨0, hexEncode (sha payload), []⟩⟩
  refine ⟨x ++ (b + 1) :: List.replicate k 255, ?_⟩
  have hset : refCount refs (hexEncode (sha payload)) = .ok n := by
    unfold refIncrement at h5
    obtain ⟨m, -, h⟩ := Res.bind_eq_ok.1 h5
    cases h
    unfold refCount
    rw [KV.get_set, if_pos rfl]
    exact bigEndianUint64_putU64 _
  have hin := ingest_fullEnd (env := appStore lib sha ns) (st := { st0 with files := (payloadSet (appStore lib sha ns) st0.files payload).1 })
    (e := setEntry (appStore lib sha ns) now ⟨sub, splitSlash (List.replicate j 47 ++ (x ++ b :: List.replicate k 255)), 0, payload⟩) (tok := sub)
    hb hlen hv (by simp [appStore]; omega) h3 (by simp [appStore, setEntry, (decides_bytes.eq_iff _ _).2]) (by simp [appStore, setEntry, (decides_bytes.eq_iff _ _).2])
    hno (splitSlash_slashes _ hslash j) h5
  have hlt : BytesLt (x ++ b :: List.replicate k 255) (x ++ (b + 1) :: List.replicate k 255) := by
    rw [BytesLt, lexLt_append_left (fun _ h => Nat.lt_irrefl _ (UInt8.lt_iff_toNat_lt.1 h))]
    exact .inl (u8_succ_lt hb)
  have hcmd : setCommand (appStore lib sha ns) st0 now sub (List.replicate j 47 ++ (x ++ b :: List.replicate k 255)) payload none =
      some (storeSet (appStore lib sha ns) st0 now ⟨sub, splitSlash (List.replicate j 47 ++ (x ++ b :: List.replicate k 255)), 0, payload⟩ sub) := rfl
  have hauth : (appStore lib sha ns).authorise (setEntry (appStore lib sha ns) now
      ⟨sub, splitSlash (List.replicate j 47 ++ (x ++ b :: List.replicate k 255)), 0, payload⟩) sub = some sub := if_pos rfl
  rw [hcmd]
  unfold storeSet
  dsimp only
  rw [hauth]
  dsimp only
  rw [hin]
  dsimp only
  rw [show (payloadSet (appStore lib sha ns) st0.files payload).2.1 = hexEncode (sha payload) from rfl, hset]
  have hpos : (setEntry (appStore lib sha ns) now
      ⟨sub, splitSlash (List.replicate j 47 ++ (x ++ b :: List.replicate k 255)), 0, payload⟩).position =
      ⟨sub, List.replicate j [] ++ [x ++ b :: List.replicate k 255], now⟩ := by
    unfold setEntry Entry.position
    simp only [splitSlash_slashes _ hslash j, if_true]
  rw [hpos]
  by_cases hn : n = 0
  · simp only [if_pos hn]
    exact ⟨_, by simpa using hc, hlt, rfl, rfl, ⟨_, rfl⟩, rfl⟩
  · simp only [if_neg hn]
    exact ⟨_, by simpa using hc, hlt, rfl, rfl, ⟨_, rfl⟩, rfl⟩

theorem makePath_slashes (c : Bytes) : ∀ j, makePath (List.replicate j [] ++ [c]) = .ok (List.replicate j 47 ++ c)
  | 0 => rfl
  | j + 1 => by
    have key : ∀ j (a : Bytes), makePathLoop (List.replicate j [] ++ [c]) a = a ++ (47 :: (List.replicate j 47 ++ c)) := by
      intro j
      induction j with
      | zero => intro a; rfl
      | succ j ih =>
        intro a
        rw [List.replicate_succ, List.cons_append, makePathLoop, ih]
        simp [List.replicate_succ]
    rw [List.replicate_succ, List.cons_append]
    show Res.ok (makePathLoop _ _) = _
    rw [key]
    rfl

end Willow
