import Verif.Lemmas.SharedMemory
import Verif.Lemmas.PropsStore
import Verif.Props.Successor

/-! C121: looking up a stored position or turning a received area into a range leaves its subspace as it was. -/

namespace Willow.Props

open Willow Spec

/-- C121 is violated: after a restart the keys of the tree are slices of the stored keys, in which the subspace
follows the last component of the path. Whatever else the store holds, looking up a key with the largest
number of components, a last component shorter than its limit, and a subspace that does not begin with
0, changes the subspace in the tree, and then either fails (the changed key is not in the database) or ends the
program (`log.Fatalln`); the entry is not found. -/
theorem C121_violated_lookup (env : StoreEnv) (kv : KV) (pre post : List HeldKey) (init : Path) (c : Bytes) (b : UInt8) (s : Bytes)
    (t : UInt64) (fp : Bytes) (hv : ValidPath env.p (init ++ [c])) (hc : c.length < env.p.cl)
    (hcount : init.length + 1 = env.p.cc) (ht : pathBytes (init ++ [c]) < env.p.pl) (hb : b ≠ 0)
    (hkv : ∀ q, kv.get (encodeKey env.p q) ≠ none →
      ∃ k ∈ pre ++ heldKey env.p ⟨b :: s, init ++ [c], t⟩ fp :: post, k.key.pos = q) :
    (∃ h, entryGetHeld env kv pre (heldKey env.p ⟨b :: s, init ++ [c], t⟩ fp) post = .ok (h, .error) ∧
      h.key.pos = ⟨0 :: s, init ++ [c], t⟩) ∨
    entryGetHeld env kv pre (heldKey env.p ⟨b :: s, init ++ [c], t⟩ fp) post = .crash := by
  unfold entryGetHeld
  rw [storageGetHeld_overwritten env.lib env.p pre post init c b s t fp hv hc hcount ht]
  have hmem : ∀ k : HeldKey, k ∈ pre ++ heldKey env.p ⟨0 :: s, init ++ [c], t⟩ fp :: post → k.key.pos.path = init ++ [c] →
      k.key.pos.subspace = 0 :: s → k.key ∈ env.lib.query
        ((pre ++ heldKey env.p ⟨0 :: s, init ++ [c], t⟩ fp :: post).map HeldKey.key)
        ⟨⟨0 :: s, b :: s ++ [0], false⟩, ⟨init ++ [c], init ++ [c ++ [0]], false⟩, ⟨0, 2, true⟩⟩ := by
    intro k hk hp hs
    rw [(env.lib.perm _ _).mem_iff, List.mem_filter]
    refine ⟨List.mem_map.2 ⟨k, hk, rfl⟩, ?_⟩
    rw [isIncluded3d_iff decides_subspace]
    exact in_overwritten_range hp (by rw [hs]; exact bytesLt_strictTotal.irrefl _)
      (by rw [hs]; exact bytesLt_strictTotal.asymm (bytesLt_zero hb s s))
  have hself := hmem _ (List.mem_append_right _ (List.mem_cons_self)) (by rw [heldKey_key]) (by rw [heldKey_key])
  match hq : env.lib.query ((pre ++ heldKey env.p ⟨0 :: s, init ++ [c], t⟩ fp :: post).map HeldKey.key)
      ⟨⟨0 :: s, b :: s ++ [0], false⟩, ⟨init ++ [c], init ++ [c ++ [0]], false⟩, ⟨0, 2, true⟩⟩ with
  | [] => rw [hq] at hself; exact absurd hself (List.not_mem_nil)
  | [k] =>
    left
    rw [hq] at hself
    have hk : k.pos = ⟨0 :: s, init ++ [c], t⟩ := by
      rw [← List.mem_singleton.1 hself]
      exact congrArg KdKey.pos (heldKey_key env.p _ fp)
    refine ⟨heldKey env.p ⟨0 :: s, init ++ [c], t⟩ fp, ?_, by rw [heldKey_key]⟩
    simp only [Res.ok_bind, hk]
    cases hg : kv.get (encodeKey env.p ⟨0 :: s, init ++ [c], t⟩) with
    | none => rfl
    | some v =>
      exfalso
      obtain ⟨k', hk', hp'⟩ := hkv ⟨0 :: s, init ++ [c], t⟩ (by rw [hg]; simp)
      have hk'' : k' ∈ pre ++ post := by
        rcases List.mem_append.1 hk' with h | h
        · exact List.mem_append_left _ h
        · rcases List.mem_cons.1 h with h | h
          · rw [h, heldKey_key] at hp'
            simp only [Position.mk.injEq, List.cons.injEq] at hp'
            exact absurd hp'.1.1 hb
          · exact List.mem_append_right _ h
      have := overwritten_two env.lib env.p pre post init c b s t fp hb k' hk'' (by rw [hp'])
        (by rw [hp']; exact bytesLt_strictTotal.irrefl _) (by rw [hp']; exact bytesLt_zero hb s s)
      rw [hq] at this
      simp at this
  | k :: k' :: rest => right; rfl

/-- A stored key at the limit of components: found in a tree of copies, not found in a tree of slices. -/
example : ValidPath cutEnv.p [[1], [2], [3], [4]] ∧ ([4] : Bytes).length < cutEnv.p.cl ∧ pathBytes [[1], [2], [3], [4]] < cutEnv.p.pl ∧
    (let pos : Position := ⟨[7, 8], [[1], [2], [3], [4]], 5⟩
     let kv : KV := [(encodeKey cutEnv.p pos, encodeValues ⟨3, [1], [2]⟩)]
     entryGet cutEnv { StoreState.empty with kd := [⟨pos, [2]⟩], kv := kv } pos.subspace pos.path =
       .ok (.found ⟨cutEnv.namespaceId, [7, 8], [[1], [2], [3], [4]], [1], 3, 5⟩ [2]) ∧
     (entryGetHeld cutEnv kv [] (heldKey cutEnv.p pos [2]) []).map' (fun r => (r.1.key.pos, r.2)) =
       .ok (⟨[0, 8], [[1], [2], [3], [4]], 5⟩, .error)) :=
  ⟨⟨by decide, by decide, by decide⟩, by decide, by decide, by decide +kernel⟩

/-- C121 is violated: such a lookup ends the program when another entry has the same path in a subspace between
the changed one and the one looked up. -/
theorem C121_violated_crash (env : StoreEnv) (kv : KV) (pre post : List HeldKey) (init : Path) (c : Bytes) (b : UInt8) (s : Bytes)
    (t : UInt64) (fp : Bytes) (hv : ValidPath env.p (init ++ [c])) (hc : c.length < env.p.cl)
    (hcount : init.length + 1 = env.p.cc) (ht : pathBytes (init ++ [c]) < env.p.pl) (hb : b ≠ 0)
    (k : HeldKey) (hk : k ∈ pre ++ post) (hpath : k.key.pos.path = init ++ [c])
    (h1 : ¬ BytesLt k.key.pos.subspace (0 :: s)) (h2 : BytesLt k.key.pos.subspace (b :: s)) :
    entryGetHeld env kv pre (heldKey env.p ⟨b :: s, init ++ [c], t⟩ fp) post = .crash := by
  unfold entryGetHeld
  rw [storageGetHeld_overwritten env.lib env.p pre post init c b s t fp hv hc hcount ht]
  have hlen := overwritten_two env.lib env.p pre post init c b s t fp hb k hk hpath h1 h2
  match env.lib.query _ _, hlen with
  | _ :: _ :: _, _ => rfl

example : ¬ BytesLt [3] (0 :: [8]) ∧ BytesLt [3] (7 :: [8]) ∧
    entryGetHeld cutEnv [] [heldKey cutEnv.p ⟨[3], [[1], [2], [3], [4]], 9⟩ []] (heldKey cutEnv.p ⟨[7, 8], [[1], [2], [3], [4]], 5⟩ []) [] =
      .crash := by
  refine ⟨?_, ?_, by decide +kernel⟩
  · rw [← decides_bytes.lt_iff]; decide
  · rw [← decides_bytes.lt_iff]; decide

/-- C121 is violated: an entry written over such a key (one that would prune it) is refused with an error or ends
the program, when the key is the first candidate. -/
theorem C121_violated_prune (env : StoreEnv) (kv : KV) (time : UInt64) (candidate : HeldKey → Bool) (pre post : List HeldKey)
    (init : Path) (c : Bytes) (b : UInt8) (s : Bytes)
    (t : UInt64) (fp : Bytes) (hv : ValidPath env.p (init ++ [c])) (hc : c.length < env.p.cl)
    (hcount : init.length + 1 = env.p.cc) (ht : pathBytes (init ++ [c]) < env.p.pl) (hb : b ≠ 0)
    (hkv : ∀ q, kv.get (encodeKey env.p q) ≠ none →
      ∃ k ∈ pre ++ heldKey env.p ⟨b :: s, init ++ [c], t⟩ fp :: post, k.key.pos = q)
    (hcand : candidate (heldKey env.p ⟨b :: s, init ++ [c], t⟩ fp) = true) (hold : t < time) :
    (∃ kd, prunableHeldLoop env kv time candidate pre (heldKey env.p ⟨b :: s, init ++ [c], t⟩ fp :: post) = .ok (kd, none)) ∨
    prunableHeldLoop env kv time candidate pre (heldKey env.p ⟨b :: s, init ++ [c], t⟩ fp :: post) = .crash := by
  have hif : candidate (heldKey env.p ⟨b :: s, init ++ [c], t⟩ fp) = true ∧
      (heldKey env.p ⟨b :: s, init ++ [c], t⟩ fp).time < time := ⟨hcand, hold⟩
  rw [prunableHeldLoop, if_pos hif]
  rcases C121_violated_lookup env kv pre post init c b s t fp hv hc hcount ht hb hkv with ⟨h, h1, -⟩ | h1
  · left; rw [h1]; exact ⟨_, rfl⟩
  · right; rw [h1]; rfl

example : (heldKey cutEnv.p ⟨[7, 8], [[1], [2], [3], [4]], 5⟩ [2]).time < 6 ∧
    (prunableHeldLoop cutEnv [] 6 (fun _ => true) [] [heldKey cutEnv.p ⟨[7, 8], [[1], [2], [3], [4]], 5⟩ [2]]).map' (·.2) = .ok none := by
  decide +kernel

/-- C121, partial: below the largest number of components the lookup changes nothing, and gives what the lookup of
the position in a tree of copies gives. Missing: keys with the largest number of components. -/
theorem C121_lookup_partial (env : StoreEnv) (st : StoreState) (pre post : List HeldKey) (h : HeldKey)
    (hl : h.path.length < env.p.cc) (hkd : st.kd = (pre ++ h :: post).map HeldKey.key) :
    entryGetHeld env st.kv pre h post = (entryGet env st h.key.pos.subspace h.key.pos.path).map' fun r => (h, r) := by
  unfold entryGetHeld entryGet
  rw [storageGetHeld_short _ _ _ _ _ (successorPathMem_short _ _ _ hl), hkd]
  cases storageGet env.lib env.p ((pre ++ h :: post).map HeldKey.key) h.key.pos.subspace h.key.pos.path with
  | ok o =>
    cases o with
    | none => rfl
    | some pos =>
      show (match st.kv.get (encodeKey env.p pos) with | none => _ | some _ => _) =
        Res.map' _ (match st.kv.get (encodeKey env.p pos) with | none => _ | some _ => _)
      cases st.kv.get (encodeKey env.p pos) with
      | none => rfl
      | some v =>
        show (decodeValues v).bind _ = Res.map' _ ((decodeValues v).bind _)
        cases decodeValues v <;> rfl
  | err => rfl
  | crash => rfl
  | block => rfl

example : (heldKey cutEnv.p ⟨[7, 8], [[1], [2]], 5⟩ [2]).path.length < cutEnv.p.cc := by decide

/-- C121, partial: the lookup of a stored key also changes nothing, and gives what the lookup in a tree of copies gives, when the last
component is as long as its limit or the subspace is empty or begins with 0. Missing: the others with the largest number of
components, for which see `C121_violated_lookup`. -/
theorem C121_stored_partial (env : StoreEnv) (st : StoreState) (pre post : List HeldKey) (pos : Position) (fp : Bytes)
    (hv : ValidPath env.p pos.path)
    (h : pos.path.length < env.p.cc ∨ (∃ c, pos.path.getLast? = some c ∧ c.length = env.p.cl) ∨ pos.subspace = [] ∨
      pos.subspace.head? = some 0)
    (hkd : st.kd = (pre ++ heldKey env.p pos fp :: post).map HeldKey.key) :
    ∃ h' : HeldKey, h'.key = ⟨pos, fp⟩ ∧
      entryGetHeld env st.kv pre (heldKey env.p pos fp) post = (entryGet env st pos.subspace pos.path).map' fun r => (h', r) := by
  have hs := heldKey_same env.p pos fp hv h
  refine ⟨_, hs.trans (heldKey_key env.p pos fp), ?_⟩
  unfold entryGetHeld entryGet
  rw [storageGetHeld_same _ _ _ _ _ hs, ← hkd, heldKey_key]
  simp only
  cases storageGet env.lib env.p st.kd pos.subspace pos.path with
  | ok o =>
    cases o with
    | none => rfl
    | some q =>
      simp only [Res.map', Res.ok_bind, Res.bind]
      cases st.kv.get (encodeKey env.p q) with
      | none => rfl
      | some v =>
        simp only [hs, heldKey_key]
        cases decodeValues v <;> rfl
  | err => rfl
  | crash => rfl
  | block => rfl

/-- Four components, the last of them at its limit of four bytes: found, though a byte of the buffer is overwritten. -/
example : let pos : Position := ⟨[7, 8], [[1], [2], [3], [255, 255, 255, 255]], 5⟩
    let kv : KV := [(encodeKey cutEnv.p pos, encodeValues ⟨3, [1], [2]⟩)]
    (entryGetHeld cutEnv kv [] (heldKey cutEnv.p pos [2]) []).map' (fun r => (r.1.key.pos, r.2, r.1.mem == encodeKey cutEnv.p pos)) =
      .ok (pos, .found ⟨cutEnv.namespaceId, [7, 8], pos.path, [1], 3, 5⟩ [2], false) := by decide +kernel

/-- C121 is violated: whatever follows a component is overwritten, when the component is shorter than its limit, there are as many components
as can be, and the ones after it have no successor of their length. -/
theorem C121_violated_written (p : PathParams) (mem : Bytes) (pre : List Window) (w : Window) (post : List Window)
    (hw : w.len < p.cl) (hpost : ∀ v ∈ post, v.len = p.cl ∧ v.read mem = List.replicate p.cl 255)
    (hcount : pre.length + 1 + post.length = p.cc) (hin : w.off + w.len < mem.length) :
    (successorPathMem p mem (pre ++ w :: post))[w.off + w.len]? = some 0 := by
  unfold successorPathMem
  have hl : (pre ++ w :: post).length = pre.length + 1 + post.length := by simp; omega
  rw [hl, if_neg (by omega), conv_of_le (Nat.le_of_eq hcount) p.hcc, if_neg (by omega),
    successorPathMemLoop_past p mem pre w post hw hpost _ (Nat.le_refl _), List.getElem?_set_self hin]

example : successorPathMem cutEnv.p [9, 7, 255, 255, 255, 255] [⟨0, 1⟩, ⟨0, 1⟩, ⟨0, 1⟩, ⟨2, 4⟩] = [9, 0, 255, 255, 255, 255] := by
  decide +kernel

/-- C121, partial: below the largest number of components, finding the entries to prune in a tree of slices gives what it
gives in a tree of copies, and leaves the tree as it was. Missing: keys with the largest number of components. -/
theorem C121_prune_partial (env : StoreEnv) (st : StoreState) (time : UInt64) (candidate : HeldKey → Bool) :
    ∀ (kd pre : List HeldKey), (∀ h ∈ kd, h.path.length < env.p.cc) → st.kd = (pre ++ kd).map HeldKey.key →
      prunableHeldLoop env st.kv time candidate pre kd =
        (prunableLoop env st time ((kd.filter candidate).map HeldKey.key)).map' fun r => (pre ++ kd, r)
  | [], pre, _, _ => by simp [prunableHeldLoop, prunableLoop, Res.map', Res.bind]
  | h :: rest, pre, hl, hkd => by
    have ih := C121_prune_partial env st time candidate rest (pre ++ [h])
      (fun k hk => hl k (List.mem_cons_of_mem _ hk)) (by rw [hkd]; simp)
    rw [List.append_assoc, List.singleton_append] at ih
    rw [prunableHeldLoop, ih]
    by_cases hc : candidate h = true
    · rw [List.filter_cons, if_pos hc, List.map_cons, prunableLoop]
      by_cases ht : h.time < time
      · rw [if_pos ⟨hc, ht⟩, if_pos (show h.key.pos.time < time from ht),
          C121_lookup_partial env st pre rest h (hl h List.mem_cons_self) hkd]
        cases entryGet env st h.key.pos.subspace h.key.pos.path with
        | ok r =>
          cases r with
          | found e a =>
            show Res.bind (prunableHeldLoop env st.kv time candidate (pre ++ [h]) rest) _ =
              Res.map' _ (Res.bind (prunableLoop env st time ((rest.filter candidate).map HeldKey.key)) _)
            rw [ih]
            cases prunableLoop env st time ((rest.filter candidate).map HeldKey.key) <;> rfl
          | missing => rfl
          | error => rfl
        | err => rfl
        | crash => rfl
        | block => rfl
      · rw [if_neg (fun h => ht h.2), if_neg (show ¬ h.key.pos.time < time from ht)]
    · rw [if_neg (fun h => hc h.1), List.filter_cons, if_neg hc]

example : (prunableHeldLoop cutEnv [(encodeKey cutEnv.p ⟨[7, 8], [[1], [2]], 5⟩, encodeValues ⟨3, [1], [2]⟩)] 6 (fun _ => true) []
    [heldKey cutEnv.p ⟨[7, 8], [[1], [2]], 5⟩ [2]]).map' (·.2) =
      .ok (some [(⟨cutEnv.namespaceId, [7, 8], [[1], [2]], [1], 3, 5⟩, [2])]) := by decide +kernel

/-- C121, partial: finding the entries to prune among stored keys gives what it gives in a tree of copies, and leaves all keys of the tree
the same, also with the largest number of components, if then the last component is as long as its limit or the subspace is empty or
begins with 0. Missing: the others with the largest number of components, for which see `C121_violated_prune`. -/
theorem C121_pruneStored_partial (env : StoreEnv) (st : StoreState) (time : UInt64) (candidate : HeldKey → Bool) :
    ∀ (keys : List KdKey) (pre : List HeldKey),
      (∀ k ∈ keys, ValidPath env.p k.pos.path ∧ (k.pos.path.length < env.p.cc ∨
        (∃ c, k.pos.path.getLast? = some c ∧ c.length = env.p.cl) ∨ k.pos.subspace = [] ∨ k.pos.subspace.head? = some 0)) →
      st.kd = pre.map HeldKey.key ++ keys →
      ∃ kd', kd'.map HeldKey.key = st.kd ∧
        prunableHeldLoop env st.kv time candidate pre (keys.map fun k => heldKey env.p k.pos k.fingerprint) =
          (prunableLoop env st time (keys.filter fun k => candidate (heldKey env.p k.pos k.fingerprint))).map' fun r => (kd', r)
  | [], pre, _, hkd => ⟨pre, by rw [hkd, List.append_nil], by simp [prunableHeldLoop, prunableLoop, Res.map', Res.bind]⟩
  | k :: rest, pre, hl, hkd => by
    have hkey : (heldKey env.p k.pos k.fingerprint).key = k := heldKey_key env.p k.pos k.fingerprint
    have hmap : (rest.map fun k => heldKey env.p k.pos k.fingerprint).map HeldKey.key = rest := by
      rw [List.map_map]
      exact List.map_id'' (fun k => heldKey_key env.p k.pos k.fingerprint) rest
    have hrest := fun k hk => hl k (List.mem_cons_of_mem _ hk)
    rw [List.map_cons, prunableHeldLoop]
    by_cases hc : candidate (heldKey env.p k.pos k.fingerprint) = true
    · rw [List.filter_cons, if_pos hc, prunableLoop]
      by_cases ht : k.pos.time < time
      · rw [if_pos ⟨hc, show (heldKey env.p k.pos k.fingerprint).key.pos.time < time by rw [hkey]; exact ht⟩, if_pos ht]
        obtain ⟨h', e1, e2⟩ := C121_stored_partial env st pre (rest.map fun k => heldKey env.p k.pos k.fingerprint) k.pos k.fingerprint
          (hl k List.mem_cons_self).1 (hl k List.mem_cons_self).2 (by rw [List.map_append, List.map_cons, hmap, hkey, hkd])
        have hkd' : st.kd = (pre ++ [h']).map HeldKey.key ++ rest := by
          rw [hkd, List.map_append, List.map_singleton, e1, List.append_assoc]; rfl
        obtain ⟨kd', f1, f2⟩ := C121_pruneStored_partial env st time candidate rest (pre ++ [h']) hrest hkd'
        rw [e2]
        have hstop : (pre ++ h' :: rest.map fun k => heldKey env.p k.pos k.fingerprint).map HeldKey.key = st.kd := by
          rw [List.map_append, List.map_cons, hmap, e1, hkd]
        cases entryGet env st k.pos.subspace k.pos.path with
        | ok r =>
          cases r with
          | found e a =>
            refine ⟨kd', f1, ?_⟩
            show Res.bind (prunableHeldLoop env st.kv time candidate (pre ++ [h']) _) _ = Res.map' _ (Res.bind (prunableLoop env st time _) _)
            rw [f2]
            cases prunableLoop env st time (rest.filter fun k => candidate (heldKey env.p k.pos k.fingerprint)) <;> rfl
          | missing => exact ⟨_, hstop, rfl⟩
          | error => exact ⟨_, hstop, rfl⟩
        | err => exact ⟨_, hstop, rfl⟩
        | crash => exact ⟨_, hstop, rfl⟩
        | block => exact ⟨_, hstop, rfl⟩
      · rw [if_neg (fun h => ht (by have := h.2; rwa [show (heldKey env.p k.pos k.fingerprint).time =
          (heldKey env.p k.pos k.fingerprint).key.pos.time from rfl, hkey] at this)), if_neg ht]
        exact C121_pruneStored_partial env st time candidate rest _ hrest (by
          rw [hkd, List.map_append, List.map_singleton, hkey, List.append_assoc]; rfl)
    · rw [if_neg (fun h => hc h.1), List.filter_cons, if_neg hc]
      exact C121_pruneStored_partial env st time candidate rest _ hrest (by
        rw [hkd, List.map_append, List.map_singleton, hkey, List.append_assoc]; rfl)

/-- Four components, the last at its limit of four bytes, and four in a subspace that begins with 0. -/
example : (prunableHeldLoop cutEnv [(encodeKey cutEnv.p ⟨[0, 8], [[1], [2], [3], [4]], 4⟩, encodeValues ⟨3, [1], [2]⟩),
      (encodeKey cutEnv.p ⟨[7, 8], [[1], [2], [3], [255, 255, 255, 255]], 5⟩, encodeValues ⟨3, [1], [2]⟩)] 6 (fun _ => true) []
    [heldKey cutEnv.p ⟨[0, 8], [[1], [2], [3], [4]], 4⟩ [2], heldKey cutEnv.p ⟨[7, 8], [[1], [2], [3], [255, 255, 255, 255]], 5⟩ [2]]).map' (·.2) =
      .ok (some [(⟨cutEnv.namespaceId, [0, 8], [[1], [2], [3], [4]], [1], 3, 4⟩, [2]),
        (⟨cutEnv.namespaceId, [7, 8], [[1], [2], [3], [255, 255, 255, 255]], [1], 3, 5⟩, [2])]) := by decide +kernel

/-- C121 is violated: when the subspace of an area follows its path in the buffer, as in an encoded area that was
decoded with slices, the path's last component is shorter than its limit, and the subspace does not begin
with 0, then the range made of the area begins at a smaller subspace: it contains the positions below
the area's path in all subspaces between, which are not in the area. -/
theorem C121_violated_area (p : PathParams) (minimal front : Bytes) (ws : List Window) (init : Path) (c : Bytes) (b : UInt8)
    (s post : Bytes) (times : GRange UInt64) (hws : ∀ w ∈ ws, w.off + w.len ≤ front.length)
    (hv : ValidPath p (ws.map (·.read front) ++ (init ++ [c]))) (hc : c.length < p.cl)
    (ht : pathBytes (ws.map (·.read front) ++ (init ++ [c])) < p.pl) (hb : b ≠ 0) (a : HeldArea)
    (ha : a = ⟨⟨front.length + (encodePath p (init ++ [c])).length, (b :: s).length⟩, false,
      ws ++ componentWindows p (init ++ [c]) (front.length + getWidthMax32Int p.cc), times⟩)
    (mem : Bytes) (hm : mem = front ++ encodePath p (init ++ [c]) ++ b :: s ++ post) :
    a.area mem = ⟨b :: s, false, ws.map (·.read front) ++ (init ++ [c]), times⟩ ∧
    ∃ after r, areaTo3dRangeMem minimal successorSubspaceId p mem a = .ok (after, r) ∧
      (a.area after).subspace = 0 :: s ∧
      ∀ x : Position, (a.area mem).path <+: x.path → InRange TimeLt times x.time → ¬ BytesLt x.subspace (0 :: s) →
        BytesLt x.subspace (b :: s) → InRange3d r x ∧ ¬ InArea (a.area mem) x := by
  obtain ⟨h1, h2⟩ := follows_read p front ws (init ++ [c]) (b :: s) post hws
  obtain ⟨h3, h4⟩ := follows_read p front ws (init ++ [c]) (0 :: s) post hws
  have hmem := follows_overwritten p front ws init c b s post hc
  have harea : a.area mem = ⟨b :: s, false, ws.map (·.read front) ++ (init ++ [c]), times⟩ := by
    rw [ha, hm]
    simp only [HeldArea.area, h1, h2]
  refine ⟨harea, ?_⟩
  rw [harea]
  have hsp : successorPrefix (ws.map (·.read front) ++ (init ++ [c])) p =
      .ok (some (ws.map (·.read front) ++ init ++ [c ++ [0]])) := by
    rw [← List.append_assoc] at hv ht ⊢
    exact successorPrefix_room hv hc ht (by simp)
  refine ⟨front ++ encodePath p (init ++ [c]) ++ 0 :: s ++ post,
    ⟨⟨0 :: s, successorSubspaceId (b :: s), false⟩,
      ⟨ws.map (·.read front) ++ (init ++ [c]), ws.map (·.read front) ++ init ++ [c ++ [0]], false⟩, times⟩, ?_, ?_, ?_⟩
  · rw [ha, hm]
    unfold areaTo3dRangeMem
    simp only [List.length_cons] at h2 h4
    simp only [List.length_cons, h1, h2, h3, h4, hmem, hsp, Res.ok_bind, Option.getD_some, Bool.not_false, if_true]
    simp
  · rw [ha]; exact h4
  · intro x hp htm hlo hhi
    refine ⟨⟨⟨hlo, .inr ?_⟩, ⟨prefix_not_lt bytesLt_strictTotal hp, .inr ?_⟩, htm⟩, ?_⟩
    · exact bytesLt_strictTotal.trans _ _ _ hhi (lexLt_append _ (by simp))
    · rw [← List.append_assoc] at hp
      exact ext_lt_succ (post := []) (lexLt_append c (by simp)) hp
    · rintro ⟨h | h, -⟩
      · simp at h
      · rw [h] at hhi
        exact bytesLt_strictTotal.irrefl _ hhi

/-- An area of subspace 7, 8 below the path 1, 2 whose last component and subspace were decoded from one buffer (the
first component from the outer area): its range contains the subspace 3. -/
example : let front : Bytes := [1, 1]
    let ws : List Window := [⟨1, 1⟩]
    let mem := front ++ encodePath tinyParams [[2]] ++ 7 :: [8] ++ []
    ValidPath tinyParams (ws.map (·.read front) ++ ([] ++ [[2]])) ∧ mem = [1, 1, 1, 1, 2, 7, 8] ∧
    ∃ r, areaTo3dRangeMem [] successorSubspaceId tinyParams mem ⟨⟨5, 2⟩, false, [⟨1, 1⟩, ⟨4, 1⟩], ⟨0, 9, false⟩⟩ =
      .ok ([1, 1, 1, 1, 2, 0, 8], r) ∧ isIncluded3d orderSubspace r ⟨[3], [[1], [2]], 5⟩ = true :=
  ⟨⟨by decide, by decide, by decide⟩, by decide +kernel, _, rfl, by decide +kernel⟩

/-- C121, partial: when the subspace of the area is elsewhere (it does not cover the byte behind the path's last component)
and the last component is shorter than its limit, the range is that of `AreaTo3dRange` on copies. Missing: areas whose
subspace follows the path, and paths ending in a component of full length. -/
theorem C121_area_partial (p : PathParams) (minimal : Bytes) (succ : Bytes → Bytes) (mem : Bytes) (a : HeldArea) (ws : List Window) (w : Window)
    (ha : a.path = ws ++ [w]) (hlen : w.len < p.cl) (hread : (w.read mem).length = w.len)
    (hws : ∀ v ∈ a.path, v.off + v.len ≤ w.off + w.len ∨ w.off + w.len < v.off)
    (hs : a.subspace.off + a.subspace.len ≤ w.off + w.len ∨ w.off + w.len < a.subspace.off) :
    ∃ after, areaTo3dRangeMem minimal succ p mem a = (areaTo3dRange minimal succ p (a.area mem)).map' (fun r => (after, r)) ∧
      a.area after = a.area mem := by
  have hmem : successorPrefixMem p mem a.path = mem.set (w.off + w.len) 0 := by
    rw [ha, successorPrefixMem_end p mem ws w hlen]
  have h1 : a.path.map (·.read (mem.set (w.off + w.len) 0)) = a.path.map (·.read mem) :=
    List.map_congr_left fun v hv => Window.read_set (hws v hv)
  have h2 : a.subspace.read (mem.set (w.off + w.len) 0) = a.subspace.read mem := Window.read_set hs
  have h3 : successorPrefixMutated (a.path.map (·.read mem)) p = a.path.map (·.read mem) := by
    refine successorPrefixMutated_short fun d hd => ?_
    rw [ha, List.map_append, List.map_singleton, List.getLast?_append, List.getLast?_singleton] at hd
    simp at hd
    rw [← hd, hread]
    exact hlen
  refine ⟨mem.set (w.off + w.len) 0, ?_, by simp only [HeldArea.area, h1, h2]⟩
  unfold areaTo3dRangeMem areaTo3dRange
  simp only [hmem, h1, h2, HeldArea.area, h3]
  cases successorPrefix (a.path.map (·.read mem)) p <;> rfl

/-- The subspace before the path. -/
example : let mem : Bytes := [7, 8, 1, 1, 2, 9]
    (⟨4, 1⟩ : Window).read mem = [2] ∧ ((⟨4, 1⟩ : Window).read mem).length = 1 ∧ (0 + 2 ≤ 4 + 1 ∨ 4 + 1 < 0) ∧
    areaTo3dRangeMem [] successorSubspaceId tinyParams mem ⟨⟨0, 2⟩, false, [⟨4, 1⟩], ⟨0, 9, false⟩⟩ =
      .ok ([7, 8, 1, 1, 2, 0], ⟨⟨[7, 8], [7, 8, 0], false⟩, ⟨[[2]], [[2, 0]], false⟩, ⟨0, 9, false⟩⟩) := by decide +kernel

end Willow.Props
