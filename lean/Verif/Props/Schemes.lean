import Verif.Lemmas.Schemes
import Verif.Props.Encoding

/-! Properties of the encoding schemes that come with the code (C119), and of the memory that
encoding an entry writes to (C120). -/

namespace Willow.Props

open Willow Spec

/-! ## C119 -/

/-- C119, partial: an id is decoded from exactly its encoding, and the length of the encoding is as
said. Missing: encodings that are followed by something (see the violations). -/
theorem C119_alone_partial (c : Codec) (h : c = appCodec ∨ c = storeCodec) (x : Bytes) :
    c.dec (c.enc x) = .ok x ∧ c.len x = (c.enc x).length := by
  rcases h with rfl | rfl <;> exact ⟨rfl, rfl⟩

example : appCodec.dec (appCodec.enc [1, 2]) = .ok [1, 2] := rfl

/-- C119 is violated: whatever follows an encoded id is taken for part of it. -/
theorem C119_violated (c : Codec) (h : c = appCodec ∨ c = storeCodec) (x rest : Bytes) :
    c.dec (c.enc x ++ rest) = .ok (x ++ rest) := by
  rcases h with rfl | rfl <;> rfl

/-- C119 is violated: decoding an id from a stream takes nothing from the stream, and returns what
happens to have arrived of it and of what follows. -/
theorem C119_violated_stream (g : GB) (x : Bytes) (g' : GB) (h : storeCodec.decStream g = .ok (x, g')) :
    g'.content = g.content ∧ x = g'.buf ∧ x <+: g.content := by
  have h : nextAbsolute 1 g = .ok (x, g') := h
  obtain ⟨h1, h2, -⟩ := nextAbsolute_inv h
  exact ⟨h2, h1, h2 ▸ h1 ▸ List.prefix_append _ _⟩

example : (storeCodec.decStream ⟨[1, 2, 3], [[4]], [], .exact⟩).map' (·.1) = .ok [1, 2, 3] ∧
    (storeCodec.decStream ⟨[], [[1], [2], [3]], [], .exact⟩).map' (·.1) = .ok [1] := by decide

/-- C119 is violated: with the schemes of the application, whose stream decoders are not set, the first entry in a message that says
it comes with its namespace or its subspace ends the program, whatever follows. -/
theorem C119_violated_unset (ss pd : Codec) (p : PathParams) (ref : Entry) (b : UInt8) (rest : Bytes) (g : GB)
    (hg : g.content = b :: rest) (hb : b &&& 0x80 = 0x80 ∨ b &&& 0x40 = 0x40 ∧ ss = appCodec) :
    decodeStreamEntryRelativeEntry appCodec ss pd p ref g = .crash := by
  obtain ⟨g1, h1, h2, h3, -⟩ := nextAbsolute_ok 1 g (by rw [hg]; simp)
  have hp : peekByte g = .ok (b, g1) := by
    unfold peekByte
    rw [Dec.bind_apply, h1]
    rw [hg] at h2
    match hbuf : g1.buf with
    | [] => rw [hbuf] at h3; simp at h3
    | c :: t =>
      unfold GB.content at h2
      rw [hbuf, List.cons_append, List.cons.injEq] at h2
      rw [← h2.1]
      rfl
  unfold decodeStreamEntryRelativeEntry
  rw [Dec.bind_apply, hp]
  simp only [Dec.bind_apply, prune_apply]
  by_cases hn : b &&& 0x80 = 0x80
  · rw [if_pos (by simpa using hn)]
    rfl
  · rcases hb with h | ⟨h, rfl⟩
    · exact absurd h hn
    · rw [if_neg (by simpa using hn), if_pos (c := (b &&& 0x40 == 0x40) = true) (by simpa using h)]
      rfl

/-- An entry of another namespace, encoded relative to the reference. -/
example : ∃ enc rest, encodeEntryRelativeEntry appCodec appCodec appCodec (· == ·) orderSubspace tinyParams ⟨[1], [2], [[3]], [4], 5, 6⟩
    ⟨[9], [2], [[3]], [4], 5, 6⟩ = .ok enc ∧ enc = 0x80 :: rest ∧
    decodeStreamEntryRelativeEntry appCodec appCodec appCodec tinyParams ⟨[9], [2], [[3]], [4], 5, 6⟩ ⟨enc, [], [], .exact⟩ = .crash :=
  ⟨_, _, rfl, rfl, by decide +kernel⟩

/-- C119 is violated: decoding an encoded entry waits for ever. -/
theorem C119_violated_entry (ns ss pd : Codec) (hn : ns = appCodec ∨ ns = storeCodec) (hs : ss = appCodec ∨ ss = storeCodec)
    (p : PathParams) (sched room : List Nat) (e : Entry) :
    decodeEntry ns ss pd p sched room (encodeEntry ns ss pd p e) = .block := by
  generalize encodeEntry ns ss pd p e = enc
  have h1 : ns.dec enc = .ok enc := by rcases hn with rfl | rfl <;> rfl
  have h2 : ns.len enc = enc.length := by rcases hn with rfl | rfl <;> rfl
  have h3 : ∀ b, ss.dec b = .ok b := by intro b; rcases hs with rfl | rfl <;> rfl
  have h4 : ∀ b, ss.len b = b.length := by intro b; rcases hs with rfl | rfl <;> rfl
  have h5 : sliceFrom enc enc.length = .ok [] := by simp [sliceFrom, slice]
  simp only [decodeEntry, h1, Res.ok_bind, h2, h5, h3, h4, List.length_nil, Nat.add_zero, List.map_nil]
  have hb : decodePathStream p ⟨[], [], sched, ⟨0, room⟩⟩ = .block := by
    unfold decodePathStream
    rw [Dec.bind_apply, nextAbsolute_block _ _ (by simpa [GB.content] using getWidthMax32Int_pos p.cc)]
  rw [hb]
  rfl

/-- C119 is violated: entries of different namespaces and subspaces have the same encoding. -/
theorem C119_violated_same (pd : Codec) (p : PathParams) (a b c : Bytes) (hb : b ≠ []) (e : Entry) :
    ∃ e₁ e₂ : Entry, e₁ ≠ e₂ ∧ e₁ = { e with namespaceId := a ++ b, subspaceId := c } ∧
      e₂ = { e with namespaceId := a, subspaceId := b ++ c } ∧
      encodeEntry appCodec appCodec pd p e₁ = encodeEntry appCodec appCodec pd p e₂ := by
  refine ⟨_, _, ?_, rfl, rfl, by simp [encodeEntry, appCodec]⟩
  intro h
  have := congrArg Entry.namespaceId h
  simp only [List.append_right_eq_self] at this
  exact hb this

example : ([2] : Bytes) ≠ [] := by decide

/-! ## C120 -/

/-- C120: the encoding is that of the entry, wherever its namespace id is stored. -/
theorem C120_value_partial (arr : Bytes) (len : Nat) (hl : len ≤ arr.length) (ss pd : Codec) (p : PathParams) (e : Entry)
    (hn : e.namespaceId = arr.take len) :
    (encodeEntryMem arr len ss pd p e).2 = encodeEntry appCodec ss pd p e := by
  rw [encodeEntryMem, appendAll_value _ _ _ hl]
  simp [encodeEntry, appCodec, hn]

/-- C120, partial: the namespace id itself is not changed, and if there is no room behind it nothing
is. Missing: see `C120_violated`. -/
theorem C120_kept_partial (arr : Bytes) (len : Nat) (hl : len ≤ arr.length) (ss pd : Codec) (p : PathParams) (e : Entry) :
    (encodeEntryMem arr len ss pd p e).1.take len = arr.take len ∧
      (encodeEntryMem arr len ss pd p e).1.length = arr.length ∧
      (len = arr.length → (encodeEntryMem arr len ss pd p e).1 = arr) := by
  obtain ⟨n, h1, h2, h3, -⟩ := appendAll_array arr len [ss.enc e.subspaceId, encodePath p e.path, bigIntToBytes e.timestamp,
    bigIntToBytes e.payloadLength, pd.enc e.payloadDigest] hl
  unfold encodeEntryMem
  rw [h3]
  generalize (List.take n _).flatten = w at h2 ⊢
  refine ⟨?_, by simp; omega, fun h => ?_⟩
  · have hw : len ≤ (arr.take len).length := by simp; omega
    rw [List.append_assoc, List.take_append_of_le_length hw, List.take_take, Nat.min_self]
  · have : w = [] := List.length_eq_zero_iff.1 (by omega)
    subst this
    simp

/-- C120 is violated: if there is room behind the namespace id for the encoded subspace id, this is
written over what is stored there. -/
theorem C120_violated (arr : Bytes) (len : Nat) (ss pd : Codec) (p : PathParams) (e : Entry)
    (hr : len + (ss.enc e.subspaceId).length ≤ arr.length) :
    ss.enc e.subspaceId <+: (encodeEntryMem arr len ss pd p e).1.drop len := by
  obtain ⟨n, h1, h2, h3, h4⟩ := appendAll_array arr len [ss.enc e.subspaceId, encodePath p e.path, bigIntToBytes e.timestamp,
    bigIntToBytes e.payloadLength, pd.enc e.payloadDigest] (by omega)
  unfold encodeEntryMem
  rw [h3]
  cases n with
  | zero =>
    have := h4 (ss.enc e.subspaceId) rfl
    simp at this
    omega
  | succ n =>
    simp only [List.take_succ_cons, List.flatten_cons, List.append_assoc]
    rw [List.drop_append_of_le_length (by simp; omega), List.drop_of_length_le (by simp; omega)]
    exact ⟨_, rfl⟩

example : encodeEntryMem [42, 1, 2, 3] 1 (fixedCodec 1) (fixedCodec 1) tinyParams ⟨[42], [7], [[5]], [9], 0, 0⟩ =
    ([42, 7, 2, 3], encodeEntry appCodec (fixedCodec 1) (fixedCodec 1) tinyParams ⟨[42], [7], [[5]], [9], 0, 0⟩) := by decide

end Willow.Props
