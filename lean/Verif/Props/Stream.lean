import Verif.Lemmas.StreamExact
import Verif.Lemmas.Slices
import Verif.Props.Successor

/-! Property theorems C21, C22 and the shared-memory part of C15. -/

namespace Willow.Props
open Willow Spec

/-! ## C21 -/

/-- C21 is violated: the decoder waits for too few bytes of a component. It crashes if the array in which the
bytes are gathered has no room for the component. The same bytes in another chunking are decoded. -/
theorem C21_violated_crash : ∃ (g g' : GB), g.content = encodePath tinyParams [[5, 6]] ∧ g'.content = g.content ∧
    decodePathStream tinyParams g = .crash ∧ ∃ h, decodePathStream tinyParams g' = .ok ([[5, 6]], h) :=
  ⟨⟨[], [[1], [2, 5], [6]], [], .exact⟩, ⟨[], [[1, 2, 5, 6]], [], .exact⟩, by decide, by decide, by decide, _, rfl⟩

/-- C21 is violated: if the array has room for the component, as Go's arrays of eight bytes have here, the decoder
returns a path that was not encoded, with zero bytes for those that have not arrived, and takes these for what
follows the path when they do. -/
theorem C21_violated_silent : ∃ g g' : GB, g.content = encodePath appParams [[5, 6]] ∧
    decodePathStream appParams g = .ok ([[5, 0]], g') ∧ g'.content = [6] :=
  ⟨⟨[], [[1], [2, 5], [6]], [], ⟨0, [7, 6]⟩⟩, _, by decide, rfl, by decide⟩

/-- C21 is violated: the decoder waits for bytes that do not belong to the path. -/
theorem C21_violated_block : ∃ g : GB, g.content = encodePath tinyParams [[]] ∧
    decodePathStream tinyParams g = .block :=
  ⟨⟨[1, 0], [], [], .exact⟩, by decide, by decide⟩

/-- C21, partial: whenever the decoder returns, under whatever chunking and schedule, and the arrays have no
room beyond their bytes, it returns the encoded path and leaves exactly the bytes after it. Missing: that it
returns, and arrays that have room (see the violations); paths that are not short. -/
theorem C21_sound_partial (p : PathParams) (path : Path)
    (hv : ShortPath p path) (rest : Bytes) (g : GB) (hm : g.mem = .exact) (hg : g.content = encodePath p path ++ rest)
    (x : Path) (g' : GB) (h : decodePathStream p g = .ok (x, g')) : x = path ∧ g'.content = rest := by
  obtain ⟨h1, h2, -⟩ := (decodePathStream_encode p path hv (shortPath_small hv) rest g hg).1 hm x g' h
  exact ⟨h1, h2⟩

/-- C21, partial: whatever room the arrays have, the decoder takes no more bytes than the path that it returns
has in its encoding, and if it takes as many, it returns the encoded path and leaves exactly the bytes after
it. So it is wrong only if it takes fewer. -/
theorem C21_taken_partial (p : PathParams) (path : Path)
    (hv : ShortPath p path) (rest : Bytes) (g : GB) (hg : g.content = encodePath p path ++ rest)
    (x : Path) (g' : GB) (h : decodePathStream p g = .ok (x, g')) :
    g.content.length ≤ g'.content.length + (encodePath p x).length ∧
    (g.content.length = g'.content.length + (encodePath p x).length → x = path ∧ g'.content = rest) := by
  obtain ⟨h1, h2⟩ := decodePathStream_tight h
  exact ⟨h1, fun he => C21_sound_partial p path hv rest g.tight rfl hg x g'.tight (h2 he)⟩

/-- C21, partial: the decoder returns if the encoding has arrived completely (or no component
is longer than the length field is wide), provided the last component and what follows have as many
bytes as the length field. Both are necessary (`C21_exact`, `C21_arrived_exact`). -/
theorem C21_returns_partial (p : PathParams) (path : Path)
    (hv : ShortPath p path) (rest : Bytes) (g : GB) (hg : g.content = encodePath p path ++ rest)
    (h1 : (∀ c ∈ path, c.length ≤ getWidthMax32Int p.cl) ∨ (encodePath p path).length ≤ g.buf.length)
    (h2 : ∀ c, path.getLast? = some c → getWidthMax32Int p.cl ≤ c.length + rest.length) :
    ∃ g', decodePathStream p g = .ok (path, g') ∧ g'.content = rest :=
  (decodePathStream_encode p path hv (shortPath_small hv) rest g hg).2 h1 h2

/-- A stream whose path has arrived, followed by a byte still to come. -/
def exGB : GB := ⟨[2, 2, 5, 6, 0], [[9]], [0, 1], .exact⟩

example : ShortPath tinyParams [[5, 6], []] ∧ exGB.content = encodePath tinyParams [[5, 6], []] ++ [9] ∧
    (encodePath tinyParams [[5, 6], []]).length ≤ exGB.buf.length ∧
    getWidthMax32Int tinyParams.cl ≤ ([9] : Bytes).length :=
  ⟨⟨⟨by decide, by decide, by decide⟩, by decide, by decide⟩, by decide, by decide, by decide⟩

/-- C21, exact: whatever room the arrays have, a path followed by some bytes is decoded in every chunking and
under every schedule if and only if no component is longer than the length field is wide, and the last component
and what follows have at least as many bytes as the length field. -/
theorem C21_exact (p : PathParams) (path : Path) (hv : ShortPath p path) (rest : Bytes)
    (m : Mem) :
    (∀ g : GB, g.mem = m → g.content = encodePath p path ++ rest →
      ∃ g', decodePathStream p g = .ok (path, g') ∧ g'.content = rest) ↔
      (∀ c ∈ path, c.length ≤ getWidthMax32Int p.cl) ∧
      ∀ c, path.getLast? = some c → getWidthMax32Int p.cl ≤ c.length + rest.length := by
  have hs := shortPath_small hv
  refine ⟨fun h => ⟨fun c hc => ?_, fun c hc => ?_⟩, fun h g _ hg => C21_returns_partial p path hv rest g hg (.inl h.1) h.2⟩
  · refine Nat.le_of_not_lt fun hlt => ?_
    obtain ⟨g', h1, h2⟩ := h (slowly m (encodePath p path ++ rest)) rfl (slowly_content _ _)
    exact decodePathStream_slow hv hs (Nat.zero_le _) ⟨c, hc, hlt⟩ _ (decodePathStream_right (slowly_content _ _) h1 h2)
  · refine Nat.le_of_not_lt fun hlt => ?_
    have hg : (⟨encodePath p path ++ rest, [], [], m⟩ : GB).content = encodePath p path ++ rest := by simp [GB.content]
    obtain ⟨g', h1, h2⟩ := h _ rfl hg
    exact decodePathStream_waits hv hs (g := GB.tight ⟨encodePath p path ++ rest, [], [], m⟩) hg hc hlt rfl _
      (decodePathStream_right hg h1 h2)

/-- C21, exact when the encoding has arrived: the path is decoded if and only if the last component and
what follows, arrived or not, have at least as many bytes as the length field. -/
theorem C21_arrived_exact (p : PathParams) (path : Path) (hv : ShortPath p path)
    (rest : Bytes) (g : GB) (hg : g.content = encodePath p path ++ rest) (ha : (encodePath p path).length ≤ g.buf.length) :
    (∃ g', decodePathStream p g = .ok (path, g') ∧ g'.content = rest) ↔
      ∀ c, path.getLast? = some c → getWidthMax32Int p.cl ≤ c.length + rest.length := by
  refine ⟨fun ⟨g', h1, h2⟩ c hc => Nat.le_of_not_lt fun hlt => ?_, C21_returns_partial p path hv rest g hg (.inr ha)⟩
  exact decodePathStream_waits (g := g.tight) hv (shortPath_small hv) hg hc hlt rfl _ (decodePathStream_right hg h1 h2)

/-- Under the limits of the application, the paths decoded in every chunking have components of at most
one byte. -/
example (m : Mem) : (∀ g : GB, g.mem = m → g.content = encodePath appParams [[1], [], [2]] ++ [] →
      ∃ g', decodePathStream appParams g = .ok ([[1], [], [2]], g') ∧ g'.content = []) ∧
    ¬ ∀ g : GB, g.mem = m → g.content = encodePath appParams [[1, 2]] ++ [9] →
      ∃ g', decodePathStream appParams g = .ok ([[1, 2]], g') ∧ g'.content = [9] := by
  constructor
  · exact (C21_exact appParams _ (shortPath_of_limits (by decide) (by decide) ⟨by decide, by decide, by decide⟩) [] m).2 ⟨by decide, by decide⟩
  · intro h
    exact absurd ((C21_exact appParams _ (shortPath_of_limits (by decide) (by decide) ⟨by decide, by decide, by decide⟩) [9] m).1 h).1 (by decide)

/-! ## C22 -/

/-- C22 is violated: decoding a sibling of the reference overwrites the reference. -/
theorem C22_violated : ∃ (enc : Bytes) (r r' : Sl Bytes) (x : Path),
    decodeRelativePathMem tinyParams enc r = .ok (r', x) ∧ r.view = [[1], [2]] ∧ r'.view = [[1], [3]] :=
  ⟨[1, 1, 1, 3], ⟨[[1], [2]], 2⟩, _, _, rfl, by decide, by decide⟩

/-- C22, partial: the reference is unchanged when the announced common prefix is the whole
reference, or when the result does not fit in the reference's capacity. Missing: all other
cases, where the reference is overwritten (see `C22_violated`). -/
theorem C22_unchanged_partial (p : PathParams) (enc : Bytes) (r r' : Sl Bytes) (x : Path) (hr : r.len ≤ r.arr.length)
    (h : decodeRelativePathMem p enc r = .ok (r', x))
    (hk : decodeIntMax32 (enc.take (getWidthMax32Int p.cc)) p.cc = .ok r.len ∨ r.arr.length < x.length) :
    r'.view = r.view := by
  unfold decodeRelativePathMem at h
  simp only at h
  rw [Res.bind_eq_ok] at h
  obtain ⟨lb, hlb, h⟩ := h
  have hlb' : lb = enc.take (getWidthMax32Int p.cc) := by
    unfold slice at hlb
    split at hlb
    · simpa using hlb.symm
    · simp at hlb
  rw [← hlb'] at hk
  split at h
  · rename_i k hdec
    rw [Res.bind_eq_ok] at h
    obtain ⟨pre, hpre, h⟩ := h
    have hkl : k ≤ r.len := by
      unfold slice at hpre
      split at hpre
      · rename_i hh
        have := hh.2
        simp [Sl.view] at this
        omega
      · simp at hpre
    rw [Res.bind_eq_ok] at h
    obtain ⟨rest, -, h⟩ := h
    split at h
    · rename_i n suffix _
      simp only [Res.ok.injEq, Sl.appendAt] at h
      split at h
      · rename_i hfit
        simp only [Prod.mk.injEq] at h
        obtain ⟨h1, h2⟩ := h
        have hxl : x.length = k + suffix.length := by rw [← h2]; simp; omega
        rcases hk with hk | hk
        · rw [hdec] at hk
          simp only [Res.ok.injEq] at hk
          subst hk
          rw [← h1]
          simp only [Sl.view, List.append_assoc]
          rw [List.take_append_of_le_length (by simp; omega)]
          rw [List.take_take, Nat.min_self]
        · omega
      · simp only [Prod.mk.injEq] at h
        rw [h.1]
    all_goals simp at h
  all_goals simp at h

example : decodeRelativePathMem tinyParams [1, 1, 1, 3] ⟨[[1]], 1⟩ = .ok (⟨[[1]], 1⟩, [[1], [3]]) ∧
    decodeIntMax32 (([1, 1, 1, 3] : Bytes).take (getWidthMax32Int tinyParams.cc)) tinyParams.cc =
      .ok (⟨[[1]], 1⟩ : Sl Bytes).len := by decide

/-- C22 exactly: the reference keeps its components if and only if the result does not fit in
the reference's capacity or agrees with the reference on the positions they share. -/
theorem C22_unchanged_iff_partial (p : PathParams) (enc : Bytes) (r r' : Sl Bytes) (x : Path)
    (hr : r.len ≤ r.arr.length) (h : decodeRelativePathMem p enc r = .ok (r', x)) :
    r'.view = r.view ↔ r.arr.length < x.length ∨ ∀ i, i < r.view.length → i < x.length → x[i]? = r.view[i]? := by
  unfold decodeRelativePathMem at h
  simp only at h
  obtain ⟨lb, -, h⟩ := Res.bind_eq_ok.1 h
  split at h
  · rename_i k hdec
    obtain ⟨pre, hpre, h⟩ := Res.bind_eq_ok.1 h
    have hkl : k ≤ r.len := by
      unfold slice at hpre
      split at hpre
      · rename_i hh
        have := hh.2
        simp [Sl.view] at this
        omega
      · simp at hpre
    obtain ⟨rest, -, h⟩ := Res.bind_eq_ok.1 h
    split at h
    · rename_i n suffix _
      simp only [Res.ok.injEq, Sl.appendAt] at h
      have hv : r.view.length = r.len := by simp [Sl.view]; omega
      split at h
      · rename_i hfit
        simp only [Prod.mk.injEq] at h
        obtain ⟨rfl, rfl⟩ := h
        have hx : (r.arr.take k ++ suffix).length = k + suffix.length := by simp; omega
        rw [hx, hv]
        constructor
        · intro h
          refine .inr fun i hi hj => ?_
          rw [← h]
          simp only [Sl.view]
          rw [List.getElem?_take, if_pos hi]
          exact (List.getElem?_append_left (by omega)).symm
        · rintro (h | h)
          · omega
          · apply List.ext_getElem?
            intro i
            simp only [Sl.view] at h ⊢
            rw [List.getElem?_take, List.getElem?_take]
            split
            · rename_i hi
              by_cases hj : i < k + suffix.length
              · rw [List.getElem?_append_left (by omega), h i hi hj, List.getElem?_take, if_pos hi]
              · rw [List.getElem?_append_right (by omega), hx, List.getElem?_drop]
                congr 1; omega
            · rfl
      · rename_i hfit
        simp only [Prod.mk.injEq] at h
        obtain ⟨rfl, rfl⟩ := h
        simp
        left
        omega
    · simp at h
    · simp at h
  · simp at h

example : decodeRelativePathMem tinyParams [1, 1, 1, 3] ⟨[[1], [2]], 2⟩ = .ok (⟨[[1], [3]], 2⟩, [[1], [3]]) := by decide

/-! ## C15, memory shared with the caller -/

/-- C15 is violated for a path decoded from a buffer: the successor computation overwrites the
byte that follows the path in the buffer (here 9), which is not part of the path. -/
theorem C15_violated_shared : ∃ (mem : Bytes), decodePath tinyParams mem = .ok (3, [[5]]) ∧
    (decodePathWindows tinyParams mem 1 1).map (Window.read mem) = [[5]] ∧
    mem = [1, 1, 5, 9] ∧ successorPrefixMem tinyParams mem (decodePathWindows tinyParams mem 1 1) = [1, 1, 5, 0] :=
  ⟨[1, 1, 5, 9], by decide, by decide, rfl, by decide⟩

/-- C15, partial: the components of a decoded path are windows of the buffer, one after the other. (This ties the two
theorems about windows below to the decoder.) -/
theorem C15_windows_partial (p : PathParams) (mem : Bytes) (pos : Nat) (path : Path) (h : decodePath p mem = .ok (pos, path)) :
    let ws := decodePathWindows p mem path.length (getWidthMax32Int p.cc)
    ws.length = path.length ∧ ws.map (Window.read mem) = path ∧ (∀ w ∈ ws, w.off + w.len ≤ mem.length) ∧
      ∀ l, ws.getLast? = some l → l.off + l.len = pos := by
  unfold decodePath at h
  obtain ⟨c, -, h⟩ := Res.bind_eq_ok.1 h
  obtain ⟨count, -, h⟩ := Res.bind_eq_ok.1 h
  obtain ⟨h1, h2, h3, h4⟩ := decodePathLoop_windows p mem _ _ _ _ _ h
  have hl : path.length = count := by rw [h1, List.nil_append, List.length_map, h2]
  intro ws
  have hws : ws = decodePathWindows p mem count (getWidthMax32Int p.cc) := by rw [← hl]
  rw [hws]
  refine ⟨h2.trans hl.symm, h1.symm, h3, fun l hl => ?_⟩
  rw [h4, hl]

example : decodePath tinyParams [2, 2, 5, 6, 1, 7, 9] = .ok (6, [[5, 6], [7]]) ∧
    decodePathWindows tinyParams [2, 2, 5, 6, 1, 7, 9] 2 1 = [⟨2, 2⟩, ⟨5, 1⟩] := by decide

/-- C15 is violated for every path decoded from a buffer whose last component is shorter than the limit: the byte
that follows the path in the buffer, if there is one, becomes 0. -/
theorem C15_violated_follows (p : PathParams) (mem : Bytes) (pos : Nat) (path : Path) (h : decodePath p mem = .ok (pos, path))
    (c : Bytes) (hc : path.getLast? = some c) (hlen : c.length < p.cl) (b : UInt8) (hb : mem[pos]? = some b) :
    (successorPrefixMem p mem (decodePathWindows p mem path.length (getWidthMax32Int p.cc)))[pos]? = some 0 := by
  obtain ⟨h1, h2, h3, h4⟩ := C15_windows_partial p mem pos path h
  generalize decodePathWindows p mem path.length (getWidthMax32Int p.cc) = ws at h1 h2 h3 h4
  obtain ⟨l, hl⟩ : ∃ l, ws.getLast? = some l := by
    cases hw : ws.getLast? with
    | none =>
      rw [List.getLast?_eq_none_iff] at hw
      subst hw
      subst h2
      simp at hc
    | some l => exact ⟨l, rfl⟩
  have hlast : l.read mem = c := by
    rw [← h2, List.getLast?_map, hl] at hc
    simpa using hc
  have hll : l.len = c.length := by
    have := h3 l (List.mem_of_getLast? hl)
    rw [← hlast]
    simp only [Window.read, List.length_take, List.length_drop]
    omega
  have hpos : 0 < ws.length := List.length_pos_iff.mpr (by intro h; simp [h] at hl)
  have hget : ws[ws.length - 1]? = some l := by rw [← List.getLast?_eq_getElem?]; exact hl
  unfold successorPrefixMem
  obtain ⟨n, hn⟩ : ∃ n, ws.length = n + 1 := ⟨ws.length - 1, by omega⟩
  rw [hn] at hget ⊢
  simp only [Nat.add_sub_cancel] at hget
  rw [successorPrefixMemLoop, hget]
  simp only
  rw [conv_of_le (by omega) p.hcl, if_pos (by omega), h4 l hl]
  obtain ⟨hlt, -⟩ := List.getElem?_eq_some_iff.1 hb
  exact List.getElem?_set_self hlt

example : decodePath tinyParams [2, 2, 5, 6, 1, 7, 9] = .ok (6, [[5, 6], [7]]) ∧
    successorPrefixMem tinyParams [2, 2, 5, 6, 1, 7, 9] [⟨2, 2⟩, ⟨5, 1⟩] = [2, 2, 5, 6, 1, 7, 0] := by decide

/-- C15, partial: when the last component is shorter than the limit, only the byte right after
it can change, so every window not covering that byte keeps its bytes. Missing: windows that
cover it, and full-length last components. -/
theorem C15_shared_partial (p : PathParams) (mem : Bytes) (ws : List Window) (l : Window)
    (hl : ws.getLast? = some l) (hlen : l.len < p.cl) (w : Window)
    (hw : w.off + w.len ≤ l.off + l.len ∨ l.off + l.len < w.off) :
    w.read (successorPrefixMem p mem ws) = w.read mem := by
  have hne : ws ≠ [] := by intro h; simp [h] at hl
  have hpos : 0 < ws.length := List.length_pos_iff.mpr hne
  have hget : ws[ws.length - 1]? = some l := by rw [← List.getLast?_eq_getElem?]; exact hl
  have hmem : successorPrefixMem p mem ws = mem.set (l.off + l.len) 0 := by
    unfold successorPrefixMem
    obtain ⟨n, hn⟩ : ∃ n, ws.length = n + 1 := ⟨ws.length - 1, by omega⟩
    rw [hn] at hget ⊢
    simp only [Nat.add_sub_cancel] at hget
    rw [successorPrefixMemLoop, hget]
    simp only
    rw [conv_of_le (Nat.le_of_lt hlen) p.hcl, if_pos (by omega)]
  rw [hmem]
  unfold Window.read
  apply List.ext_getElem?
  intro i
  rw [List.getElem?_take, List.getElem?_take]
  split
  · rw [List.getElem?_drop, List.getElem?_drop, List.getElem?_set, if_neg (by omega)]
  · rfl

example : ([⟨2, 1⟩, ⟨4, 2⟩] : List Window).getLast? = some ⟨4, 2⟩ ∧ (⟨4, 2⟩ : Window).len < tinyParams.cl ∧
    (⟨2, 1⟩ : Window).off + (⟨2, 1⟩ : Window).len ≤ (⟨4, 2⟩ : Window).off + (⟨4, 2⟩ : Window).len := by decide

/-- C15 is violated for every path decoded from a buffer whose last component has the maximal
length: its last byte other than 255 is incremented in the buffer. -/
theorem C15_violated_full (p : PathParams) (mem : Bytes) (ws : List Window) (l : Window) (hl : ws.getLast? = some l)
    (hlen : l.len = p.cl) (b : UInt8) (k : Nat) (hb : b ≠ 255) (hk : k < l.len) (h1 : mem[l.off + k]? = some b)
    (hj : ∀ j, k < j → j < l.len → mem[l.off + j]? = some 255) :
    successorPrefixMem p mem ws = mem.set (l.off + k) (b + 1) ∧ successorPrefixMem p mem ws ≠ mem := by
  have hne : ws ≠ [] := by intro h; simp [h] at hl
  have hpos : 0 < ws.length := List.length_pos_iff.mpr hne
  have hget : ws[ws.length - 1]? = some l := by rw [← List.getLast?_eq_getElem?]; exact hl
  have hmem : successorPrefixMem p mem ws = mem.set (l.off + k) (b + 1) := by
    unfold successorPrefixMem
    obtain ⟨n, hn⟩ : ∃ n, ws.length = n + 1 := ⟨ws.length - 1, by omega⟩
    rw [hn] at hget ⊢
    simp only [Nat.add_sub_cancel] at hget
    rw [successorPrefixMemLoop, hget]
    simp only
    rw [conv_of_le (Nat.le_of_eq hlen) p.hcl, if_neg (by omega),
      prefixSuccessorMemLoop_full mem l b k hb h1 l.len (Nat.le_refl _) hk hj]
  refine ⟨hmem, ?_⟩
  rw [hmem]
  intro h
  have : (mem.set (l.off + k) (b + 1))[l.off + k]? = mem[l.off + k]? := by rw [h]
  rw [h1, List.getElem?_set_self (by obtain ⟨h, -⟩ := List.getElem?_eq_some_iff.1 h1; exact h)] at this
  simp only [Option.some.injEq] at this
  have h2 : (b + 1).toNat = b.toNat := by rw [this]
  have : b.toNat ≠ 255 := fun h => hb (UInt8.toNat_inj.1 h)
  have := b.toNat_lt
  rw [UInt8.toNat_add] at h2
  simp at h2
  omega

example : ([⟨2, 3⟩] : List Window).getLast? = some ⟨2, 3⟩ ∧ (3 : Nat) = tinyParams.cl ∧
    successorPrefixMem tinyParams [1, 3, 7, 8, 255, 9] [⟨2, 3⟩] = [1, 3, 7, 9, 255, 9] := by decide

end Willow.Props
