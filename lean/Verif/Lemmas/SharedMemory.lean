import Verif.Model.SharedMemory
import Verif.Lemmas.Iterator
import Verif.Lemmas.Prefix

/-! Lemmas for positions and areas whose path and subspace share a buffer. -/

namespace Willow

open Spec

theorem componentWindows_append (p : PathParams) (b : Path) : ∀ (a : Path) (off : Nat),
    componentWindows p (a ++ b) off = componentWindows p a off ++ componentWindows p b (off + (encodeComponents p a).length)
  | [], off => rfl
  | c :: cs, off => by
    have hl := encodeIntMax32_length (p.conv c.length) p.cl
    simp only [List.cons_append, componentWindows, componentWindows_append p b cs, encodeComponents, List.length_append, hl]
    congr 3
    omega

theorem componentWindows_length (p : PathParams) : ∀ (a : Path) (off : Nat), (componentWindows p a off).length = a.length
  | [], _ => rfl
  | _ :: cs, _ => by simp [componentWindows, componentWindows_length p cs]

/-- The last component ends where the encoding of the components ends. -/
theorem componentWindows_last (p : PathParams) (init : Path) (c : Bytes) (off : Nat) : ∃ w : Window,
    componentWindows p (init ++ [c]) off = componentWindows p init off ++ [w] ∧ w.len = c.length ∧
      w.off + w.len = off + (encodeComponents p (init ++ [c])).length := by
  have hl := encodeIntMax32_length (p.conv c.length) p.cl
  have hap : ∀ a b : Path, encodeComponents p (a ++ b) = encodeComponents p a ++ encodeComponents p b := by
    intro a b
    induction a with
    | nil => rfl
    | cons x xs ih => simp only [List.cons_append, encodeComponents, ih, List.append_assoc]
  refine ⟨_, by rw [componentWindows_append]; rfl, rfl, ?_⟩
  simp only [hap, encodeComponents, List.length_append, hl, List.length_nil]
  omega

/-- A window before a written byte. -/
theorem Window.read_set {mem : Bytes} {w : Window} {i : Nat} {x : UInt8} (h : w.off + w.len ≤ i ∨ i < w.off) :
    w.read (mem.set i x) = w.read mem := by
  unfold Window.read
  apply List.ext_getElem?
  intro j
  rw [List.getElem?_take, List.getElem?_take]
  split
  · rw [List.getElem?_drop, List.getElem?_drop, List.getElem?_set, if_neg (by omega)]
  · rfl

theorem set_append_at (a : Bytes) (b : UInt8) (c : Bytes) (x : UInt8) : (a ++ b :: c).set a.length x = a ++ x :: c := by
  rw [List.set_append_right _ _ (Nat.le_refl _), Nat.sub_self, List.set_cons_zero]

/-- `SuccessorPrefix` of a path whose last component ends at `a.length` and is shorter than the limit. -/
theorem successorPrefixMem_end (p : PathParams) (mem : Bytes) (ws : List Window) (w : Window) (hlen : w.len < p.cl) :
    successorPrefixMem p mem (ws ++ [w]) = mem.set (w.off + w.len) 0 := by
  unfold successorPrefixMem
  rw [List.length_append, List.length_singleton, successorPrefixMemLoop, List.getElem?_append_right (Nat.le_refl _),
    Nat.sub_self, List.getElem?_cons_zero]
  simp only
  rw [conv_of_le (Nat.le_of_lt hlen) p.hcl, if_pos (by omega)]

/-- `SuccessorPath` at the limit of components, when the last component is shorter than its limit. -/
theorem successorPathMem_end (p : PathParams) (mem : Bytes) (ws : List Window) (w : Window) (hlen : w.len < p.cl)
    (hcount : ws.length + 1 = p.cc) : successorPathMem p mem (ws ++ [w]) = mem.set (w.off + w.len) 0 := by
  unfold successorPathMem
  rw [List.length_append, List.length_singleton, if_neg (by omega), conv_of_le (Nat.le_of_eq hcount) p.hcc,
    if_neg (by omega), successorPathMemLoop, List.getElem?_append_right (Nat.le_refl _),
    Nat.sub_self, List.getElem?_cons_zero]
  simp only
  rw [conv_of_le (Nat.le_of_lt hlen) p.hcl, if_pos (by omega)]

theorem successorPathMem_short (p : PathParams) (mem : Bytes) (ws : List Window) (h : ws.length < p.cc) :
    successorPathMem p mem ws = mem := by
  unfold successorPathMem
  split
  · rfl
  · rw [conv_of_le (Nat.le_of_lt h) p.hcc, if_pos h]

/-- The tree sees the position that was stored. -/
theorem heldKey_key (p : PathParams) (pos : Position) (fp : Bytes) : (heldKey p pos fp).key = ⟨pos, fp⟩ := by
  have := keyWindows_read p pos ⟨0, [], []⟩ [] []
  rw [List.append_nil] at this
  simp only [Listed.read, Entry.mk.injEq] at this
  obtain ⟨-, h1, h2, -⟩ := this
  simp only [HeldKey.key, heldKey, h1, h2]

/-- The buffer of a key at the limit of components after its lookup: the first byte of the subspace is 0. -/
theorem heldKey_overwritten (p : PathParams) (init : Path) (c : Bytes) (b : UInt8) (s : Bytes) (t : UInt64) (fp : Bytes)
    (hc : c.length < p.cl) (hcount : init.length + 1 = p.cc) :
    { heldKey p ⟨b :: s, init ++ [c], t⟩ fp with
      mem := successorPathMem p (heldKey p ⟨b :: s, init ++ [c], t⟩ fp).mem (heldKey p ⟨b :: s, init ++ [c], t⟩ fp).path } =
      heldKey p ⟨0 :: s, init ++ [c], t⟩ fp := by
  have h8 : (bigIntToBytes t).length = 8 := by simp [bigIntToBytes, putU64]
  have hl := encodeIntMax32_length (p.conv (init ++ [c]).length) p.cc
  obtain ⟨w, h1, h2, h3⟩ := componentWindows_last p init c (8 + getWidthMax32Int p.cc)
  have hmem : successorPathMem p (encodeKey p ⟨b :: s, init ++ [c], t⟩)
      (componentWindows p (init ++ [c]) (8 + getWidthMax32Int p.cc)) = encodeKey p ⟨0 :: s, init ++ [c], t⟩ := by
    rw [h1, successorPathMem_end p _ _ w (by omega) (by rw [componentWindows_length, hcount]), h3]
    have : 8 + getWidthMax32Int p.cc + (encodeComponents p (init ++ [c])).length =
        (bigIntToBytes t ++ encodePath p (init ++ [c])).length := by
      unfold encodePath
      rw [List.length_append, List.length_append, h8, hl, Nat.add_assoc]
    rw [this]
    exact set_append_at _ _ _ _
  simp only [heldKey, keyWindows, hmem]
  simp only [HeldKey.mk.injEq, Window.mk.injEq, List.length_cons, true_and, and_true]
  simp [encodeKey]

/-- The lookup of a key at the limit of components: the range reaches from the overwritten subspace to the
end computed before. -/
theorem storageGetHeld_overwritten (lib : KdLib) (p : PathParams) (pre post : List HeldKey) (init : Path) (c : Bytes)
    (b : UInt8) (s : Bytes) (t : UInt64) (fp : Bytes) (hv : ValidPath p (init ++ [c])) (hc : c.length < p.cl)
    (hcount : init.length + 1 = p.cc) (ht : pathBytes (init ++ [c]) < p.pl) :
    storageGetHeld lib p pre (heldKey p ⟨b :: s, init ++ [c], t⟩ fp) post =
      match lib.query ((pre ++ heldKey p ⟨0 :: s, init ++ [c], t⟩ fp :: post).map HeldKey.key)
        ⟨⟨0 :: s, b :: s ++ [0], false⟩, ⟨init ++ [c], init ++ [c ++ [0]], false⟩, ⟨0, 2, true⟩⟩ with
      | [] => .ok (heldKey p ⟨0 :: s, init ++ [c], t⟩ fp, none)
      | [k] => .ok (heldKey p ⟨0 :: s, init ++ [c], t⟩ fp, some k.pos)
      | _ => .crash := by
  have hsp : successorPath (init ++ [c]) p = .ok (some (init ++ [c ++ [0]])) :=
    successorPath_room hv hc ht (by simp) (by simpa using hcount)
  unfold storageGetHeld
  simp only [heldKey_key, hsp, Res.ok_bind, heldKey_overwritten p init c b s t fp hc hcount, Option.getD_some,
    successorSubspaceId]
  generalize lib.query _ _ = q
  match q with
  | [] => rfl
  | [_] => rfl
  | _ :: _ :: _ => rfl

/-- Keys with the same path and a subspace between the overwritten one and the one before are in that range. -/
theorem in_overwritten_range {init : Path} {c : Bytes} {b : UInt8} {s : Bytes} {x : Position}
    (hx : x.path = init ++ [c]) (h1 : ¬ BytesLt x.subspace (0 :: s)) (h2 : ¬ BytesLt (b :: s) x.subspace) :
    InRange3d ⟨⟨0 :: s, b :: s ++ [0], false⟩, ⟨init ++ [c], init ++ [c ++ [0]], false⟩, ⟨0, 2, true⟩⟩ x := by
  refine ⟨⟨h1, .inr ?_⟩, ⟨?_, .inr ?_⟩, anyTime_iff _⟩
  · have hlt : BytesLt (b :: s) (b :: s ++ [0]) := lexLt_append _ (by simp)
    rcases bytesLt_strictTotal.tri x.subspace (b :: s) with h | h | h
    · exact bytesLt_strictTotal.trans _ _ _ h hlt
    · rw [h]; exact hlt
    · exact absurd h h2
  · rw [hx]; exact pathLt_strictTotal.irrefl _
  · rw [hx]
    exact ext_lt_succ (post := []) (lexLt_append c (by simp)) (List.prefix_refl _)

theorem bytesLt_zero {b : UInt8} (hb : b ≠ 0) (s s' : Bytes) : BytesLt (0 :: s) (b :: s') := by
  refine .inl ?_
  show (0 : UInt8) < b
  rw [UInt8.lt_iff_toNat_lt]
  have : b.toNat ≠ 0 := fun h => hb (UInt8.toNat_inj.1 h)
  simp
  omega

/-- The lookup of a key below the limit of components is that of its position. -/
theorem storageGetHeld_short (lib : KdLib) (p : PathParams) (pre post : List HeldKey) (h : HeldKey)
    (hl : successorPathMem p h.mem h.path = h.mem) :
    storageGetHeld lib p pre h post =
      (storageGet lib p ((pre ++ h :: post).map HeldKey.key) h.key.pos.subspace h.key.pos.path).map' fun o => (h, o) := by
  unfold storageGetHeld storageGet pointRange
  have hh : ({ h with mem := h.mem } : HeldKey) = h := rfl
  rw [hl, hh]
  cases successorPath h.key.pos.path p with
  | ok e =>
    simp only [Res.ok_bind]
    generalize lib.query _ _ = q
    match q with
    | [] => rfl
    | [_] => rfl
    | _ :: _ :: _ => rfl
  | err => rfl
  | crash => rfl
  | block => rfl

/-- Another key with the same path in a subspace between makes the lookup find several. -/
theorem overwritten_two (lib : KdLib) (p : PathParams) (pre post : List HeldKey) (init : Path) (c : Bytes) (b : UInt8) (s : Bytes)
    (t : UInt64) (fp : Bytes) (hb : b ≠ 0)
    (k : HeldKey) (hk : k ∈ pre ++ post) (hpath : k.key.pos.path = init ++ [c])
    (h1 : ¬ BytesLt k.key.pos.subspace (0 :: s)) (h2 : BytesLt k.key.pos.subspace (b :: s)) :
    2 ≤ (lib.query ((pre ++ heldKey p ⟨0 :: s, init ++ [c], t⟩ fp :: post).map HeldKey.key)
        ⟨⟨0 :: s, b :: s ++ [0], false⟩, ⟨init ++ [c], init ++ [c ++ [0]], false⟩, ⟨0, 2, true⟩⟩).length := by
  have hin : ∀ x : KdKey, x.pos.path = init ++ [c] → ¬ BytesLt x.pos.subspace (0 :: s) → ¬ BytesLt (b :: s) x.pos.subspace →
      isIncluded3d orderSubspace
      ⟨⟨0 :: s, b :: s ++ [0], false⟩, ⟨init ++ [c], init ++ [c ++ [0]], false⟩, ⟨0, 2, true⟩⟩ x.pos = true := by
    intro x hx h1 h2
    rw [isIncluded3d_iff decides_subspace]
    exact in_overwritten_range hx h1 h2
  have hme := hin (heldKey p ⟨0 :: s, init ++ [c], t⟩ fp).key (by rw [heldKey_key])
    (by rw [heldKey_key]; exact bytesLt_strictTotal.irrefl _)
    (by rw [heldKey_key]; exact bytesLt_strictTotal.asymm (bytesLt_zero hb s s))
  have hother := hin k.key hpath h1 (bytesLt_strictTotal.asymm h2)
  rw [(lib.perm _ _).length_eq]
  revert hme hother
  generalize isIncluded3d orderSubspace
    ⟨⟨0 :: s, b :: s ++ [0], false⟩, ⟨init ++ [c], init ++ [c ++ [0]], false⟩, ⟨0, 2, true⟩⟩ = P
  intro hme hother
  rw [List.map_append, List.filter_append, List.map_cons, List.filter_cons, if_pos hme, List.length_append, List.length_cons]
  rcases List.mem_append.1 hk with hk | hk
  · have : 0 < ((pre.map HeldKey.key).filter fun k => P k.pos).length :=
      List.length_pos_iff.2 (List.ne_nil_of_mem (List.mem_filter.2 ⟨List.mem_map.2 ⟨k, hk, rfl⟩, hother⟩))
    omega
  · have : 0 < ((post.map HeldKey.key).filter fun k => P k.pos).length :=
      List.length_pos_iff.2 (List.ne_nil_of_mem (List.mem_filter.2 ⟨List.mem_map.2 ⟨k, hk, rfl⟩, hother⟩))
    omega

theorem Window.read_append {mem tail : Bytes} {w : Window} (h : w.off + w.len ≤ mem.length) :
    w.read (mem ++ tail) = w.read mem := by
  unfold Window.read
  rw [List.drop_append_of_le_length (by omega), List.take_append_of_le_length (by simp; omega)]

/-- Reading a path and the subspace behind it. -/
theorem follows_read (p : PathParams) (front : Bytes) (ws : List Window) (path : Path) (sub post : Bytes)
    (hws : ∀ w ∈ ws, w.off + w.len ≤ front.length) :
    (ws ++ componentWindows p path (front.length + getWidthMax32Int p.cc)).map
        (·.read (front ++ encodePath p path ++ sub ++ post)) = ws.map (·.read front) ++ path ∧
    (⟨front.length + (encodePath p path).length, sub.length⟩ : Window).read (front ++ encodePath p path ++ sub ++ post) = sub := by
  have hl := encodeIntMax32_length (p.conv path.length) p.cc
  constructor
  · rw [List.map_append]
    congr 1
    · apply List.map_congr_left
      intro w hw
      rw [List.append_assoc, List.append_assoc, Window.read_append (hws w hw)]
    · refine componentWindows_read p _ path _ (sub ++ post) ?_
      rw [← List.drop_drop, List.append_assoc, List.append_assoc, List.drop_left]
      unfold encodePath
      rw [List.append_assoc, ← hl, List.drop_left]
  · unfold Window.read
    rw [← List.length_append, List.append_assoc _ sub post, List.drop_left, List.take_left]

/-- The memory after `SuccessorPrefix` when the subspace follows the path. -/
theorem follows_overwritten (p : PathParams) (front : Bytes) (ws : List Window) (init : Path) (c : Bytes) (b : UInt8) (s post : Bytes)
    (hc : c.length < p.cl) :
    successorPrefixMem p (front ++ encodePath p (init ++ [c]) ++ b :: s ++ post)
        (ws ++ componentWindows p (init ++ [c]) (front.length + getWidthMax32Int p.cc)) =
      front ++ encodePath p (init ++ [c]) ++ 0 :: s ++ post := by
  have hl := encodeIntMax32_length (p.conv (init ++ [c]).length) p.cc
  obtain ⟨w, h1, h2, h3⟩ := componentWindows_last p init c (front.length + getWidthMax32Int p.cc)
  rw [h1, ← List.append_assoc, successorPrefixMem_end p _ _ w (by omega), h3]
  have : front.length + getWidthMax32Int p.cc + (encodeComponents p (init ++ [c])).length =
      (front ++ encodePath p (init ++ [c])).length := by
    unfold encodePath
    rw [List.length_append, List.length_append, hl, Nat.add_assoc]
  rw [this, List.append_assoc _ (b :: s) post, List.append_assoc _ (0 :: s) post]
  exact set_append_at _ _ _ _

/-- What the loop of `SuccessorPath` writes: at most one byte, behind a component shorter than its limit. -/
theorem successorPathMemLoop_cases (p : PathParams) (mem : Bytes) (ws : List Window) : ∀ i,
    successorPathMemLoop p mem ws i = mem ∨
      ∃ (j : Nat) (w : Window), j < i ∧ ws[j]? = some w ∧ p.conv w.len ≠ p.cl ∧ successorPathMemLoop p mem ws i = mem.set (w.off + w.len) 0
  | 0 => .inl rfl
  | i + 1 => by
    rw [successorPathMemLoop]
    cases hw : ws[i]? with
    | none => exact .inl rfl
    | some w =>
      simp only
      split
      · rename_i h
        exact .inr ⟨i, w, by omega, hw, h, rfl⟩
      · cases successorBytesFixedWidth (w.read mem) with
        | some _ => exact .inl rfl
        | none =>
          rcases successorPathMemLoop_cases p mem ws i with h | ⟨j, v, h1, h2, h3, h4⟩
          · exact .inl h
          · exact .inr ⟨j, v, by omega, h2, h3, h4⟩

/-- The loop passes over components that have no successor of the same length. -/
theorem successorPathMemLoop_past (p : PathParams) (mem : Bytes) (pre : List Window) (w : Window) (post : List Window)
    (hw : w.len < p.cl) (hpost : ∀ v ∈ post, v.len = p.cl ∧ v.read mem = List.replicate p.cl 255) : ∀ k, k ≤ post.length →
      successorPathMemLoop p mem (pre ++ w :: post) (pre.length + 1 + k) = mem.set (w.off + w.len) 0
  | 0, _ => by
    rw [Nat.add_zero, successorPathMemLoop, List.getElem?_append_right (Nat.le_refl _), Nat.sub_self, List.getElem?_cons_zero]
    simp only
    rw [conv_of_le (Nat.le_of_lt hw) p.hcl, if_pos (by omega)]
  | k + 1, hk => by
    have hv : (pre ++ w :: post)[pre.length + 1 + k]? = some post[k] := by
      rw [List.getElem?_append_right (by omega), show pre.length + 1 + k - pre.length = k + 1 by omega,
        List.getElem?_cons_succ, List.getElem?_eq_getElem]
    obtain ⟨h1, h2⟩ := hpost post[k] (List.getElem_mem _)
    rw [← Nat.add_assoc, successorPathMemLoop, hv]
    simp only
    rw [h1, conv_of_le (Nat.le_refl _) p.hcl, if_neg (by simp), h2, successorBytes_255]
    exact successorPathMemLoop_past p mem pre w post hw hpost k (by omega)

/-- The components of an encoded path are apart: behind each but the last is the length of the next. -/
theorem componentWindows_apart (p : PathParams) : ∀ (path : Path) (off : Nat) (j : Nat) (w : Window),
    (componentWindows p path off)[j]? = some w →
    off < w.off ∧ w.off + w.len ≤ off + (encodeComponents p path).length ∧
      (j + 1 < path.length → w.off + w.len < off + (encodeComponents p path).length ∧
        ∀ v ∈ componentWindows p path off, v.off + v.len ≤ w.off + w.len ∨ w.off + w.len < v.off)
  | [], _, _, _, h => by simp [componentWindows] at h
  | c :: cs, off, j, w, h => by
    have hl := encodeIntMax32_length (p.conv c.length) p.cl
    have hpos := getWidthMax32Int_pos p.cl
    have hlen : (encodeComponents p (c :: cs)).length = getWidthMax32Int p.cl + c.length + (encodeComponents p cs).length := by
      simp only [encodeComponents, List.length_append, hl]
    rw [hlen]
    simp only [componentWindows] at h ⊢
    cases j with
    | zero =>
      simp only [List.getElem?_cons_zero, Option.some.injEq] at h
      subst h
      simp only
      refine ⟨by omega, by omega, fun hj => ⟨?_, ?_⟩⟩
      · cases cs with
        | nil => simp at hj
        | cons d ds =>
          have hl := encodeIntMax32_length (p.conv d.length) p.cl
          simp only [encodeComponents, List.length_append, hl]
          omega
      · intro v hv
        rcases List.mem_cons.1 hv with rfl | hv
        · simp
        · obtain ⟨i, hi⟩ := List.getElem?_of_mem hv
          have := (componentWindows_apart p cs _ i v hi).1
          omega
    | succ j =>
      rw [List.getElem?_cons_succ] at h
      obtain ⟨h1, h2, h3⟩ := componentWindows_apart p cs _ j w h
      refine ⟨by omega, by omega, fun hj => ?_⟩
      obtain ⟨h4, h5⟩ := h3 (by simpa using hj)
      refine ⟨by omega, fun v hv => ?_⟩
      rcases List.mem_cons.1 hv with rfl | hv
      · simp only; omega
      · exact h5 v hv

/-- Looking up a stored key whose last component is as long as can be changes nothing that the tree sees. -/
theorem heldKey_full (p : PathParams) (s : Bytes) (init : Path) (c : Bytes) (t : UInt64) (fp : Bytes) (hc : c.length = p.cl) :
    ({ heldKey p ⟨s, init ++ [c], t⟩ fp with
      mem := successorPathMem p (heldKey p ⟨s, init ++ [c], t⟩ fp).mem (heldKey p ⟨s, init ++ [c], t⟩ fp).path } : HeldKey).key =
      (heldKey p ⟨s, init ++ [c], t⟩ fp).key := by
  unfold successorPathMem
  split
  · rfl
  split
  · rfl
  have h8 : (bigIntToBytes t).length = 8 := by simp [bigIntToBytes, putU64]
  have hl := encodeIntMax32_length (p.conv (init ++ [c]).length) p.cc
  rcases successorPathMemLoop_cases p (heldKey p ⟨s, init ++ [c], t⟩ fp).mem (heldKey p ⟨s, init ++ [c], t⟩ fp).path
    (heldKey p ⟨s, init ++ [c], t⟩ fp).path.length with h | ⟨j, w, h1, h2, h3, h4⟩
  · rw [h]
  · rw [h4]
    have hp : (heldKey p ⟨s, init ++ [c], t⟩ fp).path = componentWindows p (init ++ [c]) (8 + getWidthMax32Int p.cc) := rfl
    rw [hp] at h1 h2
    rw [componentWindows_length] at h1
    obtain ⟨-, -, h5⟩ := componentWindows_apart p (init ++ [c]) _ j w h2
    have hj : j + 1 < (init ++ [c]).length := by
      apply Classical.byContradiction
      intro hn
      obtain ⟨v, hv1, hv2, -⟩ := componentWindows_last p init c (8 + getWidthMax32Int p.cc)
      rw [hv1, List.getElem?_append_right (by rw [componentWindows_length]; simp at hn; omega)] at h2
      rw [componentWindows_length, show j - init.length = 0 by simp at h1; omega, List.getElem?_cons_zero, Option.some.injEq] at h2
      rw [← h2, hv2, hc, conv_of_le (Nat.le_refl _) p.hcl] at h3
      exact h3 rfl
    obtain ⟨h6, h7⟩ := h5 hj
    simp only [HeldKey.key]
    have hs : (heldKey p ⟨s, init ++ [c], t⟩ fp).subspace.off = 8 + getWidthMax32Int p.cc + (encodeComponents p (init ++ [c])).length := by
      show (encodeKey p ⟨s, init ++ [c], t⟩).length - s.length = _
      simp only [encodeKey, encodePath, List.length_append, h8, hl] at *
      omega
    rw [Window.read_set (.inr (by rw [hs]; exact h6))]
    congr 2
    exact List.map_congr_left fun v hv => Window.read_set (h7 v hv)

/-- Which lookups of stored keys change nothing that the tree sees. -/
theorem heldKey_same (p : PathParams) (pos : Position) (fp : Bytes) (hv : ValidPath p pos.path)
    (h : pos.path.length < p.cc ∨ (∃ c, pos.path.getLast? = some c ∧ c.length = p.cl) ∨ pos.subspace = [] ∨ pos.subspace.head? = some 0) :
    ({ heldKey p pos fp with mem := successorPathMem p (heldKey p pos fp).mem (heldKey p pos fp).path } : HeldKey).key =
      (heldKey p pos fp).key := by
  have hplen : (heldKey p pos fp).path.length = pos.path.length := componentWindows_length _ _ _
  rcases Nat.lt_or_ge pos.path.length p.cc with hlt | hge
  · rw [successorPathMem_short _ _ _ (by rw [hplen]; exact hlt)]
  rcases List.eq_nil_or_concat pos.path with hnil | ⟨init, c, hcat⟩
  · have : (heldKey p pos fp).path = [] := List.length_eq_zero_iff.1 (by rw [hplen, hnil]; rfl)
    rw [this]
    rfl
  obtain ⟨s, path, t⟩ := pos
  simp only [List.concat_eq_append] at hcat
  simp only at h hge hv hplen
  subst hcat
  have hcc : (init ++ [c]).length = p.cc := Nat.le_antisymm hv.count hge
  rcases Nat.lt_or_ge c.length p.cl with hc | hc
  · rcases h with h | ⟨d, h1, h2⟩ | h | h
    · omega
    · simp only [List.getLast?_append, List.getLast?_singleton, Option.some_or, Option.some.injEq] at h1
      rw [h1] at hc
      omega
    · subst h
      obtain ⟨w, h1, h2, h3⟩ := componentWindows_last p init c (8 + getWidthMax32Int p.cc)
      have hp : (heldKey p ⟨[], init ++ [c], t⟩ fp).path = componentWindows p (init ++ [c]) (8 + getWidthMax32Int p.cc) := rfl
      rw [hp, h1, successorPathMem_end p _ _ w (by omega) (by rw [componentWindows_length]; simpa using hcc), h3,
        List.set_eq_of_length_le]
      show (encodeKey p ⟨[], init ++ [c], t⟩).length ≤ _
      have h8 : (bigIntToBytes t).length = 8 := by simp [bigIntToBytes, putU64]
      have hl := encodeIntMax32_length (p.conv (init ++ [c]).length) p.cc
      simp only [encodeKey, encodePath]
      rw [List.length_append, List.length_append, List.length_append, h8, hl, List.length_nil]
      omega
    · cases s with
      | nil => simp at h
      | cons b s =>
        simp only [List.head?_cons, Option.some.injEq] at h
        subst h
        rw [heldKey_overwritten p init c 0 s t fp hc (by simpa using hcc)]
  · have := hv.comp c (by simp)
    exact heldKey_full p s init c t fp (by omega)

/-- The lookup of a key that it does not change is that of its position. -/
theorem storageGetHeld_same (lib : KdLib) (p : PathParams) (pre post : List HeldKey) (h : HeldKey)
    (hl : ({ h with mem := successorPathMem p h.mem h.path } : HeldKey).key = h.key) :
    storageGetHeld lib p pre h post =
      (storageGet lib p ((pre ++ h :: post).map HeldKey.key) h.key.pos.subspace h.key.pos.path).map'
        fun o => ({ h with mem := successorPathMem p h.mem h.path }, o) := by
  unfold storageGetHeld storageGet pointRange
  have hm : (pre ++ ({ h with mem := successorPathMem p h.mem h.path } : HeldKey) :: post).map HeldKey.key =
      (pre ++ h :: post).map HeldKey.key := by simp only [List.map_append, List.map_cons, hl]
  simp only [hl, hm]
  cases successorPath h.key.pos.path p with
  | ok e =>
    simp only [Res.ok_bind]
    generalize lib.query _ _ = q
    match q with
    | [] => rfl
    | [_] => rfl
    | _ :: _ :: _ => rfl
  | err => rfl
  | crash => rfl
  | block => rfl

end Willow
