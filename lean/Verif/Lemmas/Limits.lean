import Verif.Lemmas.Kv

/-! What the path arithmetic does with paths that are not comfortable. -/

namespace Willow
open Spec

/-- The largest components at the end of a path can be left out. -/
theorem path_cases (p : PathParams) : ∀ path : Path, (∀ c ∈ path, c = List.replicate p.cl 255) ∨
    ∃ pre c post, path = pre ++ c :: post ∧ c ≠ List.replicate p.cl 255 ∧ ∀ d ∈ post, d = List.replicate p.cl 255
  | [] => .inl (by simp)
  | a :: path => by
    rcases path_cases p path with h | ⟨pre, c, post, rfl, h1, h2⟩
    · by_cases ha : a = List.replicate p.cl 255
      · refine .inl fun c hc => ?_
        rcases List.mem_cons.1 hc with rfl | hc
        · exact ha
        · exact h c hc
      · exact .inr ⟨[], a, path, rfl, ha, h⟩
    · exact .inr ⟨a :: pre, c, post, rfl, h1, h2⟩

theorem largest_maximal {cl : Nat} {post : Path} (h : ∀ d ∈ post, d = List.replicate cl 255) : ∀ d ∈ post, Maximal cl d := by
  intro d hd
  rw [h d hd]
  exact replicate_255_maximal _

theorem maximal_largest {cl : Nat} {d : Bytes} (hd : d.length ≤ cl) (h : Maximal cl d) : d = List.replicate cl 255 := by
  have h1 := h (List.replicate cl 255) (by simp)
  have h2 := replicate_255_maximal cl d hd
  rcases bytesLt_strictTotal.tri d (List.replicate cl 255) with h' | h' | h'
  · exact absurd h' h1
  · exact h'
  · exact absurd h' h2

/-! ### Paths of largest components only -/

theorem loops_largest {p : PathParams} {path : Path} (h : ∀ d ∈ path, d = List.replicate p.cl 255) : ∀ k ≤ path.length,
    successorPathLoop path p k = .ok none ∧ successorPrefixLoop path p k = .ok none ∧
    successorPrefixMutatedLoop path p k = path
  | 0, _ => ⟨rfl, rfl, rfl⟩
  | k + 1, hk => by
    have hget : path[k]? = some (List.replicate p.cl 255) := by
      rw [List.getElem?_eq_getElem (by omega), h _ (List.getElem_mem _)]
    obtain ⟨h1, h2, h3⟩ := loops_largest h k (by omega)
    have hp : prefixSuccessor (List.replicate p.cl 255) = none := prefixSuccessorLoop_255 _ _
    refine ⟨?_, ?_, ?_⟩
    · unfold successorPathLoop
      rw [hget]
      simp only [tryAppendZeroByte_full, successorBytes_255]
      exact h1
    · unfold successorPrefixLoop
      rw [hget]
      simp only [tryAppendZeroByte_full, hp]
      exact h2
    · unfold successorPrefixMutatedLoop
      rw [hget]
      simp only [tryAppendZeroByte_full, hp]
      exact h3

theorem successorPath_largest {p : PathParams} {path : Path} (hne : path ≠ []) (hl : path.length = p.cc)
    (h : ∀ d ∈ path, d = List.replicate p.cl 255) : successorPath path p = .ok none := by
  unfold successorPath
  rw [if_neg (by simpa using hne), conv_of_le (Nat.le_of_eq hl) p.hcc, if_neg (by omega)]
  exact (loops_largest h _ (Nat.le_refl _)).1

theorem successorPrefix_largest {p : PathParams} {path : Path} (h : ∀ d ∈ path, d = List.replicate p.cl 255) :
    successorPrefix path p = .ok none := (loops_largest h _ (Nat.le_refl _)).2.1

theorem successorPrefixMutated_largest {p : PathParams} {path : Path} (h : ∀ d ∈ path, d = List.replicate p.cl 255) :
    successorPrefixMutated path p = path := (loops_largest h _ (Nat.le_refl _)).2.2

/-! ### The total length is used up -/

theorem append_noroom {p : PathParams} (hw : NoWrap p) {pre : Path} {c : Bytes}
    (ht : pathBytes (pre ++ [c]) = p.pl) : pathAppend pre (c ++ [0]) p = .crash := by
  rw [pathBytes_append] at ht
  simp [pathBytes] at ht
  unfold pathAppend
  split
  · rfl
  · rw [totalLength_eq, conv_of_le (y := p.pl + 1) (by simp [pathBytes]; omega) hw.pl, if_pos (by simp [pathBytes]; omega)]

theorem successorPrefix_noroom {p : PathParams} (hw : NoWrap p) {pre : Path} {c : Bytes} (hc : c.length < p.cl)
    (ht : pathBytes (pre ++ [c]) = p.pl) : successorPrefix (pre ++ [c]) p = .crash := by
  unfold successorPrefix
  rw [List.length_append, List.length_singleton]
  unfold successorPrefixLoop
  rw [List.getElem?_append_right (Nat.le_refl _), Nat.sub_self, List.getElem?_cons_zero]
  simp only [tryAppend_room hc]
  rw [List.take_left, append_noroom hw ht]
  rfl

theorem successorPath_noroom {p : PathParams} (hw : NoWrap p) {pre : Path} {c : Bytes} (hc : c.length < p.cl)
    (ht : pathBytes (pre ++ [c]) = p.pl) (hl : (pre ++ [c]).length = p.cc) : successorPath (pre ++ [c]) p = .crash := by
  unfold successorPath
  rw [if_neg (by simp), conv_of_le (Nat.le_of_eq hl) p.hcc, if_neg (by omega)]
  rw [List.length_append, List.length_singleton]
  unfold successorPathLoop
  rw [List.getElem?_append_right (Nat.le_refl _), Nat.sub_self, List.getElem?_cons_zero]
  simp only [tryAppend_room hc]
  rw [List.take_left, append_noroom hw ht]
  rfl

/-! ### The sum of the lengths wraps around -/

theorem append_wraps {p : PathParams} (hpl : p.pl + 1 = 2 ^ p.bits) {pre : Path} {c : Bytes} (hv : ValidPath p (pre ++ [c]))
    (ht : pathBytes (pre ++ [c]) = p.pl) : pathAppend pre (c ++ [0]) p = .ok (pre ++ [c ++ [0]]) := by
  have hcount := hv.count
  simp only [List.length_append, List.length_singleton] at hcount
  rw [pathBytes_append] at ht
  simp [pathBytes] at ht
  unfold pathAppend
  rw [conv_of_le hcount p.hcc, if_neg (by omega), totalLength_eq, if_neg]
  have : (c ++ [0]).length + pathBytes pre = 2 ^ p.bits := by simp [pathBytes]; omega
  rw [this]
  simp [PathParams.conv]

theorem successorPrefix_wraps {p : PathParams} (hpl : p.pl + 1 = 2 ^ p.bits) {pre : Path} {c : Bytes} (hc : c.length < p.cl)
    (hv : ValidPath p (pre ++ [c])) (ht : pathBytes (pre ++ [c]) = p.pl) :
    successorPrefix (pre ++ [c]) p = .ok (some (pre ++ [c ++ [0]])) := by
  unfold successorPrefix
  rw [List.length_append, List.length_singleton]
  unfold successorPrefixLoop
  rw [List.getElem?_append_right (Nat.le_refl _), Nat.sub_self, List.getElem?_cons_zero]
  simp only [tryAppend_room hc]
  rw [List.take_left, append_wraps hpl hv ht]
  rfl

/-! ### A component of full length that is not the largest -/

theorem tail_255 : ∀ c : Bytes, c = List.replicate c.length 255 ∨
    ∃ x b k, c = x ++ b :: List.replicate k 255 ∧ b ≠ 255
  | [] => .inl rfl
  | a :: c => by
    rcases tail_255 c with h | ⟨x, b, k, h1, h2⟩
    · by_cases ha : a = 255
      · left
        rw [List.length_cons, List.replicate_succ, ha, ← h]
      · exact .inr ⟨[], a, c.length, by rw [← h]; rfl, ha⟩
    · exact .inr ⟨a :: x, b, k, by rw [h1]; rfl, h2⟩

section
variable {x : Bytes} {b : UInt8} (hb : b ≠ 255)
include hb

theorem prefixSuccessorLoops_full (k : Nat) : ∀ j ≤ k,
    prefixSuccessorLoop (x ++ b :: List.replicate k 255) (x.length + 1 + j) = some (x ++ [b + 1]) ∧
    prefixSuccessorMutatedLoop (x ++ b :: List.replicate k 255) (x.length + 1 + j) = x ++ (b + 1) :: List.replicate k 255
  | 0, _ => by
    refine ⟨?_, ?_⟩
    · rw [Nat.add_zero]
      unfold prefixSuccessorLoop
      rw [List.getElem?_append_right (Nat.le_refl _), Nat.sub_self, List.getElem?_cons_zero]
      simp only [hb, ne_eq, not_false_eq_true, if_true, List.take_left]
    · rw [Nat.add_zero]
      unfold prefixSuccessorMutatedLoop
      rw [List.getElem?_append_right (Nat.le_refl _), Nat.sub_self, List.getElem?_cons_zero]
      simp only [hb, ne_eq, not_false_eq_true, if_true]
      rw [List.set_append_right _ _ (Nat.le_refl _), Nat.sub_self, List.set_cons_zero]
  | j + 1, hj => by
    obtain ⟨h1, h2⟩ := prefixSuccessorLoops_full k j (by omega)
    have hget : (x ++ b :: List.replicate k 255)[x.length + 1 + j]? = some 255 := by
      rw [List.getElem?_append_right (by omega), show x.length + 1 + j - x.length = j + 1 by omega,
        List.getElem?_cons_succ, List.getElem?_replicate, if_pos (by omega)]
    rw [← Nat.add_assoc]
    refine ⟨?_, ?_⟩
    · unfold prefixSuccessorLoop
      rw [hget]
      simpa using h1
    · unfold prefixSuccessorMutatedLoop
      rw [hget]
      simpa using h2

theorem prefixSuccessor_full (k : Nat) : prefixSuccessor (x ++ b :: List.replicate k 255) = some (x ++ [b + 1]) := by
  unfold prefixSuccessor
  have := (prefixSuccessorLoops_full (x := x) hb k k (Nat.le_refl _)).1
  rwa [show (x ++ b :: List.replicate k 255).length = x.length + 1 + k by simp; omega]

theorem prefixSuccessorMutated_full (k : Nat) :
    prefixSuccessorMutated (x ++ b :: List.replicate k 255) = x ++ (b + 1) :: List.replicate k 255 := by
  unfold prefixSuccessorMutated
  have := (prefixSuccessorLoops_full (x := x) hb k k (Nat.le_refl _)).2
  rwa [show (x ++ b :: List.replicate k 255).length = x.length + 1 + k by simp; omega]

theorem successorBytes_full (k : Nat) : successorBytesFixedWidth (x ++ b :: List.replicate k 255) ≠ none := by
  intro h
  have h1 := successorBytesLoop_none _ _ (Nat.le_refl _) h x.length (by simp)
  rw [List.getElem?_append_right (Nat.le_refl _), Nat.sub_self, List.getElem?_cons_zero] at h1
  exact hb (Option.some.inj h1)

end

section
variable {p : PathParams} {pre post : Path} {x : Bytes} {b : UInt8} {k : Nat} (hb : b ≠ 255)
  (hlen : (x ++ b :: List.replicate k 255).length = p.cl) (hpost : ∀ d ∈ post, d = List.replicate p.cl 255)
include hlen

theorem tryAppend_full : tryAppendZeroByte (x ++ b :: List.replicate k 255) p = none := by
  unfold tryAppendZeroByte
  rw [hlen, conv_of_le (Nat.le_refl _) p.hcl, if_pos rfl]

include hb hpost

theorem successorPrefix_full (hv : ValidPath p (pre ++ (x ++ b :: List.replicate k 255) :: post)) :
    successorPrefix (pre ++ (x ++ b :: List.replicate k 255) :: post) p = .ok (some (pre ++ [x ++ [b + 1]])) := by
  unfold successorPrefix
  have := (loops_skip (pre := pre) (c := x ++ b :: List.replicate k 255) hpost post.length (Nat.le_refl _)).2.1
  rw [show (pre ++ (x ++ b :: List.replicate k 255) :: post).length = pre.length + 1 + post.length by simp; omega, this]
  unfold successorPrefixLoop
  rw [List.getElem?_append_right (Nat.le_refl _), Nat.sub_self, List.getElem?_cons_zero]
  simp only [tryAppend_full hlen, prefixSuccessor_full hb]
  rw [List.take_left, pathAppend_succeeds]
  · rfl
  · have := hv.count
    simp at this
    omega
  · have := hv.total
    rw [pathBytes_append, pathBytes_cons] at this
    simp at this ⊢
    omega

theorem successorPrefixMutated_full : successorPrefixMutated (pre ++ (x ++ b :: List.replicate k 255) :: post) p =
    pre ++ (x ++ (b + 1) :: List.replicate k 255) :: post := by
  unfold successorPrefixMutated
  have := (loops_skip (pre := pre) (c := x ++ b :: List.replicate k 255) hpost post.length (Nat.le_refl _)).2.2
  rw [show (pre ++ (x ++ b :: List.replicate k 255) :: post).length = pre.length + 1 + post.length by simp; omega, this]
  unfold successorPrefixMutatedLoop
  rw [List.getElem?_append_right (Nat.le_refl _), Nat.sub_self, List.getElem?_cons_zero]
  simp only [tryAppend_full hlen, prefixSuccessor_full hb, prefixSuccessorMutated_full hb]
  rw [List.set_append_right _ _ (Nat.le_refl _), Nat.sub_self, List.set_cons_zero]

theorem successorPath_full (hw : NoWrap p) (hl : (pre ++ (x ++ b :: List.replicate k 255) :: post).length = p.cc) :
    successorPath (pre ++ (x ++ b :: List.replicate k 255) :: post) p = .crash := by
  have happ : ∀ nc, pathAppend (pre ++ (x ++ b :: List.replicate k 255) :: post) nc p = .crash := by
    intro nc
    unfold pathAppend
    rw [conv_of_le (Nat.le_of_eq (by rw [hl])) hw.cc, if_pos (by omega)]
  unfold successorPath
  rw [if_neg (by simp), conv_of_le (Nat.le_of_eq hl) p.hcc, if_neg (by omega)]
  have := (loops_skip (pre := pre) (c := x ++ b :: List.replicate k 255) hpost post.length (Nat.le_refl _)).1
  rw [show (pre ++ (x ++ b :: List.replicate k 255) :: post).length = pre.length + 1 + post.length by simp; omega, this]
  unfold successorPathLoop
  rw [List.getElem?_append_right (Nat.le_refl _), Nat.sub_self, List.getElem?_cons_zero]
  simp only [tryAppend_full hlen]
  cases hn : successorBytesFixedWidth (x ++ b :: List.replicate k 255) with
  | none => exact absurd hn (successorBytes_full hb k)
  | some nc => simp only [happ]; rfl

end

theorem successorBytesLoop_length : ∀ (i : Nat) (c d : Bytes), successorBytesLoop c i = some d → d.length = c.length
  | 0, _, _, h => by simp [successorBytesLoop] at h
  | i + 1, c, d, h => by
    unfold successorBytesLoop at h
    split at h
    · split at h
      · have := successorBytesLoop_length i _ d h
        simpa using this
      · cases h; simp
    · cases h

/-- At the largest number of components of the type the component is appended to the whole path. -/
theorem successorPath_wraps {p : PathParams} (hcc : p.cc + 1 = 2 ^ p.bits) {pre : Path} {c : Bytes}
    (hl : (pre ++ [c]).length = p.cc) (hc : c.length = p.cl) (hm : c ≠ List.replicate p.cl 255)
    (ht : pathBytes (pre ++ [c]) + p.cl ≤ p.pl) :
    ∃ d, successorPath (pre ++ [c]) p = .ok (some ((pre ++ [c]) ++ [d])) := by
  have htry : tryAppendZeroByte c p = none := by
    unfold tryAppendZeroByte
    rw [hc, conv_of_le (Nat.le_refl _) p.hcl, if_pos rfl]
  obtain ⟨x, b, k, hx, hb⟩ := (tail_255 c).resolve_left (by rwa [hc])
  unfold successorPath
  rw [if_neg (by simp), conv_of_le (Nat.le_of_eq hl) p.hcc, if_neg (by omega)]
  rw [List.length_append, List.length_singleton]
  unfold successorPathLoop
  rw [List.getElem?_append_right (Nat.le_refl _), Nat.sub_self, List.getElem?_cons_zero]
  cases hn : successorBytesFixedWidth c with
  | none => exact absurd (hx ▸ hn) (successorBytes_full hb k)
  | some d =>
    refine ⟨d, ?_⟩
    have hd : d.length = c.length := successorBytesLoop_length _ _ _ hn
    simp only [htry, hn]
    unfold pathAppend
    rw [show (pre ++ [c]).length + 1 = 2 ^ p.bits by omega, totalLength_eq,
      conv_of_le (x := d.length + pathBytes (pre ++ [c])) (y := p.pl) (by omega) p.hpl, if_neg (by simp [PathParams.conv]), if_neg (by omega)]
    rfl

/-- `SuccessorPrefix` returns and leaves its argument alone. -/
theorem successorPrefix_kept {p : PathParams} {path : Path}
    (h : Comfortable p path ∨ ∀ c ∈ path, c = List.replicate p.cl 255) :
    (∃ e, successorPrefix path p = .ok e) ∧ successorPrefixMutated path p = path := by
  rcases h with h | h
  · have hv := h.valid
    obtain ⟨pre, c, post, rfl, hc, ht, hpost⟩ := h.room
    exact ⟨⟨_, successorPrefix_room hv hc ht hpost⟩, successorPrefixMutated_room hc hpost⟩
  · exact ⟨⟨_, successorPrefix_largest h⟩, successorPrefixMutated_largest h⟩

theorem valid_snoc_nil {p : PathParams} {path : Path} (hv : ValidPath p path) (hl : path.length < p.cc) :
    ValidPath p (path ++ [[]]) := by
  refine ⟨by simp; omega, ?_, ?_⟩
  · intro c hc
    simp only [List.mem_append, List.mem_singleton] at hc
    rcases hc with hc | rfl
    · exact hv.comp c hc
    · simp
  · have := hv.total
    simp only [pathBytes_append]
    simpa [pathBytes] using this

/-! ### All paths -/

/-- The kinds of valid paths. -/
inductive PathKind (p : PathParams) (path : Path) : Prop
  | comfortable (h : Comfortable p path)
  | largest (h : ∀ c ∈ path, c = List.replicate p.cl 255)
  | noroom (pre : Path) (c : Bytes) (hp : path = pre ++ [c]) (hc : c.length < p.cl) (ht : pathBytes path = p.pl)
  | full (pre post : Path) (x : Bytes) (b : UInt8) (k : Nat) (hp : path = pre ++ (x ++ b :: List.replicate k 255) :: post)
      (hb : b ≠ 255) (hlen : (x ++ b :: List.replicate k 255).length = p.cl) (hpost : ∀ d ∈ post, d = List.replicate p.cl 255)

theorem pathKind {p : PathParams} {path : Path} (hv : ValidPath p path) : PathKind p path := by
  rcases path_cases p path with h | ⟨pre, c, post, rfl, hc, hpost⟩
  · exact .largest h
  · have hcl := hv.comp c (by simp)
    by_cases hlt : c.length < p.cl
    · by_cases ht : pathBytes (pre ++ [c]) < p.pl
      · exact .comfortable ⟨hv, pre, c, post, rfl, hlt, ht, hpost⟩
      · have htot := hv.total
        rw [show pre ++ c :: post = (pre ++ [c]) ++ post by simp, pathBytes_append] at htot
        cases post with
        | nil => exact .noroom pre c rfl hlt (by rw [show pathBytes ([] : Path) = 0 from rfl] at htot; omega)
        | cons d post =>
          rw [pathBytes_cons, hpost d (by simp), List.length_replicate] at htot
          omega
    · have hlen : c.length = p.cl := by omega
      rcases tail_255 c with h | ⟨x, b, k, rfl, hb⟩
      · rw [hlen] at h
        exact absurd h hc
      · exact .full pre post x b k rfl hb hlen hpost

end Willow
