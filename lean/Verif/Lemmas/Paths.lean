import Verif.Lemmas.Successor

/-! Lemmas on path validity, distances and in-place effects. -/

namespace Willow
open Spec

theorem goInt_of_lt {x : Nat} (h : x < 2 ^ 63) : goInt x = x := by simp [goInt, h]

theorem isValidPathLoop_eq (cl : Nat) : ∀ (total : Nat) (path : Path),
    ((∀ c ∈ path, c.length ≤ cl) → isValidPathLoop cl total path = some (total + pathBytes path)) ∧
    ((¬ ∀ c ∈ path, c.length ≤ cl) → isValidPathLoop cl total path = none)
  | total, [] => by simp [isValidPathLoop, pathBytes]
  | total, c :: cs => by
    have ih := isValidPathLoop_eq cl (total + c.length) cs
    by_cases hc : c.length ≤ cl
    · have h1 : ¬ ((c.length : Int) > (cl : Int)) := by omega
      simp only [isValidPathLoop, if_neg h1, pathBytes_cons]
      constructor
      · intro h
        rw [ih.1 (fun d hd => h d (by simp [hd]))]
        simp; omega
      · intro h
        exact ih.2 (fun h' => h (by simp only [List.mem_cons, forall_eq_or_imp]; exact ⟨hc, h'⟩))
    · have h1 : (c.length : Int) > (cl : Int) := by omega
      simp only [isValidPathLoop, if_pos h1]
      constructor
      · intro h; exact absurd (h c (by simp)) hc
      · intro _; trivial

theorem bytesDistance_comm : ∀ a b : Bytes, bytesDistance a b = bytesDistance b a
  | [], [] => rfl
  | a :: as, [] => by simp [bytesDistance, bytesDistance_comm as []]
  | [], b :: bs => by simp [bytesDistance, bytesDistance_comm [] bs]
  | a :: as, b :: bs => by
    simp only [bytesDistance, bytesDistance_comm as bs]
    have : ((a.toNat : Int) - b.toNat) = - ((b.toNat : Int) - a.toNat) := by omega
    rw [this, Int.neg_mul_neg]

theorem pathDistance_comm : ∀ a b : Path, pathDistance a b = pathDistance b a
  | [], [] => rfl
  | a :: as, [] => by simp [pathDistance, bytesDistance_comm a [], pathDistance_comm as []]
  | [], b :: bs => by simp [pathDistance, bytesDistance_comm b [], pathDistance_comm [] bs]
  | a :: as, b :: bs => by simp [pathDistance, bytesDistance_comm a b, pathDistance_comm as bs]

theorem sq_nonneg' (x : Int) : 0 ≤ x * x := by
  rcases Int.le_total 0 x with h | h
  · exact Int.mul_nonneg h h
  · exact Int.mul_nonneg_of_nonpos_of_nonpos h h

theorem bytesDistance_nonneg : ∀ a b : Bytes, 0 ≤ bytesDistance a b
  | [], [] => by simp [bytesDistance]
  | a :: as, [] => by
    have := bytesDistance_nonneg as []; have := sq_nonneg' (a.toNat : Int)
    simp only [bytesDistance]; omega
  | [], b :: bs => by
    have := bytesDistance_nonneg [] bs; have := sq_nonneg' (b.toNat : Int)
    simp only [bytesDistance]; omega
  | a :: as, b :: bs => by
    have := bytesDistance_nonneg as bs; have := sq_nonneg' ((a.toNat : Int) - b.toNat)
    simp only [bytesDistance]; omega

theorem pathDistance_nonneg : ∀ a b : Path, 0 ≤ pathDistance a b
  | [], [] => by simp [pathDistance]
  | a :: as, [] => by
    have := pathDistance_nonneg as []; have := bytesDistance_nonneg a []
    simp only [pathDistance]; omega
  | [], b :: bs => by
    have := pathDistance_nonneg [] bs; have := bytesDistance_nonneg [] b
    simp only [pathDistance]; omega
  | a :: as, b :: bs => by
    have := pathDistance_nonneg as bs; have := bytesDistance_nonneg a b
    simp only [pathDistance]; omega

theorem bytesDistance_self : ∀ a : Bytes, bytesDistance a a = 0
  | [] => by simp [bytesDistance]
  | a :: as => by simp [bytesDistance, bytesDistance_self as]

theorem pathDistance_self : ∀ a : Path, pathDistance a a = 0
  | [] => by simp [pathDistance]
  | a :: as => by simp [pathDistance, bytesDistance_self, pathDistance_self as]

theorem bytesDistance_zero : ∀ a b : Bytes, a.length = b.length → bytesDistance a b = 0 → a = b
  | [], [], _, _ => rfl
  | a :: as, b :: bs, hl, h => by
    have h1 := bytesDistance_nonneg as bs
    have h2 := sq_nonneg' ((a.toNat : Int) - b.toNat)
    simp only [bytesDistance] at h
    have h3 : ((a.toNat : Int) - b.toNat) * ((a.toNat : Int) - b.toNat) = 0 := by omega
    have h4 : (a.toNat : Int) - b.toNat = 0 := by
      rcases Int.mul_eq_zero.mp h3 with h | h <;> exact h
    have h5 : a = b := UInt8.toNat_inj.mp (by omega)
    rw [h5, bytesDistance_zero as bs (by simpa using hl) (by omega)]

theorem pathDistance_zero : ∀ a b : Path, a.map List.length = b.map List.length →
    pathDistance a b = 0 → a = b
  | [], [], _, _ => rfl
  | a :: as, b :: bs, hl, h => by
    have h1 := pathDistance_nonneg as bs
    have h2 := bytesDistance_nonneg a b
    simp only [pathDistance] at h
    simp only [List.map_cons, List.cons.injEq] at hl
    rw [bytesDistance_zero a b hl.1 (by omega), pathDistance_zero as bs hl.2 (by omega)]

theorem sq_eq_zero' {x : Int} (h : x * x = 0) : x = 0 := by
  rcases Int.mul_eq_zero.1 h with h | h <;> exact h

theorem bytesDistance_eq_zero : ∀ a b : Bytes, bytesDistance a b = 0 ↔ ∀ j, a.getD j 0 = b.getD j 0
  | [], [] => by simp [bytesDistance]
  | a :: as, [] => by
    have ih := bytesDistance_eq_zero as []
    have h1 := bytesDistance_nonneg as []
    have h2 := sq_nonneg' (a.toNat : Int)
    simp only [bytesDistance]
    constructor
    · intro h j
      have h3 : (a.toNat : Int) * a.toNat = 0 := by omega
      have h3 := sq_eq_zero' h3
      have h4 : a = 0 := by apply UInt8.toNat_inj.1; simpa using h3
      cases j with
      | zero => simpa using h4
      | succ j => simpa using ih.1 (by omega) j
    · intro h
      have h0 : a = 0 := by simpa using h 0
      have := ih.2 fun j => by simpa using h (j + 1)
      subst h0
      simpa using this
  | [], b :: bs => by
    have ih := bytesDistance_eq_zero [] bs
    have h1 := bytesDistance_nonneg [] bs
    have h2 := sq_nonneg' (b.toNat : Int)
    simp only [bytesDistance]
    constructor
    · intro h j
      have h3 : (b.toNat : Int) * b.toNat = 0 := by omega
      have h3 := sq_eq_zero' h3
      have h4 : b = 0 := by apply UInt8.toNat_inj.1; simpa using h3
      cases j with
      | zero => simpa using h4.symm
      | succ j => simpa using ih.1 (by omega) j
    · intro h
      have h0 : b = 0 := by simpa using (h 0).symm
      have := ih.2 fun j => by simpa using h (j + 1)
      subst h0
      simpa using this
  | a :: as, b :: bs => by
    have ih := bytesDistance_eq_zero as bs
    have h1 := bytesDistance_nonneg as bs
    have h2 := sq_nonneg' ((a.toNat : Int) - b.toNat)
    simp only [bytesDistance]
    constructor
    · intro h j
      have h3 : ((a.toNat : Int) - b.toNat) * ((a.toNat : Int) - b.toNat) = 0 := by omega
      have h3 := sq_eq_zero' h3
      have h4 : a = b := by apply UInt8.toNat_inj.1; omega
      cases j with
      | zero => simpa using h4
      | succ j => simpa using ih.1 (by omega) j
    · intro h
      have h0 : a = b := by simpa using h 0
      have := ih.2 fun j => by simpa using h (j + 1)
      subst h0
      simpa using this

theorem pathDistance_eq_zero : ∀ a b : Path, pathDistance a b = 0 ↔ ∀ i j, (a.getD i []).getD j 0 = (b.getD i []).getD j 0
  | [], [] => by simp [pathDistance]
  | a :: as, [] => by
    have ih := pathDistance_eq_zero as []
    have h1 := pathDistance_nonneg as []
    have h2 := bytesDistance_nonneg a []
    have hb := bytesDistance_eq_zero a []
    simp only [pathDistance]
    constructor
    · intro h i
      cases i with
      | zero => simpa using hb.1 (by omega)
      | succ i => simpa using ih.1 (by omega) i
    · intro h
      have := hb.2 fun j => by simpa using h 0 j
      have := ih.2 fun i j => by simpa using h (i + 1) j
      omega
  | [], b :: bs => by
    have ih := pathDistance_eq_zero [] bs
    have h1 := pathDistance_nonneg [] bs
    have h2 := bytesDistance_nonneg [] b
    have hb := bytesDistance_eq_zero [] b
    simp only [pathDistance]
    constructor
    · intro h i
      cases i with
      | zero => simpa using hb.1 (by omega)
      | succ i => simpa using ih.1 (by omega) i
    · intro h
      have := hb.2 fun j => by simpa using h 0 j
      have := ih.2 fun i j => by simpa using h (i + 1) j
      omega
  | a :: as, b :: bs => by
    have ih := pathDistance_eq_zero as bs
    have h1 := pathDistance_nonneg as bs
    have h2 := bytesDistance_nonneg a b
    have hb := bytesDistance_eq_zero a b
    simp only [pathDistance]
    constructor
    · intro h i
      cases i with
      | zero => simpa using hb.1 (by omega)
      | succ i => simpa using ih.1 (by omega) i
    · intro h
      have := hb.2 fun j => by simpa using h 0 j
      have := ih.2 fun i j => by simpa using h (i + 1) j
      omega

/-! ### In-place effect of the prefix successor -/

theorem successorPrefixMutated_short {p : PathParams} {path : Path}
    (h : ∀ c, path.getLast? = some c → c.length < p.cl) : successorPrefixMutated path p = path := by
  unfold successorPrefixMutated
  cases hp : path.length with
  | zero => rfl
  | succ i =>
    have hlt : i < path.length := by omega
    have hc := h path[i] (by
      rw [List.getLast?_eq_getElem?, hp]
      simp [hlt])
    unfold successorPrefixMutatedLoop
    rw [List.getElem?_eq_getElem hlt]
    simp only
    rcases tryAppendZeroByte_spec (p := p) (Nat.le_of_lt hc) with ⟨h', _⟩ | ⟨_, h'⟩
    · rw [h']
    · omega

end Willow
