import Verif.Lemmas.Order
import Verif.Model.Successor

set_option linter.unusedSimpArgs false

namespace Willow
open Spec

theorem totalLength_eq (path : Path) : totalLength path = pathBytes path := rfl

theorem conv_of_le {p : PathParams} {x y : Nat} (h : x ≤ y) (hy : y < 2 ^ p.bits) : p.conv x = x :=
  Nat.mod_eq_of_lt (by omega)

/-- No component of at most `cl` bytes is above `c`. -/
def Maximal (cl : Nat) (c : Bytes) : Prop := ∀ d : Bytes, d.length ≤ cl → ¬ BytesLt c d

/-- `c'` is the next component after `c` among those of at most `cl` bytes. -/
structure ImmSucc (cl : Nat) (c c' : Bytes) : Prop where
  lt : BytesLt c c'
  len : c'.length ≤ cl
  imm : ∀ d : Bytes, d.length ≤ cl → BytesLt c d → ¬ BytesLt d c'

theorem u8_succ_lt {b : UInt8} (h : b ≠ 255) : b < b + 1 := by
  have h1 := b.toNat_lt
  have h2 : b.toNat ≠ 255 := fun h' => h (UInt8.toNat_inj.mp h')
  show b.toNat < (b + 1).toNat
  rw [UInt8.toNat_add]
  simp; omega

theorem u8_imm {b d : UInt8} (h : b < d) (h255 : b ≠ 255) : ¬ d < b + 1 := by
  have h1 := b.toNat_lt
  have h2 : b.toNat ≠ 255 := fun h' => h255 (UInt8.toNat_inj.mp h')
  show ¬ d.toNat < (b + 1).toNat
  have h3 : b.toNat < d.toNat := h
  rw [UInt8.toNat_add]
  simp; omega

theorem u8_le_255 (d : UInt8) : ¬ (255 : UInt8) < d := by
  show ¬ (255 : UInt8).toNat < d.toNat
  have := d.toNat_lt
  simp; omega

/-- Appending a zero byte gives the immediate successor among all byte strings. -/
theorem bytesLt_snoc_zero_imm : ∀ (c d : Bytes), BytesLt c d → ¬ BytesLt d (c ++ [0])
  | _, [], h => by simp [BytesLt, LexLt] at h
  | [], y :: d, _ => by
    simp only [List.nil_append, BytesLt, LexLt, not_or, not_and]
    refine ⟨?_, fun _ h => h⟩
    show ¬ y.toNat < (0 : UInt8).toNat
    simp
  | x :: c, y :: d, h => by
    simp only [List.cons_append, BytesLt, LexLt] at h ⊢
    rintro (h' | ⟨rfl, h'⟩)
    · rcases h with h | ⟨rfl, _⟩
      · exact u8_strictTotal.asymm h h'
      · exact u8_strictTotal.irrefl _ h'
    · rcases h with h | ⟨_, h⟩
      · exact u8_strictTotal.irrefl _ h
      · exact bytesLt_snoc_zero_imm c d h h'

theorem immSucc_snoc_zero {cl : Nat} {c : Bytes} (h : c.length < cl) : ImmSucc cl c (c ++ [0]) :=
  ⟨lexLt_append c (by simp), by simp; omega, fun d _ h1 => bytesLt_snoc_zero_imm c d h1⟩

/-- Only strings longer than `replicate n 255` are above it. -/
theorem replicate_255_maximal : ∀ (n : Nat) (d : Bytes), d.length ≤ n → ¬ BytesLt (List.replicate n 255) d
  | 0, d, h => by
    have : d = [] := List.eq_nil_of_length_eq_zero (by omega)
    subst this; simp [BytesLt, LexLt]
  | n + 1, [], _ => by simp [BytesLt, LexLt]
  | n + 1, y :: d, h => by
    simp only [List.replicate_succ, BytesLt, LexLt, not_or, not_and]
    refine ⟨u8_le_255 y, fun _ => replicate_255_maximal n d (by simpa using h)⟩

theorem immSucc_increment : ∀ (x : Bytes) (b : UInt8) (k : Nat), b ≠ 255 →
    ∀ cl, x.length + 1 + k = cl →
    ImmSucc cl (x ++ b :: List.replicate k 255) (x ++ [b + 1])
  | [], b, k, hb, cl, hcl => by
    simp only [List.length_nil] at hcl
    refine ⟨.inl (u8_succ_lt hb), by simp; omega, ?_⟩
    intro d hd h1 h2
    cases d with
    | nil => simp [BytesLt, LexLt] at h1
    | cons y d =>
      simp only [List.nil_append, BytesLt, LexLt] at h1 h2
      rcases h1 with h1 | ⟨rfl, h1⟩
      · rcases h2 with h2 | ⟨rfl, h2⟩
        · exact u8_imm h1 hb h2
        · exact h2
      · exact replicate_255_maximal k d (by simp at hd; omega) h1
  | z :: x, b, k, hb, cl, hcl => by
    cases cl with
    | zero => simp at hcl
    | succ cl =>
      have ih := immSucc_increment x b k hb cl (by simp at hcl; omega)
      refine ⟨.inr ⟨rfl, ih.lt⟩, by simpa using ih.len, ?_⟩
      intro d hd h1 h2
      cases d with
      | nil => simp [BytesLt, LexLt] at h1
      | cons y d =>
        simp only [List.cons_append, BytesLt, LexLt] at h1 h2
        rcases h1 with h1 | ⟨rfl, h1⟩
        · rcases h2 with h2 | ⟨rfl, h2⟩
          · exact u8_strictTotal.asymm h1 h2
          · exact u8_strictTotal.irrefl _ h1
        · rcases h2 with h2 | ⟨_, h2⟩
          · exact u8_strictTotal.irrefl _ h2
          · exact ih.imm d (by simpa using hd) h1 h2

theorem prefixSuccessorLoop_spec (c : Bytes) : ∀ i ≤ c.length,
    c.drop i = List.replicate (c.length - i) 255 →
    (∃ x b k, c = x ++ b :: List.replicate k 255 ∧ b ≠ 255 ∧ prefixSuccessorLoop c i = some (x ++ [b + 1])) ∨
    (c = List.replicate c.length 255 ∧ prefixSuccessorLoop c i = none)
  | 0, _, h => by
    right
    exact ⟨by simpa using h, rfl⟩
  | i + 1, hi, h => by
    have hlt : i < c.length := hi
    have hsplit : c = c.take i ++ c[i] :: c.drop (i + 1) := by simp
    unfold prefixSuccessorLoop
    rw [List.getElem?_eq_getElem hlt]
    simp only []
    by_cases hb : c[i] = 255
    · simp only [hb, ne_eq, not_true_eq_false, if_false]
      apply prefixSuccessorLoop_spec c i (by omega)
      rw [List.drop_eq_getElem_cons hlt, hb, h]
      have : c.length - i = (c.length - (i + 1)) + 1 := by omega
      rw [this, List.replicate_succ]
    · left
      refine ⟨c.take i, c[i], c.length - (i + 1), ?_, hb, ?_⟩
      · rw [← h]; exact hsplit
      · simp [hb]

theorem prefixSuccessor_spec (c : Bytes) :
    (∃ c', prefixSuccessor c = some c' ∧ ImmSucc c.length c c') ∨
    (prefixSuccessor c = none ∧ Maximal c.length c) := by
  rcases prefixSuccessorLoop_spec c c.length (by omega) (by simp) with ⟨x, b, k, hc, hb, h⟩ | ⟨hc, h⟩
  · left
    refine ⟨_, h, ?_⟩
    have := immSucc_increment x b k hb c.length (by rw [hc]; simp; omega)
    rwa [← hc] at this
  · right
    refine ⟨h, ?_⟩
    intro d hd
    rw [hc]
    exact replicate_255_maximal _ d hd

theorem tryAppendZeroByte_spec {p : PathParams} {c : Bytes} (hc : c.length ≤ p.cl) :
    (tryAppendZeroByte c p = some (c ++ [0]) ∧ c.length < p.cl) ∨
    (tryAppendZeroByte c p = none ∧ c.length = p.cl) := by
  unfold tryAppendZeroByte
  rw [conv_of_le hc p.hcl]
  by_cases h : c.length = p.cl
  · simp [h]
  · simp [h]; omega

/-- If every component of `post` is maximal then the paths at least `post` are its extensions. -/
theorem maximal_prefix {cl : Nat} : ∀ (post rest : Path), (∀ c ∈ post, Maximal cl c) →
    (∀ c ∈ rest, c.length ≤ cl) → ¬ PathLt rest post → post <+: rest
  | [], _, _, _, _ => by simp
  | c :: post, [], _, _, h => by simp [PathLt, LexLt] at h
  | c :: post, d :: rest, hm, hr, h => by
    simp only [PathLt, LexLt, not_or, not_and] at h
    have h1 : ¬ BytesLt c d := hm c (by simp) d (hr d (by simp))
    have : d = c := bytesLt_strictTotal.le_antisymm h1 h.1
    subst this
    rw [List.cons_prefix_cons]
    exact ⟨rfl, maximal_prefix post rest (fun c hc => hm c (by simp [hc])) (fun c hc => hr c (by simp [hc])) (h.2 rfl)⟩

/-- The path `pre ++ [c']` bounds the extensions of `pre ++ c :: post` tightly. -/
theorem between_succ {cl : Nat} {pre post q : Path} {c c' : Bytes} (hs : ImmSucc cl c c')
    (hm : ∀ d ∈ post, Maximal cl d) (hq : ∀ d ∈ q, d.length ≤ cl)
    (h1 : ¬ PathLt q (pre ++ c :: post)) (h2 : PathLt q (pre ++ [c'])) :
    pre ++ c :: post <+: q := by
  have hpre : pre <+: q := by
    apply prefix_of_between bytesLt_strictTotal (r := pre ++ [c']) _ _ (by simp)
    · intro h
      apply h1
      exact pathLt_strictTotal.lt_of_lt_of_le h (prefix_not_lt bytesLt_strictTotal (by simp))
    · exact pathLt_strictTotal.asymm h2
  obtain ⟨t, rfl⟩ := hpre
  rw [PathLt, lexLt_append_left bytesLt_strictTotal.irrefl] at h1 h2
  rw [List.prefix_append_right_inj]
  cases t with
  | nil => simp [LexLt] at h1
  | cons d t =>
    simp only [LexLt, not_or, not_and] at h1 h2
    have hd : BytesLt d c' := by
      rcases h2 with h2 | ⟨_, h2⟩
      · exact h2
      · exact h2.elim
    have hdlen : d.length ≤ cl := hq d (by simp)
    have hdc : d = c := by
      rcases bytesLt_strictTotal.tri d c with h | h | h
      · exact absurd h h1.1
      · exact h
      · exact absurd hd (hs.imm d hdlen h)
    subst hdc
    rw [List.cons_prefix_cons]
    exact ⟨rfl, maximal_prefix post t hm (fun c hc => hq c (by simp [hc])) (h1.2 rfl)⟩

theorem ext_lt_succ {pre post q : Path} {c c' : Bytes} (hc : BytesLt c c')
    (h : pre ++ c :: post <+: q) : PathLt q (pre ++ [c']) := by
  obtain ⟨t, rfl⟩ := h
  rw [List.append_assoc, PathLt, lexLt_append_left bytesLt_strictTotal.irrefl]
  exact .inl hc

/-- Outcome of the two successor loops: the split at which they stop. -/
inductive SuccSplit (p : PathParams) (path : Path) : Option Path → Prop
  | none (h : ∀ c ∈ path, Maximal p.cl c) : SuccSplit p path none
  | some (pre post : Path) (c c' : Bytes) (hpath : path = pre ++ c :: post)
      (hs : ImmSucc p.cl c c') (hm : ∀ d ∈ post, Maximal p.cl d) : SuccSplit p path (some (pre ++ [c']))

/-- None of the limits is the largest value of the Go type, so adding one to a length within
the limits does not wrap. -/
structure NoWrap (p : PathParams) : Prop where
  cc : p.cc + 1 < 2 ^ p.bits
  pl : p.pl + 1 < 2 ^ p.bits

theorem pathAppend_ok {p : PathParams} {path r : Path} {c : Bytes} (h : pathAppend path c p = .ok r) :
    r = path ++ [c] := by
  unfold pathAppend at h
  split at h
  · simp at h
  · split at h
    · simp at h
    · simp at h; exact h.symm

theorem pathAppend_ok_total {p : PathParams} (hw : NoWrap p) {path r : Path} {c : Bytes}
    (ht : c.length + pathBytes path ≤ p.pl + 1) (h : pathAppend path c p = .ok r) :
    c.length + pathBytes path ≤ p.pl := by
  unfold pathAppend at h
  split at h
  · simp at h
  · split at h
    · simp at h
    · rename_i h2
      rw [totalLength_eq, conv_of_le ht hw.pl] at h2
      omega

theorem pathAppend_succeeds {p : PathParams} {path : Path} {c : Bytes} (hl : path.length + 1 ≤ p.cc)
    (ht : c.length + pathBytes path ≤ p.pl) : pathAppend path c p = .ok (path ++ [c]) := by
  unfold pathAppend
  rw [totalLength_eq, conv_of_le hl p.hcc, conv_of_le ht p.hpl]
  rw [if_neg (by omega), if_neg (by omega)]

theorem pathBytes_append (a b : Path) : pathBytes (a ++ b) = pathBytes a + pathBytes b := by
  simp [pathBytes]

theorem pathBytes_cons (c : Bytes) (b : Path) : pathBytes (c :: b) = c.length + pathBytes b := by
  simp [pathBytes]

theorem prefixSuccessor_len {c c' : Bytes} (h : prefixSuccessor c = some c') : c'.length ≤ c.length := by
  rcases prefixSuccessor_spec c with ⟨c'', h', hs⟩ | ⟨h', _⟩
  · rw [h] at h'; simp at h'; subst h'; exact hs.len
  · rw [h] at h'; simp at h'

theorem successorPrefixLoop_spec {p : PathParams} {path : Path} (hv : ValidPath p path) :
    ∀ i ≤ path.length, (∀ c ∈ path.drop i, Maximal p.cl c) →
      (∀ s, successorPrefixLoop path p i = .ok s → SuccSplit p path s ∧
        (NoWrap p → ∀ s', s = some s' → ValidPath p s')) ∧
      (pathBytes path < p.pl → ∃ s, successorPrefixLoop path p i = .ok s)
  | 0, _, hm => by
    simp only [successorPrefixLoop, Res.ok.injEq]
    refine ⟨fun s hs => ?_, fun _ => ⟨_, rfl⟩⟩
    subst hs
    exact ⟨.none (by simpa using hm), by simp⟩
  | i + 1, hi, hm => by
    have hlt : i < path.length := hi
    have hsplit : path = path.take i ++ path[i] :: path.drop (i + 1) := by simp
    have hclen : path[i].length ≤ p.cl := hv.comp _ (by simp)
    have hlenpre : (path.take i).length + 1 ≤ p.cc := by
      have := hv.count
      simp only [List.length_take]; omega
    have hbytes : pathBytes path = pathBytes (path.take i) + path[i].length + pathBytes (path.drop (i+1)) := by
      conv => lhs; rw [hsplit]
      rw [pathBytes_append, pathBytes_cons]; omega
    have hvalid' : ∀ c' : Bytes, c'.length ≤ p.cl → c'.length + pathBytes (path.take i) ≤ p.pl →
        ValidPath p (path.take i ++ [c']) := by
      intro c' h1 h2
      refine ⟨by simpa using hlenpre, ?_, ?_⟩
      · intro d hd
        rcases List.mem_append.mp hd with hd | hd
        · exact hv.comp d (List.mem_of_mem_take hd)
        · simp at hd; subst hd; exact h1
      · rw [pathBytes_append]; simp [pathBytes] at h2 ⊢; omega
    unfold successorPrefixLoop
    rw [List.getElem?_eq_getElem hlt]
    simp only []
    rcases tryAppendZeroByte_spec hclen with ⟨h, hl⟩ | ⟨h, hl⟩
    · rw [h]; simp only []
      have hs := immSucc_snoc_zero hl
      refine ⟨fun s hs' => ?_, fun ht => ?_⟩
      · cases hpa : pathAppend (path.take i) (path[i] ++ [0]) p with
        | ok r =>
          rw [hpa] at hs'
          simp only [Res.map', Res.bind, Res.ok.injEq] at hs'
          subst hs'
          have hr := pathAppend_ok hpa
          subst hr
          refine ⟨.some _ _ _ _ hsplit hs hm, fun hw s' he => ?_⟩
          simp only [Option.some.injEq] at he
          subst he
          refine hvalid' _ hs.len (pathAppend_ok_total hw ?_ hpa)
          have := hv.total
          simp; omega
        | _ => rw [hpa] at hs'; simp [Res.map', Res.bind] at hs'
      · refine ⟨some (path.take i ++ [path[i] ++ [0]]), ?_⟩
        rw [pathAppend_succeeds hlenpre (by simp; omega)]
        rfl
    · rw [h]; simp only []
      rcases prefixSuccessor_spec path[i] with ⟨c', h', hs⟩ | ⟨h', hmax⟩
      · rw [h']; simp only []
        rw [hl] at hs
        have hle := prefixSuccessor_len h'
        have htot : c'.length + pathBytes (path.take i) ≤ p.pl := by
          have := hv.total; omega
        rw [pathAppend_succeeds hlenpre htot]
        simp only [Res.map', Res.bind, Res.ok.injEq]
        refine ⟨fun s hs' => ?_, fun _ => ⟨_, rfl⟩⟩
        subst hs'
        refine ⟨.some _ _ _ _ hsplit hs hm, fun _ s' he => ?_⟩
        simp only [Option.some.injEq] at he
        subst he
        exact hvalid' _ hs.len htot
      · rw [h']; simp only []
        apply successorPrefixLoop_spec hv i (by omega)
        rw [List.drop_eq_getElem_cons hlt]
        intro d hd
        rcases List.mem_cons.mp hd with rfl | hd
        · rw [← hl]; exact hmax
        · exact hm d hd

theorem successorPrefix_spec {p : PathParams} {path : Path} (hv : ValidPath p path) {s : Option Path}
    (h : successorPrefix path p = .ok s) : SuccSplit p path s :=
  ((successorPrefixLoop_spec hv path.length (by omega) (by simp)).1 s h).1

theorem successorPrefix_valid {p : PathParams} (hw : NoWrap p) {path : Path} (hv : ValidPath p path) {s : Path}
    (h : successorPrefix path p = .ok (some s)) : ValidPath p s :=
  ((successorPrefixLoop_spec hv path.length (by omega) (by simp)).1 _ h).2 hw s rfl

theorem successorPrefix_total {p : PathParams} {path : Path} (hv : ValidPath p path)
    (ht : pathBytes path < p.pl) : ∃ s, successorPrefix path p = .ok s :=
  (successorPrefixLoop_spec hv path.length (by omega) (by simp)).2 ht

/-! ### SuccessorPath -/

theorem successorBytesLoop_none : ∀ (i : Nat) (c : Bytes), i ≤ c.length →
    successorBytesLoop c i = none → ∀ j < i, c[j]? = some 255
  | 0, _, _, _ => by simp
  | i + 1, c, hi, h => by
    have hlt : i < c.length := hi
    unfold successorBytesLoop at h
    rw [List.getElem?_eq_getElem hlt] at h
    simp only [] at h
    split at h
    · rename_i hb
      have ih := successorBytesLoop_none i (c.set i 0) (by simp; omega) h
      intro j hj
      by_cases hji : j = i
      · subst hji
        rw [List.getElem?_eq_getElem hlt]
        have h1 : (255 : UInt8).toNat ≤ c[j].toNat := hb
        have h2 := c[j].toNat_lt
        have h3 : c[j].toNat = (255 : UInt8).toNat := by simp at h1 ⊢; omega
        rw [UInt8.toNat_inj.mp h3]
      · have := ih j (by omega)
        rwa [List.getElem?_set_ne (by omega)] at this
    · simp at h

theorem successorBytesFixedWidth_none {c : Bytes} (h : successorBytesFixedWidth c = none) : Maximal c.length c := by
  have h1 := successorBytesLoop_none c.length c (by omega) h
  have : c = List.replicate c.length 255 := by
    apply List.ext_getElem?
    intro j
    by_cases hj : j < c.length
    · rw [h1 j hj, List.getElem?_replicate, if_pos hj]
    · rw [List.getElem?_eq_none (by omega), List.getElem?_eq_none (by simp; omega)]
  intro d hd
  rw [this]
  exact replicate_255_maximal _ d hd

theorem successorPathLoop_spec {p : PathParams} (hw : NoWrap p) {path : Path} (hv : ValidPath p path)
    (hlen : path.length = p.cc) :
    ∀ i ≤ path.length, (∀ c ∈ path.drop i, Maximal p.cl c) →
      ∀ s, successorPathLoop path p i = .ok s → SuccSplit p path s ∧ ∀ s', s = some s' → ValidPath p s'
  | 0, _, hm => by
    simp only [successorPathLoop, Res.ok.injEq]
    intro s hs
    subst hs
    exact ⟨.none (by simpa using hm), by simp⟩
  | i + 1, hi, hm => by
    have hlt : i < path.length := hi
    have hsplit : path = path.take i ++ path[i] :: path.drop (i + 1) := by simp
    have hclen : path[i].length ≤ p.cl := hv.comp _ (by simp)
    have hlenpre : (path.take i).length + 1 ≤ p.cc := by
      have := hv.count
      simp only [List.length_take]; omega
    have hbytes : pathBytes path = pathBytes (path.take i) + path[i].length + pathBytes (path.drop (i+1)) := by
      conv => lhs; rw [hsplit]
      rw [pathBytes_append, pathBytes_cons]; omega
    unfold successorPathLoop
    rw [List.getElem?_eq_getElem hlt]
    simp only []
    rcases tryAppendZeroByte_spec hclen with ⟨h, hl⟩ | ⟨h, hl⟩
    · rw [h]; simp only []
      have hs := immSucc_snoc_zero hl
      intro s hs'
      cases hpa : pathAppend (path.take i) (path[i] ++ [0]) p with
      | ok r =>
        rw [hpa] at hs'
        simp only [Res.map', Res.bind, Res.ok.injEq] at hs'
        subst hs'
        have hr := pathAppend_ok hpa
        subst hr
        refine ⟨.some _ _ _ _ hsplit hs hm, fun s' he => ?_⟩
        simp only [Option.some.injEq] at he
        subst he
        have ht := pathAppend_ok_total hw (by have := hv.total; simp; omega) hpa
        refine ⟨by simpa using hlenpre, ?_, ?_⟩
        · intro d hd
          rcases List.mem_append.mp hd with hd | hd
          · exact hv.comp d (List.mem_of_mem_take hd)
          · simp at hd; subst hd; exact hs.len
        · rw [pathBytes_append]; simp [pathBytes] at ht ⊢; omega
      | _ => rw [hpa] at hs'; simp [Res.map', Res.bind] at hs'
    · rw [h]; simp only []
      cases hf : successorBytesFixedWidth path[i] with
      | some nc =>
        simp only []
        intro s hs'
        have : pathAppend path nc p = .crash := by
          unfold pathAppend
          rw [conv_of_le (Nat.le_of_eq (by rw [hlen])) hw.cc, if_pos (by omega)]
        rw [this] at hs'
        simp [Res.map', Res.bind] at hs'
      | none =>
        simp only []
        have hmax := successorBytesFixedWidth_none hf
        apply successorPathLoop_spec hw hv hlen i (by omega)
        rw [List.drop_eq_getElem_cons hlt]
        intro d hd
        rcases List.mem_cons.mp hd with rfl | hd
        · rw [← hl]; exact hmax
        · exact hm d hd

theorem successorPath_short {p : PathParams} {path : Path} (hv : ValidPath p path) (hl : path.length < p.cc) :
    successorPath path p = .ok (some (path ++ [[]])) := by
  unfold successorPath
  split
  · rename_i h
    have : path = [] := List.eq_nil_of_length_eq_zero h
    subst this; rfl
  · rw [conv_of_le hv.count p.hcc, if_pos hl, pathAppend_succeeds hl (by simpa using hv.total)]
    rfl

/-- `path ++ [[]]` is the immediate successor among all paths. -/
theorem snoc_nil_imm {path q : Path} (h : PathLt path q) : ¬ PathLt q (path ++ [[]]) := by
  intro h2
  have hp : path <+: q := prefix_of_between bytesLt_strictTotal (r := path ++ [[]])
    (pathLt_strictTotal.asymm h) (pathLt_strictTotal.asymm h2) (by simp)
  obtain ⟨t, rfl⟩ := hp
  rw [PathLt, lexLt_append_left bytesLt_strictTotal.irrefl] at h2
  cases t with
  | nil => simp at h; exact pathLt_strictTotal.irrefl _ h
  | cons c t =>
    rcases h2 with h2 | ⟨_, h2⟩
    · exact lexLt_nil _ h2
    · exact lexLt_nil _ h2

end Willow
