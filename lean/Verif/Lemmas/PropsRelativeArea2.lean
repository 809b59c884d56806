import Verif.Lemmas.PropsRelativeAreas

/-! Lemmas for the theorems of `Verif/Props/RelativeArea2.lean`. -/

namespace Willow.Props

open Willow Spec

/-- The header written as decimal text starts with a digit. -/
theorem header_digit (a b : Bool) {wt wl : Nat} (ht : Width wt) (hl : Width wl) :
    ∃ c t, itoa ((if a then 0x80 else 0x0) ||| (if b then 0x40 else 0x0) ||| compactWidthEndMask wt <<< 4 |||
      compactWidthEndMask wl <<< 2) = c :: t ∧ ((c &&& 0x80) == 0x80) = false ∧ ((c &&& 0x40) == 0x40) = false := by
  rcases ht with rfl | rfl | rfl | rfl <;> rcases hl with rfl | rfl | rfl | rfl <;>
    cases a <;> cases b <;> exact ⟨_, _, rfl, by decide, by decide⟩

/-- From 10 on there is a second digit. -/
theorem header_digits (a : Bool) {wt wl : Nat} (ht : Width wt) (hl : Width wl) :
    ∃ c d t, itoa ((if a then 0x80 else 0x0) ||| 0x40 ||| compactWidthEndMask wt <<< 4 |||
      compactWidthEndMask wl <<< 2) = c :: d :: t ∧ ((c &&& 0x80) == 0x80) = false ∧ 48 ≤ d.toNat := by
  rcases ht with rfl | rfl | rfl | rfl <;> rcases hl with rfl | rfl | rfl | rfl <;>
    cases a <;> exact ⟨_, _, _, rfl, by decide, by decide⟩

theorem encodeEntryInNamespaceArea_digits {ss pd : Codec} {p : PathParams} {e : Entry} {outer : Area} {enc : Bytes}
    (h : encodeEntryInNamespaceArea ss pd p e outer = .ok enc)
    (ht : outer.times.openEnd = true ∨ e.timestamp - outer.times.start ≤ outer.times.stop) :
    ∃ c d t, enc = c :: d :: t ∧ ((c &&& 0x80) == 0x80) = false ∧ 48 ≤ d.toNat := by
  unfold encodeEntryInNamespaceArea at h
  dsimp only at h
  obtain ⟨rel, -, h⟩ := Res.bind_eq_ok.1 h
  rw [Res.ok.injEq] at h
  generalize (if outer.times.openEnd = true then e.timestamp - outer.times.start else
    bigIntMin (e.timestamp - outer.times.start) (outer.times.stop - e.timestamp)) = td at h
  have hb : (if outer.times.openEnd = true then 0x40
      else if e.timestamp - outer.times.start ≤ outer.times.stop then 0x40 else 0x0) = (0x40 : Nat) := by
    rcases ht with ht | ht
    · rw [if_pos ht]
    · rw [if_pos ht, ite_self]
  rw [hb] at h
  obtain ⟨c, d, t, h1, h2, h3⟩ := header_digits outer.anySubspace (width64 td.toNat) (width64 e.payloadLength.toNat)
  rw [h1] at h
  exact ⟨c, d, _, h.symm, h2, h3⟩

theorem getBE_head (d : UInt8) (t : Bytes) : d.toNat ≤ getBE (d :: t) := by
  rw [getBE_cons]
  exact Nat.le_trans (Nat.le_mul_of_pos_right _ (Nat.pow_pos (by decide))) (Nat.le_add_right _ _)

/-- A path cannot be decoded if it says to share more components than the reference has. -/
theorem decodeRelPathStream_beyond {p : PathParams} {ref : Path} {g g' : GB} {d : UInt8} {t : Bytes} {x : Path}
    (hg : g.content = d :: t) (hd : ref.length < d.toNat) : decodeRelPathStream p ref g ≠ .ok (x, g') := by
  intro h
  unfold decodeRelPathStream at h
  obtain ⟨acc, g1, h1, h⟩ := Dec.bind_ok.1 h
  obtain ⟨lb, g2, h2, h⟩ := Dec.bind_ok.1 h
  obtain ⟨n, g3, h3, h⟩ := Dec.bind_ok.1 h
  obtain ⟨pre, g4, h4, -⟩ := Dec.bind_ok.1 h
  obtain ⟨rfl, hc, hl⟩ := nextAbsolute_inv h1
  have hw : 1 ≤ getWidthMax32Int p.cc := by unfold getWidthMax32Int; split <;> (try split) <;> (try split) <;> omega
  obtain ⟨u, hu⟩ : ∃ u, g1.buf = d :: u := by
    cases hb : g1.buf with
    | nil => rw [hb] at hl; simp at hl; omega
    | cons b bs =>
      rw [hg] at hc
      unfold GB.content at hc
      rw [hb] at hc
      simp at hc
      exact ⟨bs, by rw [hc.1]⟩
  have hlb : lb = g1.buf.take (getWidthMax32Int p.cc) := by
    rw [sliceArray_ok (x := g1.buf.take (getWidthMax32Int p.cc)) (by unfold slice; rw [if_pos ⟨Nat.zero_le _, hl⟩]; rfl)] at h2
    cases h2
    rfl
  obtain ⟨w, hw'⟩ : ∃ w, getWidthMax32Int p.cc = w + 1 := ⟨_, (Nat.sub_add_cancel hw).symm⟩
  have hlen : lb.length = getWidthMax32Int p.cc := by rw [hlb, List.length_take]; omega
  have hhead : lb = d :: u.take w := by rw [hlb, hu, hw']; rfl
  have hn : d.toNat ≤ n := by
    have hdec : ∃ v, decodeIntMax32 lb p.cc = .ok v ∧ d.toNat ≤ v := by
      unfold decodeIntMax32
      simp only [hlen, ne_eq, not_true_eq_false, if_false]
      split
      · exact ⟨_, rfl, by rw [hhead]; exact getBE_head _ _⟩
      · exact ⟨_, rfl, by rw [hhead]; exact getBE_head _ _⟩
      · exact ⟨_, rfl, by rw [hhead]; exact getBE_head _ _⟩
      · refine ⟨_, rfl, ?_⟩
        rw [hhead]
        have := getBE_head d ((u.take w).take 1)
        rw [show (d :: u.take w).take 2 = d :: (u.take w).take 1 from rfl]
        omega
    obtain ⟨v, hv, hdv⟩ := hdec
    rw [hv] at h3
    cases h3
    exact hdv
  unfold Dec.lift slice at h4
  rw [if_neg (by omega)] at h4
  cases h4

theorem encodeEntryInNamespaceArea_head {ss pd : Codec} {p : PathParams} {e : Entry} {outer : Area} {enc : Bytes}
    (h : encodeEntryInNamespaceArea ss pd p e outer = .ok enc) :
    ∃ c t, enc = c :: t ∧ ((c &&& 0x80) == 0x80) = false ∧ ((c &&& 0x40) == 0x40) = false := by
  unfold encodeEntryInNamespaceArea at h
  dsimp only at h
  obtain ⟨rel, -, h⟩ := Res.bind_eq_ok.1 h
  rw [Res.ok.injEq] at h
  generalize (if outer.times.openEnd = true then e.timestamp - outer.times.start else
    bigIntMin (e.timestamp - outer.times.start) (outer.times.stop - e.timestamp)) = td at h
  have hb : ∃ b : Bool, (if outer.times.openEnd = true then 0x40
      else if e.timestamp - outer.times.start ≤ outer.times.stop then 0x40 else 0x0) =
      (if b then 0x40 else 0x0 : Nat) := by
    cases outer.times.openEnd with
    | true => exact ⟨true, by simp⟩
    | false =>
      by_cases hc : e.timestamp - outer.times.start ≤ outer.times.stop
      · exact ⟨true, by simp [hc]⟩
      · exact ⟨false, by simp [hc]⟩
  obtain ⟨b, hb⟩ := hb
  rw [hb] at h
  obtain ⟨c, t, h1, h2, h3⟩ := header_digit outer.anySubspace b (width64 td.toNat) (width64 e.payloadLength.toNat)
  rw [h1] at h
  exact ⟨c, _, h.symm, h2, h3⟩

/-- Peeking at a stream that starts with `c` yields `c`. -/
theorem peekByte_head {g g' : GB} {b c : UInt8} {t : Bytes} (hg : g.content = c :: t)
    (h : peekByte g = .ok (b, g')) : b = c := by
  obtain ⟨h1, h2, -⟩ := peekByte_inv h
  rw [hg] at h1
  unfold GB.content at h1
  cases hb : g'.buf with
  | nil => rw [hb] at h2; simp at h2
  | cons d ds =>
    rw [hb] at h1 h2
    simp at h1 h2
    exact h2.symm.trans h1.1

theorem header_inArea (a b : Bool) {wt wl : Nat} (ht : Width wt) (hl : Width wl) :
    let h := byteOf ((if a then 0x80 else 0x0) ||| (if b then 0x40 else 0x0) ||| compactWidthEndMask wt <<< 4 |||
      compactWidthEndMask wl <<< 2)
    ((h &&& 0x80) == 0x80) = a ∧ ((h &&& 0x40) == 0x40) = b ∧ 2 ^ ((h &&& 0x30) >>> 4).toNat = wt ∧
      2 ^ ((h &&& 0xc) >>> 2).toNat = wl := by
  rcases ht with rfl | rfl | rfl | rfl <;> rcases hl with rfl | rfl | rfl | rfl <;>
    cases a <;> cases b <;> decide

theorem readTimeAndLength_decodes {P : Prop} {all : Bool} {a b : Nat} (ha : a < 2 ^ 64) (hb : b < 2 ^ 64)
    (hP : P → all = true) :
    Decodes P all 0 (readTimeAndLength (getWidthMax64Int a) (getWidthMax64Int b))
      (encodeIntMax64 a ++ encodeIntMax64 b) (a, b) := by
  have hla : getWidthMax64Int a = (encodeIntMax64 a).length := (encodeIntMax64_length _).symm
  have hlb : getWidthMax64Int b = (encodeIntMax64 b).length := (encodeIntMax64_length _).symm
  have da := decode_encodeIntMax64 ha
  have db := decode_encodeIntMax64 hb
  constructor
  · intro g rest x g' hm hg h
    obtain ⟨acc, g1, h1, h2⟩ := Dec.bind_ok.1 h
    obtain ⟨rfl, c1, l1⟩ := nextAbsolute_inv h1
    have m1 := nextAbsolute_exact h1 hm
    have s1 : slice g1.buf 0 (getWidthMax64Int a) = .ok (encodeIntMax64 a) := by
      rw [slice_buf _ _ _ l1, c1, hg, List.append_assoc, slice_append_left _ _ _ hla]
    rw [Dec.bind_apply, sliceArray_ok s1] at h2
    obtain ⟨v, g2, h3, h4⟩ := Dec.bind_ok.1 h2
    obtain ⟨rfl, h3'⟩ := lift_same h3
    rw [da, Res.ok.injEq] at h3'
    subst h3'
    obtain ⟨acc, g3, h5, h6⟩ := Dec.bind_ok.1 h4
    obtain ⟨rfl, c3, l3⟩ := nextAbsolute_inv h5
    have m3 := nextAbsolute_exact h5 m1
    rw [Dec.bind_apply, sliceArray_exact m3] at h6
    by_cases hlen : getWidthMax64Int a + getWidthMax64Int b ≤ g3.buf.length
    · have c4 : g3.content = encodeIntMax64 a ++ encodeIntMax64 b ++ rest := by rw [c3, c1, hg]
      have s2 : slice g3.buf (getWidthMax64Int a) (getWidthMax64Int a + getWidthMax64Int b) = .ok (encodeIntMax64 b) := by
        rw [slice_buf _ _ _ hlen, c4, List.append_assoc, slice_mid _ _ _ _ _ hla (by omega)]
      simp only [s2, Dec.lift_ok, Dec.bind_apply, db, prune_apply, Dec.pure_apply, Res.ok.injEq, Prod.mk.injEq] at h6
      obtain ⟨rfl, rfl⟩ := h6
      refine ⟨rfl, ?_, GB.pruned_exact m3 _⟩
      rw [prune_content _ _ hlen, c4, List.drop_left' (by simp; omega)]
    · have s2 : slice g3.buf (getWidthMax64Int a) (getWidthMax64Int a + getWidthMax64Int b) = .crash := by
        unfold slice
        rw [if_neg (by omega)]
      rw [s2] at h6
      cases h6
  · intro hp g rest hr hg _
    have hall := hP hp
    subst hall
    obtain ⟨g1, e1, c1, l1, r1, n1⟩ := nextAbsolute_ready (getWidthMax64Int a) g hr (by rw [hg]; simp; omega)
    obtain ⟨g2, e2, c2, l2, r2, n2⟩ := nextAbsolute_ready (getWidthMax64Int a) g1 r1 (by rw [c1, hg]; simp; omega)
    have c2' : g2.content = encodeIntMax64 a ++ encodeIntMax64 b ++ rest := by rw [c2, c1, hg]
    have hlen : getWidthMax64Int a + getWidthMax64Int b ≤ g2.buf.length := by
      have : g2.content = g2.buf := by simp [GB.content, n2 rfl]
      rw [← this, c2']; simp; omega
    refine ⟨g2.pruned (getWidthMax64Int a + getWidthMax64Int b), ?_, ready_prune _ r2, ?_⟩
    · refine Dec.bind_ok.2 ⟨_, g1, e1, ?_⟩
      have s1 : slice g1.buf 0 (getWidthMax64Int a) = .ok (encodeIntMax64 a) := by
        rw [slice_buf _ _ _ l1, c1, hg, List.append_assoc, slice_append_left _ _ _ hla]
      refine Dec.bind_ok.2 ⟨_, g1, sliceArray_ok s1 g1, ?_⟩
      refine Dec.bind_ok.2 ⟨a, g1, by simp [da], ?_⟩
      refine Dec.bind_ok.2 ⟨_, g2, e2, ?_⟩
      have s2 : slice g2.buf (getWidthMax64Int a) (getWidthMax64Int a + getWidthMax64Int b) = .ok (encodeIntMax64 b) := by
        rw [slice_buf _ _ _ hlen, c2', List.append_assoc, slice_mid _ _ _ _ _ hla (by omega)]
      refine Dec.bind_ok.2 ⟨_, g2, sliceArray_ok s2 g2, ?_⟩
      simp [db]
    · rw [prune_content _ _ hlen, c2', List.drop_left' (by simp; omega)]

/-- Decoding the wire format. -/
theorem inArea_decodes {ss pd : Codec} {vs vp : Bytes → Prop} (hs : ss.Lawful vs) (hp : pd.Lawful vp)
    {p : PathParams} {e : Entry} {outer : Area}
    (h2 : vs e.subspaceId) (h3 : ShortPath p e.path) (h4 : vp e.payloadDigest) {rel : Bytes}
    (hrel : encodeRelativePath p e.path outer.path = .ok rel) {withSubspace fromStart : Bool} {timeDiff : Nat}
    (htd : timeDiff < 2 ^ 64)
    (hss : withSubspace = true ∨ (outer.anySubspace = false ∧ e.subspaceId = outer.subspace))
    (htime : (fromStart = true ∧ e.timestamp = outer.times.start + UInt64.ofNat timeDiff) ∨
      (fromStart = false ∧ outer.times.openEnd = false ∧ e.timestamp = outer.times.stop - UInt64.ofNat timeDiff)) :
    Decodes True true (getWidthMax32Int p.cl - (2 + (pd.enc e.payloadDigest).length))
      (decodeStreamEntryInNamespaceArea ss pd p outer e.namespaceId)
      (wireEntryInArea ss pd e rel withSubspace fromStart timeDiff) e := by
  obtain ⟨f1, f2, f3, f4⟩ := header_inArea withSubspace fromStart (width64 timeDiff) (width64 e.payloadLength.toNat)
  unfold decodeStreamEntryInNamespaceArea wireEntryInArea
  refine Decodes.peek (k := fun _ => _) rfl ?_
  simp only [f1, f2, f3, f4]
  refine Decodes.bind (s1 := 0) (a := e.subspaceId) ?_ ?_ (by omega) (Nat.le_refl _)
  · cases withSubspace with
    | true => simpa using Decodes.codec hs h2
    | false =>
      obtain ⟨ha, hb⟩ : outer.anySubspace = false ∧ e.subspaceId = outer.subspace := by simpa using hss
      simpa [ha] using Decodes.pure hb.symm
  have hrp := Decodes.relPath (all := true) h3 hrel
  refine Decodes.bind (s1 := getWidthMax32Int p.cl) (s2 := 0) ⟨hrp.1, fun _ => hrp.2 (.inl rfl)⟩ ?_ ?_ (Nat.zero_le _)
  · refine Decodes.bind (s1 := 0) (readTimeAndLength_decodes htd (UInt64.toNat_lt _) fun _ => rfl) ?_
      (by omega) (Nat.le_refl _)
    rw [← List.append_nil (pd.enc e.payloadDigest)]
    refine Decodes.bind (s1 := 0) (s2 := 0) (Decodes.codec hp h4) ?_ (by omega) (Nat.le_refl _)
    rw [← List.append_nil ([] : Bytes)]
    refine Decodes.bind (s1 := 0) (s2 := 0) (a := e.timestamp) ?_ (Decodes.pure ?_) (by omega) (Nat.le_refl _)
    · rcases htime with ⟨ha, hb⟩ | ⟨ha, hb, hc⟩
      · simpa [ha] using Decodes.pure hb.symm
      · simpa [ha, hb] using Decodes.pure hc.symm
    · simp only [ofNat_toNat64]
  · have := width64 timeDiff
    have := width64 e.payloadLength.toNat
    unfold Width at *
    simp only [List.length_append, encodeIntMax64_length]
    omega

end Willow.Props
