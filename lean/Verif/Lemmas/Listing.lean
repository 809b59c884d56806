import Verif.Lemmas.Storage
import Verif.Props.Encoding

/-! Lemmas about range queries and listings of the store. -/

namespace Willow

open Spec Props

theorem entryQueryLoop_ok (env : StoreEnv) (st : StoreState) (val : KdKey → Values) : ∀ (ks : List KdKey) (acc : List (Entry × Bytes)),
    (∀ k ∈ ks, (val k).payloadDigest.length < 2 ^ 64 ∧ (val k).authDigest.length < 2 ^ 64 ∧
      st.kv.get (encodeKey env.p k.pos) = some (encodeValues (val k))) →
    entryQueryLoop env st ks acc =
      .ok (acc ++ ks.map fun k => ((⟨k.pos, val k⟩ : Item).entry env.namespaceId, (val k).authDigest)) := by
  intro ks
  induction ks with
  | nil => intro acc _; simp [entryQueryLoop]
  | cons k ks ih =>
    intro acc h
    obtain ⟨h1, h2, h3⟩ := h k (by simp)
    unfold entryQueryLoop
    rw [h3]
    simp only [C24_roundtrip (val k) h1 h2, Res.ok_bind]
    rw [ih _ fun k hk => h k (by simp [hk])]
    simp [storedEntry, Item.entry]

/-- The entry of the item matches an area, the end of the time range included. -/
def matchesArea (a : Area) (i : Item) : Bool :=
  decide (i.pos.subspace = a.subspace ∧ a.path <+: i.pos.path ∧ a.times.start ≤ i.pos.time ∧ i.pos.time ≤ a.times.stop)

theorem take_orderPath (path pre : Path) :
    (¬ path.length < pre.length ∧ orderPath (path.take pre.length) pre = .eq) ↔ pre <+: path := by
  rw [decides_path.eq_iff]
  constructor
  · rintro ⟨_, h⟩; rw [← h]; exact List.take_prefix _ _
  · intro h
    exact ⟨by have := h.length_le; omega, (List.prefix_iff_eq_take.1 h).symm⟩

/-- What stopping early means for a listing. -/
def StopsAt (aoi : AreaOfInterest) (es wanted : List Entry) (n m : Nat) : Prop :=
  es = wanted ∨ (aoi.maxCount > 0 ∧ n + es.length = aoi.maxCount.toNat) ∨
  (aoi.maxSize > 0 ∧ ∃ x rest, wanted = es ++ x :: rest ∧ aoi.maxSize.toNat ≤ m + payloadTotal es + x.payloadLength.toNat)

theorem listValuesLoop_ok (p : PathParams) (aoi : AreaOfInterest) (ns : Bytes)
    (hcount : aoi.maxCount.toNat < 2 ^ 63) : ∀ (items : List Item) (acc : List Entry) (sum : UInt64),
    (∀ i ∈ items, ShortPath p i.pos.path ∧ i.val.payloadDigest.length < 2 ^ 64 ∧ i.val.authDigest.length < 2 ^ 64) →
    items.Pairwise (fun a b => b.pos.time ≤ a.pos.time) →
    sum.toNat = payloadTotal acc → payloadTotal acc + payloadTotal (items.map (Item.entry ns)) < 2 ^ 64 →
    (aoi.maxCount > 0 → acc.length ≤ aoi.maxCount.toNat) → (aoi.maxSize > 0 → payloadTotal acc < aoi.maxSize.toNat) →
    ∃ es, listValuesLoop p aoi ns (items.map fun i => (encodeKey p i.pos, encodeValues i.val)) acc sum = .ok (acc ++ es) ∧
      es <+: (items.filter (matchesArea aoi.area)).map (Item.entry ns) ∧
      (aoi.maxCount > 0 → acc.length + es.length ≤ aoi.maxCount.toNat) ∧
      (aoi.maxSize > 0 → payloadTotal acc + payloadTotal es < aoi.maxSize.toNat) ∧
      StopsAt aoi es ((items.filter (matchesArea aoi.area)).map (Item.entry ns)) acc.length (payloadTotal acc) := by
  intro items
  induction items with
  | nil =>
    intro acc sum _ _ _ _ h1 h2
    exact ⟨[], by simp [listValuesLoop], by simp, by simpa using h1, by simpa [payloadTotal] using h2, .inl rfl⟩
  | cons i items ih =>
    intro acc sum hv hs hsum hb h1 h2
    obtain ⟨hvi, hd1, hd2⟩ := hv i (by simp)
    have hv' : ∀ i ∈ items, ShortPath p i.pos.path ∧ i.val.payloadDigest.length < 2 ^ 64 ∧ i.val.authDigest.length < 2 ^ 64 :=
      fun i hi => hv i (by simp [hi])
    obtain ⟨hs1, hs2⟩ := List.pairwise_cons.1 hs
    have hbi : payloadTotal ((i :: items).map (Item.entry ns)) = i.val.payloadLength.toNat + payloadTotal (items.map (Item.entry ns)) := by
      simp [payloadTotal, Item.entry]
    rw [hbi] at hb
    have hskip : matchesArea aoi.area i = false →
        ∃ es, listValuesLoop p aoi ns (items.map fun i => (encodeKey p i.pos, encodeValues i.val)) acc sum = .ok (acc ++ es) ∧
          es <+: ((i :: items).filter (matchesArea aoi.area)).map (Item.entry ns) ∧
          (aoi.maxCount > 0 → acc.length + es.length ≤ aoi.maxCount.toNat) ∧
          (aoi.maxSize > 0 → payloadTotal acc + payloadTotal es < aoi.maxSize.toNat) ∧
          StopsAt aoi es (((i :: items).filter (matchesArea aoi.area)).map (Item.entry ns)) acc.length (payloadTotal acc) := by
      intro hm
      have : (i :: items).filter (matchesArea aoi.area) = items.filter (matchesArea aoi.area) := by simp [hm]
      rw [this]
      exact ih acc sum hv' hs2 hsum (by omega) h1 h2
    rw [List.map_cons]
    unfold listValuesLoop
    simp only [C23_roundtrip_partial p i.pos hvi, Res.ok_bind]
    split
    · rename_i hc
      refine hskip ?_
      unfold matchesArea
      rw [decide_eq_false_iff_not]
      rintro ⟨ha, hb, _, hd⟩
      rcases hc with hc | hc | hc
      · simp only [UInt64.le_iff_toNat_le, UInt64.lt_iff_toNat_lt, gt_iff_lt] at *; omega
      · exact hc ((decides_subspace.eq_iff _ _).2 ha)
      · have := hb.length_le; omega
    · rename_i hc
      split
      · rename_i hc2
        refine hskip ?_
        unfold matchesArea
        rw [decide_eq_false_iff_not]
        rintro ⟨_, hb, _⟩
        exact hc2 ((take_orderPath _ _).2 hb).2
      · rename_i hc2
        simp only [not_or, Classical.not_not] at hc hc2
        obtain ⟨hc1, hc3, hc4⟩ := hc
        have hpre := (take_orderPath _ _).1 ⟨hc4, hc2⟩
        have hsub : i.pos.subspace = aoi.area.subspace := (decides_subspace.eq_iff _ _).1 hc3
        have hstop : i.pos.time ≤ aoi.area.times.stop := by
          simp only [UInt64.le_iff_toNat_le, UInt64.lt_iff_toNat_lt, gt_iff_lt] at *; omega
        have hgo : goInt aoi.maxCount.toNat = (aoi.maxCount.toNat : Int) := by
          unfold goInt; simp; omega
        split
        · rename_i hc5
          refine ⟨[], by simp, List.nil_prefix, by simpa using h1, by simpa [payloadTotal] using h2, ?_⟩
          by_cases hts : i.pos.time < aoi.area.times.start
          · left
            have : (i :: items).filter (matchesArea aoi.area) = [] := by
              rw [List.filter_eq_nil_iff]
              intro x hx hm
              have hle : x.pos.time ≤ i.pos.time := by
                rcases List.mem_cons.1 hx with rfl | hx
                · exact UInt64.le_refl _
                · exact hs1 x hx
              unfold matchesArea at hm
              rw [decide_eq_true_eq] at hm
              have := hm.2.2.1
              simp only [UInt64.le_iff_toNat_le, UInt64.lt_iff_toNat_lt, gt_iff_lt] at *
              omega
            rw [this]
            rfl
          · right; left
            have hc6 := hc5.resolve_right hts
            rw [hgo] at hc6
            have := h1 hc6.1
            exact ⟨hc6.1, by simp; omega⟩
        · rename_i hc5
          simp only [C24_roundtrip i.val hd1 hd2, Res.ok_bind]
          have hm : matchesArea aoi.area i = true := by
            unfold matchesArea
            rw [decide_eq_true_eq]
            refine ⟨hsub, hpre, ?_, hstop⟩
            rw [not_or] at hc5
            simp only [UInt64.le_iff_toNat_le, UInt64.lt_iff_toNat_lt, gt_iff_lt] at *
            omega
          have hadd : (sum + i.val.payloadLength).toNat = payloadTotal acc + i.val.payloadLength.toNat := by
            rw [UInt64.toNat_add, hsum]
            omega
          have hfil : ((i :: items).filter (matchesArea aoi.area)).map (Item.entry ns) =
              i.entry ns :: (items.filter (matchesArea aoi.area)).map (Item.entry ns) := by simp [hm]
          rw [hfil]
          split
          · rename_i hc6
            refine ⟨[], by simp, List.nil_prefix, by simpa using h1, by simpa [payloadTotal] using h2, ?_⟩
            right; right
            refine ⟨hc6.1, _, _, rfl, ?_⟩
            have := hc6.2
            simp only [UInt64.le_iff_toNat_le, ge_iff_le, hadd] at this
            simpa [payloadTotal, Item.entry] using this
          · rename_i hc6
            have hlen : payloadTotal (acc ++ [i.entry ns]) = payloadTotal acc + i.val.payloadLength.toNat := by
              simp [payloadTotal, Item.entry]
            obtain ⟨es, e1, e2, e3, e4, e5⟩ := ih (acc ++ [i.entry ns]) (sum + i.val.payloadLength) hv' hs2
              (by rw [hadd, hlen]) (by rw [hlen]; omega)
              (by
                intro hpos
                rw [not_or, hgo] at hc5
                have h3 := hc5.1
                have : ¬ ((acc.length : Int) ≥ (aoi.maxCount.toNat : Int)) := fun h => h3 ⟨hpos, h⟩
                simp
                omega)
              (by
                intro hpos
                have : ¬ (sum + i.val.payloadLength ≥ aoi.maxSize) := fun h => hc6 ⟨hpos, h⟩
                simp only [UInt64.le_iff_toNat_le, ge_iff_le, hadd] at this
                rw [hlen]
                omega)
            refine ⟨i.entry ns :: es, ?_, ?_, ?_, ?_, ?_⟩
            · have : acc ++ i.entry ns :: es = acc ++ [i.entry ns] ++ es := by simp
              rw [this, ← e1]
              rfl
            · exact List.cons_prefix_cons.2 ⟨rfl, e2⟩
            · intro hp
              have := e3 hp
              simp at this ⊢
              omega
            · intro hp
              have := e4 hp
              rw [hlen] at this
              simp [payloadTotal, Item.entry] at this ⊢
              omega
            · rcases e5 with h | ⟨h, h'⟩ | ⟨h, x, rest, h', h''⟩
              · exact .inl (by rw [h])
              · refine .inr (.inl ⟨h, ?_⟩)
                simp at h' ⊢
                omega
              · refine .inr (.inr ⟨h, x, rest, by rw [h']; rfl, ?_⟩)
                rw [hlen] at h''
                simp [payloadTotal, Item.entry] at h'' ⊢
                omega

/-- A maximum count of 2^63 or more is read as a negative number: nothing is listed. -/
theorem listValuesLoop_big (p : PathParams) (aoi : AreaOfInterest) (ns : Bytes)
    (hcount : 2 ^ 63 ≤ aoi.maxCount.toNat) : ∀ items : List Item, (∀ i ∈ items, ShortPath p i.pos.path) →
    listValuesLoop p aoi ns (items.map fun i => (encodeKey p i.pos, encodeValues i.val)) [] 0 = .ok [] := by
  intro items
  induction items with
  | nil => intro _; rfl
  | cons i items ih =>
    intro hv
    have ih := ih fun i hi => hv i (by simp [hi])
    rw [List.map_cons]
    unfold listValuesLoop
    simp only [C23_roundtrip_partial p i.pos (hv i (by simp)), Res.ok_bind]
    split
    · exact ih
    · split
      · exact ih
      · rw [if_pos]
        refine .inl ⟨by rw [gt_iff_lt, UInt64.lt_iff_toNat_lt]; exact Nat.lt_of_lt_of_le (by decide) hcount, ?_⟩
        have := aoi.maxCount.toNat_lt
        unfold goInt
        rw [if_neg (by omega)]
        simp only [List.length_nil]
        omega

end Willow
