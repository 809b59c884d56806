import Verif.Spec.EntryLayout
import Verif.Lemmas.PropsControlLayout
import Verif.Lemmas.Reads
import Verif.Lemmas.PropsRelativeRanges

/-! Lemmas about the layout of paths, keys, entries and areas. -/

namespace Willow.Props

open Spec

theorem natBytes_append (a b : Bytes) : natBytes (a ++ b) = natBytes a ++ natBytes b := by simp [natBytes]

theorem natBytes_cons (a : UInt8) (b : Bytes) : natBytes (a :: b) = a.toNat :: natBytes b := rfl

theorem natBytes_nil : natBytes [] = [] := rfl

theorem limitWidth (limit : Nat) (h : limit < 2 ^ 32) : LimitWidth limit (getWidthMax32Int limit) := by
  unfold getWidthMax32Int LimitWidth
  split
  · exact ⟨by decide, by omega, by omega⟩
  · split
    · exact ⟨by decide, by omega, fun v h1 h2 => by rw [show v = 1 by omega]; omega⟩
    · split
      · refine ⟨by decide, by omega, fun v h1 h2 => ?_⟩
        rcases (by omega : v = 1 ∨ v = 2) with rfl | rfl <;> omega
      · refine ⟨by decide, by omega, fun v h1 h2 => ?_⟩
        rcases (by omega : v = 1 ∨ v = 2 ∨ v = 3) with rfl | rfl | rfl <;> omega

theorem natBytes_int32 (n max : Nat) : natBytes (encodeIntMax32 n max) = inBytes (getWidthMax32Int max) n := by
  rw [encodeIntMax32_eq]; exact inBytes_beBytes _ _

theorem natBytes_u64 (x : UInt64) : natBytes (bigIntToBytes x) = inBytes 8 x.toNat := by
  unfold bigIntToBytes; rw [putU64_eq]; exact inBytes_beBytes _ _

/-- The widths of a number. -/
theorem width_layout {n : Nat} (h : n < 2 ^ 64) : ∃ w, WidthCode n w ∧ getWidthMax64Int n = 2 ^ w ∧
    compactWidthEndMask (getWidthMax64Int n) = w ∧ natBytes (encodeIntMax64 n) = inBytes (2 ^ w) n := by
  unfold natBytes
  rw [encodeIntMax64_eq, inBytes_beBytes]
  unfold getWidthMax64Int WidthCode
  split
  · exact ⟨0, ⟨by decide, by omega, by omega⟩, rfl, rfl, rfl⟩
  · split
    · exact ⟨1, ⟨by decide, by omega, fun v hv => by rw [show v = 0 by omega]; omega⟩, rfl, rfl, rfl⟩
    · split
      · refine ⟨2, ⟨by decide, by omega, fun v hv => ?_⟩, rfl, rfl, rfl⟩
        rcases (by omega : v = 0 ∨ v = 1) with rfl | rfl <;> omega
      · refine ⟨3, ⟨by decide, by omega, fun v hv => ?_⟩, rfl, rfl, rfl⟩
        rcases (by omega : v = 0 ∨ v = 1 ∨ v = 2) with rfl | rfl | rfl <;> omega

theorem components_layout (p : PathParams) : ∀ path : Path, (∀ c ∈ path, c.length < 2 ^ p.bits) →
    natBytes (encodeComponents p path) = path.flatMap fun c => inBytes (getWidthMax32Int p.cl) c.length ++ natBytes c
  | [], _ => rfl
  | c :: cs, h => by
    unfold encodeComponents
    rw [natBytes_append, natBytes_append, natBytes_int32, components_layout p cs fun c hc => h c (List.mem_cons_of_mem _ hc)]
    rw [show p.conv c.length = c.length from Nat.mod_eq_of_lt (h c List.mem_cons_self)]
    rfl

theorem path_layout (p : PathParams) (hcc : p.cc < 2 ^ 32) (hcl : p.cl < 2 ^ 32) (path : Path) (hl : path.length < 2 ^ p.bits)
    (hc : ∀ c ∈ path, c.length < 2 ^ p.bits) : PathLayout p path (natBytes (encodePath p path)) := by
  refine ⟨_, _, limitWidth _ hcc, limitWidth _ hcl, ?_⟩
  unfold encodePath
  rw [natBytes_append, natBytes_int32, components_layout p path hc, show p.conv path.length = path.length from Nat.mod_eq_of_lt hl]

theorem valid_small {p : PathParams} {path : Path} (hv : ValidPath p path) :
    path.length < 2 ^ p.bits ∧ ∀ c ∈ path, c.length < 2 ^ p.bits :=
  ⟨Nat.lt_of_le_of_lt hv.count p.hcc, fun c hc => Nat.lt_of_le_of_lt (hv.comp c hc) p.hcl⟩

theorem relative_layout (p : PathParams) (hcc : p.cc < 2 ^ 32) (hcl : p.cl < 2 ^ 32) (a r : Path) (hv : ValidPath p a) (enc : Bytes)
    (h : encodeRelativePath p a r = .ok enc) : RelativeLayout p a r (natBytes enc) := by
  obtain ⟨k, h1, h2, h3, h4, h5⟩ := encodeRelativePath_inv h
  obtain ⟨hl, hc⟩ := valid_small hv
  refine ⟨k, _, _, ⟨h1, h2, h3, h5⟩, limitWidth _ hcc, path_layout p hcc hcl (a.drop k) (by simp; omega)
    (fun c hc' => hc c (List.mem_of_mem_drop hc')), ?_⟩
  rw [h4, natBytes_append, natBytes_int32, show p.conv k = k from Nat.mod_eq_of_lt (by omega)]

theorem natBytes_put64 (n : Nat) : natBytes (putU64 n) = inBytes 8 n := by
  rw [putU64_eq]; exact inBytes_beBytes _ _

theorem key_layout (p : PathParams) (hcc : p.cc < 2 ^ 32) (hcl : p.cl < 2 ^ 32) (k : Position) (hv : ValidPath p k.path) :
    KeyLayout p k (natBytes (encodeKey p k)) := by
  obtain ⟨hl, hc⟩ := valid_small hv
  refine ⟨_, path_layout p hcc hcl k.path hl hc, ?_⟩
  unfold encodeKey
  rw [natBytes_append, natBytes_append, natBytes_u64]

theorem values_layout (v : Values) : ValuesLayout v (natBytes (encodeValues v)) := by
  unfold ValuesLayout encodeValues stringToBytes
  simp only [natBytes_append, natBytes_u64, natBytes_put64, List.append_assoc]

theorem entry_layout (ns ss pd : Codec) (p : PathParams) (hcc : p.cc < 2 ^ 32) (hcl : p.cl < 2 ^ 32) (e : Entry) (hv : ValidPath p e.path) :
    EntryLayout ns ss pd p e (natBytes (encodeEntry ns ss pd p e)) := by
  obtain ⟨hl, hc⟩ := valid_small hv
  refine ⟨_, path_layout p hcc hcl e.path hl hc, ?_⟩
  unfold encodeEntry
  simp only [natBytes_append, natBytes_u64]

theorem absDiff_distance (a b : UInt64) : (absDiffUint64 a b).toNat = distance a b := by
  unfold absDiffUint64 distance
  have ha := a.toNat_lt
  have hb := b.toNat_lt
  split
  · rename_i h
    have h' := UInt64.lt_iff_toNat_lt.1 h
    rw [UInt64.toNat_sub_of_le _ _ (UInt64.le_iff_toNat_le.2 (by omega))]; omega
  · rename_i h
    have h' : ¬ a.toNat < b.toNat := fun hh => h (UInt64.lt_iff_toNat_lt.2 hh)
    rw [UInt64.toNat_sub_of_le _ _ (UInt64.le_iff_toNat_le.2 (by omega))]; omega

theorem distance_lt (a b : UInt64) : distance a b < 2 ^ 64 := by
  have := a.toNat_lt
  have := b.toNat_lt
  unfold distance; omega

theorem widthCode_cases {n w : Nat} (h : WidthCode n w) : w = 0 ∨ w = 1 ∨ w = 2 ∨ w = 3 := by have := h.1; omega

theorem relativeEntry_layout (ns ss pd : Codec) (eqNs : Bytes → Bytes → Bool) (ordS : Bytes → Bytes → Ordering) (p : PathParams)
    (hns : ∀ a b, eqNs a b = true ↔ a = b) (hss : ∀ a b, ordS a b = .eq ↔ a = b) (hcc : p.cc < 2 ^ 32) (hcl : p.cl < 2 ^ 32)
    (e ref : Entry) (hv : ValidPath p e.path) (enc : Bytes)
    (h : encodeEntryRelativeEntry ns ss pd eqNs ordS p e ref = .ok enc) : RelativeEntryLayout ns ss pd p e ref (natBytes enc) := by
  unfold encodeEntryRelativeEntry at h
  obtain ⟨rel, hrel, h⟩ := Res.bind_eq_ok.1 h
  simp only [Res.ok.injEq] at h
  obtain ⟨wt, t1, t2, t3, t4⟩ := width_layout (absDiffUint64 e.timestamp ref.timestamp).toNat_lt
  obtain ⟨wl, l1, l2, l3, l4⟩ := width_layout e.payloadLength.toNat_lt
  rw [absDiff_distance] at t1 t3 t4 h
  refine ⟨wt, wl, _, t1, l1, relative_layout p hcc hcl _ _ hv _ hrel, ?_⟩
  have hn : eqNs e.namespaceId ref.namespaceId = decide (e.namespaceId = ref.namespaceId) := by
    rw [Bool.eq_iff_iff, decide_eq_true_iff]; exact hns _ _
  have hs : (ordS e.subspaceId ref.subspaceId != .eq) = decide (e.subspaceId ≠ ref.subspaceId) := by
    rw [Bool.eq_iff_iff, decide_eq_true_iff]; simp [hss]
  rw [t3, l3, hn, hs] at h
  subst h
  simp only [List.append_assoc, List.cons_append, List.nil_append, natBytes_cons, natBytes_append, t4, l4]
  have hw := widthCode_cases t1
  have hw' := widthCode_cases l1
  congr 1
  · by_cases a : e.namespaceId = ref.namespaceId <;> by_cases b : e.subspaceId = ref.subspaceId <;>
      by_cases c : ref.timestamp < e.timestamp <;> simp only [a, b, c, bit, gt_iff_lt, ne_eq, not_true_eq_false,
        not_false_eq_true, decide_true, decide_false, Bool.not_true, Bool.not_false, Bool.false_eq_true, if_true, if_false] <;>
      rcases hw with rfl | rfl | rfl | rfl <;> rcases hw' with rfl | rfl | rfl | rfl <;> rfl
  · by_cases a : e.namespaceId = ref.namespaceId <;> by_cases b : e.subspaceId = ref.subspaceId <;>
      simp [a, b, natBytes_nil]

theorem shared_index (a b : Path) : SharedComponents a b (commonPrefixIndex a b) :=
  let ⟨h1, h2, h3⟩ := commonPrefixIndex_spec a b
  ⟨h1, h2, h3, commonPrefixIndex_max a b⟩

theorem shared_unique {a b : Path} {k l : Nat} (hk : SharedComponents a b k) (hl : SharedComponents a b l) : k = l :=
  Nat.le_antisymm (hl.2.2.2 k hk.1 hk.2.1 hk.2.2.1) (hk.2.2.2 l hl.1 hl.2.1 hl.2.2.1)

theorem nearerStart_iff (path start stop : Path) :
    NearerStart path start stop ↔ commonPrefixIndex path stop ≤ commonPrefixIndex path start := by
  constructor
  · rintro ⟨k, l, hk, hl, h⟩
    rwa [shared_unique (shared_index path stop) hl, shared_unique (shared_index path start) hk]
  · exact fun h => ⟨_, _, shared_index _ _, shared_index _ _, h⟩

theorem minU64_toNat (a b : UInt64) : (minU64 a b).toNat = min a.toNat b.toNat := by
  unfold minU64
  split
  · rename_i h
    have := UInt64.lt_iff_toNat_lt.1 h
    omega
  · rename_i h
    have : ¬ a.toNat < b.toNat := fun hh => h (UInt64.lt_iff_toNat_lt.2 hh)
    omega

/-- The choice of the path to which the path of an entry is relative. -/
theorem range_path {p : PathParams} {path : Path} {r : GRange Path} {flag : Nat} {enc : Bytes}
    (h : (if !r.openEnd then do
       let cs ← commonPrefix path r.start
       let ce ← commonPrefix path r.stop
       if cs.length ≥ ce.length then do
         let b ← encodeRelativePath p path r.start
         Res.ok (0x40, b)
       else do
         let b ← encodeRelativePath p path r.stop
         Res.ok (0x0, b)
     else do
       let b ← encodeRelativePath p path r.start
       Res.ok (0x40, b)) = Res.ok (flag, enc)) :
    ∃ fromStart : Bool, (fromStart = true ↔ r.openEnd = true ∨ NearerStart path r.start r.stop) ∧
      flag = (if fromStart then 0x40 else 0) ∧ encodeRelativePath p path (if fromStart then r.start else r.stop) = .ok enc := by
  cases ho : r.openEnd with
  | true =>
    rw [ho] at h
    obtain ⟨b, hb, h⟩ := Res.bind_eq_ok.1 h
    cases h
    exact ⟨true, by simp, rfl, hb⟩
  | false =>
    rw [ho] at h
    obtain ⟨cs, hcs, h⟩ := Res.bind_eq_ok.1 h
    obtain ⟨ce, hce, h⟩ := Res.bind_eq_ok.1 h
    rw [commonPrefix_length hcs, commonPrefix_length hce] at h
    split at h
    · rename_i hc
      obtain ⟨b, hb, h⟩ := Res.bind_eq_ok.1 h
      cases h
      exact ⟨true, by simpa [nearerStart_iff] using hc, rfl, hb⟩
    · rename_i hc
      obtain ⟨b, hb, h⟩ := Res.bind_eq_ok.1 h
      cases h
      exact ⟨false, by simp [nearerStart_iff]; omega, rfl, hb⟩

theorem entryInRange_layout (ss pd : Codec) (ordS : Bytes → Bytes → Ordering) (p : PathParams)
    (hss : ∀ a b, ordS a b = .eq ↔ a = b) (hcc : p.cc < 2 ^ 32) (hcl : p.cl < 2 ^ 32)
    (e : Entry) (outer : Range3d) (hv : ValidPath p e.path) (enc : Bytes)
    (h : encodeEntryRelativeRange3d ss pd ordS p e outer = .ok enc) : EntryInRangeLayout ss pd p e outer (natBytes enc) := by
  unfold encodeEntryRelativeRange3d at h
  dsimp only at h
  obtain ⟨⟨flag, rel⟩, hrel, h⟩ := Res.bind_eq_ok.1 h
  obtain ⟨fromStart, hfs, hflag, hrel'⟩ := range_path hrel
  subst hflag
  simp only [Res.ok.injEq] at h
  obtain ⟨nearStart, hns⟩ : ∃ b : Bool, b = true ↔ outer.time.openEnd = true ∨
    distance e.timestamp outer.time.start ≤ distance e.timestamp outer.time.stop :=
    ⟨decide (outer.time.openEnd = true ∨
      distance e.timestamp outer.time.start ≤ distance e.timestamp outer.time.stop), by simp⟩
  obtain ⟨time, htime⟩ : ∃ t, t = if nearStart then outer.time.start else outer.time.stop := ⟨_, rfl⟩
  have hs : (ordS e.subspaceId outer.subspace.start != .eq) = decide (e.subspaceId ≠ outer.subspace.start) := by
    rw [Bool.eq_iff_iff, decide_eq_true_iff]; simp [hss]
  have hmin : (if (!outer.time.openEnd) = true then
      minU64 (absDiffUint64 e.timestamp outer.time.start) (absDiffUint64 e.timestamp outer.time.stop)
      else absDiffUint64 e.timestamp outer.time.start) = absDiffUint64 e.timestamp time := by
    apply UInt64.toNat_inj.1
    cases ho : outer.time.openEnd with
    | true =>
      have : nearStart = true := hns.2 (.inl ho)
      simp [htime, this]
    | false =>
      simp only [Bool.not_false, if_true, minU64_toNat, absDiff_distance, htime]
      cases hb : nearStart with
      | true =>
        have := (hns.1 hb).resolve_left (by simp [ho])
        simp only [if_true]; omega
      | false =>
        have : ¬ (outer.time.openEnd = true ∨
          distance e.timestamp outer.time.start ≤ distance e.timestamp outer.time.stop) := fun hh => by
            rw [hns.2 hh] at hb; cases hb
        simp only [Bool.false_eq_true, if_false]; omega
  have hst : (absDiffUint64 e.timestamp time = absDiffUint64 e.timestamp outer.time.start) ↔ nearStart = true := by
    rw [← UInt64.toNat_inj, absDiff_distance, absDiff_distance]
    cases hb : nearStart with
    | true => simp [htime, hb]
    | false =>
      have : ¬ (outer.time.openEnd = true ∨
        distance e.timestamp outer.time.start ≤ distance e.timestamp outer.time.stop) := fun hh => by
          rw [hns.2 hh] at hb; cases hb
      simp only [htime, hb, Bool.false_eq_true, if_false, iff_false]; omega
  have hopen : nearStart = false → outer.time.openEnd = false := fun hb => by
    cases ho : outer.time.openEnd with
    | false => rfl
    | true => rw [hns.2 (.inl ho)] at hb; cases hb
  rw [hmin, hs] at h
  simp only [hst] at h
  obtain ⟨wt, t1, t2, t3, t4⟩ := width_layout (absDiffUint64 e.timestamp time).toNat_lt
  obtain ⟨wl, l1, l2, l3, l4⟩ := width_layout e.payloadLength.toNat_lt
  rw [absDiff_distance] at t1 t3 t4 h
  refine ⟨wt, wl, _, fromStart, nearStart, hfs, hns, by rw [← htime]; exact t1, l1, relative_layout p hcc hcl _ _ hv _ hrel', ?_⟩
  simp only [← htime]
  rw [t3, l3] at h
  subst h
  simp only [List.append_assoc, List.cons_append, List.nil_append, natBytes_cons, natBytes_append, t4, l4]
  have hw := widthCode_cases t1
  have hw' := widthCode_cases l1
  have hadd : (if (!outer.time.openEnd) = true then
        if (if nearStart = true then 0x20 else 0x0) = 0x20 ∧ e.timestamp ≥ outer.time.start ∨
            (if nearStart = true then 0x20 else 0x0) = 0x0 ∧ e.timestamp ≥ outer.time.stop then 0x10 else 0x0
      else if (if nearStart = true then 0x20 else 0x0) = 0x20 ∧ e.timestamp ≥ outer.time.start then 0x10 else 0x0) =
      if time ≤ e.timestamp then 0x10 else 0x0 := by
    cases hb : nearStart with
    | true => cases outer.time.openEnd <;> simp [htime, hb]
    | false => simp [htime, hb, hopen hb]
  rw [hadd]
  congr 1
  · by_cases b : e.subspaceId = outer.subspace.start <;> cases fromStart <;> cases nearStart <;>
      by_cases c : time ≤ e.timestamp <;> simp only [b, c, bit, ge_iff_le, ne_eq, not_true_eq_false,
        not_false_eq_true, decide_true, decide_false, Bool.false_eq_true, if_true, if_false] <;>
      rcases hw with rfl | rfl | rfl | rfl <;> rcases hw' with rfl | rfl | rfl | rfl <;> rfl
  · by_cases b : e.subspaceId = outer.subspace.start <;> simp [b, natBytes_nil]

theorem lastTime_eq (t : GRange UInt64) : (if t.openEnd then reallyBigInt else t.stop).toNat = lastTime t := by
  unfold lastTime
  cases t.openEnd <;> rfl

theorem bigIntMin_toNat (a b : UInt64) : (bigIntMin a b).toNat = min a.toNat b.toNat := by
  unfold bigIntMin
  split
  · rename_i h
    have := UInt64.lt_iff_toNat_lt.1 h
    omega
  · rename_i h
    have : ¬ b.toNat < a.toNat := fun hh => h (UInt64.lt_iff_toNat_lt.2 hh)
    omega

theorem mask_two {w : Nat} (h : w = 0 ∨ w = 1 ∨ w = 2 ∨ w = 3) : (if 2 ^ w = 4 ∨ 2 ^ w = 8 then 1 else 0) = w / 2 ∧
    (if 2 ^ w = 2 ∨ 2 ^ w = 8 then 1 else 0) = w % 2 := by
  rcases h with rfl | rfl | rfl | rfl <;> decide

theorem areaInArea_layout (ss : Codec) (ordS : Bytes → Bytes → Ordering) (p : PathParams)
    (hss : ∀ a b, ordS a b = .eq ↔ a = b) (hcc : p.cc < 2 ^ 32) (hcl : p.cl < 2 ^ 32)
    (inner outer : Area) (hv : ValidPath p inner.path) (ht : TimesInside inner.times outer.times) (enc : Bytes)
    (h : encodeAreaInArea ss ordS p inner outer = .ok enc) : AreaInAreaLayout ss p inner outer (natBytes enc) := by
  unfold encodeAreaInArea at h
  dsimp only at h
  obtain ⟨rel, hrel, h⟩ := Res.bind_eq_ok.1 h
  simp only [Res.ok.injEq] at h
  obtain ⟨ht1, ht2, ht3⟩ := ht
  have ht1' := UInt64.le_iff_toNat_le.1 ht1
  obtain ⟨ie, hie⟩ : ∃ x, x = if inner.times.openEnd then reallyBigInt else inner.times.stop := ⟨_, rfl⟩
  obtain ⟨oe, hoe⟩ : ∃ x, x = if outer.times.openEnd then reallyBigInt else outer.times.stop := ⟨_, rfl⟩
  have hie' : ie.toNat = lastTime inner.times := by rw [hie]; exact lastTime_eq _
  have hoe' : oe.toNat = lastTime outer.times := by rw [hoe]; exact lastTime_eq _
  rw [← hie, ← hoe] at h
  unfold AreaInAreaLayout
  rw [← hie'] at ht2
  rw [← hie', ← hoe'] at ht3
  rw [← hie', ← hoe']
  have e1 : (inner.times.start - outer.times.start).toNat = inner.times.start.toNat - outer.times.start.toNat :=
    UInt64.toNat_sub_of_le _ _ ht1
  have e2 : (oe - inner.times.start).toNat = oe.toNat - inner.times.start.toNat :=
    UInt64.toNat_sub_of_le _ _ (UInt64.le_iff_toNat_le.2 (by omega))
  have e3 : (ie - inner.times.start).toNat = ie.toNat - inner.times.start.toNat :=
    UInt64.toNat_sub_of_le _ _ (UInt64.le_iff_toNat_le.2 (by omega))
  have e4 : (oe - ie).toNat = oe.toNat - ie.toNat := UInt64.toNat_sub_of_le _ _ (UInt64.le_iff_toNat_le.2 (by omega))
  obtain ⟨ws, s1, s2, s3, s4⟩ := width_layout (bigIntMin (inner.times.start - outer.times.start) (oe - inner.times.start)).toNat_lt
  obtain ⟨we, f1, f2, f3, f4⟩ := width_layout (bigIntMin (ie - inner.times.start) (oe - ie)).toNat_lt
  have c1 : (bigIntMin (inner.times.start - outer.times.start) (oe - inner.times.start) = inner.times.start - outer.times.start) ↔
      inner.times.start.toNat - outer.times.start.toNat ≤ oe.toNat - inner.times.start.toNat := by
    rw [← UInt64.toNat_inj, bigIntMin_toNat, e1, e2]; omega
  have c2 : (bigIntMin (ie - inner.times.start) (oe - ie) = ie - inner.times.start) ↔
      ie.toNat - inner.times.start.toNat ≤ oe.toNat - ie.toNat := by
    rw [← UInt64.toNat_inj, bigIntMin_toNat, e3, e4]; omega
  simp only [c1, c2, s2, f2] at h
  rw [bigIntMin_toNat, e1, e2] at s1 s4 h
  rw [bigIntMin_toNat, e3, e4] at f1 f4 h
  refine ⟨ws, we, _, s1, f1, relative_layout p hcc hcl _ _ hv _ hrel, isSubspaceSame ordS inner outer, ?_, ?_⟩
  · unfold isSubspaceSame SameSubspace
    cases inner.anySubspace <;> cases outer.anySubspace <;> simp [hss]
  subst h
  simp only [List.append_assoc, List.cons_append, List.nil_append, natBytes_cons, natBytes_append, s4]
  have hw := widthCode_cases s1
  have hw' := widthCode_cases f1
  congr 1
  · generalize isSubspaceSame ordS inner outer = same
    generalize inner.times.openEnd = op
    by_cases a : inner.times.start.toNat - outer.times.start.toNat ≤ oe.toNat - inner.times.start.toNat <;>
      by_cases b : ie.toNat - inner.times.start.toNat ≤ oe.toNat - ie.toNat <;>
      simp only [a, b, bit, if_true, if_false] <;>
      rcases hw with rfl | rfl | rfl | rfl <;> rcases hw' with rfl | rfl | rfl | rfl <;>
      cases same <;> cases op <;> rfl
  · generalize isSubspaceSame ordS inner outer = same
    cases same <;> cases inner.times.openEnd <;> simp [natBytes_nil, f4]

theorem widthBits_end {w : Nat} (h : w = 0 ∨ w = 1 ∨ w = 2 ∨ w = 3) : (widthBits (2 ^ w) 0x10 0x20 0x30).toNat = 16 * w ∧
    (widthBits (2 ^ w) 1 2 3).toNat = w := by
  rcases h with rfl | rfl | rfl | rfl <;> decide

theorem absDiff_le (x a b : UInt64) : absDiffUint64 x a ≤ absDiffUint64 x b ↔ distance x a ≤ distance x b := by
  rw [UInt64.le_iff_toNat_le, absDiff_distance, absDiff_distance]

theorem isEqualRangeValue_iff {ordS : Bytes → Bytes → Ordering} (hss : ∀ a b, ordS a b = .eq ↔ a = b) {a b : GRange Bytes} (x y : Bool)
    (h : (a.openEnd && b.openEnd) = false) : isEqualRangeValue ordS a x b y = true ↔ a.openEnd = false ∧ b.openEnd = false ∧
      (if x then a.start else a.stop) = (if y then b.start else b.stop) := by
  unfold isEqualRangeValue
  rw [h]
  simp [hss, and_assoc]

/-- Which start of the subspaces of a range the encoder gives rightly: those of two ranges without an end must be the same. -/
theorem range_front (ss : Codec) (ordS : Bytes → Bytes → Ordering) (p : PathParams)
    (hss : ∀ a b, ordS a b = .eq ↔ a = b) (hcc : p.cc < 2 ^ 32) (hcl : p.cl < 2 ^ 32)
    (r ref : Range3d) (hv : ValidPath p r.path.start) (hv' : ValidPath p r.path.stop)
    (hopen : r.subspace.openEnd = true → ref.subspace.openEnd = true → r.subspace.start = ref.subspace.start)
    (hstop : r.subspace.openEnd = false → ref.subspace.openEnd = false → r.subspace.stop ≠ ref.subspace.start) (enc : Bytes)
    (h : encodeRange3dRelative ss ordS p r ref = .ok enc) :
    ∃ (sc ec ws we : Nat) (sub stop pathStart pathStop : List Nat) (a b c d : Bool) (endEnc : Bytes),
    let time := if c then ref.time.start else greatestTime ref.time
    let rEnd := lastIn r.time ref.time
    let timeEnd := if d then ref.time.start else greatestTime ref.time
    RangeFront ss p r ref sc ec ws sub stop pathStart pathStop a b c ∧
    (d = true ↔ distance rEnd ref.time.start ≤ distance rEnd (greatestTime ref.time)) ∧
    WidthCode (distance rEnd timeEnd) we ∧
    endEnc = encodeIntMax64 (if r.time.openEnd = false ∧ ref.time.openEnd = true then distance rEnd timeEnd
      else distance rEnd ref.time.start) ∧
    natBytes enc = packed [(2, sc), (2, ec), (1, bit (a = true)), (1, bit (r.path.openEnd = true)),
        (1, bit (r.path.openEnd = false ∧ b = true)), (1, bit (r.time.openEnd = true))] ::
      packed [(1, bit (c = true)), (1, bit (time ≤ r.time.start)), (2, ws),
        (4, packed [(1, bit (d = true)), (1, bit (timeEnd ≤ rEnd)), (2, we)])] ::
      (sub ++ (stop ++ (pathStart ++ (pathStop ++ (inBytes (2 ^ ws) (distance r.time.start time) ++ natBytes endEnc))))) := by
  obtain ⟨s, e, startRel, endRel, tsRel, tsAdd, teRel, teAdd, ps, pe, endEnc, sd, a1, a2, a3, hs, he, a4, a5, a6, a7,
    a8, a9, hen, h, href, -⟩ := encodeRange3dRelative_full' h
  have hlast : lastOf ref.time = greatestTime ref.time := rfl
  rw [hlast] at a8 a9 hen h
  rw [hlast] at a3 a6 a7
  have hend : endEnc = encodeIntMax64 (if r.time.openEnd = false ∧ ref.time.openEnd = true then
      distance (lastIn r.time ref.time) (if teRel then ref.time.start else greatestTime ref.time)
      else distance (lastIn r.time ref.time) ref.time.start) := by
    rw [hen]
    cases r.time.openEnd <;> cases ref.time.openEnd <;> simp [absDiff_distance]
  clear hen
  obtain ⟨ws, s1, s2, s3, s4⟩ := width_layout sd.toNat_lt
  obtain ⟨we, f1, f2, f3, f4⟩ := width_layout
    (absDiffUint64 (lastIn r.time ref.time) (if teRel then ref.time.start else greatestTime ref.time)).toNat_lt
  rw [s2, f2] at h
  rw [a6, absDiff_distance] at s1 s4
  rw [absDiff_distance] at f1
  rw [a6, absDiff_distance] at h
  obtain ⟨sc, hsc⟩ : ∃ sc, sc = (match s with
    | .refStart => 1
    | .refEnd => 2
    | .given => 3 : Nat) := ⟨_, rfl⟩
  obtain ⟨ec, hec⟩ : ∃ ec, ec = (match e with
    | .none => 0
    | .overwritten => 1
    | .refEnd => 2
    | .given => 3 : Nat) := ⟨_, rfl⟩
  have hcase : (r.subspace.openEnd = true ∧ ref.subspace.openEnd = true) ∨ (r.subspace.openEnd && ref.subspace.openEnd) = false := by
    cases r.subspace.openEnd <;> cases ref.subspace.openEnd <;> simp
  have hno : e ≠ .overwritten := by
    rintro rfl
    obtain ⟨h1, h2⟩ := he
    rw [isEqualRangeValue_iff hss _ _ (by rw [h1]; rfl)] at h2
    exact hstop h1 h2.2.1 h2.2.2
  refine ⟨sc, ec, ws, we, natBytes (startIds ss r s), natBytes (endIds ss r e), natBytes ps, natBytes pe, startRel, endRel, tsRel, teRel,
    endEnc, ⟨?_, ?_, ?_, ?_, ?_, s1, relative_layout p hcc hcl _ _ hv _ a4, relative_layout p hcc hcl _ _ hv' _ a5⟩, ?_, f1, hend, ?_⟩
  · cases s with
    | refStart =>
      rcases hcase with hb | hb
      · exact .inl ⟨hsc, hopen hb.1 hb.2, rfl⟩
      · exact .inl ⟨hsc, ((isEqualRangeValue_iff hss _ _ hb).1 hs).2.2, rfl⟩
    | refEnd =>
      rcases hcase with hb | hb
      · exact absurd (href (by rw [isEqualRangeValue, hb.1, hb.2]; rfl)) (by simp)
      · have := (isEqualRangeValue_iff hss _ _ hb).1 hs
        exact .inr (.inl ⟨hsc, this.2.1, this.2.2, rfl⟩)
    | given => exact .inr (.inr ⟨hsc, rfl⟩)
  · cases e with
    | none => rw [if_pos he]; exact ⟨hec, rfl⟩
    | overwritten => exact absurd rfl hno
    | refEnd =>
      have := (isEqualRangeValue_iff hss _ _ (by rw [he.1]; rfl)).1 he.2
      rw [if_neg (by simp [he.1])]
      exact .inr (.inl ⟨hec, this.2.1, this.2.2, rfl⟩)
    | given => rw [if_neg (by simp [show r.subspace.openEnd = false from he])]; exact .inr (.inr ⟨hec, rfl⟩)
  · rw [a1, nearerStart_iff]; simp [commonPrefixLen]
  · rw [a2, nearerStart_iff]; simp [commonPrefixLen]
  · rw [a3, decide_eq_true_eq, absDiff_le]
  · rw [a8, decide_eq_true_eq, absDiff_le]
  · subst h
    simp only [natBytes_cons, natBytes_append, s4]
    have hw := widthCode_cases s1
    have hw' := widthCode_cases f1
    congr 1
    · rw [hsc, hec]
      generalize r.path.openEnd = po
      generalize r.time.openEnd = to
      clear he hs href
      cases s <;> cases e <;> first | exact absurd rfl hno | skip
      all_goals cases startRel <;> cases endRel <;> cases po <;> cases to <;> rfl
    · congr 1
      have t1 : bit ((if tsRel then ref.time.start else greatestTime ref.time) ≤ r.time.start) = bit (tsAdd = true) := by
        rw [a7]; simp [bit]
      have t2 : bit ((if teRel then ref.time.start else greatestTime ref.time) ≤ lastIn r.time ref.time) = bit (teAdd = true) := by
        rw [a9]; simp [bit]
      rw [t1, t2]
      clear t1 t2 a3 a7 a8 a9 s1 s4 f1 f4 s2 f2 hend a6 s3 f3
      rcases hw with rfl | rfl | rfl | rfl <;> rcases hw' with rfl | rfl | rfl | rfl <;>
        cases tsRel <;> cases tsAdd <;> cases teRel <;> cases teAdd <;> rfl

theorem limitWidth_unique {n v w : Nat} (h : LimitWidth n v) (h' : LimitWidth n w) : v = w := by
  rcases Nat.lt_trichotomy v w with h1 | h1 | h1
  · exact absurd h.2.1 (Nat.not_lt.2 (h'.2.2 _ h.1 h1))
  · exact h1
  · exact absurd h'.2.1 (Nat.not_lt.2 (h.2.2 _ h'.1 h1))

theorem pathLayout_unique {p : PathParams} {path : Path} {a b : List Nat} (h : PathLayout p path a) (h' : PathLayout p path b) : a = b := by
  obtain ⟨wc, wl, h1, h2, rfl⟩ := h
  obtain ⟨wc', wl', h1', h2', rfl⟩ := h'
  rw [limitWidth_unique h1 h1', limitWidth_unique h2 h2']

theorem relativeLayout_unique {p : PathParams} {path ref : Path} {a b : List Nat} (h : RelativeLayout p path ref a)
    (h' : RelativeLayout p path ref b) : a = b := by
  obtain ⟨k, wc, rest, h1, h2, h3, rfl⟩ := h
  obtain ⟨k', wc', rest', h1', h2', h3', rfl⟩ := h'
  cases shared_unique h1 h1'
  rw [limitWidth_unique h2 h2', pathLayout_unique h3 h3']

theorem boundLayout_unique {ss : Codec} {bound : Bytes} {ref : GRange Bytes} {c : Nat} {a b : List Nat}
    (h : BoundLayout ss bound ref c a) (h' : BoundLayout ss bound ref c b) : a = b := by
  rcases h with ⟨h1, -, h2⟩ | ⟨h1, -, -, h2⟩ | ⟨h1, h2⟩ <;> rcases h' with ⟨h3, -, h4⟩ | ⟨h3, -, -, h4⟩ | ⟨h3, h4⟩ <;>
    first | (rw [h2, h4]; done) | omega

theorem boundLayout_code {ss : Codec} {bound : Bytes} {ref : GRange Bytes} {c : Nat} {a : List Nat}
    (h : BoundLayout ss bound ref c a) : 1 ≤ c ∧ c ≤ 3 := by
  rcases h with ⟨h1, -, h2⟩ | ⟨h1, -, -, h2⟩ | ⟨h1, h2⟩ <;> omega

theorem bit_le (q : Prop) [Decidable q] : bit q ≤ 1 := by unfold bit; split <;> omega

theorem rangeFront_unique {ss : Codec} {p : PathParams} {r ref : Range3d} {sc ec ws sc' ec' ws' : Nat}
    {sub stop ps pe sub' stop' ps' pe' : List Nat} {a b c a' b' c' : Bool} {q : Nat}
    (h : RangeFront ss p r ref sc ec ws sub stop ps pe a b c) (h' : RangeFront ss p r ref sc' ec' ws' sub' stop' ps' pe' a' b' c')
    (hp : packed [(2, sc), (2, ec), (1, bit (a = true)), (1, bit (r.path.openEnd = true)),
        (1, bit (r.path.openEnd = false ∧ b = true)), (1, q)] =
      packed [(2, sc'), (2, ec'), (1, bit (a' = true)), (1, bit (r.path.openEnd = true)),
        (1, bit (r.path.openEnd = false ∧ b' = true)), (1, q)]) :
    sub = sub' ∧ stop = stop' ∧ ps = ps' ∧ pe = pe' ∧ c = c' ∧ ws = ws' := by
  obtain ⟨h1, h2, h3, h4, h5, h6, h7, h8⟩ := h
  obtain ⟨h1', h2', h3', h4', h5', h6', h7', h8'⟩ := h'
  have ha : a = a' := by rw [Bool.eq_iff_iff, h3, h3']
  have hb : b = b' := by rw [Bool.eq_iff_iff, h4, h4']
  have hc : c = c' := by rw [Bool.eq_iff_iff, h5, h5']
  subst ha hb hc
  have hec : ec ≤ 3 ∧ ec' ≤ 3 := by
    split at h2
    · rename_i ho
      rw [if_pos ho] at h2'
      omega
    · rename_i ho
      rw [if_neg ho] at h2'
      exact ⟨(boundLayout_code h2).2, (boundLayout_code h2').2⟩
  simp only [packed, List.map_cons, List.map_nil, List.sum_cons, List.sum_nil] at hp
  have hs : sc = sc' := by omega
  have he : ec = ec' := by omega
  subst hs he
  refine ⟨boundLayout_unique h1 h1', ?_, relativeLayout_unique h7 h7', relativeLayout_unique h8 h8', rfl, widthCode_unique h6 h6'⟩
  split at h2
  · rename_i ho
    rw [if_pos ho] at h2'
    rw [h2.2, h2'.2]
  · rename_i ho
    rw [if_neg ho] at h2'
    exact boundLayout_unique h2 h2'

/-- When a range relative to another has its layout. -/
theorem range_layout (ss : Codec) (ordS : Bytes → Bytes → Ordering) (p : PathParams)
    (hss : ∀ a b, ordS a b = .eq ↔ a = b) (hcc : p.cc < 2 ^ 32) (hcl : p.cl < 2 ^ 32)
    (r ref : Range3d) (hv : ValidPath p r.path.start) (hv' : ValidPath p r.path.stop) (enc : Bytes)
    (h : encodeRange3dRelative ss ordS p r ref = .ok enc) : RangeLayout ss p r ref (natBytes enc) ↔
      (r.subspace.openEnd = true → ref.subspace.openEnd = true → r.subspace.start = ref.subspace.start) ∧
      (r.subspace.openEnd = false → ref.subspace.openEnd = false → r.subspace.stop ≠ ref.subspace.start) ∧
      r.time.openEnd = false ∧
      (ref.time.openEnd = true ∨ distance r.time.stop ref.time.start ≤ distance r.time.stop ref.time.stop) := by
  constructor
  · intro hl
    have hopen : r.subspace.openEnd = true → ref.subspace.openEnd = true → r.subspace.start = ref.subspace.start := by
      intro h1 h2
      obtain ⟨s, e, startRel, endRel, tsRel, tsAdd, teRel, teAdd, ps, pe, endEnc, sd, -, -, -, -, he, -, -, -, -, -, -, -, h,
        href, -⟩ := encodeRange3dRelative_full' h
      cases href (by rw [isEqualRangeValue, h1, h2]; rfl)
      obtain ⟨sc, ec, ws, low, sub, stop, pst, psp, last, a, b, c, ⟨g1, g2, -⟩, -, g⟩ := hl
      have h3 := congrArg List.head? (h ▸ g)
      simp only [natBytes_cons, List.head?_cons, Option.some.injEq, packed, List.map_cons, List.map_nil, List.sum_cons, List.sum_nil] at h3
      rw [if_pos h1] at g2
      have b1 := bit_le (a = true)
      have b2 := bit_le (r.path.openEnd = true)
      have b3 := bit_le (r.path.openEnd = false ∧ b = true)
      have b4 := bit_le (r.time.openEnd = true)
      have h4 : 64 ≤ (firstByte .refStart e startRel r.path.openEnd endRel r.time.openEnd).toNat ∧
          (firstByte .refStart e startRel r.path.openEnd endRel r.time.openEnd).toNat < 128 := by
        cases e with
        | none =>
          generalize r.path.openEnd = po
          generalize r.time.openEnd = to
          cases startRel <;> cases endRel <;> cases po <;> cases to <;> decide
        | overwritten => rw [h1] at he; exact absurd he.1 (by simp)
        | refEnd => rw [h1] at he; exact absurd he.1 (by simp)
        | given => rw [h1] at he; exact absurd he (by simp)
      have h5 : sc = 1 := by omega
      rcases g1 with g1 | g1 | g1
      · exact g1.2.1
      · omega
      · omega
    have hstop : r.subspace.openEnd = false → ref.subspace.openEnd = false → r.subspace.stop ≠ ref.subspace.start := by
      intro h1 h2 h3
      obtain ⟨s, e, startRel, endRel, tsRel, tsAdd, teRel, teAdd, ps, pe, endEnc, sd, -, -, -, -, he, -, -, -, -, -, -, -, h,
        -, hover⟩ := encodeRange3dRelative_full' h
      cases hover h1 (by rw [isEqualRangeValue_iff hss _ _ (by rw [h1]; rfl)]; exact ⟨h1, h2, h3⟩)
      obtain ⟨sc, ec, ws, low, sub, stop, pst, psp, last, a, b, c, ⟨g1, g2, -⟩, -, g⟩ := hl
      have h3 := congrArg List.head? (h ▸ g)
      simp only [natBytes_cons, List.head?_cons, Option.some.injEq, packed, List.map_cons, List.map_nil, List.sum_cons, List.sum_nil] at h3
      have h4 : (firstByte s .overwritten startRel r.path.openEnd endRel r.time.openEnd).toNat < 64 := by
        generalize r.path.openEnd = po
        generalize r.time.openEnd = to
        cases s <;> cases startRel <;> cases endRel <;> cases po <;> cases to <;> decide
      have := (boundLayout_code g1).1
      omega
    refine ⟨hopen, hstop, ?_⟩
    obtain ⟨sc, ec, ws, we, sub, stop, pst, psp, a, b, c, d, endEnc, hf, hd, hwe, hend, he⟩ :=
      range_front ss ordS p hss hcc hcl r ref hv hv' hopen hstop enc h
    obtain ⟨sc', ec', ws', low', sub', stop', pst', psp', last', a', b', c', hf', hl', he'⟩ := hl
    rw [he, List.cons.injEq, List.cons.injEq] at he'
    obtain ⟨e1, e2, e3⟩ := he'
    obtain ⟨u1, u2, u3, u4, u5, u6⟩ := rangeFront_unique hf hf' e1
    subst u1 u2 u3 u4 u5 u6
    rw [List.append_cancel_left_eq, List.append_cancel_left_eq, List.append_cancel_left_eq, List.append_cancel_left_eq,
      List.append_cancel_left_eq] at e3
    unfold TimeEndLayout at hl'
    cases ho : r.time.openEnd with
    | true =>
      rw [if_pos ho] at hl'
      rw [hl'.2, hend] at e3
      exfalso
      have hn : ∀ n, n < 2 ^ 64 → natBytes (encodeIntMax64 n) ≠ [] := fun n hn hh => by
        obtain ⟨w, -, -, -, h4⟩ := width_layout hn
        rw [h4] at hh
        have := congrArg List.length hh
        simp only [inBytes, List.length_map, List.length_range, List.length_nil] at this
        exact absurd this (Nat.ne_of_gt (Nat.pow_pos (by decide)))
      exact hn _ (by split <;> exact distance_lt _ _) e3
    | false =>
      refine ⟨rfl, ?_⟩
      rw [if_neg (by simp [ho])] at hl'
      obtain ⟨we', d', h1, h2, h3, h4⟩ := hl'
      have hin : lastIn r.time ref.time = r.time.stop := by unfold lastIn; rw [ho]; simp
      cases hro : ref.time.openEnd with
      | true => exact .inl rfl
      | false =>
        refine .inr ?_
        apply Classical.byContradiction
        intro hn
        have hg : greatestTime ref.time = ref.time.stop := by unfold greatestTime; rw [hro]; rfl
        have hd' : d' = false := by
          cases d' with
          | false => rfl
          | true => exact absurd (h1.1 rfl) (by rw [hg]; exact hn)
        subst hd'
        rw [hend, h4, hin, if_neg (by simp [hro])] at e3
        simp only [Bool.false_eq_true, if_false, hg] at e3 h2
        obtain ⟨w, s1, -, -, s4⟩ := width_layout (distance_lt r.time.stop ref.time.start)
        rw [s4] at e3
        have hlen := congrArg List.length e3
        simp only [inBytes, List.length_map, List.length_range] at hlen
        have hw : w = we' := (Nat.pow_right_inj (by decide)).1 hlen
        subst hw
        have := (inBytes_inj (r := []) (r' := []) s1.2.1 h2.2.1 (by rw [e3])).1
        omega
  · rintro ⟨hopen, hstop, ho, hr⟩
    obtain ⟨sc, ec, ws, we, sub, stop, pst, psp, a, b, c, d, endEnc, hf, hd, hwe, hend, he⟩ :=
      range_front ss ordS p hss hcc hcl r ref hv hv' hopen hstop enc h
    have hin : lastIn r.time ref.time = r.time.stop := by unfold lastIn; rw [ho]; simp
    rw [hin] at hd hwe hend he
    obtain ⟨w, s1, -, -, s4⟩ := width_layout (distance_lt r.time.stop (if d then ref.time.start else greatestTime ref.time))
    have hlast : natBytes endEnc = inBytes (2 ^ we) (distance r.time.stop (if d then ref.time.start else greatestTime ref.time)) := by
      rw [widthCode_unique hwe s1, ← s4, hend]
      cases hro : ref.time.openEnd with
      | true => rw [if_pos ⟨ho, rfl⟩]
      | false =>
        have : d = true := hd.2 (by
          rcases hr with hr | hr
          · rw [hro] at hr; cases hr
          · unfold greatestTime; rw [hro]; exact hr)
        rw [if_neg (by simp), this]; rfl
    rw [hlast] at he
    refine ⟨sc, ec, ws, _, sub, stop, pst, psp, _, a, b, c, hf, ?_, he⟩
    unfold TimeEndLayout
    rw [if_neg (by simp [ho])]
    exact ⟨we, d, hd, hwe, rfl, rfl⟩

end Willow.Props
