import Verif.Lemmas.PropsMessagesData
import Verif.Lemmas.PropsRelativeArea2

/-! Lemmas for the theorems of `Verif/Props/MessagesSetup.lean`. -/

namespace Willow.Props

open Willow Spec

/-- The widths in the header of a bind-read-capability message. -/
theorem width_readCap (n : Nat) :
    compactWidthFromEndOfByte (byteOf (compactWidthOr 0x20 (getWidthMax64Int n))) = getWidthMax64Int n := by
  rcases width64 n with h | h | h | h <;> rw [h] <;> decide

theorem conv_of_lt {p : PathParams} {n : Nat} (h : n < 2 ^ p.bits) : p.conv n = n := Nat.mod_eq_of_lt h

/-- A bind-read-capability message comes back with its handle cut to the width of the integers
of the path scheme. -/
theorem readCapability_cut {s : Schemes} {vc vg : Bytes → Prop} (hc : s.readCap.Lawful vc) (hg : s.syncSig.Lawful vg)
    {capability signature : Bytes} (h1 : vc capability) (h2 : vg signature) (handle : UInt64) :
    RoundTrips (decodeSetupBindReadCapability s) (encodeSetupBindReadCapability s capability handle signature)
      (message (.setupBindReadCapability capability (UInt64.ofNat (s.p.conv handle.toNat)) signature)) := by
  have hle : s.p.conv handle.toNat < 2 ^ 64 := Nat.lt_of_le_of_lt (Nat.mod_le _ _) handle.toNat_lt
  refine roundTrips_of_reads fun g rest hr hg' => ?_
  unfold encodeSetupBindReadCapability at hg'
  dsimp only at hg'
  have hx : (UInt64.ofNat (s.p.conv handle.toNat)).toNat = s.p.conv handle.toNat := by
    rw [UInt64.toNat_ofNat', Nat.mod_eq_of_lt hle]
  generalize UInt64.ofNat (s.p.conv handle.toNat) = x at hx ⊢
  rw [← hx] at hg'
  have hw := width_readCap x.toNat
  generalize byteOf _ = b at hw hg'
  have hl := encodeIntMax64_length x.toNat
  simp only [List.append_assoc] at hg'
  unfold decodeSetupBindReadCapability
  refine step_next hr hg' (by simp) fun g1 r1 c1 l1 _ => ?_
  rw [step_byte (b := b) c1 (by omega) rfl, hw]
  refine step_next r1 c1 (by simp; omega) fun g2 r2 c2 l2 _ => ?_
  rw [step_compact (i := 1) (x := x) (a := [b]) c2 rfl rfl rfl l2]
  refine step_prune (a := [b] ++ encodeIntMax64 x.toNat) r2 c2 l2 (by rw [List.append_assoc]) (by simp; omega)
    fun g3 r3 c3 => ?_
  refine step_codec hc h1 r3 c3 fun g4 r4 c4 => ?_
  refine step_codec hg h2 r4 c4 fun g5 r5 c5 => ?_
  exact step_pure r5 c5

/-- The header of a bind-area-of-interest message never has the bit for a limit. -/
theorem header_aoi (v : Nat) (hv : v = 0x4 ∨ v = 0x0) (n : Nat) :
    (0x4 &&& byteOf (compactWidthOr 0x28 (getWidthMax64Int n ||| v)) == 0x4) = false := by
  rcases width64 n with h | h | h | h <;> rcases hv with rfl | rfl <;> rw [h] <;> decide

theorem encode_aoi_inv {s : Schemes} {outer : Area} {aoi : AreaOfInterest} {auth : UInt64} {enc : Bytes}
    (h : encodeSetupBindAreaOfInterest s outer aoi auth = .ok enc) :
    ∃ area tail v, encodeAreaInArea s.ss s.ordS s.p aoi.area outer = .ok area ∧ (v = 0x4 ∨ v = 0x0) ∧
      enc = [byteOf (compactWidthOr 0x28 (getWidthMax64Int (s.p.conv auth.toNat) ||| v))] ++
        (encodeIntMax64 (s.p.conv auth.toNat) ++ (area ++ tail)) ∧
      (aoi.maxCount = 0 ∧ aoi.maxSize = 0 → tail = [] ∧ v = 0x0) := by
  unfold encodeSetupBindAreaOfInterest at h
  dsimp only at h
  obtain ⟨area, ha, h⟩ := Res.bind_eq_ok.1 h
  generalize hvd : (if aoi.maxCount.toNat % 2 ^ 8 ≠ 0 ∨ aoi.maxSize.toNat % 2 ^ 8 ≠ 0 then 0x4 else 0x0) = v at h
  have hv : v = 0x4 ∨ v = 0x0 := by
    subst hvd
    split
    · exact .inl rfl
    · exact .inr rfl
  by_cases h0 : aoi.maxCount = 0 ∧ aoi.maxSize = 0
  · rw [if_pos h0, Res.ok.injEq] at h
    refine ⟨area, [], v, ha, hv, ?_, fun _ => ⟨rfl, ?_⟩⟩
    · rw [← h]; simp
    · rw [← hvd, h0.1, h0.2]; decide
  · rw [if_neg h0, Res.ok.injEq] at h
    refine ⟨area, ?tail, v, ha, hv, ?eq, fun h => absurd h h0⟩
    case eq => rw [← h]; simp only [List.append_assoc]; rfl

/-- The byte with the widths of the two limits. -/
theorem limit_widths (m n : Nat) :
    let b := byteOf (compactWidthOr (byteOf (compactWidthOr 0 (getWidthMax64Int m)) <<< 2).toNat (getWidthMax64Int n)) <<< 4
    compactWidthFromEndOfByte (b >>> 6) = getWidthMax64Int m ∧ compactWidthFromEndOfByte (b >>> 4) = getWidthMax64Int n := by
  rcases width64 m with h | h | h | h <;> rcases width64 n with h' | h' | h' | h' <;> rw [h, h'] <;> decide

/-- What follows the area in a message with limits. -/
theorem encode_aoi_limits {s : Schemes} {outer : Area} {aoi : AreaOfInterest} {auth : UInt64} {enc : Bytes}
    (h0 : ¬ (aoi.maxCount = 0 ∧ aoi.maxSize = 0)) (h : encodeSetupBindAreaOfInterest s outer aoi auth = .ok enc) :
    ∃ (area : Bytes) (b l : UInt8), encodeAreaInArea s.ss s.ordS s.p aoi.area outer = .ok area ∧
      compactWidthFromEndOfByte (l >>> 6) = getWidthMax64Int (s.p.conv aoi.maxCount.toNat) ∧
      compactWidthFromEndOfByte (l >>> 4) = getWidthMax64Int (s.p.conv aoi.maxSize.toNat) ∧
      enc = b :: (encodeIntMax64 (s.p.conv auth.toNat) ++ (area ++ ([l] ++ (encodeIntMax64 (s.p.conv aoi.maxCount.toNat) ++
        encodeIntMax64 (s.p.conv aoi.maxSize.toNat))))) := by
  unfold encodeSetupBindAreaOfInterest at h
  dsimp only at h
  obtain ⟨area, ha, h⟩ := Res.bind_eq_ok.1 h
  rw [if_neg h0, Res.ok.injEq] at h
  obtain ⟨h1, h2⟩ := limit_widths (s.p.conv aoi.maxCount.toNat) (s.p.conv aoi.maxSize.toNat)
  simp only [List.append_assoc, List.cons_append, List.nil_append] at h
  exact ⟨area, _, _, ha, h1, h2, h.symm⟩

theorem encodeAreaInArea_same {ss ss' : Codec} {ordS : Bytes → Bytes → Ordering} {p : PathParams} {inner outer : Area}
    (h : isSubspaceSame ordS inner outer = true) :
    encodeAreaInArea ss ordS p inner outer = encodeAreaInArea ss' ordS p inner outer := by
  unfold encodeAreaInArea
  simp only [h, if_true]

theorem nilCodec_lawful : nilCodec.Lawful fun _ => False :=
  ⟨fun _ _ h => h.elim, fun _ h => h.elim, fun _ h => h.elim, fun _ _ h => h.elim⟩

/-- Reading the handle of a message that was encoded by the code: the width of the handle is
read as the handle, together with bytes of what follows. -/
theorem pai_handle {α : Type} {g : GB} {h b : UInt8} {tail : Bytes} {f : UInt64 → Unit → Dec α} {r : α × GB} {w : Nat}
    (hw : compactWidthFromEndOfByte h = w) (hm : g.mem = .exact) (hg : g.content = [h, b] ++ tail)
    (hd : (nextAbsolute 1 >>= fun array => Dec.lift (byteAt array 0) >>= fun b =>
      compactAt array 1 (compactWidthFromEndOfByte b) >>= fun v => prune (1 + compactWidthFromEndOfByte b) >>= f v) g =
      .ok r) :
    ∃ v g', f v () g' = .ok r ∧ g'.content.length + (1 + w) = g.content.length ∧ (w = 1 → v = UInt64.ofNat b.toNat) := by
  obtain ⟨g1, m1, c1, l1, hd⟩ := inv_next hg hd
  rw [step_byte (b := h) c1 (by omega) rfl, hw] at hd
  have hl := (inv_compact hd).1 (m1 hm)
  by_cases h1 : w = 1
  · subst h1
    rw [compactAt_eq c1 hl (.inl rfl)] at hd
    refine ⟨_, _, hd, ?_, fun _ => by simp [getBE]⟩
    have hlen : g1.content.length = g.content.length := by rw [c1, hg]
    simp only [GB.content, List.length_append, List.length_drop] at hlen ⊢
    omega
  · obtain ⟨v, hd⟩ := (inv_compact hd).2
    refine ⟨v, _, hd, ?_, fun h => absurd h h1⟩
    have hlen : g1.content.length = g.content.length := by rw [c1, hg]
    simp only [GB.content, List.length_append, List.length_drop] at hlen ⊢
    omega

theorem pai_handle_one {handle : UInt64} (hh : handle ≠ 1) (h : getWidthMax64Int handle.toNat = 1) {v : UInt64}
    (hv : v = UInt64.ofNat (byteOf (getWidthMax64Int handle.toNat)).toNat) : v ≠ handle := by
  rw [hv, h]
  exact fun e => hh e.symm

end Willow.Props
