import Verif.Spec.Messages
import Verif.Lemmas.Relative
import Verif.Lemmas.RelativeErrors

/-! Steps of the message decoders. -/

namespace Willow
open Spec

/-- A decoder returned `m`, leaving the bytes `rest` in the stream; if everything had arrived
before, it still has. -/
def GivesR {α : Type} (all : Bool) (m : α) (rest : Bytes) (r : Res (α × GB)) : Prop :=
  ∃ g', r = .ok (m, g') ∧ g'.ready all ∧ g'.content = rest

theorem roundTrips_of_reads {α : Type} {d : Dec α} {enc : Bytes} {m : α}
    (h : ∀ (g : GB) (rest : Bytes), g.ready false → g.content = enc ++ rest → GivesR false m rest (d g)) :
    RoundTrips d enc m := by
  intro g rest hg
  obtain ⟨g', h1, -, h2⟩ := h g rest (fun h => by simp at h) hg
  exact ⟨g', h1, h2⟩

/-- A request for bytes that are there, when nothing else arrives in the meantime. -/
theorem nextAbsolute_of_le {n : Nat} {buf : Bytes} {chunks : List Bytes} {m : Mem} (h : n ≤ buf.length) :
    nextAbsolute n ⟨buf, chunks, [], m⟩ = .ok (buf, ⟨buf, chunks, [], m⟩) := by
  unfold nextAbsolute
  cases chunks <;> simp [GB.absorb, GB.pull, h]

theorem Dec.bind_assoc {α β γ : Type} (d : Dec α) (f : α → Dec β) (k : β → Dec γ) :
    (d >>= f) >>= k = d >>= fun a => f a >>= k := by
  funext g
  simp only [Dec.bind_apply]
  cases d g <;> rfl

theorem Dec.pure_bind {α β : Type} (a : α) (f : α → Dec β) : (pure a >>= f) = f a := rfl

theorem Dec.lift_bind {α β : Type} (a : α) (f : α → Dec β) : (Dec.lift (.ok a) >>= f) = f a := rfl

section Steps
variable {α : Type} {all : Bool} {g : GB} {c : Bytes} {m : α} {rest : Bytes}

/-- A request that can be satisfied. -/
theorem step_next {n : Nat} {f : Bytes → Dec α} (hr : g.ready all) (hg : g.content = c) (h : n ≤ c.length)
    (k : ∀ g' : GB, g'.ready all → g'.content = c → n ≤ g'.buf.length → (all = true → g'.buf = c) →
      GivesR all m rest (f g'.buf g')) : GivesR all m rest ((nextAbsolute n >>= f) g) := by
  obtain ⟨g', e, hc, hl, hr', hn⟩ := nextAbsolute_ready n g hr (by rw [hg]; exact h)
  rw [Dec.bind_apply, e]
  refine k g' hr' (by rw [hc, hg]) hl fun ha => ?_
  rw [← hg, ← hc]
  simp [GB.content, hn ha]

theorem step_dec {β : Type} {d : Dec β} {f : β → Dec α} {a : β} {mid : Bytes} (h : GivesR all a mid (d g))
    (k : ∀ g' : GB, g'.ready all → g'.content = mid → GivesR all m rest (f a g')) :
    GivesR all m rest ((d >>= f) g) := by
  obtain ⟨g', e, hr, hc⟩ := h
  rw [Dec.bind_apply, e]
  exact k g' hr hc

theorem step_codec {cd : Codec} {valid : Bytes → Prop} {x : Bytes} {f : Bytes → Dec α} (hl : cd.Lawful valid)
    (hx : valid x) (hr : g.ready all) {b : Bytes} (hg : g.content = cd.enc x ++ b)
    (k : ∀ g' : GB, g'.ready all → g'.content = b → GivesR all m rest (f x g')) :
    GivesR all m rest ((cd.decStream >>= f) g) :=
  step_dec (hl.reads x all hx g b hr hg (Nat.zero_le _)) k

theorem step_pure (hr : g.ready all) (hg : g.content = rest) : GivesR all m rest ((pure m : Dec α) g) :=
  ⟨g, rfl, hr, hg⟩

theorem byteAt_buf {i : Nat} (hi : i < g.buf.length) : byteAt g.buf i = byteAt g.content i := by
  unfold byteAt GB.content
  rw [List.getElem?_append_left hi]

theorem step_byte {g' : GB} {i : Nat} {b : UInt8} {f : UInt8 → Dec α} (hg : g.content = c) (hi : i < g.buf.length)
    (hb : c[i]? = some b) : (Dec.lift (byteAt g.buf i) >>= f) g' = f b g' := by
  rw [byteAt_buf hi, hg]
  unfold byteAt
  rw [hb]
  rfl

theorem slice_mid_append {β : Type} (a b c : List β) {i j : Nat} (hi : i = a.length) (hj : j = i + b.length) :
    slice (a ++ (b ++ c)) i j = .ok b := by
  subst hi hj
  unfold slice
  rw [if_pos (by simp)]
  simp

theorem step_compact {g' : GB} {i w : Nat} {x : UInt64} {a b : Bytes} {f : UInt64 → Dec α} (hg : g.content = c)
    (hc : c = a ++ (encodeIntMax64 x.toNat ++ b)) (hi : i = a.length) (hw : w = getWidthMax64Int x.toNat)
    (hl : i + w ≤ g.buf.length) : (compactAt g.buf i w >>= f) g' = f x g' := by
  subst hw
  have hs : slice g.buf i (i + getWidthMax64Int x.toNat) = .ok (encodeIntMax64 x.toNat) := by
    rw [slice_buf _ _ _ hl, hg, hc]
    exact slice_mid_append _ _ _ hi (by rw [encodeIntMax64_length])
  unfold compactAt
  simp only [sliceArray_ok hs, Dec.bind_apply, decode_encodeIntMax64 x.toNat_lt, Dec.liftD_ok, Dec.pure_apply,
    UInt64.ofNat_toNat]

theorem step_prune {n : Nat} {f : Unit → Dec α} {a b : Bytes} (hr : g.ready all) (hg : g.content = c)
    (hl : n ≤ g.buf.length) (hc : c = a ++ b) (hn : n = a.length)
    (k : ∀ g' : GB, g'.ready all → g'.content = b → GivesR all m rest (f () g')) :
    GivesR all m rest ((prune n >>= f) g) := by
  have : (prune n >>= f) g = f () (g.pruned n) := rfl
  rw [this]
  refine k _ (ready_prune n hr) ?_
  rw [prune_content _ _ hl, hg, hc, List.drop_left' hn.symm]

/-- Reading a compact integer with `takeCompact`. -/
theorem step_take {w : Nat} {x : UInt64} {b : Bytes} {f : UInt64 → Dec α} (hr : g.ready all)
    (hg : g.content = encodeIntMax64 x.toNat ++ b) (hw : w = getWidthMax64Int x.toNat)
    (k : ∀ g' : GB, g'.ready all → g'.content = b → GivesR all m rest (f x g')) :
    GivesR all m rest ((takeCompact w >>= f) g) := by
  refine step_dec (mid := b) (a := x) ?_ k
  have hlen := encodeIntMax64_length x.toNat
  unfold takeCompact
  refine step_next hr hg (by simp; omega) fun g1 r1 c1 l1 _ => ?_
  rw [step_compact (i := 0) (x := x) (a := []) (b := b) c1 rfl rfl hw (by omega)]
  exact step_prune (a := encodeIntMax64 x.toNat) (b := b) r1 c1 l1 rfl (by omega) fun g2 r2 c2 => step_pure r2 c2

/-! What is known when a decoder has returned. -/

theorem inv_next {n : Nat} {f : Bytes → Dec α} {r : α × GB} (hg : g.content = c)
    (h : (nextAbsolute n >>= f) g = .ok r) :
    ∃ g' : GB, (g.mem = .exact → g'.mem = .exact) ∧ g'.content = c ∧ n ≤ g'.buf.length ∧ f g'.buf g' = .ok r := by
  obtain ⟨b, g', h1, h2⟩ := Dec.bind_ok.1 h
  obtain ⟨e1, e2, e3⟩ := nextAbsolute_inv h1
  exact ⟨g', nextAbsolute_exact h1, by rw [e2, hg], e3, e1 ▸ h2⟩

theorem inv_prune {n : Nat} {f : Unit → Dec α} {r : α × GB} {a b : Bytes} (hg : g.content = c)
    (hl : n ≤ g.buf.length) (hc : c = a ++ b) (hn : n = a.length) (h : (prune n >>= f) g = .ok r) :
    ∃ g' : GB, (g.mem = .exact → g'.mem = .exact) ∧ g'.content = b ∧ f () g' = .ok r := by
  refine ⟨g.pruned n, fun hm => GB.pruned_exact hm n, ?_, h⟩
  rw [prune_content _ _ hl, hg, hc, List.drop_left' hn.symm]

theorem compactAt_eq {g' : GB} {i w : Nat} {f : UInt64 → Dec α} (hg : g.content = c) (hl : i + w ≤ g.buf.length)
    (hw : Width w) : (compactAt g.buf i w >>= f) g' = f (UInt64.ofNat (getBE ((c.drop i).take w))) g' := by
  have hle : i + w ≤ c.length := by rw [← hg, GB.content, List.length_append]; omega
  have hs : slice g.buf i (i + w) = .ok ((c.drop i).take w) := by
    rw [slice_buf _ _ _ hl, hg]
    unfold slice
    rw [if_pos (by omega)]
    simp
  have hlen : ((c.drop i).take w).length = w := by
    rw [List.length_take, List.length_drop]; omega
  have hd : decodeIntMax64 ((c.drop i).take w) = .ok (getBE ((c.drop i).take w)) := by
    unfold decodeIntMax64
    rw [hlen]
    exact if_pos hw
  unfold compactAt
  simp only [sliceArray_ok hs, Dec.bind_apply, hd, Dec.liftD_ok, Dec.pure_apply]

theorem inv_compact {acc : Bytes} {i w : Nat} {f : UInt64 → Dec α} {g : GB} {r : α × GB}
    (h : (compactAt acc i w >>= f) g = .ok r) : (g.mem = .exact → i + w ≤ acc.length) ∧ ∃ v, f v g = .ok r := by
  obtain ⟨v, g1, h1, h2⟩ := Dec.bind_ok.1 h
  unfold compactAt at h1
  obtain ⟨bs, g2, h3, h4⟩ := Dec.bind_ok.1 h1
  obtain ⟨x, g3, h5, h6⟩ := Dec.bind_ok.1 h4
  obtain rfl := sliceArray_same h3
  obtain rfl := liftD_same h5
  simp only [Dec.pure_apply, Res.ok.injEq, Prod.mk.injEq] at h6
  obtain ⟨-, rfl⟩ := h6
  refine ⟨fun hm => ?_, v, h2⟩
  rw [sliceArray_exact hm] at h3
  have hs := (lift_same h3).2
  unfold slice at hs
  split at hs
  · rename_i hh; exact hh.2
  · simp at hs

/-- A codec of fixed length consumes that many bytes. -/
theorem fixedCodec_length {n : Nat} {g g' : GB} {x : Bytes} (h : (fixedCodec n).decStream g = .ok (x, g')) :
    g'.content.length + n = g.content.length := by
  have h : (nextAbsolute n >>= fun acc => Dec.lift (slice acc 0 n) >>= fun x => prune n >>= fun _ => pure x) g =
    .ok (x, g') := h
  obtain ⟨g1, m1, c1, l1, h⟩ := inv_next rfl h
  obtain ⟨y, g2, h2, h3⟩ := Dec.bind_ok.1 h
  obtain ⟨rfl, -⟩ := lift_same h2
  have hl : g2.buf.length + g2.rest.flatten.length = g.content.length := by rw [← c1, GB.content, List.length_append]
  have h : (.ok (y, g2.pruned n) : Res (Bytes × GB)) = .ok (x, g') := h3
  simp only [Res.ok.injEq, Prod.mk.injEq] at h
  rw [← h.2]
  simp only [GB.content, GB.pruned_buf, GB.pruned_rest, List.length_append, List.length_drop]
  simp only [GB.content, List.length_append] at hl
  omega

/-- Reading a compact integer whose width is known. -/
theorem inv_take {w : Nat} {x : UInt64} {b : Bytes} {f : UInt64 → Dec α} {r : α × GB}
    (hg : g.content = encodeIntMax64 x.toNat ++ b) (hw : w = getWidthMax64Int x.toNat)
    (h : (takeCompact w >>= f) g = .ok r) :
    ∃ g' : GB, (g.mem = .exact → g'.mem = .exact) ∧ g'.content = b ∧ f x g' = .ok r := by
  have hlen := encodeIntMax64_length x.toNat
  unfold takeCompact at h
  rw [Dec.bind_assoc] at h
  obtain ⟨g1, m1, c1, l1, h⟩ := inv_next hg h
  rw [Dec.bind_assoc, step_compact (i := 0) (w := w) (x := x) (a := []) (b := b) c1 rfl rfl hw (by omega),
    Dec.bind_assoc] at h
  obtain ⟨g2, m2, h⟩ := inv_prune (a := encodeIntMax64 x.toNat) (b := b) c1 l1 rfl (by omega) h
  exact ⟨g2, fun hm => m2 (m1 hm), h⟩

theorem inv_sound {β : Type} {d : Dec β} {enc b : Bytes} {v : β} {f : β → Dec α} {r : α × GB} (hs : Sound d enc v)
    (hm : g.mem = .exact) (hg : g.content = enc ++ b) (h : (d >>= f) g = .ok r) :
    ∃ g' : GB, g'.mem = .exact ∧ g'.content = b ∧ f v g' = .ok r := by
  obtain ⟨x, g', h1, h2⟩ := Dec.bind_ok.1 h
  obtain ⟨rfl, c, m⟩ := hs _ _ _ _ hm hg h1
  exact ⟨g', m, c, h2⟩

/-- `Sound` for any memory. -/
def Steady {β : Type} (d : Dec β) (enc : Bytes) (v : β) : Prop :=
  ∀ g rest x g', g.content = enc ++ rest → d g = .ok (x, g') → x = v ∧ g'.content = rest ∧ (g.mem = .exact → g'.mem = .exact)

theorem Steady.sound {β : Type} {d : Dec β} {enc : Bytes} {v : β} (h : Steady d enc v) : Sound d enc v := by
  intro g rest x g' hm hg hd
  obtain ⟨h1, h2, h3⟩ := h g rest x g' hg hd
  exact ⟨h1, h2, h3 hm⟩

theorem Codec.Lawful.steady {cd : Codec} {valid : Bytes → Prop} (hl : cd.Lawful valid) {x : Bytes} (hx : valid x) :
    Steady cd.decStream (cd.enc x) x := by
  intro g rest y g' hg hd
  obtain ⟨g1, e, -, c1⟩ := hl.reads x false hx g rest (fun h => by simp at h) hg (Nat.zero_le _)
  have e' := e
  rw [hd, Res.ok.injEq, Prod.mk.injEq] at e
  obtain ⟨rfl, rfl⟩ := e
  exact ⟨rfl, c1, fun hm => (hl.sound _ hx _ _ _ _ hm hg hd).2.2⟩

theorem inv_steady {β : Type} {d : Dec β} {enc b : Bytes} {v : β} {f : β → Dec α} {r : α × GB} (hs : Steady d enc v)
    (hg : g.content = enc ++ b) (h : (d >>= f) g = .ok r) :
    ∃ g' : GB, (g.mem = .exact → g'.mem = .exact) ∧ g'.content = b ∧ f v g' = .ok r := by
  obtain ⟨x, g', h1, h2⟩ := Dec.bind_ok.1 h
  obtain ⟨rfl, c, m⟩ := hs _ _ _ _ hg h1
  exact ⟨g', m, c, h2⟩

/-- A handle that is either the previous one or follows as a compact integer. -/
theorem steady_handle {x prev : UInt64} {w : Nat} (hw : x ≠ prev → w = getWidthMax64Int x.toNat) :
    Steady (if !decide (x = prev) then takeCompact w else pure prev) (if x = prev then [] else encodeIntMax64 x.toNat) x := by
  intro g rest y g' hg h
  by_cases hp : x = prev
  · simp only [hp, if_true, decide_true, Bool.not_true, Bool.false_eq_true, if_false, List.nil_append, Dec.pure_apply,
      Res.ok.injEq, Prod.mk.injEq] at hg h
    obtain ⟨rfl, rfl⟩ := h
    exact ⟨hp.symm, hg, id⟩
  · simp only [hp, if_false, decide_false, Bool.not_false, if_true] at hg h
    have h : (takeCompact w >>= pure) g = .ok (y, g') := by
      rw [Dec.bind_apply, h]; rfl
    obtain ⟨g1, m1, c1, h⟩ := inv_take hg (hw hp) h
    simp only [Dec.pure_apply, Res.ok.injEq, Prod.mk.injEq] at h
    obtain ⟨rfl, rfl⟩ := h
    exact ⟨rfl, c1, m1⟩

theorem getBE_append (a b : Bytes) : getBE (a ++ b) = getBE a * 256 ^ b.length + getBE b := by
  induction a with
  | nil => simp [getBE]
  | cons x a ih =>
    rw [List.cons_append, getBE_cons, getBE_cons, ih, List.length_append, Nat.pow_add]
    rw [Nat.add_mul, Nat.mul_assoc, Nat.add_assoc]

/-- An integer other than 0 differs from what is read at its place with a wrong width. -/
theorem getBE_wrong_width {w : Nat} {x : UInt64} {b : Bytes} (hx : x ≠ 0) (hwd : Width w)
    (hw : w ≠ getWidthMax64Int x.toNat) (hle : w ≤ (encodeIntMax64 x.toNat ++ b).length) :
    UInt64.ofNat (getBE ((encodeIntMax64 x.toNat ++ b).take w)) ≠ x := by
  have hlen := encodeIntMax64_length x.toNat
  have hpos : x.toNat ≠ 0 := fun h => hx (UInt64.toNat_inj.1 h)
  intro hv
  have hv := congrArg UInt64.toNat hv
  rw [UInt64.toNat_ofNat'] at hv
  have hlt := getBE_lt ((encodeIntMax64 x.toNat ++ b).take w)
  rw [List.length_take, Nat.min_eq_left hle] at hlt
  have h64 : 256 ^ w ≤ 2 ^ 64 := by
    rw [show (2 : Nat) ^ 64 = 256 ^ 8 by decide]
    refine Nat.pow_le_pow_right (by decide) ?_
    rcases hwd with h | h | h | h <;> omega
  rw [Nat.mod_eq_of_lt (Nat.lt_of_lt_of_le hlt h64)] at hv
  rcases Nat.lt_or_ge w (getWidthMax64Int x.toNat) with hc | hc
  · have hmin : 256 ^ w ≤ x.toNat := by
      unfold getWidthMax64Int at hc
      rcases hwd with rfl | rfl | rfl | rfl <;> grind
    omega
  · have hd := decode_encodeIntMax64 x.toNat_lt
    have hgb : getBE (encodeIntMax64 x.toNat) = x.toNat := by
      unfold decodeIntMax64 at hd
      split at hd
      · simpa using hd
      · simp at hd
    rw [List.take_append, List.take_of_length_le (by omega), getBE_append, hgb] at hv
    have hk : ((b.take (w - (encodeIntMax64 x.toNat).length))).length = w - getWidthMax64Int x.toNat := by
      rw [List.length_take, hlen]
      rw [List.length_append, hlen] at hle
      omega
    rw [hk] at hv
    have h1 : 256 ^ 1 ≤ 256 ^ (w - getWidthMax64Int x.toNat) := Nat.pow_le_pow_right (by decide) (by omega)
    have h2 : x.toNat * 256 ^ 1 ≤ x.toNat * 256 ^ (w - getWidthMax64Int x.toNat) := Nat.mul_le_mul_left _ h1
    omega

/-- Reading a compact integer with a wrong width yields another integer. -/
theorem inv_take_wrong {w : Nat} {x : UInt64} {b : Bytes} {f : UInt64 → Dec α} {r : α × GB}
    (hg : g.content = encodeIntMax64 x.toNat ++ b) (hx : x ≠ 0) (hwd : Width w) (hw : w ≠ getWidthMax64Int x.toNat)
    (h : (takeCompact w >>= f) g = .ok r) : ∃ v, ∃ g' : GB, v ≠ x ∧ f v g' = .ok r := by
  unfold takeCompact at h
  rw [Dec.bind_assoc] at h
  obtain ⟨g1, m1, c1, l1, h⟩ := inv_next hg h
  rw [Dec.bind_assoc, compactAt_eq c1 (by omega) hwd, Dec.bind_assoc] at h
  refine ⟨_, _, ?_, h⟩
  rw [List.drop_zero]
  refine getBE_wrong_width hx hwd hw ?_
  rw [← c1, GB.content, List.length_append]; omega

end Steps

/-! ### Headers -/

/-- The last two bits of a header carry the width. -/
theorem width_widthHeader {n : Nat} {h1 h2 h4 h8 : UInt8} (k1 : compactWidthFromEndOfByte h1 = 1)
    (k2 : compactWidthFromEndOfByte h2 = 2) (k4 : compactWidthFromEndOfByte h4 = 4)
    (k8 : compactWidthFromEndOfByte h8 = 8) :
    compactWidthFromEndOfByte (widthHeader (getWidthMax64Int n) h1 h2 h4 h8) = getWidthMax64Int n := by
  unfold widthHeader
  rcases width64 n with h | h | h | h <;> rw [h] <;> simpa

theorem decode_channelMaskStart {ch : Channel} (h : ch ≠ .control) :
    decodeChannelFromBeginningOfByte (channelMaskStart 0 ch) = ch := by
  cases ch <;> first | exact absurd rfl h | decide

theorem decode_channelMaskEnd {ch : Channel} (h : ch ≠ .control) :
    decodeChannelFromEndOfByte (channelMaskEnd 0x90 ch) = ch ∧ decodeChannelFromEndOfByte (channelMaskEnd 0x98 ch) = ch := by
  cases ch <;> first | exact absurd rfl h | decide

theorem decode_handleMask (t : HandleType) (mine : Bool) :
    decodeHandleTypeFromBeginningOfByte (if mine then handleMask 0 t ||| 0x10 else handleMask 0 t) = t := by
  cases t <;> cases mine <;> decide

end Willow
