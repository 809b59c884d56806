import Verif.Lemmas.PropsMessagesReconciliation
import Verif.Props.MessagesSetup
import Verif.Props.RelativeRanges

/-! Property C74: round trips of reconciliation messages. -/

namespace Willow.Props

open Willow Spec

/-! ### Send payload -/

/-- C74 for send-payload messages whose amount is the number of bytes and fits the integers of
the path scheme. -/
theorem C74_sendPayload_partial (s : Schemes) (amount : UInt64) (bytes : Bytes) (ha : amount.toNat = bytes.length)
    (hb : bytes.length < 2 ^ 63) (hK : amount.toNat < 2 ^ s.p.bits) :
    RoundTrips decodeReconciliationSendPayload (encodeReconciliationSendPayload s amount bytes)
      (message (.reconciliationSendPayload amount bytes)) := by
  refine roundTrips_of_reads fun g rest hr hg => ?_
  have hl := encodeIntMax64_length amount.toNat
  have hw := width_recSendPayload amount.toNat
  unfold encodeReconciliationSendPayload at hg
  dsimp only at hg
  rw [conv_of_lt hK] at hg
  generalize byteOf _ = b at hw hg
  unfold decodeReconciliationSendPayload
  refine step_next hr hg (by simp) fun g1 r1 c1 l1 _ => ?_
  rw [step_byte (b := b) c1 (by omega) rfl, hw]
  refine step_next r1 c1 (by simp; omega) fun g2 r2 c2 l2 _ => ?_
  rw [step_compact (i := 1) (x := amount) (a := [b]) (b := bytes ++ rest) c2 (by simp) rfl rfl l2]
  refine step_prune (a := [b] ++ encodeIntMax64 amount.toNat) (b := bytes ++ rest) r2 c2 l2 (by simp)
    (by simp; omega) fun g3 r3 c3 => ?_
  rw [if_neg (by omega)]
  refine step_next r3 c3 (by simp; omega) fun g4 r4 c4 l4 _ => ?_
  have hs : slice g4.buf 0 amount.toNat = .ok bytes := by
    rw [slice_buf _ _ _ l4, c4]
    exact slice_mid_append [] bytes rest rfl (by omega)
  rw [Dec.bind_apply, sliceArray_ok hs]
  exact step_prune (a := bytes) (b := rest) r4 c4 l4 rfl ha fun g5 r5 c5 => step_pure r5 c5

example : encodeReconciliationSendPayload exSchemes 3 [7, 8, 9] = [0x50, 3, 7, 8, 9] ∧
    (3 : UInt64).toNat = [7, 8, 9].length ∧ (3 : UInt64).toNat < 2 ^ exSchemes.p.bits := by decide

/-- C74 is violated for amounts that do not fit the integers of the path scheme. -/
theorem C74_violated_sendPayload_large (s : Schemes) (amount : UInt64) (bytes : Bytes)
    (hK : 2 ^ s.p.bits ≤ amount.toNat) (g : GB) (rest : Bytes)
    (hg : g.content = encodeReconciliationSendPayload s amount bytes ++ rest) :
    ¬ ∃ g', decodeReconciliationSendPayload g = .ok (message (.reconciliationSendPayload amount bytes), g') := by
  rintro ⟨g', hd⟩
  have hlt : s.p.conv amount.toNat < 2 ^ s.p.bits := Nat.mod_lt _ (Nat.two_pow_pos _)
  have h64 : s.p.conv amount.toNat < 2 ^ 64 := Nat.lt_of_lt_of_le hlt (Nat.le_trans hK (Nat.le_of_lt amount.toNat_lt))
  have hx : (UInt64.ofNat (s.p.conv amount.toNat)).toNat = s.p.conv amount.toNat := by
    rw [UInt64.toNat_ofNat']; exact Nat.mod_eq_of_lt h64
  have hw := width_recSendPayload (s.p.conv amount.toNat)
  have hl := encodeIntMax64_length (s.p.conv amount.toNat)
  unfold encodeReconciliationSendPayload at hg
  dsimp only at hg
  generalize byteOf _ = b at hw hg
  unfold decodeReconciliationSendPayload at hd
  obtain ⟨g1, m1, c1, l1, hd⟩ := inv_next hg hd
  rw [step_byte (b := b) c1 (by omega) rfl, hw] at hd
  obtain ⟨g2, m2, c2, l2, hd⟩ := inv_next c1 hd
  rw [step_compact (i := 1) (x := UInt64.ofNat (s.p.conv amount.toNat)) (a := [b]) (b := bytes ++ rest) c2
    (by rw [hx]; simp) rfl (by rw [hx]) l2] at hd
  obtain ⟨g3, m3, c3, hd⟩ := inv_prune (a := [b] ++ encodeIntMax64 (s.p.conv amount.toNat)) (b := bytes ++ rest) c2 l2
    (by simp) (by simp; omega) hd
  split at hd
  · simp at hd
  obtain ⟨g4, m4, c4, l4, hd⟩ := inv_next c3 hd
  obtain ⟨_, g5, -, hd⟩ := Dec.bind_ok.1 hd
  obtain ⟨_, g6, -, hd⟩ := Dec.bind_ok.1 hd
  simp only [Dec.pure_apply, Res.ok.injEq, Prod.mk.injEq, message, Msg.mk.injEq, Body.reconciliationSendPayload.injEq] at hd
  have := congrArg UInt64.toNat hd.1.2.1
  omega

example : encodeReconciliationSendPayload exSchemes 257 (List.replicate 257 7) = [0x50, 1] ++ List.replicate 257 7 ∧
    2 ^ exSchemes.p.bits ≤ (257 : UInt64).toNat := by decide +kernel

/-! ### Send entry -/

/-- C74, partial: a send-entry message round-trips when its static token handle is the previous
one or above 63, and the handle and the number of available bytes fit the integers of the path
scheme, subject to the conditions under which its entry does (C26). -/
theorem C74_sendEntry_partial (s : Schemes) (vn vs vp vt : Bytes → Prop) (hL : LawfulSchemes s vn vs vp vt)
    (privy : Privy) (e : Entry) (hv : ValidEntry s vn vs vp e) (available handle : UInt64) (token enc : Bytes)
    (ht : vt token) (h : encodeReconciliationSendEntry s privy e available handle token = .ok enc) (g : GB) (rest : Bytes)
    (hg : g.content = enc ++ rest)
    (hh : handle = privy.prevStaticTokenHandle ∨ (63 < handle ∧ handle.toNat < 2 ^ s.p.bits))
    (hav : available.toNat < 2 ^ s.p.bits) (ha : PathComes s g e)
    (hs : getWidthMax32Int s.p.cl ≤ 2 + (s.pd.enc e.payloadDigest).length + rest.length) :
    Gives (message (.reconciliationSendEntry e available handle token)) rest
      (decodeReconciliationSendEntry s privy g) := by
  suffices h : ∃ all, g.ready all ∧ (all = true ∨ ∀ c ∈ e.path, c.length ≤ getWidthMax32Int s.p.cl) by
    obtain ⟨all, hr, h1⟩ := h
    obtain ⟨g', h3, -, h4⟩ := sendEntry_reads hL hv ht (by assumption) hr hg hh hav h1 hs
    exact ⟨g', h3, h4⟩
  by_cases hn : g.rest = []
  · exact ⟨true, ready_of_nil hn, .inl rfl⟩
  · exact ⟨false, by intro h; simp at h, .inr (Or.resolve_right ha hn)⟩

/-- Previous state used in examples. -/
def exPrivy : Privy := ⟨3, 4, exOuter, 5, exRef, exOuter, [1]⟩

example : encodeReconciliationSendEntry exSchemes exPrivy exEntry 200 5 [1, 2] =
      .ok [0x5c, 200, 1, 2, 0x81, 1, 1, 1, 1, 7, 1, 1, 44, 8, 9] ∧
    encodeReconciliationSendEntry exSchemes exPrivy exEntry 200 70 [1, 2] =
      .ok [0x54, 0x3f, 70, 200, 1, 2, 0x81, 1, 1, 1, 1, 7, 1, 1, 44, 8, 9] ∧
    (63 : UInt64) < 70 ∧ (70 : UInt64).toNat < 2 ^ exSchemes.p.bits ∧ (200 : UInt64).toNat < 2 ^ exSchemes.p.bits ∧
    (5 : UInt64) = exPrivy.prevStaticTokenHandle := by decide +kernel

/-- C74 is violated by send-entry messages with a handle below 63 that is not the previous one:
one byte too many is consumed, so the first byte of the token is taken for the number of
available bytes. -/
theorem C74_violated_sendEntry_small (s : Schemes) (privy : Privy) (e : Entry) (available handle : UInt64)
    (token enc : Bytes) (h : encodeReconciliationSendEntry s privy e available handle token = .ok enc)
    (hh : handle ≠ privy.prevStaticTokenHandle) (h63 : handle < 63) (hav : available < 256)
    (hK : available.toNat < 2 ^ s.p.bits) (t : UInt8) (ts : Bytes) (htok : s.dynamicToken.enc token = t :: ts)
    (hne : t.toNat ≠ available.toNat) (g : GB) (rest : Bytes) (hg : g.content = enc ++ rest) :
    ¬ ∃ g', decodeReconciliationSendEntry s privy g =
      .ok (message (.reconciliationSendEntry e available handle token), g') := by
  rintro ⟨g', hd⟩
  unfold encodeReconciliationSendEntry at h
  dsimp only at h
  obtain ⟨ee, hee, h⟩ := Res.bind_eq_ok.1 h
  simp only [Res.ok.injEq] at h
  subst h
  have hbf : (handle == privy.prevStaticTokenHandle) = false := by simpa using hh
  have hlt : handle.toNat < 63 := by simpa [UInt64.lt_iff_toNat_lt] using h63
  have hav : available.toNat < 2 ^ 8 := by simpa [UInt64.lt_iff_toNat_lt] using hav
  have hgt : ¬ (63 < handle) := by simp only [UInt64.lt_iff_toNat_lt] at *; omega
  rw [conv_of_lt hK, encodeIntMax64_one hav, htok] at hg
  have hf := firstByte_recSendEntry (handle == privy.prevStaticTokenHandle) available.toNat _ rfl
  have hw1 : getWidthMax64Int available.toNat = 1 := by unfold getWidthMax64Int; rw [if_pos hav]
  generalize (0x50 ||| _ ||| 0x4 ||| _ : UInt8) = b1 at hf hg
  obtain ⟨f1, f2, f3⟩ := hf
  obtain ⟨z1, z2, z3⟩ := size_small (n := handle.toNat) (by omega)
  rw [hbf] at f1
  rw [hw1] at f3
  simp only [hbf, Bool.false_eq_true, if_false, h63, if_true, gt_iff_lt, hgt, and_false] at hg
  generalize byteOf handle.toNat = b2 at z1 z2 z3 hg
  unfold decodeReconciliationSendEntry at hd
  obtain ⟨g1, m1, c1, l1, hd⟩ := inv_next hg hd
  rw [step_byte (b := b1) c1 (by omega) rfl] at hd
  dsimp only at hd
  rw [f1, f2, f3] at hd
  simp only [Bool.false_eq_true, if_false] at hd
  rw [Dec.bind_assoc] at hd
  obtain ⟨g2, m2, c2, l2, hd⟩ := inv_next c1 hd
  rw [Dec.bind_assoc, step_byte (b := b2) c2 (by omega) rfl, z1] at hd
  simp only [z2.2 hlt, if_true] at hd
  rw [Dec.bind_assoc] at hd
  obtain ⟨g3, m3, c3, l3, hd⟩ := inv_next c2 hd
  rw [Dec.bind_assoc, Dec.pure_bind, Dec.bind_assoc] at hd
  obtain ⟨g4, m4, c4, hd⟩ := inv_prune (a := [b1, b2, byteOf available.toNat]) (b := t :: (ts ++ (ee ++ rest))) c3 (by omega)
    (by simp) (by simp) hd
  rw [Dec.pure_bind] at hd
  unfold takeCompact at hd
  rw [Dec.bind_assoc] at hd
  obtain ⟨g5, m5, c5, l5, hd⟩ := inv_next c4 hd
  rw [Dec.bind_assoc, compactAt_eq c5 (by omega) (.inl rfl), Dec.bind_assoc] at hd
  obtain ⟨_, _, -, hd⟩ := Dec.bind_ok.1 hd
  rw [Dec.pure_bind] at hd
  obtain ⟨_, _, -, hd⟩ := Dec.bind_ok.1 hd
  obtain ⟨_, _, -, hd⟩ := Dec.bind_ok.1 hd
  simp only [Dec.pure_apply, Res.ok.injEq, Prod.mk.injEq, message, Msg.mk.injEq, Body.reconciliationSendEntry.injEq] at hd
  have := congrArg UInt64.toNat hd.1.2.2.1
  simp [getBE] at this
  have ht := t.toNat_lt
  omega

example : encodeReconciliationSendEntry exSchemes exPrivy exEntry 200 6 [1, 2] =
      .ok [0x54, 6, 200, 1, 2, 0x81, 1, 1, 1, 1, 7, 1, 1, 44, 8, 9] ∧
    exSchemes.dynamicToken.enc [1, 2] = [1, 2] ∧ (1 : UInt8).toNat ≠ (200 : UInt64).toNat := by decide +kernel

/-- C74 is violated by send-entry messages with the handle 63: the first byte of the number of
available bytes is taken for the handle. -/
theorem C74_violated_sendEntry_63 (s : Schemes) (privy : Privy) (e : Entry) (available : UInt64)
    (token enc : Bytes) (h : encodeReconciliationSendEntry s privy e available 63 token = .ok enc)
    (hh : 63 ≠ privy.prevStaticTokenHandle) (hav : available < 256) (hne : available ≠ 63) (hb : 8 ≤ s.p.bits)
    (g : GB) (rest : Bytes) (hg : g.content = enc ++ rest) :
    ¬ ∃ g', decodeReconciliationSendEntry s privy g =
      .ok (message (.reconciliationSendEntry e available 63 token), g') := by
  rintro ⟨g', hd⟩
  unfold encodeReconciliationSendEntry at h
  dsimp only at h
  obtain ⟨ee, hee, h⟩ := Res.bind_eq_ok.1 h
  simp only [Res.ok.injEq] at h
  subst h
  have h256 : 2 ^ 8 ≤ 2 ^ s.p.bits := Nat.pow_le_pow_right (by decide) hb
  have hbf : ((63 : UInt64) == privy.prevStaticTokenHandle) = false := by simpa using hh
  have hav : available.toNat < 2 ^ 8 := by simpa [UInt64.lt_iff_toNat_lt] using hav
  have hne : available.toNat ≠ 63 := fun h => hne (UInt64.toNat_inj.1 h)
  rw [conv_of_lt (by omega), encodeIntMax64_one hav, conv_of_lt (p := s.p) (n := (63 : UInt64).toNat)
    (Nat.lt_of_lt_of_le (by decide) h256)] at hg
  have hf := firstByte_recSendEntry ((63 : UInt64) == privy.prevStaticTokenHandle) available.toNat _ rfl
  generalize (0x50 ||| _ ||| 0x4 ||| _ : UInt8) = b1 at hf hg
  obtain ⟨f1, f2, f3⟩ := hf
  rw [hbf] at f1
  have e1 : ¬ ((63 : UInt64) < 63) := by decide
  have e2 : widthHeader (getWidthMax64Int (63 : UInt64).toNat) 0x3f 0x7f 0xbf 0xff = 0x3f := by decide
  simp only [hbf, Bool.false_eq_true, if_false, e1, and_false, e2] at hg
  unfold decodeReconciliationSendEntry at hd
  obtain ⟨g1, m1, c1, l1, hd⟩ := inv_next hg hd
  rw [step_byte (b := b1) c1 (by omega) rfl] at hd
  dsimp only at hd
  rw [f1, f2, f3] at hd
  simp only [Bool.false_eq_true, if_false] at hd
  rw [Dec.bind_assoc] at hd
  obtain ⟨g2, m2, c2, l2, hd⟩ := inv_next c1 hd
  rw [Dec.bind_assoc, step_byte (b := 0x3f) c2 (by omega) rfl] at hd
  rw [show (if (0x3f : UInt8) &&& 0xff == 0xff then 8 else if (0x3f : UInt8) &&& 0xbf == 0xbf then 4
    else if (0x3f : UInt8) &&& 0x7f == 0x7f then 2 else 1) = 1 by decide, Dec.bind_assoc] at hd
  obtain ⟨g3, m3, c3, l3, hd⟩ := inv_next c2 hd
  rw [if_neg (by decide), Dec.bind_assoc, compactAt_eq c3 (by omega) (.inl rfl), Dec.bind_assoc] at hd
  obtain ⟨_, _, -, hd⟩ := Dec.bind_ok.1 hd
  rw [Dec.pure_bind] at hd
  obtain ⟨_, _, -, hd⟩ := Dec.bind_ok.1 hd
  obtain ⟨_, _, -, hd⟩ := Dec.bind_ok.1 hd
  obtain ⟨_, _, -, hd⟩ := Dec.bind_ok.1 hd
  simp only [Dec.pure_apply, Res.ok.injEq, Prod.mk.injEq, message, Msg.mk.injEq, Body.reconciliationSendEntry.injEq] at hd
  have := congrArg UInt64.toNat hd.1.2.2.2.1
  simp [getBE, byteOf_toNat hav] at this
  omega

example : encodeReconciliationSendEntry exSchemes exPrivy exEntry 200 63 [1, 2] =
      .ok [0x54, 0x3f, 200, 1, 2, 0x81, 1, 1, 1, 1, 7, 1, 1, 44, 8, 9] ∧ (63 : UInt64) ≠ exPrivy.prevStaticTokenHandle ∧
    (200 : UInt64) < 256 ∧ 8 ≤ exSchemes.p.bits := by decide +kernel

/-! ### Send fingerprint -/

/-- C74, partial: whenever the decoder of send-fingerprint messages returns, the handles, the
fingerprint and `Covers` are right and the range was decoded from its encoding, or is the zero range because decoding it
gave an error (C123), when the two handles have the same width or both are the previous ones, and all integers fit those of the path
scheme, except that `COVERS_NONE` is 1 for the encoder and 0 for the decoder. Missing: the range
(C31) and `DoesCover`. -/
theorem C74_sendFingerprint_partial (s : Schemes) (vf : Bytes → Prop) (hf : s.fingerprint.Lawful vf) (privy : Privy)
    (aoiRange : UInt64 → UInt64 → Range3d) (range : Range3d) (fingerprint : Bytes) (sender receiver covers : UInt64)
    (enc : Bytes) (h : encodeReconciliationSendFingerprint s privy range fingerprint sender receiver covers = .ok enc)
    (hs : sender.toNat < 2 ^ s.p.bits) (hr : receiver.toNat < 2 ^ s.p.bits) (hc : covers.toNat < 2 ^ s.p.bits)
    (hv : fingerprint = s.neutral ∨ vf fingerprint)
    (hw : getWidthMax64Int sender.toNat = getWidthMax64Int receiver.toNat ∨
      (sender = privy.prevSenderHandle ∧ receiver = privy.prevReceiverHandle))
    (g : GB) (rest : Bytes) (hg : g.content = enc ++ rest) (m : Msg) (g' : GB)
    (hd : decodeReconciliationSendFingerprint s privy aoiRange g = .ok (m, g')) :
    ∃ er g1 range', encodeRange3dRelative s.ss s.ordS s.p range privy.prevRange = .ok er ∧ g1.content = er ++ rest ∧
      (decodeStreamRange3dRelative s.ss s.p privy.prevRange g1 = .ok (range', g') ∨
        decodeStreamRange3dRelative s.ss s.p privy.prevRange g1 = .err ∧ range' = zeroRange3d) ∧
      m = message (.reconciliationSendFingerprint range' fingerprint sender receiver (if covers = 1 then 0 else covers) true) := by
  obtain ⟨b1, b2, er, her, rfl, ⟨f1, f2, f3, f4⟩, k1, k2, k3, k4⟩ := sendFingerprint_parts h hs hr hc
  refine ⟨er, ?_⟩
  unfold decodeReconciliationSendFingerprint at hd
  obtain ⟨g1, m1, c1, l1, hd⟩ := inv_next hg hd
  rw [step_byte (b := b1) c1 (by omega) rfl, step_byte (b := b2) c1 (by omega) rfl] at hd
  dsimp only at hd
  rw [f1, f2, f3, f4, k1] at hd
  obtain ⟨g2, m2, c2, hd⟩ := inv_prune (a := [b1, b2]) (b := _ ++ rest) c1 l1 rfl rfl hd
  simp only [List.append_assoc] at c2
  have hfp : Steady (if decide (fingerprint = s.neutral) = true then pure s.neutral else s.fingerprint.decStream)
      (if fingerprint = s.neutral then [] else s.fingerprint.enc fingerprint) fingerprint := by
    intro g rest y g' hg h
    by_cases hp : fingerprint = s.neutral
    · simp only [hp, if_true, decide_true, List.nil_append, Dec.pure_apply, Res.ok.injEq, Prod.mk.injEq] at hg h
      obtain ⟨rfl, rfl⟩ := h
      exact ⟨hp.symm, hg, id⟩
    · simp only [hp, if_false, decide_false, Bool.false_eq_true] at hg h
      exact hf.steady (hv.resolve_left hp) _ _ _ _ hg h
  obtain ⟨g3, m3, c3, hd⟩ := inv_steady (steady_covers k4) c2 hd
  obtain ⟨g4, m4, c4, hd⟩ := inv_steady (steady_handle fun hp => by rw [k2 hp, hw.resolve_right fun h => hp h.1]) c3 hd
  obtain ⟨g5, m5, c5, hd⟩ := inv_steady (steady_handle fun hp => by rw [k3 hp, hw.resolve_right fun h => hp h.2]) c4 hd
  obtain ⟨g6, m6, c6, hd⟩ := inv_steady hfp c5 hd
  obtain ⟨range', g7, h7, hd⟩ := Dec.bind_ok.1 hd
  simp only [Dec.pure_apply, Res.ok.injEq, Prod.mk.injEq] at hd
  obtain ⟨rfl, rfl⟩ := hd
  have h8 := DecE.ignoring_inv h7
  rw [decodeStreamRange3dRelativeE_strict] at h8
  exact ⟨g6, range', her, c6, h8.imp id fun h => ⟨h.1, h.2.2⟩, rfl⟩

/-- Range used in examples. -/
def exRange : Range3d := ⟨⟨[1], [3], false⟩, ⟨[[5, 6]], [[5, 6], [8]], false⟩, ⟨2, 70001, false⟩⟩

example : encodeReconciliationSendFingerprint exSchemes exPrivy exRange [9, 9] 7 8 200 =
      .ok [0x44, 0x08, 200, 7, 8, 9, 9, 0x68, 0xc0, 1, 0, 2, 0, 2, 0, 1, 17, 113] ∧
    decodeReconciliationSendFingerprint exSchemes exPrivy (fun _ _ => exOuter)
      ⟨[0x44, 0x08, 200, 7], [[8, 9], [9, 0x68, 0xc0, 1, 0, 2, 0, 2, 0, 1, 17, 113]], [], .exact⟩ =
      .ok (message (.reconciliationSendFingerprint ⟨⟨[3], [], false⟩, ⟨[[5, 6]], [[5, 6], [8]], false⟩, ⟨2, 70002, false⟩⟩
        [9, 9] 7 8 200 true), ⟨[0, 1, 17, 113], [], [], .exact⟩) ∧
    getWidthMax64Int (7 : UInt64).toNat = getWidthMax64Int (8 : UInt64).toNat := by decide +kernel

/-- C74 is violated by every send-fingerprint and announce-entries message: a valid range never
comes back. -/
theorem C74_violated_range (s : Schemes) (privy : Privy) (aoiRange : UInt64 → UInt64 → Range3d) (range : Range3d)
    (hr : ValidRange3d range) (g g' : GB) :
    (∀ fingerprint sender receiver covers doesCover, decodeReconciliationSendFingerprint s privy aoiRange g ≠
      .ok (message (.reconciliationSendFingerprint range fingerprint sender receiver covers doesCover), g')) ∧
    (∀ count wantResponse willSort sender receiver covers doesCover, decodeReconciliationAnnounceEntries s privy aoiRange g ≠
      .ok (message (.reconciliationAnnounceEntries range count wantResponse willSort sender receiver covers doesCover), g')) := by
  constructor
  · intro fingerprint sender receiver covers doesCover hd
    unfold decodeReconciliationSendFingerprint at hd
    obtain ⟨_, _, -, hd⟩ := Dec.bind_ok.1 hd
    obtain ⟨_, _, -, hd⟩ := Dec.bind_ok.1 hd
    obtain ⟨_, _, -, hd⟩ := Dec.bind_ok.1 hd
    obtain ⟨_, _, -, hd⟩ := Dec.bind_ok.1 hd
    obtain ⟨_, _, -, hd⟩ := Dec.bind_ok.1 hd
    obtain ⟨_, _, -, hd⟩ := Dec.bind_ok.1 hd
    obtain ⟨_, _, -, hd⟩ := Dec.bind_ok.1 hd
    obtain ⟨_, _, -, hd⟩ := Dec.bind_ok.1 hd
    obtain ⟨x, g1, hx, hd⟩ := Dec.bind_ok.1 hd
    simp only [Dec.pure_apply, Res.ok.injEq, Prod.mk.injEq, message, Msg.mk.injEq,
      Body.reconciliationSendFingerprint.injEq] at hd
    rcases DecE.ignoring_inv hx with hx | ⟨-, -, hx⟩
    · rw [decodeStreamRange3dRelativeE_strict] at hx
      exact (C31_violated_stream _ _ _ _ _ _ hx).2 range hr hd.1.2.1
    · exact zeroRange3d_invalid (by rw [← hx, hd.1.2.1]; exact hr)
  · intro count wantResponse willSort sender receiver covers doesCover hd
    unfold decodeReconciliationAnnounceEntries at hd
    obtain ⟨_, _, -, hd⟩ := Dec.bind_ok.1 hd
    obtain ⟨_, _, -, hd⟩ := Dec.bind_ok.1 hd
    obtain ⟨_, _, -, hd⟩ := Dec.bind_ok.1 hd
    obtain ⟨_, _, -, hd⟩ := Dec.bind_ok.1 hd
    obtain ⟨_, _, -, hd⟩ := Dec.bind_ok.1 hd
    obtain ⟨_, _, -, hd⟩ := Dec.bind_ok.1 hd
    obtain ⟨_, _, -, hd⟩ := Dec.bind_ok.1 hd
    obtain ⟨_, _, -, hd⟩ := Dec.bind_ok.1 hd
    obtain ⟨x, g1, hx, hd⟩ := Dec.bind_ok.1 hd
    simp only [Dec.pure_apply, Res.ok.injEq, Prod.mk.injEq, message, Msg.mk.injEq,
      Body.reconciliationAnnounceEntries.injEq] at hd
    rcases DecE.ignoring_inv hx with hx | ⟨-, -, hx⟩
    · rw [decodeStreamRange3dRelativeE_strict] at hx
      exact (C31_violated_stream _ _ _ _ _ _ hx).2 range hr hd.1.2.1
    · exact zeroRange3d_invalid (by rw [← hx, hd.1.2.1]; exact hr)

example : ValidRange3d exRange := by rw [← isValidRange3d_iff decides_subspace]; decide

/-- C74 is violated by send-fingerprint messages whose handles have different widths: a handle
other than 0 that is not the previous one does not come back. -/
theorem C74_violated_sendFingerprint_handles (s : Schemes) (privy : Privy) (aoiRange : UInt64 → UInt64 → Range3d)
    (range : Range3d) (fingerprint : Bytes) (sender receiver covers : UInt64)
    (enc : Bytes) (h : encodeReconciliationSendFingerprint s privy range fingerprint sender receiver covers = .ok enc)
    (hs : sender.toNat < 2 ^ s.p.bits) (hr : receiver.toNat < 2 ^ s.p.bits) (hc : covers.toNat < 2 ^ s.p.bits)
    (hw : getWidthMax64Int sender.toNat ≠ getWidthMax64Int receiver.toNat)
    (hh : (sender ≠ privy.prevSenderHandle ∧ sender ≠ 0) ∨
      (sender = privy.prevSenderHandle ∧ receiver ≠ privy.prevReceiverHandle ∧ receiver ≠ 0))
    (g : GB) (rest : Bytes) (hg : g.content = enc ++ rest) :
    ¬ ∃ range' fingerprint' covers' doesCover' g', decodeReconciliationSendFingerprint s privy aoiRange g =
      .ok (message (.reconciliationSendFingerprint range' fingerprint' sender receiver covers' doesCover'), g') := by
  rintro ⟨range', fingerprint', covers', doesCover', g', hd⟩
  obtain ⟨b1, b2, er, her, rfl, ⟨f1, f2, f3, f4⟩, k1, k2, k3, k4⟩ := sendFingerprint_parts h hs hr hc
  unfold decodeReconciliationSendFingerprint at hd
  obtain ⟨g1, m1, c1, l1, hd⟩ := inv_next hg hd
  rw [step_byte (b := b1) c1 (by omega) rfl, step_byte (b := b2) c1 (by omega) rfl] at hd
  dsimp only at hd
  rw [f1, f2, f3, f4, k1] at hd
  obtain ⟨g2, m2, c2, hd⟩ := inv_prune (a := [b1, b2]) (b := _ ++ rest) c1 l1 rfl rfl hd
  simp only [List.append_assoc] at c2
  obtain ⟨g3, m3, c3, hd⟩ := inv_steady (steady_covers k4) c2 hd
  rcases hh with ⟨hp, h0⟩ | ⟨hp, hq, h0⟩
  · simp only [hp, if_false, decide_false, Bool.not_false, if_true] at c3 hd
    rw [k2 hp] at hd
    obtain ⟨v, g4, hv, hd⟩ := inv_take_wrong c3 h0 (width64 _) (Ne.symm hw) hd
    obtain ⟨_, _, -, hd⟩ := Dec.bind_ok.1 hd
    obtain ⟨_, _, -, hd⟩ := Dec.bind_ok.1 hd
    obtain ⟨_, _, -, hd⟩ := Dec.bind_ok.1 hd
    simp only [Dec.pure_apply, Res.ok.injEq, Prod.mk.injEq, message, Msg.mk.injEq,
      Body.reconciliationSendFingerprint.injEq] at hd
    exact hv hd.1.2.2.2.1
  · obtain ⟨g4, m4, c4, hd⟩ := inv_steady (steady_handle fun hn => absurd hp hn) c3 hd
    simp only [hq, if_false, decide_false, Bool.not_false, if_true] at c4 hd
    rw [k3 hq] at hd
    obtain ⟨v, g4, hv, hd⟩ := inv_take_wrong c4 h0 (width64 _) hw hd
    obtain ⟨_, _, -, hd⟩ := Dec.bind_ok.1 hd
    obtain ⟨_, _, -, hd⟩ := Dec.bind_ok.1 hd
    simp only [Dec.pure_apply, Res.ok.injEq, Prod.mk.injEq, message, Msg.mk.injEq,
      Body.reconciliationSendFingerprint.injEq] at hd
    exact hv hd.1.2.2.2.2.1

/-- Schemes with paths of the application, whose integers have 64 bits. -/
def exSchemes64 : Schemes := { exSchemes with p := appParams }

example : encodeReconciliationSendFingerprint exSchemes64 exPrivy exRange [9, 9] 300 7 200 =
      .ok [0x44, 0x18, 200, 1, 44, 7, 9, 9, 0x68, 0xc0, 1, 0, 2, 0, 2, 0, 1, 17, 113] ∧
    getWidthMax64Int (300 : UInt64).toNat ≠ getWidthMax64Int (7 : UInt64).toNat ∧
    (300 : UInt64) ≠ exPrivy.prevSenderHandle := by decide +kernel

/-- C74 is violated by send-fingerprint messages that cover no entries: the 1 that stands for
this in the encoder comes back as 0. -/
theorem C74_violated_sendFingerprint_coversNone (s : Schemes) (privy : Privy) (aoiRange : UInt64 → UInt64 → Range3d)
    (range : Range3d) (fingerprint : Bytes) (sender receiver : UInt64)
    (enc : Bytes) (h : encodeReconciliationSendFingerprint s privy range fingerprint sender receiver 1 = .ok enc)
    (hs : sender.toNat < 2 ^ s.p.bits) (hr : receiver.toNat < 2 ^ s.p.bits) (hb : 1 < 2 ^ s.p.bits)
    (g : GB) (rest : Bytes) (hg : g.content = enc ++ rest) :
    ¬ ∃ range' fingerprint' sender' receiver' doesCover' g', decodeReconciliationSendFingerprint s privy aoiRange g =
      .ok (message (.reconciliationSendFingerprint range' fingerprint' sender' receiver' 1 doesCover'), g') := by
  rintro ⟨range', fingerprint', sender', receiver', doesCover', g', hd⟩
  obtain ⟨b1, b2, er, her, rfl, -, k1, -, -, k4⟩ := sendFingerprint_parts h hs hr hb
  unfold decodeReconciliationSendFingerprint at hd
  obtain ⟨g1, m1, c1, l1, hd⟩ := inv_next hg hd
  rw [step_byte (b := b1) c1 (by omega) rfl, step_byte (b := b2) c1 (by omega) rfl] at hd
  dsimp only at hd
  rw [k1] at hd
  obtain ⟨g2, m2, c2, hd⟩ := inv_prune (a := [b1, b2]) (b := _ ++ rest) c1 l1 rfl rfl hd
  simp only [List.append_assoc] at c2
  obtain ⟨g3, m3, c3, hd⟩ := inv_steady (steady_covers k4) c2 hd
  obtain ⟨_, _, -, hd⟩ := Dec.bind_ok.1 hd
  obtain ⟨_, _, -, hd⟩ := Dec.bind_ok.1 hd
  obtain ⟨_, _, -, hd⟩ := Dec.bind_ok.1 hd
  obtain ⟨_, _, -, hd⟩ := Dec.bind_ok.1 hd
  simp only [Dec.pure_apply, Res.ok.injEq, Prod.mk.injEq, message, Msg.mk.injEq,
    Body.reconciliationSendFingerprint.injEq] at hd
  exact absurd hd.1.2.2.2.2.2.1 (by decide)

example : encodeReconciliationSendFingerprint exSchemes exPrivy exRange [9, 9] 7 8 1 =
    .ok [0x44, 0x00, 7, 8, 9, 9, 0x68, 0xc0, 1, 0, 2, 0, 2, 0, 1, 17, 113] := by decide +kernel

/-! ### Announce entries -/

/-- C74, partial: whenever the decoder of announce-entries messages returns, the count, the
flags, the handles and `Covers` are right and the range was decoded from its encoding, or is the zero range because
decoding it gave an error (C123), when all integers fit those of the path scheme, except for `COVERS_NONE` and for those values of `Covers`
from 252 on whose width happens to differ from the one the decoder uses; from 252 on also if the arrays have no room
beyond their bytes. Missing: the range (C31), `DoesCover` and those values. -/
theorem C74_announceEntries_partial (s : Schemes) (privy : Privy) (aoiRange : UInt64 → UInt64 → Range3d) (range : Range3d)
    (count sender receiver covers : UInt64) (wantResponse willSort : Bool) (enc : Bytes)
    (h : encodeReconciliationAnnounceEntries s privy range count wantResponse willSort sender receiver covers = .ok enc)
    (hs : sender.toNat < 2 ^ s.p.bits) (hr : receiver.toNat < 2 ^ s.p.bits) (hc : covers.toNat < 2 ^ s.p.bits)
    (hn : count.toNat < 2 ^ s.p.bits)
    (hcov : covers < 252 ∨ (256 ≤ covers ∧ covers < 65536 ∧ willSort = false) ∨ (4294967296 ≤ covers ∧ willSort = true))
    (g : GB) (hm : covers < 252 ∨ g.mem = .exact) (rest : Bytes) (hg : g.content = enc ++ rest) (m : Msg) (g' : GB)
    (hd : decodeReconciliationAnnounceEntries s privy aoiRange g = .ok (m, g')) :
    ∃ er g1 range', encodeRange3dRelative s.ss s.ordS s.p range privy.prevRange = .ok er ∧ g1.content = er ++ rest ∧
      (decodeStreamRange3dRelative s.ss s.p privy.prevRange g1 = .ok (range', g') ∨
        decodeStreamRange3dRelative s.ss s.p privy.prevRange g1 = .err ∧ range' = zeroRange3d) ∧
      m = message (.reconciliationAnnounceEntries range' count wantResponse willSort sender receiver
        (if covers = 1 then 0 else covers) true) := by
  obtain ⟨b1, b2, er, her, rfl, ⟨f1, f2, f3, f4⟩, k1, k2, k3, k4, k5, k6⟩ := announceEntries_parts h hs hr hc hn
  refine ⟨er, ?_⟩
  unfold decodeReconciliationAnnounceEntries at hd
  obtain ⟨g1, m1, c1, l1, hd⟩ := inv_next hg hd
  rw [step_byte (b := b1) c1 (by omega) rfl, step_byte (b := b2) c1 (by omega) rfl] at hd
  dsimp only at hd
  rw [f1, f2, f3, f4, k1, k2, k5] at hd
  obtain ⟨g2, m2, c2, hd⟩ := inv_prune (a := [b1, b2]) (b := _ ++ rest) c1 l1 rfl rfl hd
  rw [List.append_assoc, List.append_assoc, List.append_assoc, List.append_assoc] at c2
  obtain ⟨y, g3, hy, hd⟩ := Dec.bind_ok.1 hd
  obtain ⟨rfl, c3⟩ := readCovers_right k6 hcov g2 _ _ _ (hm.imp id fun h => m2 (m1 h)) c2 hy
  obtain ⟨g4, m4, c4, hd⟩ := inv_steady (steady_handle k3) c3 hd
  obtain ⟨g5, m5, c5, hd⟩ := inv_steady (steady_handle k4) c4 hd
  obtain ⟨g6, m6, c6, hd⟩ := inv_take c5 rfl hd
  obtain ⟨range', g7, h7, hd⟩ := Dec.bind_ok.1 hd
  simp only [Dec.pure_apply, Res.ok.injEq, Prod.mk.injEq] at hd
  obtain ⟨rfl, rfl⟩ := hd
  have h8 := DecE.ignoring_inv h7
  rw [decodeStreamRange3dRelativeE_strict] at h8
  exact ⟨g6, range', her, c6, h8.imp id fun h => ⟨h.1, h.2.2⟩, rfl⟩

example : encodeReconciliationAnnounceEntries exSchemes64 exPrivy exRange 300 true false 7 8 400 =
      .ok [0x5c, 0x05, 0xfd, 1, 144, 7, 8, 1, 44, 0x68, 0xc0, 1, 0, 2, 0, 2, 0, 1, 17, 113] ∧
    decodeReconciliationAnnounceEntries exSchemes exPrivy (fun _ _ => exOuter)
      ⟨[0x5c, 0x05, 0xfd, 1, 144, 7, 8, 1, 44, 0x68, 0xc0], [[1, 0, 2, 0, 2, 0, 1, 17, 113]], [], .exact⟩ =
      .ok (message (.reconciliationAnnounceEntries ⟨⟨[3], [], false⟩, ⟨[[5, 6]], [[5, 6], [8]], false⟩, ⟨2, 70002, false⟩⟩
        300 true false 7 8 400 true), ⟨[0, 1, 17, 113], [], [], .exact⟩) ∧
    (256 : UInt64) ≤ 400 ∧ (400 : UInt64) < 65536 := by decide +kernel

/-- C74 is violated by announce-entries messages whose `Covers` is one of those values: it does
not come back if the arrays have no room beyond their bytes. -/
theorem C74_violated_announceEntries_covers (s : Schemes) (privy : Privy) (aoiRange : UInt64 → UInt64 → Range3d)
    (range : Range3d) (count sender receiver covers : UInt64) (wantResponse willSort : Bool) (enc : Bytes)
    (h : encodeReconciliationAnnounceEntries s privy range count wantResponse willSort sender receiver covers = .ok enc)
    (hs : sender.toNat < 2 ^ s.p.bits) (hr : receiver.toNat < 2 ^ s.p.bits) (hc : covers.toNat < 2 ^ s.p.bits)
    (hn : count.toNat < 2 ^ s.p.bits) (h252 : 252 ≤ covers)
    (hw : (if willSort then 8 else 2) ≠ getWidthMax64Int covers.toNat)
    (g : GB) (hm : g.mem = .exact) (rest : Bytes) (hg : g.content = enc ++ rest) :
    ¬ ∃ range' count' wantResponse' willSort' sender' receiver' doesCover' g',
      decodeReconciliationAnnounceEntries s privy aoiRange g = .ok (message (.reconciliationAnnounceEntries range' count'
        wantResponse' willSort' sender' receiver' covers doesCover'), g') := by
  rintro ⟨range', count', wantResponse', willSort', sender', receiver', doesCover', g', hd⟩
  obtain ⟨b1, b2, er, her, rfl, -, -, k2, -, -, -, k6⟩ := announceEntries_parts h hs hr hc hn
  unfold decodeReconciliationAnnounceEntries at hd
  obtain ⟨g1, m1, c1, l1, hd⟩ := inv_next hg hd
  rw [step_byte (b := b1) c1 (by omega) rfl, step_byte (b := b2) c1 (by omega) rfl] at hd
  dsimp only at hd
  rw [k2] at hd
  have h1 : covers ≠ 1 := by rintro rfl; exact absurd h252 (by decide)
  have h0 : covers ≠ 0 := by rintro rfl; exact absurd h252 (by decide)
  obtain ⟨g2, m2, c2, hd⟩ := inv_prune (a := [b1, b2]) (b := _ ++ rest) c1 l1 rfl rfl hd
  rw [if_neg h1, if_pos h252, List.append_assoc] at c2
  obtain ⟨y, g3, hy, hd⟩ := Dec.bind_ok.1 hd
  obtain ⟨hle, hy, -⟩ := readCovers_long h252 k6 (m2 (m1 hm)) c2 hy
  have hne := getBE_wrong_width h0 (by cases willSort; exact .inr (.inl rfl); exact .inr (.inr (.inr rfl))) hw hle
  rw [← hy] at hne
  obtain ⟨_, _, -, hd⟩ := Dec.bind_ok.1 hd
  obtain ⟨_, _, -, hd⟩ := Dec.bind_ok.1 hd
  obtain ⟨_, _, -, hd⟩ := Dec.bind_ok.1 hd
  obtain ⟨_, _, -, hd⟩ := Dec.bind_ok.1 hd
  simp only [Dec.pure_apply, Res.ok.injEq, Prod.mk.injEq, message, Msg.mk.injEq,
    Body.reconciliationAnnounceEntries.injEq] at hd
  exact hne hd.1.2.2.2.2.2.2.2.1

example : encodeReconciliationAnnounceEntries exSchemes64 exPrivy exRange 300 true true 7 8 400 =
      .ok [0x5c, 0x07, 0xfd, 1, 144, 7, 8, 1, 44, 0x68, 0xc0, 1, 0, 2, 0, 2, 0, 1, 17, 113] ∧
    (if true then 8 else 2) ≠ getWidthMax64Int (400 : UInt64).toNat := by decide +kernel

end Willow.Props
