import Verif.Spec.ControlLayout
import Verif.Lemmas.Messages

/-! Lemmas about the layout of control messages. -/

namespace Willow.Props

open Spec

theorem widthCode_unique {n w w' : Nat} (h : WidthCode n w) (h' : WidthCode n w') : w = w' := by
  rcases Nat.lt_trichotomy w w' with hl | rfl | hl
  · have := h'.2.2 w hl; have := h.2.1; omega
  · rfl
  · have := h.2.2 w' hl; have := h'.2.1; omega

theorem inBytes_beBytes (width n : Nat) : (beBytes width n).map UInt8.toNat = inBytes width n := by
  induction width with
  | zero => rfl
  | succ k ih =>
    unfold inBytes at ih ⊢
    rw [List.range_succ_eq_map, List.map_cons, List.map_map]
    unfold beBytes
    rw [List.map_cons, ih]
    congr 1
    apply List.map_congr_left
    intro i hi
    have := List.mem_range.1 hi
    simp only [Function.comp]
    rw [show k + 1 - 1 - i.succ = k - 1 - i by omega]

theorem inBytes_inj {k n n' : Nat} {r r' : List Nat} (hn : n < 256 ^ k) (hn' : n' < 256 ^ k) (h : inBytes k n ++ r = inBytes k n' ++ r') :
    n = n' ∧ r = r' := by
  have hl : ∀ m, (inBytes k m).length = k := fun m => by simp [inBytes]
  obtain ⟨h1, h2⟩ := List.append_inj h (by rw [hl, hl])
  refine ⟨?_, h2⟩
  rw [← inBytes_beBytes, ← inBytes_beBytes] at h1
  have h3 := List.map_inj_right (fun a b h => UInt8.toNat_inj.1 h) |>.1 h1
  have h4 := congrArg getBE h3
  rwa [getBE_beBytes, getBE_beBytes, Nat.mod_eq_of_lt hn, Nat.mod_eq_of_lt hn'] at h4

theorem amount_layout (x : UInt64) : ∃ w, WidthCode x.toNat w ∧ (encodeIntMax64 x.toNat).map UInt8.toNat = inBytes (2 ^ w) x.toNat ∧
    ∀ a b c d : UInt8, widthHeader (getWidthMax64Int x.toNat) a b c d = [a, b, c, d].getD w a := by
  have hx := x.toNat_lt
  rw [encodeIntMax64_eq, inBytes_beBytes]
  unfold getWidthMax64Int WidthCode
  split
  · exact ⟨0, ⟨by decide, by omega, by omega⟩, rfl, fun _ _ _ _ => rfl⟩
  · split
    · exact ⟨1, ⟨by decide, by omega, fun v hv => by rw [show v = 0 by omega]; omega⟩, rfl, fun _ _ _ _ => rfl⟩
    · split
      · refine ⟨2, ⟨by decide, by omega, fun v hv => ?_⟩, rfl, fun _ _ _ _ => rfl⟩
        rcases (by omega : v = 0 ∨ v = 1) with rfl | rfl <;> omega
      · refine ⟨3, ⟨by decide, by omega, fun v hv => ?_⟩, rfl, fun _ _ _ _ => rfl⟩
        rcases (by omega : v = 0 ∨ v = 1 ∨ v = 2) with rfl | rfl | rfl <;> omega

theorem channelNumber_some {channel : Channel} (h : channel ≠ .control) : ∃ c, channelNumber channel = some c ∧ c ≤ 6 ∧
    (channelMaskStart 0 channel).toNat = packed [(3, c), (5, 0)] ∧
    (channelMaskEnd 0x90 channel).toNat = packed [(3, 4), (2, 2), (3, c)] ∧
    (channelMaskEnd 0x98 channel).toNat = packed [(3, 4), (2, 3), (3, c)] := by
  cases channel with
  | control => exact absurd rfl h
  | _ => exact ⟨_, rfl, by decide, by decide, by decide, by decide⟩

theorem channelNumber_inj {a b : Channel} {c : Nat} (ha : channelNumber a = some c) (hb : channelNumber b = some c) : a = b := by
  cases a <;> cases b <;> simp [channelNumber] at ha hb ⊢ <;> omega

theorem handleNumber_inj {a b : HandleType} (h : handleNumber a = handleNumber b) : a = b := by
  cases a <;> cases b <;> simp [handleNumber] at h ⊢

theorem channelNumber_le {a : Channel} {c : Nat} (h : channelNumber a = some c) : c ≤ 6 := by
  cases a <;> simp [channelNumber] at h <;> omega

theorem handleNumber_le (a : HandleType) : handleNumber a ≤ 4 := by
  cases a <;> decide

theorem control_layout (m : Control) (h : m.Logical) : m.HasLayout (m.bytes.map UInt8.toNat) := by
  cases m with
  | issueGuarantee n channel =>
    obtain ⟨c, h1, _, h2, _, _⟩ := channelNumber_some h
    obtain ⟨w, h3, h4, h5⟩ := amount_layout n
    refine ⟨c, w, h1, h3, ?_⟩
    simp only [Control.bytes, encodeControlIssueGuarantee, List.cons_append, List.nil_append, List.map_cons, h2, h4, h5]
    rcases (by have := h3.1; omega : w = 0 ∨ w = 1 ∨ w = 2 ∨ w = 3) with rfl | rfl | rfl | rfl <;> rfl
  | absolve n channel =>
    obtain ⟨c, h1, _, h2, _, _⟩ := channelNumber_some h
    obtain ⟨w, h3, h4, h5⟩ := amount_layout n
    refine ⟨c, w, h1, h3, ?_⟩
    simp only [Control.bytes, encodeControlAbsolve, List.cons_append, List.nil_append, List.map_cons, h2, h4, h5]
    rcases (by have := h3.1; omega : w = 0 ∨ w = 1 ∨ w = 2 ∨ w = 3) with rfl | rfl | rfl | rfl <;> rfl
  | plead n channel =>
    obtain ⟨c, h1, _, h2, _, _⟩ := channelNumber_some h
    obtain ⟨w, h3, h4, h5⟩ := amount_layout n
    refine ⟨c, w, h1, h3, ?_⟩
    simp only [Control.bytes, encodeControlPlead, List.cons_append, List.nil_append, List.map_cons, h2, h4, h5]
    rcases (by have := h3.1; omega : w = 0 ∨ w = 1 ∨ w = 2 ∨ w = 3) with rfl | rfl | rfl | rfl <;> rfl
  | announceDropping channel =>
    obtain ⟨c, h1, _, _, h2, _⟩ := channelNumber_some h
    exact ⟨c, h1, by simp only [Control.bytes, encodeControlAnnounceDropping, List.map_cons, List.map_nil, h2]⟩
  | apologise channel =>
    obtain ⟨c, h1, _, _, _, h2⟩ := channelNumber_some h
    exact ⟨c, h1, by simp only [Control.bytes, encodeControlApologise, List.map_cons, List.map_nil, h2]⟩
  | free n mine handleType =>
    obtain ⟨w, h3, h4, h5⟩ := amount_layout n
    refine ⟨w, h3, ?_⟩
    have hb : (if mine then handleMask 0 handleType ||| 0x10 else handleMask 0 handleType).toNat =
        packed [(3, handleNumber handleType), (1, if mine then 1 else 0), (4, 0)] := by
      cases mine <;> cases handleType <;> decide
    simp only [Control.bytes, encodeControlFree, List.cons_append, List.nil_append, List.map_cons, hb, h4, h5]
    rcases (by have := h3.1; omega : w = 0 ∨ w = 1 ∨ w = 2 ∨ w = 3) with rfl | rfl | rfl | rfl <;> rfl

theorem number_apart {n n' : UInt64} {w w' : Nat} {r r' : List Nat} (h : WidthCode n.toNat w) (h' : WidthCode n'.toNat w') (hw : w = w')
    (he : inBytes (2 ^ w) n.toNat ++ r = inBytes (2 ^ w') n'.toNat ++ r') : n = n' ∧ r = r' := by
  subst hw
  obtain ⟨h1, h2⟩ := inBytes_inj h.2.1 h'.2.1 he
  exact ⟨UInt64.toNat_inj.1 h1, h2⟩

/-- What the first byte of a layout can be. -/
def firstRange : Control → Nat × Nat
  | .issueGuarantee .. => (128, 131)
  | .absolve .. => (132, 135)
  | .plead .. => (136, 139)
  | .free .. => (140, 143)
  | .announceDropping .. => (144, 150)
  | .apologise .. => (152, 158)

theorem layout_first {m : Control} {b : List Nat} (h : m.HasLayout b) :
    ∃ first rest, b = first :: rest ∧ (firstRange m).1 ≤ first ∧ first ≤ (firstRange m).2 := by
  cases m <;> simp only [Control.HasLayout] at h
  case announceDropping =>
    obtain ⟨c, hc, rfl⟩ := h
    have := channelNumber_le hc
    exact ⟨_, _, rfl, by simp only [packed, firstRange, List.map_cons, List.map_nil, List.sum_cons, List.sum_nil]; omega, by simp only [packed, firstRange, List.map_cons, List.map_nil, List.sum_cons, List.sum_nil]; omega⟩
  case apologise =>
    obtain ⟨c, hc, rfl⟩ := h
    have := channelNumber_le hc
    exact ⟨_, _, rfl, by simp only [packed, firstRange, List.map_cons, List.map_nil, List.sum_cons, List.sum_nil]; omega, by simp only [packed, firstRange, List.map_cons, List.map_nil, List.sum_cons, List.sum_nil]; omega⟩
  case free =>
    obtain ⟨w, hw, rfl⟩ := h
    have := hw.1
    exact ⟨_, _, rfl, by simp only [packed, firstRange, List.map_cons, List.map_nil, List.sum_cons, List.sum_nil]; omega, by simp only [packed, firstRange, List.map_cons, List.map_nil, List.sum_cons, List.sum_nil]; omega⟩
  all_goals
    obtain ⟨c, w, hc, hw, rfl⟩ := h
    have := hw.1
    exact ⟨_, _, rfl, by simp only [packed, firstRange, List.map_cons, List.map_nil, List.sum_cons, List.sum_nil]; omega, by simp only [packed, firstRange, List.map_cons, List.map_nil, List.sum_cons, List.sum_nil]; omega⟩

theorem layout_apart {m m' : Control} {b b' r r' : List Nat} (h : m.HasLayout b) (h' : m'.HasLayout b') (he : b ++ r = b' ++ r') :
    m = m' ∧ r = r' := by
  obtain ⟨f, t, hb, h1, h2⟩ := layout_first h
  obtain ⟨f', t', hb', h1', h2'⟩ := layout_first h'
  have hf : f = f' := by
    rw [hb, hb'] at he
    simp only [List.cons_append, List.cons.injEq] at he
    exact he.1
  subst hf
  cases m <;> cases m' <;> simp only [firstRange] at h1 h2 h1' h2' <;> first
    | (exfalso; omega)
    | skip
  all_goals simp only [Control.HasLayout] at h h'
  case announceDropping.announceDropping =>
    obtain ⟨c, hc, rfl⟩ := h
    obtain ⟨c', hc', rfl⟩ := h'
    simp only [List.cons_append, List.nil_append, List.cons.injEq, packed, List.map_cons, List.map_nil, List.sum_cons, List.sum_nil] at he
    have e : c = c' := by omega
    subst e
    rw [channelNumber_inj hc hc']
    exact ⟨rfl, he.2⟩
  case apologise.apologise =>
    obtain ⟨c, hc, rfl⟩ := h
    obtain ⟨c', hc', rfl⟩ := h'
    simp only [List.cons_append, List.nil_append, List.cons.injEq, packed, List.map_cons, List.map_nil, List.sum_cons, List.sum_nil] at he
    have e : c = c' := by omega
    subst e
    rw [channelNumber_inj hc hc']
    exact ⟨rfl, he.2⟩
  case free.free n m1 t1 n' m2 t2 =>
    obtain ⟨w, hw, rfl⟩ := h
    obtain ⟨w', hw', rfl⟩ := h'
    simp only [List.cons_append, List.cons.injEq, packed, List.map_cons, List.map_nil, List.sum_cons, List.sum_nil] at he
    obtain ⟨e1, e2, e3⟩ := he
    obtain ⟨e4, e5⟩ := number_apart hw hw' (by omega) e3
    have e6 : handleNumber t1 = handleNumber t2 ∧ m1 = m2 := by
      cases m1 <;> cases m2 <;> simp at e2 ⊢ <;> omega
    rw [e4, handleNumber_inj e6.1, e6.2]
    exact ⟨rfl, e5⟩
  all_goals
    obtain ⟨c, w, hc, hw, rfl⟩ := h
    obtain ⟨c', w', hc', hw', rfl⟩ := h'
    simp only [List.cons_append, List.cons.injEq, packed, List.map_cons, List.map_nil, List.sum_cons, List.sum_nil] at he
    obtain ⟨e1, e2, e3⟩ := he
    obtain ⟨e4, e5⟩ := number_apart hw hw' (by omega) e3
    have e6 : c = c' := by omega
    subst e6
    rw [e4, channelNumber_inj hc hc']
    exact ⟨rfl, e5⟩

end Willow.Props
