import Verif.Spec.Malformed
import Verif.Model.MessageLoop
import Verif.Lemmas.Messages

/-! Decoders and bytes that no encoder made. -/

namespace Willow
open Spec

/-! ### Decoders that never panic -/

section Never
variable {α β : Type}

theorem Dec.bind_crash {d : Dec α} {f : α → Dec β} {g : GB} (h : (d >>= f) g = .crash) :
    d g = .crash ∨ ∃ a g1, d g = .ok (a, g1) ∧ f a g1 = .crash := by
  rw [Dec.bind_apply] at h
  cases hd : d g with
  | ok r => obtain ⟨a, g1⟩ := r; rw [hd] at h; exact .inr ⟨a, g1, rfl, h⟩
  | err => rw [hd] at h; simp at h
  | crash => exact .inl rfl
  | block => rw [hd] at h; simp at h

theorem Spec.NeverPanics.pure (a : α) : NeverPanics (pure a : Dec α) := fun g h => by simp at h

theorem Spec.NeverPanics.err : NeverPanics (Dec.lift .err : Dec α) := fun g h => by simp at h

theorem Spec.NeverPanics.bind {d : Dec α} {f : α → Dec β} (h1 : NeverPanics d) (h2 : ∀ a, NeverPanics (f a)) :
    NeverPanics (d >>= f) := by
  intro g h
  rcases Dec.bind_crash h with h | ⟨a, g1, -, h⟩
  · exact h1 g h
  · exact h2 a g1 h

theorem nextAbsolute_never (n : Nat) : NeverPanics (nextAbsolute n) := by
  intro g h
  unfold nextAbsolute at h
  dsimp only at h
  split at h <;> simp at h

/-- After a request, the continuation is given at least as many bytes as asked for. -/
theorem Spec.NeverPanics.next {n : Nat} {f : Bytes → Dec α} (h : ∀ acc : Bytes, n ≤ acc.length → NeverPanics (f acc)) :
    NeverPanics (nextAbsolute n >>= f) := by
  intro g hc
  rcases Dec.bind_crash hc with hc | ⟨a, g1, h1, hc⟩
  · exact nextAbsolute_never n g hc
  · obtain ⟨rfl, -, hl⟩ := nextAbsolute_inv h1
    exact h _ hl g1 hc

theorem Spec.NeverPanics.prune {n : Nat} {f : Unit → Dec α} (h : NeverPanics (f ())) : NeverPanics (prune n >>= f) :=
  fun g hc => h _ hc

theorem Spec.NeverPanics.byte {acc : Bytes} {i : Nat} {f : UInt8 → Dec α} (hi : i < acc.length)
    (h : NeverPanics (f acc[i])) : NeverPanics (Dec.lift (byteAt acc i) >>= f) := by
  have : byteAt acc i = .ok acc[i] := by unfold byteAt; rw [List.getElem?_eq_getElem hi]
  rw [this]
  exact h

theorem decodeIntMax64_cases (b : Bytes) : decodeIntMax64 b = .err ∨ ∃ v, decodeIntMax64 b = .ok v := by
  unfold decodeIntMax64
  split
  · exact .inr ⟨_, rfl⟩
  · exact .inl rfl

theorem Spec.NeverPanics.compact {acc : Bytes} {i w : Nat} {f : UInt64 → Dec α} (hi : i + w ≤ acc.length)
    (h : ∀ v, NeverPanics (f v)) : NeverPanics (compactAt acc i w >>= f) := by
  refine NeverPanics.bind ?_ h
  unfold compactAt
  have : slice acc i (i + w) = .ok ((acc.drop i).take (i + w - i)) := by
    unfold slice; rw [if_pos ⟨by omega, hi⟩]
  intro g hc
  rw [Dec.bind_apply, sliceArray_ok this] at hc
  dsimp only at hc
  rcases decodeIntMax64_cases ((acc.drop i).take (i + w - i)) with h | ⟨v, h⟩ <;> rw [h] at hc <;>
    simp [Dec.bind_apply, Dec.liftD] at hc

end Never

/-! ### Streams that make a decoder panic -/

section Crashes
variable {α β : Type}

/-- The decoder panics when these bytes are there, no others, and no room after them. -/
def PanicsOn (d : Dec α) (bytes : Bytes) : Prop :=
  ∀ g : GB, g.mem = .exact → g.rest = [] → g.buf = bytes → d g = .crash

/-- The same when the bytes will be there at the next request. -/
def PanicsNext (d : Dec α) (bytes : Bytes) : Prop :=
  ∀ g : GB, g.mem = .exact → g.ready true → g.content = bytes → d g = .crash

theorem PanicsNext.on {d : Dec α} {bytes : Bytes} (h : PanicsNext d bytes) : PanicsOn d bytes := by
  intro g hm h1 h2
  exact h g hm (ready_of_nil h1) (by simp [GB.content, h1, h2])

theorem PanicsOn.next {n : Nat} {f : Bytes → Dec α} {bytes : Bytes} (hn : n ≤ bytes.length)
    (h : PanicsOn (f bytes) bytes) : PanicsNext (nextAbsolute n >>= f) bytes := by
  intro g hm hr hc
  obtain ⟨g', e, c, -, -, hn⟩ := nextAbsolute_ready n g hr (by rw [hc]; exact hn)
  have hb : g'.buf = bytes := by rw [← hc, ← c]; simp [GB.content, hn rfl]
  rw [Dec.bind_apply, e]
  dsimp only
  rw [hb]
  exact h g' (nextAbsolute_exact e hm) (hn rfl) hb

theorem PanicsOn.prune {n : Nat} {f : Unit → Dec α} {bytes : Bytes} (h : PanicsOn (f ()) (bytes.drop n)) :
    PanicsOn (prune n >>= f) bytes := by
  intro g hm h1 h2
  exact h (g.pruned n) (GB.pruned_exact hm n) h1 (by simp [h2])

theorem PanicsOn.crash {bytes : Bytes} : PanicsOn (Dec.lift .crash : Dec α) bytes := fun _ _ _ _ => rfl

theorem PanicsOn.slice {acc bytes x : Bytes} {i j : Nat} {f : Bytes → Dec α} (hs : Willow.slice acc i j = .ok x)
    (h : PanicsOn (f x) bytes) : PanicsOn (sliceArray acc i j >>= f) bytes := by
  intro g hm h1 h2
  rw [Dec.bind_apply, sliceArray_ok hs]
  exact h g hm h1 h2

theorem PanicsOn.beyond {acc bytes : Bytes} {i j : Nat} {f : Bytes → Dec α} (hs : Willow.slice acc i j = .crash) :
    PanicsOn (sliceArray acc i j >>= f) bytes := by
  intro g hm _ _
  rw [Dec.bind_apply, sliceArray_exact hm, hs]
  rfl

theorem PanicsOn.bind {d : Dec α} {f : α → Dec β} {bytes : Bytes} (h : PanicsOn d bytes) : PanicsOn (d >>= f) bytes := by
  intro g hm h1 h2
  rw [Dec.bind_apply, h g hm h1 h2]

theorem PanicsNext.bind {d : Dec α} {f : α → Dec β} {bytes : Bytes} (h : PanicsNext d bytes) :
    PanicsNext (d >>= f) bytes := by
  intro g hm h1 h2
  rw [Dec.bind_apply, h g hm h1 h2]

theorem PanicsNext.after {d : Dec α} {f : α → Dec β} {enc bytes : Bytes} {v : α} (hd : Reads true 0 d enc v)
    (hs : Sound d enc v) (h : PanicsNext (f v) bytes) : PanicsNext (d >>= f) (enc ++ bytes) := by
  intro g hm hr hc
  obtain ⟨g', e, r, c⟩ := hd g bytes hr hc (Nat.zero_le _)
  rw [Dec.bind_apply, e]
  exact h g' (hs g bytes v g' hm hc e).2.2 r c

theorem takeCompact_zero (w : Nat) (hw : w = 1) : Reads true 0 (takeCompact w) [0] 0 := by
  subst hw
  intro g rest hr hg _
  have h := step_take (m := (0 : UInt64)) (rest := rest) (x := 0) (w := 1) (b := rest) (f := pure) hr hg rfl
    fun g' r c => step_pure r c
  have e : (takeCompact 1 >>= pure) g = takeCompact 1 g := by
    rw [Dec.bind_apply]
    cases takeCompact 1 g <;> rfl
  rw [e] at h
  exact h

theorem takeCompact_zero_sound (w : Nat) (hw : w = 1) : Sound (takeCompact w) [0] 0 := by
  subst hw
  have h := (steady_handle (x := 0) (prev := 1) (w := 1) fun _ => by decide).sound
  simp only [show (0 : UInt64) ≠ 1 by decide, decide_false, Bool.not_false, if_true, if_false] at h
  exact h

end Crashes

end Willow
