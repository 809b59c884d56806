import Verif.Spec.Messenger
import Verif.Props.App
import Verif.Lemmas.PropsReconcile
import Verif.Props.Reconcile
import Verif.Props.StoreMore

/-! Lemmas for `Verif/Props/Messenger.lean`. -/

namespace Willow.Props

open Willow Spec

theorem withLength_crash (body : Bytes) : withLength body = .crash := rfl

theorem slice_total {α : Type} (b : List α) (i j : Nat) : (∃ x, slice b i j = .ok x) ∨ slice b i j = .crash := by
  unfold slice
  split
  · exact .inl ⟨_, rfl⟩
  · exact .inr rfl

theorem bind_total {α β : Type} {r : Res α} {f : α → Res β} (hr : (∃ x, r = .ok x) ∨ r = .crash)
    (hf : ∀ x, (∃ y, f x = .ok y) ∨ f x = .crash) : (∃ y, (r >>= f) = .ok y) ∨ (r >>= f) = .crash := by
  rcases hr with ⟨x, rfl⟩ | rfl
  · exact hf x
  · exact .inr rfl

theorem bytesToString_total (b : Bytes) : (∃ x, bytesToString b = .ok x) ∨ bytesToString b = .crash := by
  unfold bytesToString
  exact bind_total (slice_total _ _ _) fun _ => bind_total (slice_total _ _ _) fun _ => bind_total (slice_total _ _ _)
    fun _ => .inl ⟨_, rfl⟩

theorem decodeValues_total (b : Bytes) : (∃ v, decodeValues b = .ok v) ∨ decodeValues b = .crash := by
  unfold decodeValues
  exact bind_total (slice_total _ _ _) fun _ => bind_total (slice_total _ _ _) fun _ => bind_total (bytesToString_total _)
    fun _ => bind_total (bytesToString_total _) fun _ => .inl ⟨_, rfl⟩

theorem storeGetPayload_total (env : StoreEnv) (st : StoreState) (pos : Position) :
    (∃ v, storeGetPayload env st pos = .ok v) ∨ storeGetPayload env st pos = .crash := by
  unfold storeGetPayload
  split
  · exact .inl ⟨_, rfl⟩
  · exact bind_total (decodeValues_total _) fun _ => .inl ⟨_, rfl⟩

/-- An entry to be sent ends the process. -/
theorem sendEntries_crash (gob : Gob) (env : StoreEnv) (st : StoreState) (x : Entry × Bytes) (rest : List (Entry × Bytes))
    (t : Transport) : sendEntries gob env st (x :: rest) t = .crash := by
  rw [sendEntries]
  rcases storeGetPayload_total env st x.1.position with ⟨v, h⟩ | h <;> rw [h] <;> rfl

theorem entryQueryLoop_length (env : StoreEnv) (st : StoreState) : ∀ (nodes : List KdKey) (acc out : List (Entry × Bytes)),
    entryQueryLoop env st nodes acc = .ok out → acc.length ≤ out.length := by
  intro nodes
  induction nodes with
  | nil => intro acc out h; cases h; exact Nat.le_refl _
  | cons n rest ih =>
    intro acc out h
    unfold entryQueryLoop at h
    split at h
    · cases h
    · obtain ⟨v, -, h2⟩ := Res.bind_eq_ok.1 h
      have := ih _ _ h2
      simp only [List.length_append, List.length_cons, List.length_nil] at this
      omega

theorem orderBytes_self (a : Bytes) : orderBytes a a = .eq := by
  cases h : orderBytes a a with
  | eq => rfl
  | lt => exact absurd ((orderBytes_spec a a).1 h) (lexLt_irrefl (fun x h => absurd h (by simp)) a)
  | gt => exact absurd ((orderBytes_spec a a).2.2 h) (lexLt_irrefl (fun x h => absurd h (by simp)) a)

/-- Nothing lies in the zero range. -/
theorem zeroRange_empty (pos : Position) : ¬ InRange3d zeroRange3d pos := by
  intro h
  have h3 := h.2.2
  simp [zeroRange3d, InRange] at h3

end Willow.Props
