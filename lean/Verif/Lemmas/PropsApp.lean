import Verif.Lemmas.App
import Verif.Props.StoreMore
import Verif.Spec.PropsApp

/-! Lemmas for the theorems of `Verif/Props/App.lean`. -/

namespace Willow.Props

open Willow Spec

theorem appStore_ok (lib : KdLib) (sha : Bytes → Bytes) (ns : Bytes) (hs : ∀ b, (sha b).length = 32) :
    EnvOk (appStore lib sha ns) := by
  refine ⟨show _ by simp [appStore], show _ by simp [appStore], fun b => ?_⟩
  have : ∀ x : Bytes, (hexEncode x).length = 2 * x.length := by
    intro x
    induction x with
    | nil => rfl
    | cons a x ih => simp only [hexEncode, List.length_cons, ih]; omega
  show (hexEncode (sha b)).length < 2 ^ 64
  rw [this, hs]
  decide

theorem brought_specRun (env : StoreEnv) (all : List StoreOp) : ∀ (ops : List StoreOp) (A : List Item), (∀ op ∈ ops, op ∈ all) →
    Brought env all A → Brought env all (specRun env A ops)
  | [], _, _, h => h
  | op :: ops, A, hall, h => by
    refine brought_specRun env all ops _ (fun o ho => hall o (List.mem_cons_of_mem _ ho)) ?_
    unfold specStep
    cases hat : attempt env op with
    | none => exact h
    | some et =>
      obtain ⟨e, t⟩ := et
      dsimp only
      split
      · intro a ha
        rcases List.mem_cons.1 ha with rfl | ha
        · exact ⟨op, hall op List.mem_cons_self, e, t, hat, rfl⟩
        · exact h a (List.mem_filter.1 ha).1
      · exact h

theorem digitValue_mono : ∀ (ds : List Nat) (n : Nat), n ≤ ds.foldl (fun n d => 10 * n + d) n
  | [], _ => Nat.le_refl _
  | d :: ds, n => by
    have := digitValue_mono ds (10 * n + d)
    simp only [List.foldl_cons]
    omega

theorem parseDigits_text : ∀ (ds : List Nat) (n : Nat), (∀ d ∈ ds, d < 10) → ds.foldl (fun n d => 10 * n + d) n < 2 ^ 64 →
    parseDigits (digitText ds) n = some (ds.foldl (fun n d => 10 * n + d) n)
  | [], _, _, _ => rfl
  | d :: ds, n, h, hv => by
    have hd := h d List.mem_cons_self
    have hc : (UInt8.ofNat (48 + d)).toNat = 48 + d := UInt8.toNat_ofNat_of_lt' (show _ < 256 by omega)
    have hm := digitValue_mono ds (10 * n + d)
    simp only [List.foldl_cons] at hv ⊢
    have e : n * 10 + (48 + d - 48) = 10 * n + d := by omega
    simp only [digitText, List.map_cons, parseDigits, UInt8.le_iff_toNat_le, hc, e]
    rw [if_pos ⟨by simp, by simp; omega⟩, if_pos (by omega)]
    exact parseDigits_text ds _ (fun x hx => h x (List.mem_cons_of_mem _ hx)) hv

theorem digitText_noColon (ds : List Nat) (h : ∀ d ∈ ds, d < 10) : (58 : UInt8) ∉ digitText ds := by
  intro hm
  obtain ⟨d, hd, he⟩ := List.mem_map.1 hm
  have := h d hd
  have hc : (UInt8.ofNat (48 + d)).toNat = 48 + d := UInt8.toNat_ofNat_of_lt' (show _ < 256 by omega)
  have := congrArg UInt8.toNat he
  rw [hc] at this
  simp at this
  omega

theorem splitColon_single (a : Bytes) (ha : (58 : UInt8) ∉ a) : splitColon a = [a] := by
  induction a with
  | nil => rfl
  | cons c a ih =>
    rw [List.mem_cons, not_or] at ha
    unfold splitColon
    rw [ih ha.2, if_neg fun h => ha.1 h.symm]

theorem splitColon_append (a : Bytes) (ha : (58 : UInt8) ∉ a) (rest : Bytes) : splitColon (a ++ 58 :: rest) = a :: splitColon rest := by
  induction a with
  | nil => simp [splitColon]
  | cons c a ih =>
    rw [List.mem_cons, not_or] at ha
    rw [List.cons_append]
    conv => lhs; unfold splitColon
    rw [ih ha.2, if_neg fun h => ha.1 h.symm]

theorem splitColon_two {s a b : Bytes} : splitColon s = [a, b] → s = a ++ 58 :: b := by
  have one : ∀ (s a : Bytes), splitColon s = [a] → s = a := by
    intro s
    induction s with
    | nil => intro a h; simpa [splitColon] using h
    | cons c s ih =>
      intro a h
      unfold splitColon at h
      split at h
      · have : splitColon s ≠ [] := by cases s <;> simp [splitColon]; split <;> (try split) <;> simp
        simp_all
      · split at h
        · rename_i hn
          exact absurd hn (by cases s <;> simp [splitColon]; split <;> (try split) <;> simp)
        · rename_i part more hs
          simp only [List.cons.injEq] at h
          obtain ⟨rfl, rfl⟩ := h
          rw [ih _ hs]
  induction s generalizing a with
  | nil => intro h; simp [splitColon] at h
  | cons c s ih =>
    intro h
    unfold splitColon at h
    split at h
    · rename_i hc
      simp only [List.cons.injEq] at h
      obtain ⟨rfl, h⟩ := h
      rw [one _ _ h, hc]
      rfl
    · split at h
      · simp at h
      · rename_i part more hs
        simp only [List.cons.injEq] at h
        obtain ⟨rfl, rfl⟩ := h
        rw [ih hs]
        rfl

theorem parseDigits_some : ∀ (s : Bytes) (n v : Nat), n < 2 ^ 64 → parseDigits s n = some v →
    ∃ ds : List Nat, (∀ d ∈ ds, d < 10) ∧ s = digitText ds ∧ ds.foldl (fun n d => 10 * n + d) n = v ∧ v < 2 ^ 64
  | [], n, v, hn, h => by
    simp only [parseDigits, Option.some.injEq] at h
    exact ⟨[], by simp, rfl, h, by omega⟩
  | c :: s, n, v, hn, h => by
    unfold parseDigits at h
    dsimp only at h
    split at h
    · rename_i hc
      split at h
      · rename_i ha
        obtain ⟨ds, h1, h2, h3, h4⟩ := parseDigits_some s _ v ha h
        have l1 : 48 ≤ c.toNat := by simpa [UInt8.le_iff_toNat_le] using hc.1
        have l2 : c.toNat ≤ 57 := by simpa [UInt8.le_iff_toNat_le] using hc.2
        refine ⟨(c.toNat - 48) :: ds, ?_, ?_, ?_, h4⟩
        · intro d hd
          rcases List.mem_cons.1 hd with rfl | hd
          · omega
          · exact h1 d hd
        · rw [h2]
          have : UInt8.ofNat (48 + (c.toNat - 48)) = c := by
            rw [show 48 + (c.toNat - 48) = c.toNat by omega]; exact UInt8.ofNat_toNat
          show c :: digitText ds = UInt8.ofNat (48 + (c.toNat - 48)) :: digitText ds
          rw [this]
        · rw [← h3]; simp only [List.foldl_cons]; rw [Nat.mul_comm]
      · cases h
    · cases h

theorem parseUint_some {s : Bytes} {v : UInt64} (h : parseUint s = some v) :
    ∃ ds : List Nat, (∀ d ∈ ds, d < 10) ∧ ds ≠ [] ∧ s = digitText ds ∧ digitValue ds = v.toNat := by
  unfold parseUint at h
  split at h
  · cases h
  · rename_i hs
    rw [Option.map_eq_some_iff] at h
    obtain ⟨m, hm, rfl⟩ := h
    obtain ⟨ds, h1, h2, h3, h4⟩ := parseDigits_some s 0 m (by decide) hm
    refine ⟨ds, h1, ?_, h2, ?_⟩
    · rintro rfl; exact hs h2
    · rw [UInt64.toNat_ofNat_of_lt' h4]; exact h3

end Willow.Props
