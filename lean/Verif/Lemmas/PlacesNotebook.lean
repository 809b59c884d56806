import Verif.Lemmas.Places
import Verif.Lemmas.PropsNotebook

/-! Lines in order with plain names. -/

namespace Willow.Props

open Spec

theorem typed_plain (t : Typed) (ht : t.InOrder) (hn : ∀ name, t = .new name → PlainName name) : PlainLine t.text := by
  intro name more h32 e
  obtain ⟨ws, e1⟩ := typed_split t ht
  have e2 : ∃ rest, splitSpace (spaced ([110, 101, 119] :: name :: more)) = [110, 101, 119] :: name :: rest := by
    cases more with
    | nil => exact ⟨[], splitSpace_spaced _ [name] (by
        intro x hx
        simp only [List.mem_cons, List.not_mem_nil, or_false] at hx
        rcases hx with rfl | rfl
        · decide
        · exact h32)⟩
    | cons v more =>
      refine ⟨splitSpace (spaced (v :: more)), ?_⟩
      show splitSpace ([110, 101, 119] ++ 32 :: (name ++ 32 :: spaced (v :: more))) = _
      rw [splitSpace_append _ (by decide), splitSpace_append _ h32]
  obtain ⟨rest, e2⟩ := e2
  rw [← e, e1] at e2
  obtain ⟨e3, e4⟩ := List.cons.inj e2
  cases t with
  | new n =>
    have hw : IsWord n := ht
    have : splitSpace (Typed.new n).text = [Word.new, n] := splitSpace_spaced _ [n] (by
      intro x hx
      simp only [List.mem_cons, List.not_mem_nil, or_false] at hx
      rcases hx with rfl | rfl
      · decide
      · exact isWord_noSpace hw)
    rw [this] at e1
    rw [← (List.cons.inj e1).2] at e4
    rw [← (List.cons.inj e4).1]
    exact hn n rfl
  | other w ws => exact absurd (by rw [show w = [110, 101, 119] from e3]; decide) ht.2.1
  | _ => exfalso; revert e3; simp only [Typed.head]; decide

end Willow.Props
