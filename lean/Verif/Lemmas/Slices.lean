import Verif.Model.Slices
import Verif.Lemmas.Encoding

/-! Lemmas about memory shared with the caller. -/

namespace Willow

theorem prefixSuccessorMemLoop_full (mem : Bytes) (l : Window) (b : UInt8) (k : Nat) (hb : b ≠ 255)
    (h1 : mem[l.off + k]? = some b) :
    ∀ n, n ≤ l.len → k < n → (∀ j, k < j → j < n → mem[l.off + j]? = some 255) →
    prefixSuccessorMemLoop mem l n = some (mem.set (l.off + k) (b + 1)) := by
  intro n
  induction n with
  | zero => omega
  | succ n ih =>
    intro hn hkn hj
    rw [prefixSuccessorMemLoop]
    rcases Nat.eq_or_lt_of_le (Nat.lt_succ_iff.1 hkn) with h | h
    · subst h
      rw [h1]
      simp [hb]
    · rw [hj n h (by omega)]
      simp only [ne_eq, not_true_eq_false, if_false]
      exact ih (by omega) h (fun j a b => hj j a (by omega))

/-- The components found by `decodePathLoop` are the windows of its input. -/
theorem decodePathLoop_windows (p : PathParams) (enc : Bytes) : ∀ (n pos : Nat) (acc : Path) (pos' : Nat) (path : Path),
    decodePathLoop p enc n pos acc = .ok (pos', path) →
    path = acc ++ (decodePathWindows p enc n pos).map (Window.read enc) ∧
    (decodePathWindows p enc n pos).length = n ∧ (∀ w ∈ decodePathWindows p enc n pos, w.off + w.len ≤ enc.length) ∧
    pos' = (match (decodePathWindows p enc n pos).getLast? with
      | none => pos
      | some l => l.off + l.len)
  | 0, pos, acc, pos', path, h => by
    simp only [decodePathLoop, Res.ok.injEq, Prod.mk.injEq] at h
    obtain ⟨rfl, rfl⟩ := h
    simp [decodePathWindows]
  | n + 1, pos, acc, pos', path, h => by
    simp only [decodePathLoop] at h
    obtain ⟨lb, hlb, h⟩ := Res.bind_eq_ok.1 h
    unfold slice at hlb
    split at hlb
    · rename_i hle
      cases hlb
      have hlen : ((enc.drop pos).take (pos + getWidthMax32Int p.cl - pos)).length = getWidthMax32Int p.cl := by
        simp; omega
      rw [decodeIntMax32_eq _ _ hlen] at h
      simp only at h
      rw [show pos + getWidthMax32Int p.cl - pos = getWidthMax32Int p.cl by omega] at h
      obtain ⟨comp, hc, h⟩ := Res.bind_eq_ok.1 h
      unfold slice at hc
      split at hc
      · rename_i hle'
        cases hc
        obtain ⟨h1, h2, h3, h4⟩ := decodePathLoop_windows p enc n _ _ pos' path h
        refine ⟨?_, ?_, ?_, ?_⟩
        · rw [h1]
          simp only [decodePathWindows, List.map_cons, List.append_assoc, List.cons_append, List.nil_append, Window.read]
          congr 3
          omega
        · simp only [decodePathWindows, List.length_cons, h2]
        · intro w hw
          simp only [decodePathWindows, List.mem_cons] at hw
          rcases hw with rfl | hw
          · exact hle'.2
          · exact h3 w hw
        · rw [h4]
          simp only [decodePathWindows, List.getLast?_cons]
          cases (decodePathWindows p enc n (pos + getWidthMax32Int p.cl +
            getBE ((enc.drop pos).take (getWidthMax32Int p.cl)))).getLast? <;> rfl
      · cases hc
    · cases hlb

end Willow
