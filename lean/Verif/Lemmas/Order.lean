import Verif.Model.Order
import Verif.Model.Paths
import Verif.Spec.Order

namespace Willow
open Spec

/-! ### Lexicographic orders -/

theorem lexLt_irrefl {α : Type} {lt : α → α → Prop} (h : ∀ a, ¬ lt a a) :
    ∀ l : List α, ¬ LexLt lt l l
  | [] => by simp [LexLt]
  | a :: l => by simp [LexLt, h a, lexLt_irrefl h l]

theorem lexLt_trans {α : Type} {lt : α → α → Prop} (h : ∀ a b c, lt a b → lt b c → lt a c) :
    ∀ a b c : List α, LexLt lt a b → LexLt lt b c → LexLt lt a c
  | _, _, [], _, h2 => by simp [LexLt] at h2
  | _, [], _ :: _, h1, _ => by simp [LexLt] at h1
  | [], _ :: _, _ :: _, _, _ => by simp [LexLt]
  | x :: a, y :: b, z :: c, h1, h2 => by
    simp only [LexLt] at h1 h2 ⊢
    rcases h1 with h1 | ⟨rfl, h1⟩ <;> rcases h2 with h2 | ⟨rfl, h2⟩
    · exact .inl (h _ _ _ h1 h2)
    · exact .inl h1
    · exact .inl h2
    · exact .inr ⟨rfl, lexLt_trans h _ _ _ h1 h2⟩

theorem lexLt_tri {α : Type} {lt : α → α → Prop} (h : ∀ a b, lt a b ∨ a = b ∨ lt b a) :
    ∀ a b : List α, LexLt lt a b ∨ a = b ∨ LexLt lt b a
  | [], [] => by simp
  | [], _ :: _ => by simp [LexLt]
  | _ :: _, [] => by simp [LexLt]
  | x :: a, y :: b => by
    rcases h x y with h1 | rfl | h1
    · exact .inl (.inl h1)
    · rcases lexLt_tri h a b with h2 | rfl | h2
      · exact .inl (.inr ⟨rfl, h2⟩)
      · exact .inr (.inl rfl)
      · exact .inr (.inr (.inr ⟨rfl, h2⟩))
    · exact .inr (.inr (.inl h1))

theorem lexLt_strictTotal {α : Type} {lt : α → α → Prop} (h : StrictTotal lt) :
    StrictTotal (LexLt lt) :=
  ⟨lexLt_irrefl h.irrefl, lexLt_trans h.trans, lexLt_tri h.tri⟩

theorem u8_strictTotal : StrictTotal (fun a b : UInt8 => a < b) :=
  ⟨fun a => UInt8.lt_irrefl a, fun _ _ _ => UInt8.lt_trans, fun a b => by
    rcases Nat.lt_trichotomy a.toNat b.toNat with h | h | h
    · exact .inl h
    · exact .inr (.inl (UInt8.toNat_inj.mp h))
    · exact .inr (.inr h)⟩

theorem bytesLt_strictTotal : StrictTotal BytesLt := lexLt_strictTotal u8_strictTotal
theorem pathLt_strictTotal : StrictTotal PathLt := lexLt_strictTotal bytesLt_strictTotal
theorem timeLt_strictTotal : StrictTotal TimeLt :=
  ⟨fun a => UInt64.lt_irrefl a, fun _ _ _ => UInt64.lt_trans, fun a b => by
    rcases Nat.lt_trichotomy a.toNat b.toNat with h | h | h
    · exact .inl h
    · exact .inr (.inl (UInt64.toNat_inj.mp h))
    · exact .inr (.inr h)⟩

namespace Spec.StrictTotal
variable {α : Type} {lt : α → α → Prop} (h : StrictTotal lt)
include h
theorem asymm {a b : α} (h1 : lt a b) : ¬ lt b a := fun h2 => h.irrefl _ (h.trans _ _ _ h1 h2)
theorem ne {a b : α} (h1 : lt a b) : a ≠ b := fun h2 => h.irrefl a (h2 ▸ h1)
theorem lt_of_le_of_lt {a b c : α} (h1 : ¬ lt b a) (h2 : lt b c) : lt a c := by
  rcases h.tri a b with h3 | rfl | h3
  · exact h.trans _ _ _ h3 h2
  · exact h2
  · exact absurd h3 h1
theorem lt_of_lt_of_le {a b c : α} (h1 : lt a b) (h2 : ¬ lt c b) : lt a c := by
  rcases h.tri b c with h3 | rfl | h3
  · exact h.trans _ _ _ h1 h3
  · exact h1
  · exact absurd h3 h2
theorem le_trans {a b c : α} (h1 : ¬ lt b a) (h2 : ¬ lt c b) : ¬ lt c a := by
  intro h3
  exact h2 (h.lt_of_lt_of_le h3 h1)
theorem le_antisymm {a b : α} (h1 : ¬ lt b a) (h2 : ¬ lt a b) : a = b := by
  rcases h.tri a b with h3 | h3 | h3
  · exact absurd h3 h2
  · exact h3
  · exact absurd h3 h1
end Spec.StrictTotal

/-- To show that a comparison decides a strict total order it is enough to look at the
answers lt and eq and to know that gt is the rest. -/
theorem decides_mk {α : Type} {lt : α → α → Prop} {cmp : α → α → Ordering}
    (ht : StrictTotal lt)
    (h : ∀ a b, (cmp a b = .lt → lt a b) ∧ (cmp a b = .eq → a = b) ∧ (cmp a b = .gt → lt b a)) :
    Decides lt cmp := by
  refine ⟨fun a b => ⟨(h a b).1, fun hl => ?_⟩, fun a b => ⟨(h a b).2.1, fun hl => ?_⟩,
    fun a b => ⟨(h a b).2.2, fun hl => ?_⟩⟩
  · cases hc : cmp a b with
    | lt => rfl
    | eq => exact absurd hl ((h a b).2.1 hc ▸ ht.irrefl a)
    | gt => exact absurd hl (ht.asymm ((h a b).2.2 hc))
  · cases hc : cmp a b with
    | lt => exact absurd hl (ht.ne ((h a b).1 hc))
    | eq => rfl
    | gt => exact absurd hl.symm (ht.ne ((h a b).2.2 hc))
  · cases hc : cmp a b with
    | lt => exact absurd hl (ht.asymm ((h a b).1 hc))
    | eq => exact absurd hl ((h a b).2.1 hc ▸ ht.irrefl a)
    | gt => rfl

theorem orderBytes_spec : ∀ a b : Bytes, (orderBytes a b = .lt → BytesLt a b) ∧
    (orderBytes a b = .eq → a = b) ∧ (orderBytes a b = .gt → BytesLt b a)
  | [], [] => by simp [orderBytes]
  | [], _ :: _ => by simp [orderBytes, BytesLt, LexLt]
  | _ :: _, [] => by simp [orderBytes, BytesLt, LexLt]
  | x :: a, y :: b => by
    have ih := orderBytes_spec a b
    unfold orderBytes
    split
    · rename_i h; simp [BytesLt, LexLt, h]
    · split
      · rename_i h; simp [BytesLt, LexLt]; exact .inl h
      · rename_i h1 h2
        have : x = y := u8_strictTotal.le_antisymm h2 h1
        subst this
        refine ⟨fun h => .inr ⟨rfl, ih.1 h⟩, fun h => by rw [ih.2.1 h], fun h => .inr ⟨rfl, ih.2.2 h⟩⟩

theorem decides_bytes : Decides BytesLt orderBytes := decides_mk bytesLt_strictTotal orderBytes_spec

theorem orderPath_spec : ∀ a b : Path, (orderPath a b = .lt → PathLt a b) ∧
    (orderPath a b = .eq → a = b) ∧ (orderPath a b = .gt → PathLt b a)
  | [], [] => by simp [orderPath]
  | [], _ :: _ => by simp [orderPath, PathLt, LexLt]
  | _ :: _, [] => by simp [orderPath, PathLt, LexLt]
  | x :: a, y :: b => by
    have ih := orderPath_spec a b
    have hb := orderBytes_spec x y
    unfold orderPath
    cases hc : orderBytes x y with
    | lt => simp [PathLt, LexLt, hb.1 hc]
    | gt => simp [PathLt, LexLt, hb.2.2 hc]
    | eq =>
      have := hb.2.1 hc
      subst this
      simp only [ne_eq, not_true_eq_false, ↓reduceIte]
      refine ⟨fun h => .inr ⟨rfl, ih.1 h⟩, fun h => by rw [ih.2.1 h], fun h => .inr ⟨rfl, ih.2.2 h⟩⟩

theorem decides_path : Decides PathLt orderPath := decides_mk pathLt_strictTotal orderPath_spec

theorem decides_time : Decides TimeLt orderTimestamp := decides_mk timeLt_strictTotal fun a b => by
  unfold orderTimestamp
  split
  · rename_i h; simpa [TimeLt] using h
  · split
    · rename_i h; simpa [TimeLt] using h
    · rename_i h1 h2
      simp only [reduceCtorEq, false_implies, true_and, forall_const, and_true]
      exact timeLt_strictTotal.le_antisymm h2 h1

/-! ### Hexadecimal renderings -/

theorem hexDigit_lt_iff (a b : UInt8) (ha : a < 16) (hb : b < 16) :
    (hexDigit a < hexDigit b ↔ a < b) ∧ (hexDigit a = hexDigit b ↔ a = b) := by
  revert ha hb
  have key : ∀ a : Fin 16, ∀ b : Fin 16,
      (hexDigit (UInt8.ofNat a.1) < hexDigit (UInt8.ofNat b.1) ↔ UInt8.ofNat a.1 < UInt8.ofNat b.1) ∧
      (hexDigit (UInt8.ofNat a.1) = hexDigit (UInt8.ofNat b.1) ↔ UInt8.ofNat a.1 = UInt8.ofNat b.1) := by
    decide
  intro ha hb
  have := key ⟨a.toNat, ha⟩ ⟨b.toNat, hb⟩
  simpa using this

theorem nibbles (a : UInt8) : a.toNat = 16 * (a >>> 4).toNat + (a &&& 0x0f).toNat ∧
    (a >>> 4).toNat < 16 ∧ (a &&& 0x0f).toNat < 16 := by
  have h1 : (a >>> 4).toNat = a.toNat / 16 := by
    simp [UInt8.toNat_shiftRight, Nat.shiftRight_eq_div_pow]
  have h2 : (a &&& 0x0f).toNat = a.toNat % 16 := by
    rw [UInt8.toNat_and]
    exact Nat.and_two_pow_sub_one_eq_mod a.toNat 4
  have := a.toNat_lt
  rw [h1, h2]
  omega

theorem goStringLt_iff : ∀ a b : Bytes, goStringLt a b = true ↔ BytesLt a b
  | _, [] => by simp [goStringLt, BytesLt, LexLt]
  | [], _ :: _ => by simp [goStringLt, BytesLt, LexLt]
  | x :: a, y :: b => by
    have ih := goStringLt_iff a b
    simp only [goStringLt, BytesLt, LexLt]
    split
    · rename_i h
      have : x = y := by simpa using h
      subst this
      simp [ih, BytesLt, UInt8.lt_irrefl]
    · rename_i h
      have : x ≠ y := by simpa using h
      simp [this]

theorem hexEncode_lt : ∀ a b : Bytes, BytesLt (hexEncode a) (hexEncode b) ↔ BytesLt a b
  | _, [] => by simp [hexEncode, BytesLt, LexLt]
  | [], _ :: _ => by simp [hexEncode, BytesLt, LexLt]
  | x :: a, y :: b => by
    have ih := hexEncode_lt a b
    have hx := nibbles x
    have hy := nibbles y
    have h1 := hexDigit_lt_iff (x >>> 4) (y >>> 4) hx.2.1 hy.2.1
    have h2 := hexDigit_lt_iff (x &&& 0x0f) (y &&& 0x0f) hx.2.2 hy.2.2
    simp only [BytesLt] at ih
    simp only [hexEncode, BytesLt, LexLt, h1.1, h1.2, h2.1, h2.2, ih]
    have e1 : ∀ u v : UInt8, u < v ↔ u.toNat < v.toNat := fun _ _ => Iff.rfl
    have e2 : ∀ u v : UInt8, u = v ↔ u.toNat = v.toNat := fun _ _ => UInt8.toNat_inj.symm
    rw [e1 (x >>> 4), e2 (x >>> 4), e1 (x &&& 15), e2 (x &&& 15), e1 x, e2 x]
    constructor
    · rintro (h | ⟨h, h' | ⟨h', h''⟩⟩)
      · left; omega
      · left; omega
      · right; exact ⟨by omega, h''⟩
    · rintro (h | ⟨h, h'⟩)
      · by_cases hc : (x >>> 4).toNat < (y >>> 4).toNat
        · exact .inl hc
        · right; refine ⟨by omega, .inl (by omega)⟩
      · right; refine ⟨by omega, .inr ⟨by omega, h'⟩⟩

theorem decides_subspace : Decides BytesLt orderSubspace := decides_mk bytesLt_strictTotal fun a b => by
  unfold orderSubspace
  split
  · rename_i h
    rw [goStringLt_iff, hexEncode_lt] at h
    simpa using h
  · split
    · rename_i h
      rw [goStringLt_iff, hexEncode_lt] at h
      simpa using h
    · rename_i h1 h2
      rw [goStringLt_iff, hexEncode_lt] at h1 h2
      simp only [reduceCtorEq, false_implies, true_and, forall_const, and_true]
      exact bytesLt_strictTotal.le_antisymm h2 h1

theorem decides_unique {α : Type} {lt : α → α → Prop} {c1 c2 : α → α → Ordering}
    (h1 : Decides lt c1) (h2 : Decides lt c2) (a b : α) : c1 a b = c2 a b := by
  cases hc : c1 a b with
  | lt => exact ((h2.lt_iff a b).2 ((h1.lt_iff a b).1 hc)).symm
  | eq => exact ((h2.eq_iff a b).2 ((h1.eq_iff a b).1 hc)).symm
  | gt => exact ((h2.gt_iff a b).2 ((h1.gt_iff a b).1 hc)).symm

/-! ### Prefixes -/

theorem isPathPrefixedLoop_iff : ∀ a b : Path, isPathPrefixedLoop a b = true ↔ a <+: b
  | [], _ => by simp [isPathPrefixedLoop]
  | _ :: _, [] => by simp [isPathPrefixedLoop]
  | x :: a, y :: b => by
    have ih := isPathPrefixedLoop_iff a b
    have hb := decides_bytes.eq_iff x y
    simp only [isPathPrefixedLoop, List.cons_prefix_cons, ne_eq, hb]
    by_cases h : x = y <;> simp [h, ih]

theorem isPathPrefixed_iff (a b : Path) : isPathPrefixed a b = true ↔ a <+: b := by
  unfold isPathPrefixed
  split
  · rename_i h
    simp only [Bool.false_eq_true, false_iff]
    intro hp; have := hp.length_le; omega
  · exact isPathPrefixedLoop_iff a b

theorem lexLt_append {α : Type} {lt : α → α → Prop} : ∀ (a : List α) {t : List α}, t ≠ [] → LexLt lt a (a ++ t)
  | [], t, h => by cases t <;> simp_all [LexLt]
  | x :: a, t, h => by
    simp only [List.cons_append, LexLt, true_and]
    exact .inr (lexLt_append a h)

theorem lexLt_append_left {α : Type} {lt : α → α → Prop} (hi : ∀ a, ¬ lt a a) : ∀ (p : List α) {a b : List α},
    LexLt lt (p ++ a) (p ++ b) ↔ LexLt lt a b
  | [], _, _ => by simp
  | x :: p, a, b => by
    simp only [List.cons_append, LexLt, lexLt_append_left hi p, hi x, false_or, true_and]

theorem lexLt_nil {α : Type} {lt : α → α → Prop} (a : List α) : ¬ LexLt lt a [] := by
  cases a <;> simp [LexLt]

theorem prefix_not_lt {α : Type} {lt : α → α → Prop} (h : StrictTotal lt) {a b : List α} (hp : a <+: b) :
    ¬ LexLt lt b a := by
  obtain ⟨t, rfl⟩ := hp
  by_cases ht : t = []
  · subst ht; simpa using lexLt_irrefl h.irrefl a
  · exact (lexLt_strictTotal h).asymm (lexLt_append a ht)

/-- Anything between a list and one of its extensions is an extension. -/
theorem prefix_of_between {α : Type} {lt : α → α → Prop} (h : StrictTotal lt) :
    ∀ {p q r : List α}, ¬ LexLt lt q p → ¬ LexLt lt r q → p <+: r → p <+: q
  | [], _, _, _, _, _ => by simp
  | _ :: _, _, [], _, _, hp => by simp at hp
  | x :: p, [], _ :: _, h1, _, _ => by simp [LexLt] at h1
  | x :: p, y :: q, z :: r, h1, h2, hp => by
    simp only [LexLt, not_or, not_and] at h1 h2
    rw [List.cons_prefix_cons] at hp
    obtain ⟨rfl, hp⟩ := hp
    have hxy : x = y := h.le_antisymm h1.1 h2.1
    subst hxy
    rw [List.cons_prefix_cons]
    exact ⟨rfl, prefix_of_between h (h1.2 rfl) (h2.2 rfl) hp⟩

end Willow
