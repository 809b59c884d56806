import Verif.Spec.EntriesFile

/-! A text in JSON is that of one value only, and a text in base 64 that of one byte string. -/

namespace Willow
open Spec

theorem span_unique {α : Type} (P : α → Prop) : ∀ (d e r r' : List α), (∀ c ∈ d, P c) → (∀ c ∈ e, P c) → (∀ c, r.head? = some c → ¬ P c) →
    (∀ c, r'.head? = some c → ¬ P c) → d ++ r = e ++ r' → d = e ∧ r = r'
  | [], [], _, _, _, _, _, _, h => ⟨rfl, h⟩
  | [], b :: e, r, r', _, he, hr, _, h => by
    rw [List.nil_append] at h
    exact absurd (he b List.mem_cons_self) (hr b (by rw [h]; rfl))
  | a :: d, [], r, r', hd, _, _, hr', h => by
    rw [List.nil_append] at h
    exact absurd (hd a List.mem_cons_self) (hr' a (by rw [← h]; rfl))
  | a :: d, b :: e, r, r', hd, he, hr, hr', h => by
    rw [List.cons_append, List.cons_append, List.cons.injEq] at h
    obtain ⟨h1, h2⟩ := span_unique P d e r r' (fun c hc => hd c (List.mem_cons_of_mem _ hc)) (fun c hc => he c (List.mem_cons_of_mem _ hc))
      hr hr' h.2
    exact ⟨by rw [h.1, h1], h2⟩

/-- Not the beginning of more digits. -/
def Stops (r : Bytes) : Prop := ∀ c, r.head? = some c → ¬ (48 ≤ c ∧ c ≤ 57)

/-- What the text of a value begins with. -/
def BeginsAs : Json → UInt8 → Prop
  | .null, c => c = 110
  | .number _, c => 48 ≤ c ∧ c ≤ 57
  | .string _, c => c = 34
  | .array _, c => c = 91
  | .object _, c => c = 123

theorem jsonText_begins {x : Json} {t : Bytes} (h : JsonText x t) : ∃ c t', t = c :: t' ∧ BeginsAs x c := by
  cases h with
  | null => exact ⟨110, [117, 108, 108], by decide +kernel, rfl⟩
  | number h1 h2 _ _ =>
    cases t with
    | nil => exact absurd rfl h1
    | cons c t => exact ⟨c, t, rfl, h2 c List.mem_cons_self⟩
  | string _ => exact ⟨34, _, rfl, rfl⟩
  | empty => exact ⟨91, _, rfl, rfl⟩
  | array _ => exact ⟨91, _, rfl, rfl⟩
  | object _ => exact ⟨123, _, rfl, rfl⟩

theorem jsonItems_begins {l : List Json} {t : Bytes} (h : JsonItems l t) : ∃ c t', t = c :: t' ∧ c ≠ 93 := by
  have key : ∀ {x : Json} {t : Bytes}, JsonText x t → ∃ c t', t = c :: t' ∧ c ≠ 93 := by
    intro x t h
    obtain ⟨c, t', h1, h2⟩ := jsonText_begins h
    refine ⟨c, t', h1, ?_⟩
    rintro rfl
    cases x <;> simp only [BeginsAs] at h2 <;> revert h2 <;> decide
  cases h with
  | one h => exact key h
  | more h _ =>
    obtain ⟨c, t', rfl, hc⟩ := key h
    exact ⟨c, _, rfl, hc⟩

/-- Texts that begin alike are of values of the same kind. -/
theorem begins_same {x y : Json} {t u r r' : Bytes} (hx : JsonText x t) (hy : JsonText y u) (h : t ++ r = u ++ r') :
    ∃ c, BeginsAs x c ∧ BeginsAs y c := by
  obtain ⟨c, t', rfl, h1⟩ := jsonText_begins hx
  obtain ⟨d, u', rfl, h2⟩ := jsonText_begins hy
  rw [List.cons_append, List.cons_append, List.cons.injEq] at h
  exact ⟨c, h1, h.1 ▸ h2⟩

theorem string_unique {s s' r r' : Bytes} (hs : Plain s) (hs' : Plain s') (h : [34] ++ s ++ [34] ++ r = [34] ++ s' ++ [34] ++ r') :
    s = s' ∧ r = r' := by
  have h : s ++ 34 :: r = s' ++ 34 :: r' := by simpa using h
  obtain ⟨h1, h2⟩ := span_unique (· ≠ 34) s s' _ _ (fun c hc => (hs c hc).2.2.1) (fun c hc => (hs' c hc).2.2.1)
    (fun c hc => by cases hc; simp) (fun c hc => by cases hc; simp) h
  exact ⟨h1, (List.cons.inj h2).2⟩

mutual
theorem jsonText_unique {x : Json} {t : Bytes} (hx : JsonText x t) {y : Json} {u r r' : Bytes} (hy : JsonText y u)
    (h : t ++ r = u ++ r') (hr : Stops r) (hr' : Stops r') : x = y ∧ t = u := by
  have hk := begins_same hx hy h
  obtain ⟨c, hc, hc'⟩ := hk
  match hx with
  | .null =>
    cases hy with
    | null => exact ⟨rfl, rfl⟩
    | number => cases hc; exact absurd hc' (by simp only [BeginsAs]; decide)
    | string | empty | array | object => cases hc; exact absurd hc' (by simp only [BeginsAs]; decide)
  | .number h1 h2 _ h4 =>
    cases hy with
    | number g1 g2 _ g4 =>
      obtain ⟨e1, -⟩ := span_unique (fun c => 48 ≤ c ∧ c ≤ 57) _ _ _ _ h2 g2 hr hr' h
      subst e1
      exact ⟨by rw [← h4, ← g4], rfl⟩
    | null | string | empty | array | object => cases hc'; exact absurd hc (by simp only [BeginsAs]; decide)
  | .string h1 =>
    cases hy with
    | string g1 =>
      obtain ⟨e1, -⟩ := string_unique h1 g1 h
      subst e1
      exact ⟨rfl, rfl⟩
    | null => cases hc; exact absurd hc' (by simp only [BeginsAs]; decide)
    | number => cases hc; exact absurd hc' (by simp only [BeginsAs]; decide)
    | empty | array | object => cases hc; exact absurd hc' (by simp only [BeginsAs]; decide)
  | .empty =>
    cases hy with
    | empty => exact ⟨rfl, rfl⟩
    | array g =>
      obtain ⟨d, t', rfl, hd⟩ := jsonItems_begins g
      simp only [List.cons_append, List.nil_append, List.cons.injEq, true_and] at h
      exact absurd h.1.symm hd
    | null | string | number | object => cases hc; exact absurd hc' (by simp only [BeginsAs]; decide)
  | .array h1 =>
    cases hy with
    | empty =>
      obtain ⟨d, t', rfl, hd⟩ := jsonItems_begins h1
      simp only [List.cons_append, List.nil_append, List.cons.injEq, true_and] at h
      exact absurd h.1 hd
    | array g =>
      obtain ⟨e1, e2⟩ := jsonItems_unique h1 g (r := 93 :: r) (r' := 93 :: r') (by simpa using h) rfl rfl
      subst e1 e2
      exact ⟨rfl, rfl⟩
    | null | string | number | object => cases hc; exact absurd hc' (by simp only [BeginsAs]; decide)
  | .object h1 =>
    cases hy with
    | object g =>
      obtain ⟨e1, e2⟩ := jsonFields_unique h1 g (r := 125 :: r) (r' := 125 :: r') (by simpa using h) rfl rfl
      subst e1 e2
      exact ⟨rfl, rfl⟩
    | null | string | number | array | empty => cases hc; exact absurd hc' (by simp only [BeginsAs]; decide)

theorem jsonItems_unique {l : List Json} {t : Bytes} (hx : JsonItems l t) {m : List Json} {u r r' : Bytes} (hy : JsonItems m u)
    (h : t ++ r = u ++ r') (hr : r.head? = some 93) (hr' : r'.head? = some 93) : l = m ∧ t = u := by
  have st : ∀ {r : Bytes}, r.head? = some 93 → Stops r := fun hr c hc => by
    rw [hr] at hc
    cases hc
    decide
  have comma : ∀ r : Bytes, Stops (44 :: r) := fun r c hc => by cases hc; decide
  match hx with
  | @JsonItems.one _ t1 h1 =>
    cases hy with
    | @one _ _ g1 =>
      obtain ⟨e1, e2⟩ := jsonText_unique h1 g1 h (st hr) (st hr')
      exact ⟨by rw [e1], e2⟩
    | @more _ u1 _ us g1 g2 =>
      have h : t1 ++ r = u1 ++ 44 :: (us ++ r') := by simpa using h
      obtain ⟨e1, e2⟩ := jsonText_unique h1 g1 h (st hr) (comma _)
      rw [e2] at h
      have := List.append_cancel_left h
      rw [this] at hr
      cases hr
  | @JsonItems.more _ t1 _ ts h1 h2 =>
    cases hy with
    | @one _ _ g1 =>
      have h : t1 ++ 44 :: (ts ++ r) = u ++ r' := by simpa using h
      obtain ⟨e1, e2⟩ := jsonText_unique h1 g1 h (comma _) (st hr')
      rw [e2] at h
      have := List.append_cancel_left h
      rw [← this] at hr'
      cases hr'
    | @more _ u1 _ us g1 g2 =>
      have h : t1 ++ 44 :: (ts ++ r) = u1 ++ 44 :: (us ++ r') := by simpa using h
      obtain ⟨e1, e2⟩ := jsonText_unique h1 g1 h (comma _) (comma _)
      rw [e2] at h
      have := (List.cons.inj (List.append_cancel_left h)).2
      obtain ⟨e3, e4⟩ := jsonItems_unique h2 g2 this hr hr'
      exact ⟨by rw [e1, e3], by rw [e2, e4]⟩

theorem jsonFields_unique {l : List (Bytes × Json)} {t : Bytes} (hx : JsonFields l t) {m : List (Bytes × Json)} {u r r' : Bytes}
    (hy : JsonFields m u) (h : t ++ r = u ++ r') (hr : r.head? = some 125) (hr' : r'.head? = some 125) : l = m ∧ t = u := by
  have st : ∀ {r : Bytes}, r.head? = some 125 → Stops r := fun hr c hc => by
    rw [hr] at hc
    cases hc
    decide
  have comma : ∀ r : Bytes, Stops (44 :: r) := fun r c hc => by cases hc; decide
  match hx with
  | @JsonFields.one _ _ t1 h0 h1 =>
    cases hy with
    | @one _ _ u1 g0 g1 =>
      obtain ⟨e0, h⟩ := string_unique h0 g0 (r := 58 :: (t1 ++ r)) (r' := 58 :: (u1 ++ r')) (by simpa using h)
      obtain ⟨e1, e2⟩ := jsonText_unique h1 g1 (List.cons.inj h).2 (st hr) (st hr')
      exact ⟨by rw [e0, e1], by rw [e0, e2]⟩
    | @more _ _ u1 _ us g0 g1 g2 =>
      obtain ⟨e0, h⟩ := string_unique h0 g0 (r := 58 :: (t1 ++ r)) (r' := 58 :: (u1 ++ 44 :: (us ++ r'))) (by simpa using h)
      obtain ⟨e1, e2⟩ := jsonText_unique h1 g1 (List.cons.inj h).2 (st hr) (comma _)
      rw [e2] at h
      have := List.append_cancel_left (List.cons.inj h).2
      rw [this] at hr
      cases hr
  | @JsonFields.more _ _ t1 _ ts h0 h1 h2 =>
    cases hy with
    | @one _ _ u1 g0 g1 =>
      obtain ⟨e0, h⟩ := string_unique h0 g0 (r := 58 :: (t1 ++ 44 :: (ts ++ r))) (r' := 58 :: (u1 ++ r')) (by simpa using h)
      obtain ⟨e1, e2⟩ := jsonText_unique h1 g1 (List.cons.inj h).2 (comma _) (st hr')
      rw [e2] at h
      have := List.append_cancel_left (List.cons.inj h).2
      rw [← this] at hr'
      cases hr'
    | @more _ _ u1 _ us g0 g1 g2 =>
      obtain ⟨e0, h⟩ := string_unique h0 g0 (r := 58 :: (t1 ++ 44 :: (ts ++ r))) (r' := 58 :: (u1 ++ 44 :: (us ++ r'))) (by simpa using h)
      obtain ⟨e1, e2⟩ := jsonText_unique h1 g1 (List.cons.inj h).2 (comma _) (comma _)
      rw [e2] at h
      have := (List.cons.inj (List.append_cancel_left (List.cons.inj h).2)).2
      obtain ⟨e3, e4⟩ := jsonFields_unique h2 g2 this hr hr'
      exact ⟨by rw [e0, e1, e3], by rw [e0, e2, e4]⟩
end

theorem alphabet_places : ∀ (p q : List Nat), (∀ n ∈ p, n < 64) → (∀ n ∈ q, n < 64) →
    p.map (base64Alphabet[·]?) = q.map (base64Alphabet[·]?) → p = q
  | [], [], _, _, _ => rfl
  | [], _ :: _, _, _, h => by cases h
  | _ :: _, [], _, _, h => by cases h
  | m :: p, n :: q, hp, hq, h => by
    rw [List.map_cons, List.map_cons, List.cons.injEq] at h
    have key : ∀ m : Fin 64, ((base64Alphabet[m.val]?).bind fun c => base64Alphabet.idxOf? c) = some m.val := by decide +kernel
    have h1 := key ⟨m, hp m List.mem_cons_self⟩
    have h2 := key ⟨n, hq n List.mem_cons_self⟩
    simp only [h.1] at h1
    have e : m = n := Option.some.inj (h1.symm.trans h2)
    rw [e, alphabet_places p q (fun k hk => hp k (List.mem_cons_of_mem _ hk)) (fun k hk => hq k (List.mem_cons_of_mem _ hk)) h.2]

theorem bits_unique : ∀ (a b : Bytes), a.flatMap (fun b => binary 8 b.toNat) = b.flatMap (fun b => binary 8 b.toNat) → a = b
  | [], [], _ => rfl
  | [], _ :: _, h => by simp [binary] at h
  | _ :: _, [], h => by simp [binary] at h
  | x :: a, y :: b, h => by
    rw [List.flatMap_cons, List.flatMap_cons] at h
    obtain ⟨h1, h2⟩ := List.append_inj h (by simp [binary])
    have key : ∀ n : Fin 256, (binary 8 n.val).foldl (fun v d => 2 * v + d) 0 = n.val := by decide +kernel
    have k1 := key ⟨x.toNat, x.toNat_lt⟩
    have k2 := key ⟨y.toNat, y.toNat_lt⟩
    simp only [h1] at k1
    rw [UInt8.toNat_inj.1 (k1.symm.trans k2), bits_unique a b h2]

theorem base64Text_unique {a b t : Bytes} (ha : Base64Text a t) (hb : Base64Text b t) : a = b := by
  obtain ⟨p, i, h1, -, -, h4⟩ := ha
  obtain ⟨q, j, g1, -, -, g4⟩ := hb
  have small : ∀ {p : List Nat} {i : Nat}, t.map some = p.map (base64Alphabet[·]?) ++ List.replicate i (some 61) → ∀ n ∈ p, n < 64 := by
    intro p i h n hn
    have hm : base64Alphabet[n]? ∈ t.map some := by
      rw [h]
      exact List.mem_append_left _ (List.mem_map.2 ⟨n, hn, rfl⟩)
    obtain ⟨c, -, hc⟩ := List.mem_map.1 hm
    have := (List.getElem?_eq_some_iff.1 hc.symm).1
    rwa [show base64Alphabet.length = 64 by decide +kernel] at this
  have mem : ∀ p : List Nat, ∀ c ∈ p.map (base64Alphabet[·]?), c ≠ some 61 := by
    rintro p c hc rfl
    obtain ⟨n, -, hn⟩ := List.mem_map.1 hc
    exact absurd (List.mem_of_getElem? hn) (by decide +kernel)
  have head : ∀ (i : Nat) (c : Option UInt8), (List.replicate i (some (61 : UInt8))).head? = some c → ¬ c ≠ some 61 := by
    intro i c hc hne
    exact hne (List.eq_of_mem_replicate (List.mem_of_mem_head? hc))
  obtain ⟨e1, e2⟩ := span_unique (· ≠ some 61) _ _ _ _ (mem p) (mem q) (head i) (head j) (h1.symm.trans g1)
  have e3 := alphabet_places p q (small h1) (small g1) e1
  have e4 : i = j := by simpa using congrArg List.length e2
  subst e3 e4
  exact bits_unique a b (List.append_cancel_right (h4.symm.trans g4))

theorem strings_inj : ∀ (l m : List Bytes), l.map Json.string = m.map Json.string → l = m
  | [], [], _ => rfl
  | [], _ :: _, h => by cases h
  | _ :: _, [], h => by cases h
  | a :: l, b :: m, h => by
    rw [List.map_cons, List.map_cons, List.cons.injEq, Json.string.injEq] at h
    rw [h.1, strings_inj l m h.2]

theorem base64Texts_unique {l m texts : List Bytes} (hl : Base64Texts l texts) (hm : Base64Texts m texts) : l = m := by
  refine List.ext_getElem (hl.1.symm.trans hm.1) fun i h1 h2 => ?_
  have h3 : i < texts.length := hl.1 ▸ h1
  exact base64Text_unique (hl.2 i _ _ (List.getElem?_eq_getElem h1) (List.getElem?_eq_getElem h3))
    (hm.2 i _ _ (List.getElem?_eq_getElem h2) (List.getElem?_eq_getElem h3))

theorem tellsKey_unique {k k' : KdKey} {v : Json} (h : TellsKey k v) (h' : TellsKey k' v) : k = k' := by
  obtain ⟨s, p, h1, h2, rfl⟩ := h
  obtain ⟨s', p', g1, g2, e⟩ := h'
  simp only [Json.object.injEq, List.cons.injEq, Prod.mk.injEq, Json.number.injEq, Json.string.injEq, Json.array.injEq, true_and, and_true] at e
  obtain ⟨e1, e2, e3, e4⟩ := e
  have e3 := strings_inj _ _ e3
  subst e2 e3
  obtain ⟨⟨sub, path, time⟩, fp⟩ := k
  obtain ⟨⟨sub', path', time'⟩, fp'⟩ := k'
  have d1 : sub = sub' := base64Text_unique h1 g1
  have d2 : path = path' := base64Texts_unique h2 g2
  have d3 : time = time' := UInt64.toNat_inj.1 e1
  have d4 : fp = fp' := e4
  rw [d1, d2, d3, d4]

end Willow
