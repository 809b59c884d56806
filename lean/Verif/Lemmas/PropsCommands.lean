import Verif.Spec.Commands
import Verif.Lemmas.App
import Verif.Lemmas.Order
import Verif.Lemmas.Handles

/-! Lemmas about the command loops. -/

namespace Willow.Props

open Spec

theorem isWord_noSpace {w : Bytes} (h : IsWord w) : (32 : UInt8) ∉ w := by
  intro hm
  exact h.narrow _ hm (by decide)

theorem spaceRunes_utf8 : ∀ r, r ∈ spaceRunes ↔ ∃ c ∈ allBlanks, utf8 c = r := by
  intro r
  constructor
  · revert r
    decide +kernel
  · rintro ⟨c, hc, rfl⟩
    revert c
    decide +kernel

/-- No member of the table is the beginning of another, and none is empty. -/
structure Code (runes : List Bytes) : Prop where
  ne : [] ∉ runes
  free : ∀ a ∈ runes, ∀ b ∈ runes, a <+: b → a = b

theorem code_spaces : Code spaceRunes := ⟨by decide, by decide +kernel⟩

theorem code_spacesR : Code (spaceRunes.map List.reverse) := ⟨by decide, by decide +kernel⟩

theorem trimFront_id {runes : List Bytes} (n : Nat) {t : Bytes} (h : ∀ r ∈ runes, ¬ r <+: t) : trimFront runes n t = t := by
  cases n with
  | zero => rfl
  | succ n =>
    unfold trimFront
    rw [List.find?_eq_none.2 fun r hr hp => h r hr (List.isPrefixOf_iff_prefix.1 hp)]

theorem trimFront_cons {runes : List Bytes} (hc : Code runes) {r : Bytes} (hr : r ∈ runes) (n : Nat) (t : Bytes) :
    trimFront runes (n + 1) (r ++ t) = trimFront runes n t := by
  rw [trimFront]
  cases hf : runes.find? fun x => x.isPrefixOf (r ++ t) with
  | none =>
    have := List.find?_eq_none.1 hf r hr
    exact absurd (List.isPrefixOf_iff_prefix.2 (List.prefix_append r t)) this
  | some x =>
    have hx : x <+: r ++ t := by
      have := List.find?_some hf
      exact List.isPrefixOf_iff_prefix.1 this
    have hm := List.mem_of_find?_eq_some hf
    have e : x = r := by
      rcases List.prefix_or_prefix_of_prefix hx (List.prefix_append r t) with h | h
      · exact hc.free _ hm _ hr h
      · exact (hc.free _ hr _ hm h).symm
    subst e
    simp

/-- What is left is determined: the rest that begins with nothing of the table. -/
theorem trimFront_eq {runes : List Bytes} (hc : Code runes) (pre : List Bytes) (hp : ∀ r ∈ pre, r ∈ runes) (t : Bytes)
    (ht : ∀ r ∈ runes, ¬ r <+: t) (n : Nat) (hn : (pre.flatten ++ t).length ≤ n) : trimFront runes n (pre.flatten ++ t) = t := by
  induction pre generalizing n with
  | nil => exact trimFront_id n ht
  | cons r pre ih =>
    have hr := hp r (by simp)
    have hl : 0 < r.length := List.length_pos_iff.2 fun h => hc.ne (h ▸ hr)
    rw [List.flatten_cons, List.append_assoc] at hn ⊢
    rw [List.length_append] at hn
    obtain ⟨m, rfl⟩ : ∃ m, n = m + 1 := ⟨n - 1, by omega⟩
    rw [trimFront_cons hc hr]
    exact ih (fun x hx => hp x (by simp [hx])) m (by omega)

theorem trimFront_split {runes : List Bytes} (hc : Code runes) (n : Nat) (s : Bytes) (hn : s.length ≤ n) :
    ∃ pre : List Bytes, (∀ r ∈ pre, r ∈ runes) ∧ s = pre.flatten ++ trimFront runes n s ∧ ∀ r ∈ runes, ¬ r <+: trimFront runes n s := by
  induction n generalizing s with
  | zero =>
    obtain rfl := List.length_eq_zero_iff.1 (Nat.le_zero.1 hn)
    refine ⟨[], by simp, by simp [trimFront], fun r hr hp => hc.ne ?_⟩
    rw [trimFront, List.prefix_nil] at hp
    rwa [hp] at hr
  | succ n ih =>
    by_cases h : ∃ r ∈ runes, r <+: s
    · obtain ⟨r, hr, t, rfl⟩ := h
      have hl : 0 < r.length := List.length_pos_iff.2 fun h => hc.ne (h ▸ hr)
      rw [List.length_append] at hn
      obtain ⟨pre, h1, h2, h3⟩ := ih t (by omega)
      rw [trimFront_cons hc hr]
      refine ⟨r :: pre, by simpa using ⟨hr, h1⟩, ?_, h3⟩
      rw [List.flatten_cons, List.append_assoc, ← h2]
    · have h' : ∀ r ∈ runes, ¬ r <+: s := fun r hr hp => h ⟨r, hr, hp⟩
      rw [trimFront_id _ h']
      exact ⟨[], by simp, by simp, h'⟩

theorem splitSpace_append (a : Bytes) (ha : (32 : UInt8) ∉ a) (rest : Bytes) : splitSpace (a ++ 32 :: rest) = a :: splitSpace rest := by
  induction a with
  | nil => simp [splitSpace]
  | cons c a ih =>
    rw [List.mem_cons, not_or] at ha
    simp only [List.cons_append, splitSpace, ih ha.2]
    rw [if_neg (Ne.symm ha.1)]

theorem splitSpace_single (a : Bytes) (ha : (32 : UInt8) ∉ a) : splitSpace a = [a] := by
  induction a with
  | nil => rfl
  | cons c a ih =>
    rw [List.mem_cons, not_or] at ha
    simp only [splitSpace, ih ha.2]
    rw [if_neg (Ne.symm ha.1)]

theorem splitSpace_spaced (w : Bytes) (ws : List Bytes) (h : ∀ x ∈ w :: ws, (32 : UInt8) ∉ x) : splitSpace (spaced (w :: ws)) = w :: ws := by
  induction ws generalizing w with
  | nil => exact splitSpace_single w (h w (by simp))
  | cons v ws ih =>
    show splitSpace (w ++ 32 :: spaced (v :: ws)) = _
    rw [splitSpace_append w (h w (by simp)), ih v (fun x hx => h x (List.mem_cons_of_mem _ hx))]

theorem spaced_head (w : Bytes) (ws : List Bytes) : ∃ rest, spaced (w :: ws) = w ++ rest := by
  cases ws with
  | nil => exact ⟨[], by simp [spaced]⟩
  | cons v ws => exact ⟨_, rfl⟩

theorem spaced_last (w : Bytes) (ws : List Bytes) : ∃ start, spaced (w :: ws) = start ++ (w :: ws).getLast (by simp) := by
  induction ws generalizing w with
  | nil => exact ⟨[], by simp [spaced]⟩
  | cons v ws ih =>
    obtain ⟨s, hs⟩ := ih v
    refine ⟨w ++ 32 :: s, ?_⟩
    show w ++ 32 :: spaced (v :: ws) = _
    rw [hs]
    simp

theorem prefix_append_cases {r a b : Bytes} (h : r <+: a ++ b) : r <+: a ∨ ∃ y, r = a ++ y ∧ y <+: b := by
  rcases List.prefix_or_prefix_of_prefix h (List.prefix_append a b) with h1 | ⟨y, rfl⟩
  · exact Or.inl h1
  · exact Or.inr ⟨y, rfl, (List.prefix_append_right_inj a).1 h⟩

/-- A word followed by nothing or by a space begins with nothing of the table. -/
theorem front_word {runes : List Bytes} (hr : ∀ r ∈ runes, (32 : UInt8) ∈ r → r = [32]) {w rest : Bytes} (hne : w ≠ [])
    (h32 : (32 : UInt8) ∉ w) (hw : ∀ r ∈ runes, ¬ r <+: w) (hrest : rest = [] ∨ ∃ t, rest = 32 :: t) :
    ∀ r ∈ runes, ¬ r <+: w ++ rest := by
  intro r hm hp
  rcases prefix_append_cases hp with h | ⟨y, e, hy⟩
  · exact hw r hm h
  rcases hrest with rfl | ⟨t, rfl⟩
  · obtain rfl := List.prefix_nil.1 hy
    exact hw r hm (by rw [e, List.append_nil]; exact List.prefix_refl _)
  cases y with
  | nil => exact hw r hm (by rw [e, List.append_nil]; exact List.prefix_refl _)
  | cons c y =>
    obtain ⟨rfl, _⟩ := List.cons_prefix_cons.1 hy
    have := hr r hm (by rw [e]; simp)
    rw [e] at this
    cases w with
    | nil => exact hne rfl
    | cons d w => simp at this

theorem word_front {w : Bytes} (h : IsWord w) : ∀ r ∈ spaceRunes, ¬ r <+: w := by
  intro r hr hp
  obtain ⟨c, hc, rfl⟩ := (spaceRunes_utf8 r).1 hr
  rcases List.mem_append.1 hc with hc | hc
  · rw [List.mem_map] at hc
    obtain ⟨b, hb, rfl⟩ := hc
    have e : ∀ b ∈ blanks, utf8 b.toNat = [b] := by decide
    rw [e b hb] at hp
    exact h.narrow b (hp.subset (by simp)) hb
  · exact (h.wide c hc).1 hp

theorem word_back {w : Bytes} (h : IsWord w) : ∀ r ∈ spaceRunes.map List.reverse, ¬ r <+: w.reverse := by
  intro r hr hp
  rw [List.mem_map] at hr
  obtain ⟨r, hr, rfl⟩ := hr
  rw [List.reverse_prefix] at hp
  obtain ⟨c, hc, rfl⟩ := (spaceRunes_utf8 r).1 hr
  rcases List.mem_append.1 hc with hc | hc
  · rw [List.mem_map] at hc
    obtain ⟨b, hb, rfl⟩ := hc
    have e : ∀ b ∈ blanks, utf8 b.toNat = [b] := by decide
    rw [e b hb] at hp
    exact h.narrow b (hp.subset (by simp)) hb
  · exact (h.wide c hc).2 hp

theorem trimLeft_word {w rest : Bytes} (h : IsWord w) (hrest : rest = [] ∨ ∃ t, rest = 32 :: t) : trimLeft (w ++ rest) = w ++ rest :=
  trimFront_id _ (front_word (by decide) h.some (isWord_noSpace h) (word_front h) hrest)

theorem trimRight_word {w before : Bytes} (h : IsWord w) (hb : before = [] ∨ ∃ t, before = t ++ [32]) :
    trimRight (before ++ w) = before ++ w := by
  unfold trimRight
  rw [List.reverse_append, trimFront_id _ (front_word (by decide) (by simpa using h.some) (by simpa using isWord_noSpace h) (word_back h) ?_),
    List.reverse_append, List.reverse_reverse, List.reverse_reverse]
  rcases hb with rfl | ⟨t, rfl⟩
  · exact Or.inl rfl
  · exact Or.inr ⟨t.reverse, by simp⟩

/-- White space before a line is cut off. -/
theorem trimLeft_split (s : Bytes) : ∃ pre : List Bytes, (∀ r ∈ pre, r ∈ spaceRunes) ∧ s = pre.flatten ++ trimLeft s ∧ ∀ r ∈ spaceRunes, ¬ r <+: trimLeft s :=
  trimFront_split code_spaces s.length s (Nat.le_refl _)

theorem trimLeft_eq (pre : List Bytes) (hp : ∀ r ∈ pre, r ∈ spaceRunes) (t : Bytes) (ht : ∀ r ∈ spaceRunes, ¬ r <+: t) :
    trimLeft (pre.flatten ++ t) = t := trimFront_eq code_spaces pre hp t ht _ (Nat.le_refl _)

theorem flatten_reverse' (post : List Bytes) : post.flatten.reverse = (post.map List.reverse).reverse.flatten := by
  induction post with
  | nil => rfl
  | cons a post ih => simp [ih]

/-- White space after a line is cut off. -/
theorem trimRight_append (post : List Bytes) (hp : ∀ r ∈ post, r ∈ spaceRunes) (t : Bytes) : trimRight (t ++ post.flatten) = trimRight t := by
  unfold trimRight
  obtain ⟨pre, h1, h2, h3⟩ := trimFront_split code_spacesR t.reverse.length t.reverse (Nat.le_refl _)
  rw [List.length_reverse] at h2 h3
  have e : (t ++ post.flatten).reverse = ((post.map List.reverse).reverse ++ pre).flatten ++ trimFront (spaceRunes.map List.reverse) t.length t.reverse := by
    rw [List.flatten_append, List.append_assoc, ← h2, List.reverse_append, flatten_reverse']
  have hl : (t ++ post.flatten).length = (t ++ post.flatten).reverse.length := List.length_reverse.symm
  rw [hl, e, trimFront_eq code_spacesR _ ?_ _ h3 _ (Nat.le_refl _)]
  intro r hr
  rcases List.mem_append.1 hr with hr | hr
  · simp only [List.mem_reverse, List.mem_map] at hr ⊢
    obtain ⟨x, hx, rfl⟩ := hr
    exact ⟨x, hp x hx, rfl⟩
  · exact h1 r hr

/-- No white space lies partly in a line and partly in white space after it. -/
theorem front_post (post : List Bytes) (hp : ∀ r ∈ post, r ∈ spaceRunes) {t : Bytes} (hne : t ≠ [])
    (ht : ∀ r ∈ spaceRunes, ¬ r <+: t) : ∀ r ∈ spaceRunes, ¬ r <+: t ++ post.flatten := by
  intro r hr h
  rcases prefix_append_cases h with h | ⟨y, e, hy⟩
  · exact ht r hr h
  cases y with
  | nil => exact ht r hr (by rw [e, List.append_nil]; exact List.prefix_refl _)
  | cons c y =>
    cases post with
    | nil => simp at hy
    | cons q post =>
      have hq := hp q (by simp)
      have k1 : ∀ r ∈ spaceRunes, ∀ d ∈ r.tail, 128 ≤ d ∧ d < 192 := by decide
      have k2 : ∀ r ∈ spaceRunes, ∃ d z, r = d :: z ∧ ¬ (128 ≤ d ∧ d < 192) := by
        intro r hr
        have : ∀ r ∈ spaceRunes, r ≠ [] ∧ ¬ (128 ≤ r.headD 0 ∧ r.headD 0 < 192) := by decide
        obtain ⟨a, b⟩ := this r hr
        cases r with
        | nil => exact absurd rfl a
        | cons d z => exact ⟨d, z, rfl, b⟩
      obtain ⟨d, z, rfl, hd⟩ := k2 q hq
      rw [List.flatten_cons, List.cons_append] at hy
      obtain ⟨rfl, _⟩ := List.cons_prefix_cons.1 hy
      cases t with
      | nil => exact hne rfl
      | cons x t => exact hd (k1 r hr c (by rw [e]; simp))

/-- White space around a line is cut off. -/
theorem trim_runes (pre post : List Bytes) (hpre : ∀ r ∈ pre, r ∈ spaceRunes) (hpost : ∀ r ∈ post, r ∈ spaceRunes) (l : Bytes) :
    trimSpace (pre.flatten ++ l ++ post.flatten) = trimSpace l := by
  obtain ⟨p, h1, h2, h3⟩ := trimLeft_split l
  unfold trimSpace
  by_cases hne : trimLeft l = []
  · rw [hne]
    rw [hne, List.append_nil] at h2
    have : trimLeft (pre.flatten ++ l ++ post.flatten) = [] := by
      have := trimLeft_eq (pre ++ p ++ post) (fun r hr => by
        simp only [List.mem_append] at hr
        rcases hr with (h | h) | h
        · exact hpre r h
        · exact h1 r h
        · exact hpost r h) [] (fun r hr hp => code_spaces.ne (by rw [List.prefix_nil] at hp; rwa [hp] at hr))
      rw [List.append_nil, List.flatten_append, List.flatten_append, ← h2] at this
      exact this
    rw [this]
  · have : trimLeft (pre.flatten ++ l ++ post.flatten) = trimLeft l ++ post.flatten := by
      have := trimLeft_eq (pre ++ p) (fun r hr => (List.mem_append.1 hr).elim (hpre r) (h1 r)) (trimLeft l ++ post.flatten)
        (front_post post hpost hne h3)
      rw [List.flatten_append, ← List.append_assoc, List.append_assoc pre.flatten, ← h2] at this
      exact this
    rw [this, trimRight_append post hpost]

/-- Code points of white space as members of the table. -/
theorem blanks_runes (cs : List Nat) (h : ∀ c ∈ cs, c ∈ allBlanks) : cs.flatMap utf8 = (cs.map utf8).flatten ∧ ∀ r ∈ cs.map utf8, r ∈ spaceRunes := by
  refine ⟨rfl, fun r hr => ?_⟩
  rw [List.mem_map] at hr
  obtain ⟨c, hc, rfl⟩ := hr
  exact (spaceRunes_utf8 _).2 ⟨c, h c hc, rfl⟩

/-- A byte of a line is kept, if it is no part of the two special letters. -/
theorem mem_toLower (s : Bytes) : ∀ c ∈ s, c ∉ ([0xC4, 0xB0, 0xE2, 0x84, 0xAA] : Bytes) →
    (if 65 ≤ c ∧ c ≤ 90 then c + 32 else c) ∈ toLower s := by
  fun_induction toLower s with
  | case1 => intro c hc; cases hc
  | case2 rest ih =>
    intro c hc hn
    simp only [List.mem_cons] at hc
    rcases hc with rfl | rfl | hc
    · exact absurd (by decide) hn
    · exact absurd (by decide) hn
    · exact List.mem_cons_of_mem _ (ih c hc hn)
  | case3 rest ih =>
    intro c hc hn
    simp only [List.mem_cons] at hc
    rcases hc with rfl | rfl | rfl | hc
    · exact absurd (by decide) hn
    · exact absurd (by decide) hn
    · exact absurd (by decide) hn
    · exact List.mem_cons_of_mem _ (ih c hc hn)
  | case4 d rest _ _ ih =>
    intro c hc hn
    rcases List.mem_cons.1 hc with rfl | hc
    · exact List.mem_cons_self
    · exact List.mem_cons_of_mem _ (ih c hc hn)

/-- A line with white space in it is not `exit`. -/
theorem blank_not_exit (a b : Bytes) (x : Nat) (h : x ∈ allBlanks) : toLower (a ++ utf8 x ++ b) ≠ Word.exit := by
  intro he
  have k : ∀ x ∈ allBlanks, ∃ c ∈ utf8 x, c ∉ ([0xC4, 0xB0, 0xE2, 0x84, 0xAA] : Bytes) ∧ (if 65 ≤ c ∧ c ≤ 90 then c + 32 else c) ∉ Word.exit := by
    decide +kernel
  obtain ⟨c, hc, h1, h2⟩ := k x h
  have := mem_toLower (a ++ utf8 x ++ b) c (by simp [hc]) h1
  rw [he] at this
  exact h2 this

theorem trim_spaced (w : Bytes) (ws : List Bytes) (h : ∀ x ∈ w :: ws, IsWord x) : trimSpace (spaced (w :: ws)) = spaced (w :: ws) := by
  unfold trimSpace
  have e1 : trimLeft (spaced (w :: ws)) = spaced (w :: ws) := by
    have hw := h w (by simp)
    cases ws with
    | nil => simpa [spaced] using trimLeft_word (rest := []) hw (Or.inl rfl)
    | cons v ws => exact trimLeft_word hw (Or.inr ⟨_, rfl⟩)
  rw [e1]
  obtain ⟨s, hs, hb⟩ : ∃ s, spaced (w :: ws) = s ++ (w :: ws).getLast (by simp) ∧ (s = [] ∨ ∃ t, s = t ++ [32]) := by
    clear e1 h
    induction ws generalizing w with
    | nil => exact ⟨[], by simp [spaced], Or.inl rfl⟩
    | cons v ws ih =>
      obtain ⟨s, hs, hb⟩ := ih v
      refine ⟨w ++ 32 :: s, ?_, Or.inr ?_⟩
      · show w ++ 32 :: spaced (v :: ws) = _
        rw [hs]
        simp
      · rcases hb with rfl | ⟨t, rfl⟩
        · exact ⟨w, rfl⟩
        · exact ⟨w ++ 32 :: t, by simp⟩
  rw [hs]
  exact trimRight_word (h _ (List.getLast_mem _)) hb

theorem spaced_not_exit (w v : Bytes) (ws : List Bytes) : toLower (spaced (w :: v :: ws)) ≠ Word.exit := by
  have := blank_not_exit w (spaced (v :: ws)) 32 (by decide)
  rw [List.append_assoc] at this
  exact this

theorem runOps_appendBind (env : StoreEnv) (a b : List StoreOp) (st : StoreState) :
    runOps env st (a ++ b) = (runOps env st a).bind fun st => runOps env st b := by
  induction a generalizing st with
  | nil => rfl
  | cons op a ih =>
    simp only [List.cons_append, runOps]
    cases h : runOp env st op with
    | ok r => simp only [Res.ok_bind]; exact ih _
    | err => rfl
    | crash => rfl
    | block => rfl

theorem byCommands_step {env : StoreEnv} {st st' : StoreState} {op : StoreOp} {r : Option (List Entry)} (h : ByCommands env st)
    (ho : CommandOp op) (hr : runOp env st op = .ok (r, st')) : ByCommands env st' := by
  obtain ⟨ops, h1, h2⟩ := h
  refine ⟨ops ++ [op], ?_, ?_⟩
  · intro o hm
    rcases List.mem_append.1 hm with hm | hm
    · exact h1 o hm
    · rw [List.mem_singleton.1 hm]; exact ho
  · rw [runOps_appendBind, h2]
    simp only [Res.bind, runOps, hr, Res.ok_bind]

theorem byCommands_empty (env : StoreEnv) : ByCommands env .empty := ⟨[], by simp, rfl⟩

theorem byCommands_restart {env : StoreEnv} {st st' : StoreState} (h : ByCommands env st)
    (hr : restart env (fun kv => kv) st = .ok st') : ByCommands env st' :=
  byCommands_step (op := .restart) (r := some []) h (.inl rfl) (by simp [runOp, hr, Res.ok_bind])

theorem setLine_byCommands {env : StoreEnv} {readFile : Bytes → FileRead} {now : UInt64} {st st' : StoreState} {dir dir' : Bool}
    {objects : List Bytes} {out : Printed} (h : ByCommands env st) (hr : setLine env readFile now st dir objects = .ok (.stay out st' dir')) : ByCommands env st' := by
  unfold setLine at hr
  split at hr
  · cases hr; exact h
  · split at hr
    · cases hr; exact h
    · cases hr
    · split at hr
      · cases hr
      · rename_i r he
        have key : ∀ x, r = .ok x → ByCommands env x.2 := by
          intro x hx
          subst hx
          unfold setCommand at he
          split at he
          · simp only [Option.some.injEq] at he
            exact byCommands_step (op := .set now ⟨_, splitSlash _, 0, _⟩ _) (r := x.1) h (.inr ⟨_, _, _, _, _, rfl, splitSlash_ne _⟩) he
          · dsimp only at he
            split at he
            · cases he
            · simp only [Option.some.injEq] at he
              exact byCommands_step (op := .set now ⟨_, splitSlash _, _, _⟩ _) (r := x.1) h (.inr ⟨_, _, _, _, _, rfl, splitSlash_ne _⟩) he
        cases r with
        | ok x =>
          obtain ⟨pruned, st1⟩ := x
          have := key _ rfl
          simp only [Res.ok_bind] at hr
          cases pruned with
          | none => simp only [Res.ok.injEq, NsStep.stay.injEq] at hr; rw [← hr.2.1]; exact this
          | some pruned =>
            dsimp only at hr
            rw [Res.bind_eq_ok] at hr
            obtain ⟨lines, _, hr⟩ := hr
            simp only [Res.ok.injEq, NsStep.stay.injEq] at hr; rw [← hr.2.1]; exact this
        | err => cases hr
        | crash => cases hr
        | block => cases hr

theorem nsLine_byCommands {env : StoreEnv} {lib : SortLib} {readFile : Bytes → FileRead} {now : UInt64} {st st' : StoreState} {dir dir' : Bool}
    {line : Bytes} {out : Printed} (h : ByCommands env st) (hr : nsLine env lib readFile now st dir line = .ok (.stay out st' dir')) : ByCommands env st' := by
  unfold nsLine at hr
  dsimp only at hr
  repeat' split at hr
  all_goals first
    | (cases hr; done)
    | exact setLine_byCommands h hr
    | (simp only [Res.ok.injEq, NsStep.stay.injEq] at hr; rw [← hr.2.1]; exact h)
    | skip
  all_goals
    cases hx : (getLine env st dir ((splitSpace (trimSpace line)).getD 1 []) ((splitSpace (trimSpace line)).getD 2 [])) <;>
    cases hy : (printAll listLine (lib.sorted (storeList env st))) <;>
    simp only [hx, hy, Res.bind, Res.ok.injEq, NsStep.stay.injEq, reduceCtorEq] at hr <;>
    (rw [← hr.2.1]; exact h)

/-- The stores of an application, and the one that is open. -/
def AllByCommands (env : Bytes → StoreEnv) (mode : AppMode) (app : AppState) : Prop :=
  (∀ name st, app.disk.get name = some st → ByCommands (env name) st.1) ∧
  ∀ name st dir, mode = .inside name st dir → ByCommands (env name) st


theorem enter_byCommands {env : Bytes → StoreEnv} {app app' : AppState} {name : Bytes} {mode : AppMode} {out : Printed}
    (h : ∀ name st, app.disk.get name = some st → ByCommands (env name) st.1)
    (hr : enterNamespace env app name = .ok (.next mode out app')) : AllByCommands env mode app' := by
  unfold enterNamespace at hr
  split at hr
  · cases hr
  · rw [Res.bind_eq_ok] at hr
    obtain ⟨st, h1, hr⟩ := hr
    simp only [Res.ok.injEq, AppStep.next.injEq] at hr
    obtain ⟨rfl, _, rfl⟩ := hr
    have hst : ByCommands (env name) st := by
      apply byCommands_restart _ h1
      cases hd : app.disk.get name with
      | none => exact byCommands_empty _
      | some st0 => exact h _ _ hd
    refine ⟨fun n s hn => ?_, fun n s d hn => ?_⟩
    · simp only [GoMap.get_set] at hn
      split at hn
      · rename_i he; subst he; cases hn; exact hst
      · exact h _ _ hn
    · cases hn
      exact hst

theorem appLine_byCommands {env : Bytes → StoreEnv} {lib : SortLib} {readFile : Bytes → FileRead} {now : UInt64} {mode mode' : AppMode}
    {app app' : AppState} {line : Bytes} {out : Printed} (h : AllByCommands env mode app)
    (hr : appLine env lib readFile now mode app line = .ok (.next mode' out app')) : AllByCommands env mode' app' := by
  cases mode with
  | menu =>
    unfold appLine at hr
    dsimp only at hr
    repeat' split at hr
    all_goals first
      | (cases hr; done)
      | exact enter_byCommands h.1 hr
      | (simp only [Res.ok.injEq, AppStep.next.injEq] at hr
         obtain ⟨rfl, _, rfl⟩ := hr
         exact ⟨h.1, fun _ _ _ hn => by cases hn⟩)
  | confirm name =>
    unfold appLine at hr
    dsimp only at hr
    split at hr
    · exact enter_byCommands h.1 hr
    · simp only [Res.ok.injEq, AppStep.next.injEq] at hr
      obtain ⟨rfl, _, rfl⟩ := hr
      exact ⟨h.1, fun _ _ _ hn => by cases hn⟩
  | inside name st dir =>
    unfold appLine at hr
    dsimp only at hr
    rw [Res.bind_eq_ok] at hr
    obtain ⟨r, h1, hr⟩ := hr
    cases r with
    | stay o st1 d1 =>
      simp only [Res.ok.injEq, AppStep.next.injEq] at hr
      obtain ⟨rfl, _, rfl⟩ := hr
      have hst := nsLine_byCommands (h.2 _ _ _ rfl) h1
      refine ⟨fun n s hn => ?_, fun n s d hn => ?_⟩
      · simp only [GoMap.get_set] at hn
        split at hn
        · rename_i he; subst he; cases hn; exact hst
        · exact h.1 _ _ hn
      · cases hn
        exact hst
    | leave =>
      simp only [Res.ok.injEq, AppStep.next.injEq] at hr
      obtain ⟨rfl, _, rfl⟩ := hr
      exact ⟨h.1, fun _ _ _ hn => by cases hn⟩
    | abandon =>
      simp only [Res.ok.injEq, AppStep.next.injEq] at hr
      obtain ⟨rfl, _, rfl⟩ := hr
      exact ⟨h.1, fun _ _ _ hn => by cases hn⟩

theorem appLine_exit {env : Bytes → StoreEnv} {lib : SortLib} {readFile : Bytes → FileRead} {now : UInt64} {mode : AppMode}
    {app app' : AppState} {line : Bytes} (hr : appLine env lib readFile now mode app line = .ok (.exit app')) : app' = app := by
  have he : ∀ name, enterNamespace env app name ≠ .ok (.exit app') := by
    intro name h
    unfold enterNamespace at h
    split at h
    · cases h
    · rw [Res.bind_eq_ok] at h
      obtain ⟨_, _, h⟩ := h
      cases h
  cases mode with
  | menu =>
    unfold appLine at hr
    dsimp only at hr
    repeat' split at hr
    all_goals first
      | exact absurd hr (he _)
      | (cases hr; done)
      | (cases hr; rfl)
  | confirm name =>
    unfold appLine at hr
    dsimp only at hr
    split at hr
    · exact absurd hr (he _)
    · cases hr
  | inside name st dir =>
    unfold appLine at hr
    dsimp only at hr
    rw [Res.bind_eq_ok] at hr
    obtain ⟨r, _, hr⟩ := hr
    cases r <;> cases hr

theorem appRun_byCommands {env : Bytes → StoreEnv} {lib : SortLib} {readFile : Bytes → FileRead} (lines : List (UInt64 × Bytes))
    {mode : AppMode} {app app' : AppState} {m : Option AppMode} (h : AllByCommands env mode app)
    (hr : appRun env lib readFile lines mode app = .ok (m, app')) :
    ∀ name st, app'.disk.get name = some st → ByCommands (env name) st.1 := by
  induction lines generalizing mode app with
  | nil => cases hr; exact h.1
  | cons l lines ih =>
    unfold appRun at hr
    rw [Res.bind_eq_ok] at hr
    obtain ⟨r, h1, hr⟩ := hr
    cases r with
    | next mode1 o app1 => exact ih (appLine_byCommands h h1) hr
    | exit app1 => cases hr; rw [appLine_exit h1]; exact h.1
    | fatal => cases hr; exact h.1

/-- Insertion by subspace. -/
def insertKey (a : KdKey) : List KdKey → List KdKey
  | [] => [a]
  | b :: l => if orderBytes b.pos.subspace a.pos.subspace = .lt then b :: insertKey a l else a :: b :: l

/-- Insertion sort, for the examples. -/
def sortKeys : List KdKey → List KdKey
  | [] => []
  | a :: l => insertKey a (sortKeys l)

theorem insertKey_perm (a : KdKey) (l : List KdKey) : (insertKey a l).Perm (a :: l) := by
  induction l with
  | nil => exact .refl _
  | cons b l ih =>
    unfold insertKey
    split
    · exact (ih.cons b).trans (.swap _ _ _)
    · exact .refl _

theorem insertKey_ordered (a : KdKey) (l : List KdKey) (h : l.Pairwise fun a b => orderBytes b.pos.subspace a.pos.subspace ≠ .lt) :
    (insertKey a l).Pairwise fun a b => orderBytes b.pos.subspace a.pos.subspace ≠ .lt := by
  induction l with
  | nil => simp [insertKey]
  | cons b l ih =>
    rw [List.pairwise_cons] at h
    unfold insertKey
    split
    · rename_i hlt
      rw [List.pairwise_cons]
      refine ⟨fun c hc => ?_, ih h.2⟩
      rcases List.mem_cons.1 ((insertKey_perm a l).mem_iff.1 hc) with rfl | hc
      · intro h'
        rw [decides_bytes.lt_iff] at h' hlt
        exact bytesLt_strictTotal.irrefl _ (bytesLt_strictTotal.trans _ _ _ h' hlt)
      · exact h.1 c hc
    · rename_i hlt
      rw [List.pairwise_cons]
      refine ⟨fun c hc => ?_, List.pairwise_cons.2 h⟩
      rcases List.mem_cons.1 hc with rfl | hc
      · exact hlt
      · have h1 := h.1 c hc
        simp only [ne_eq, decides_bytes.lt_iff] at h1 hlt ⊢
        intro h2
        rcases bytesLt_strictTotal.tri a.pos.subspace b.pos.subspace with h3 | h3 | h3
        · exact h1 (bytesLt_strictTotal.trans _ _ _ h2 h3)
        · rw [h3] at h2; exact h1 h2
        · exact hlt h3

/-- The library of sorting for the examples. -/
def exSort : SortLib where
  sorted := sortKeys
  perm l := by
    induction l with
    | nil => exact .refl _
    | cons a l ih => exact (insertKey_perm a _).trans (ih.cons a)
  ordered l := by
    induction l with
    | nil => exact .nil
    | cons a l ih => exact insertKey_ordered a _ ih

theorem printAll_ok {α β : Type} (f : α → Res β) (l : List α) (h : ∀ a ∈ l, ∃ b, f a = .ok b) :
    ∃ bs, printAll f l = .ok bs ∧ bs.map Res.ok = l.map f := by
  induction l with
  | nil => exact ⟨[], rfl, rfl⟩
  | cons a l ih =>
    obtain ⟨b, hb⟩ := h a (by simp)
    obtain ⟨bs, h1, h2⟩ := ih fun a ha => h a (List.mem_cons_of_mem _ ha)
    exact ⟨b :: bs, by simp [printAll, hb, h1, Res.ok_bind], by simp [hb, h2]⟩

theorem nsLine_words (env : StoreEnv) (lib : SortLib) (readFile : Bytes → FileRead) (now : UInt64) (st : StoreState) (dir : Bool)
    (w v : Bytes) (ws : List Bytes) (h : ∀ x ∈ w :: v :: ws, IsWord x) :
    nsLine env lib readFile now st dir (spaced (w :: v :: ws)) =
      if w = Word.back then .ok .leave
      else if w = Word.set then setLine env readFile now st dir (w :: v :: ws)
      else if w = Word.get then
        if (w :: v :: ws).length ≠ 3 then .ok (.stay .message st dir)
        else (getLine env st dir v (ws.getD 0 [])).bind fun b => .ok (.stay (.payload b) st dir)
      else if w = Word.list then
        (printAll listLine (lib.sorted (storeList env st))).bind fun lines => .ok (.stay (.listing lines) st dir)
      else .ok (.stay .message st dir) := by
  unfold nsLine
  rw [if_neg (spaced_not_exit w v ws)]
  dsimp only
  rw [trim_spaced _ _ h, splitSpace_spaced _ _ fun x hx => isWord_noSpace (h x hx)]
  rfl

theorem successorPath_total (path : Path) (p : PathParams) : successorPath path p = .crash ∨ ∃ x, successorPath path p = .ok x := by
  have ha : ∀ (a : Path) (c : Bytes), (pathAppend a c p).map' some = .crash ∨ ∃ x, (pathAppend a c p).map' some = .ok x := by
    intro a c
    unfold pathAppend
    split
    · exact .inl rfl
    · split
      · exact .inl rfl
      · exact .inr ⟨_, rfl⟩
  unfold successorPath
  split
  · exact .inr ⟨_, rfl⟩
  · split
    · exact ha _ _
    · generalize path.length = n
      induction n with
      | zero => exact .inr ⟨_, rfl⟩
      | succ n ih =>
        unfold successorPathLoop
        split
        · exact .inl rfl
        · split
          · exact ha _ _
          · split
            · exact ha _ _
            · exact ih

theorem entryGet_nothing (env : StoreEnv) (s : Bytes) (path : Path) :
    entryGet env .empty s path = .crash ∨ entryGet env .empty s path = .ok .missing := by
  have hq : ∀ r, env.lib.query [] r = [] := fun r => List.Perm.eq_nil (env.lib.perm [] r)
  unfold entryGet storageGet pointRange
  rcases successorPath_total path env.p with h | ⟨x, h⟩
  · rw [h]; exact .inl rfl
  · rw [h]
    right
    simp [StoreState.empty, hq, Res.ok_bind]

end Willow.Props
