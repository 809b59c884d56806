import Verif.Lemmas.Fingerprints
import Verif.Spec.EntriesFile
import Verif.Lemmas.PropsCommands
import Verif.Lemmas.PropsHelpers
import Verif.Lemmas.PropsApp
import Verif.Lemmas.PropsStoreKept
import Verif.Props.StoreMore

/-! Lemmas about `entries.json`. -/

namespace Willow.Props

open Spec

/-! ### The text -/

theorem until_inj (c : UInt8) {a b r r' : Bytes} (ha : c ∉ a) (hb : c ∉ b) (h : a ++ c :: r = b ++ c :: r') : a = b ∧ r = r' := by
  induction a generalizing b with
  | nil =>
    cases b with
    | nil => simpa using h
    | cons y b =>
      simp only [List.nil_append, List.cons_append, List.cons.injEq] at h
      exact absurd (h.1 ▸ List.mem_cons_self) hb
  | cons x a ih =>
    cases b with
    | nil =>
      simp only [List.nil_append, List.cons_append, List.cons.injEq] at h
      exact absurd (h.1 ▸ List.mem_cons_self) ha
    | cons y b =>
      simp only [List.cons_append, List.cons.injEq] at h
      rw [List.mem_cons, not_or] at ha hb
      obtain ⟨h1, h2⟩ := ih ha.2 hb.2 h.2
      exact ⟨by rw [h.1, h1], h2⟩

theorem digit_toNat (n : Nat) : (UInt8.ofNat (48 + n % 10)).toNat = 48 + n % 10 := by
  rw [UInt8.toNat_ofNat']
  omega

theorem decimal_digits (n : Nat) : ∀ c ∈ decimal n, 48 ≤ c.toNat ∧ c.toNat ≤ 57 := by
  induction n using Nat.strongRecOn with
  | _ n ih =>
    intro c hc
    unfold decimal at hc
    split at hc
    · rename_i hn
      rw [List.mem_singleton.1 hc, show 48 + n = 48 + n % 10 by omega, digit_toNat]
      omega
    · rcases List.mem_append.1 hc with hc | hc
      · exact ih (n / 10) (by omega) c hc
      · rw [List.mem_singleton.1 hc, digit_toNat]
        omega

theorem decimal_length (n : Nat) : 1 ≤ (decimal n).length := by
  unfold decimal
  split <;> simp

theorem decimal_inj (m n : Nat) (h : decimal m = decimal n) : m = n := by
  induction m using Nat.strongRecOn generalizing n with
  | _ m ih =>
    have e1 := decimal.eq_1 m
    have e2 := decimal.eq_1 n
    by_cases hm : m < 10 <;> by_cases hn : n < 10
    · rw [if_pos hm] at e1
      rw [if_pos hn] at e2
      rw [e1, e2, List.cons.injEq] at h
      have := congrArg UInt8.toNat h.1
      rw [show 48 + m = 48 + m % 10 by omega, show 48 + n = 48 + n % 10 by omega, digit_toNat, digit_toNat] at this
      omega
    · rw [if_pos hm] at e1
      rw [if_neg hn] at e2
      have hl := congrArg List.length h
      rw [e1, e2, List.length_append, List.length_singleton, List.length_singleton] at hl
      have := decimal_length (n / 10)
      omega
    · rw [if_neg hm] at e1
      rw [if_pos hn] at e2
      have hl := congrArg List.length h
      rw [e1, e2, List.length_append, List.length_singleton, List.length_singleton] at hl
      have := decimal_length (m / 10)
      omega
    · rw [if_neg hm] at e1
      rw [if_neg hn] at e2
      rw [e1, e2] at h
      obtain ⟨h1, h2⟩ := List.append_inj' h rfl
      have := ih (m / 10) (by omega) (n / 10) h1
      rw [List.cons.injEq] at h2
      have h3 := congrArg UInt8.toNat h2.1
      rw [digit_toNat, digit_toNat] at h3
      omega

theorem base64Char_quote {n : Nat} (hn : n < 64) : base64Char n ≠ 34 := by
  have key : ∀ a : Fin 64, base64Char a ≠ 34 := by decide +kernel
  exact key ⟨n, hn⟩

theorem base64Block_quote (a b c : UInt8) : (34 : UInt8) ∉ base64Block a b c := by
  have ha := a.toNat_lt
  have hb := b.toNat_lt
  have hc := c.toNat_lt
  unfold base64Block
  simp only [List.mem_cons, List.not_mem_nil, or_false, not_or]
  refine ⟨?_, ?_, ?_, ?_⟩ <;> exact fun h => base64Char_quote (by omega) h.symm

theorem base64Encode_quote : ∀ b : Bytes, (34 : UInt8) ∉ base64Encode b
  | a :: b :: c :: rest => by
    simp only [base64Encode, List.mem_append, not_or]
    exact ⟨base64Block_quote a b c, base64Encode_quote rest⟩
  | [a, b] => by
    simp only [base64Encode, List.mem_append, not_or]
    exact ⟨fun h => base64Block_quote a b 0 (List.mem_of_mem_take h), by decide⟩
  | [a] => by
    simp only [base64Encode, List.mem_append, not_or]
    exact ⟨fun h => base64Block_quote a 0 0 (List.mem_of_mem_take h), by decide⟩
  | [] => by simp [base64Encode]

theorem jsonBytes_inj {a b r r' : Bytes} (h : jsonBytes a ++ r = jsonBytes b ++ r') : a = b ∧ r = r' := by
  unfold jsonBytes at h
  simp only [List.cons_append, List.append_assoc, List.nil_append, List.cons.injEq, true_and] at h
  obtain ⟨h1, h2⟩ := until_inj 34 (base64Encode_quote a) (base64Encode_quote b) h
  exact ⟨base64Encode_inj _ _ h1, h2⟩

theorem jsonRest_inj {α : Type} {item : α → Bytes} {P : α → Prop}
    (hi : ∀ x y r r', P x → P y → item x ++ r = item y ++ r' → x = y ∧ r = r') {xs ys : List α} {r r' : Bytes}
    (hx : ∀ x ∈ xs, P x) (hy : ∀ y ∈ ys, P y) (h : jsonRest item xs ++ r = jsonRest item ys ++ r') : xs = ys ∧ r = r' := by
  induction xs generalizing ys with
  | nil =>
    cases ys with
    | nil => simpa [jsonRest] using h
    | cons y ys =>
      simp only [jsonRest, List.cons_append, List.cons.injEq] at h
      exact absurd h.1 (by decide)
  | cons x xs ih =>
    cases ys with
    | nil =>
      simp only [jsonRest, List.cons_append, List.cons.injEq] at h
      exact absurd h.1 (by decide)
    | cons y ys =>
      simp only [jsonRest, List.cons_append, List.cons.injEq, true_and, List.append_assoc] at h
      obtain ⟨h1, h2⟩ := hi x y _ _ (hx x (by simp)) (hy y (by simp)) h
      obtain ⟨h3, h4⟩ := ih (fun z hz => hx z (List.mem_cons_of_mem _ hz)) (fun z hz => hy z (List.mem_cons_of_mem _ hz)) h2
      exact ⟨by rw [h1, h3], h4⟩

theorem jsonArray_inj {α : Type} {item : α → Bytes} {P : α → Prop} (hs : ∀ x, ∃ c rest, item x = c :: rest ∧ c ≠ 93)
    (hi : ∀ x y r r', P x → P y → item x ++ r = item y ++ r' → x = y ∧ r = r') {xs ys : List α} {r r' : Bytes}
    (hx : ∀ x ∈ xs, P x) (hy : ∀ y ∈ ys, P y) (h : jsonArray item xs ++ r = jsonArray item ys ++ r') : xs = ys ∧ r = r' := by
  cases xs with
  | nil =>
    cases ys with
    | nil => simpa [jsonArray] using h
    | cons y ys =>
      obtain ⟨c, rest, e, hc⟩ := hs y
      simp only [jsonArray, e, List.cons_append, List.cons.injEq, true_and] at h
      exact absurd h.1.symm hc
  | cons x xs =>
    cases ys with
    | nil =>
      obtain ⟨c, rest, e, hc⟩ := hs x
      simp only [jsonArray, e, List.cons_append, List.cons.injEq, true_and] at h
      exact absurd h.1 hc
    | cons y ys =>
      simp only [jsonArray, List.cons_append, List.cons.injEq, true_and, List.append_assoc] at h
      obtain ⟨h1, h2⟩ := hi x y _ _ (hx x (by simp)) (hy y (by simp)) h
      obtain ⟨h3, h4⟩ := jsonRest_inj hi (fun z hz => hx z (List.mem_cons_of_mem _ hz)) (fun z hz => hy z (List.mem_cons_of_mem _ hz)) h2
      exact ⟨by rw [h1, h3], h4⟩

theorem jsonKey_inj (a b : KdKey) (r r' : Bytes) (ha : (34 : UInt8) ∉ a.fingerprint) (hb : (34 : UInt8) ∉ b.fingerprint)
    (h : jsonKey a ++ r = jsonKey b ++ r') : a = b ∧ r = r' := by
  unfold jsonKey at h
  simp only [List.append_assoc] at h
  replace h := List.append_cancel_left h
  have hd : ∀ n, (44 : UInt8) ∉ decimal n := fun n hm => by
    have := decimal_digits n _ hm
    revert this
    decide
  rw [show JsonName.subspace = (44 : UInt8) :: JsonName.subspace.tail from rfl, List.cons_append, List.cons_append] at h
  obtain ⟨h1, h⟩ := until_inj 44 (hd _) (hd _) h
  replace h := List.append_cancel_left h
  obtain ⟨h2, h⟩ := jsonBytes_inj h
  replace h := List.append_cancel_left h
  obtain ⟨h3, h⟩ := jsonArray_inj (P := fun _ => True) (fun x => ⟨34, _, rfl, by decide⟩) (fun x y r r' _ _ h => jsonBytes_inj h)
    (fun _ _ => trivial) (fun _ _ => trivial) h
  replace h := List.append_cancel_left h
  simp only [List.cons_append, List.nil_append] at h
  obtain ⟨h4, h6⟩ := until_inj 34 ha hb h
  simp only [List.cons.injEq, true_and] at h6
  obtain ⟨⟨s, p, t⟩, f⟩ := a
  obtain ⟨⟨s', p', t'⟩, f'⟩ := b
  dsimp only at h1 h2 h3 h4
  have h5 : t = t' := UInt64.toNat_inj.1 (decimal_inj _ _ h1)
  rw [h5, h2, h3, h4]
  exact ⟨rfl, h6⟩

theorem entriesJson_inj {isNil : Bool} {xs ys : List KdKey} (hx : ∀ k ∈ xs, (34 : UInt8) ∉ k.fingerprint)
    (hy : ∀ k ∈ ys, (34 : UInt8) ∉ k.fingerprint) (h : entriesJson isNil xs = entriesJson isNil ys) : xs = ys := by
  have arr : ∀ {a b : List KdKey}, (∀ k ∈ a, (34 : UInt8) ∉ k.fingerprint) → (∀ k ∈ b, (34 : UInt8) ∉ k.fingerprint) →
      jsonArray jsonKey a = jsonArray jsonKey b → a = b := fun ha hb h =>
    (jsonArray_inj (item := jsonKey) (P := fun k : KdKey => (34 : UInt8) ∉ k.fingerprint) (r := []) (r' := [])
      (fun x => ⟨123, _, rfl, by decide⟩) (fun x y r r' h1 h2 h => jsonKey_inj x y r r' h1 h2 h) ha hb (by rw [h])).1
  have first : ∀ l : List KdKey, ∃ rest, jsonArray jsonKey l = 91 :: rest := by
    intro l; cases l <;> exact ⟨_, rfl⟩
  unfold entriesJson at h
  split at h
  · rename_i h1
    split at h
    · rename_i h2
      rw [h1.1, h2.1]
    · obtain ⟨r, e⟩ := first ys
      rw [e, List.cons.injEq] at h
      exact absurd h.1 (by decide)
  · split at h
    · obtain ⟨r, e⟩ := first xs
      rw [e, List.cons.injEq] at h
      exact absurd h.1 (by decide)
    · exact arr hx hy h

/-! ### Fingerprints in a store -/

/-- The values in the database end with hashes, and the fingerprints in the tree are empty or hashes. -/
def Marked (env : StoreEnv) (st : StoreState) : Prop := MarkedBy (fun f => f = [] ∨ ∃ x, f = env.hash x) env st

theorem marked_op {env : StoreEnv} (he : EnvOk env) {st st' : StoreState} {op : StoreOp} {r : Option (List Entry)} (ho : CommandOp op)
    (h : Marked env st) (hr : runOp env st op = .ok (r, st')) : Marked env st' := by
  rcases ho with rfl | ⟨now, sub, path, t, payload, rfl, _⟩
  · unfold runOp restart at hr
    rw [Res.bind_eq_ok] at hr
    obtain ⟨st1, h1, hr⟩ := hr
    rw [Res.bind_eq_ok] at h1
    obtain ⟨keys, hk, h1⟩ := h1
    cases h1
    cases hr
    exact ⟨h.1, fun k hm => .inr (marked_keys he _ h.1 hk k hm)⟩
  · exact markedBy_set (.inl rfl) he h hr

theorem marked_run {env : StoreEnv} (he : EnvOk env) (ops : List StoreOp) (hc : ∀ op ∈ ops, CommandOp op) {st st' : StoreState}
    (h : Marked env st) (hr : runOps env st ops = .ok st') : Marked env st' := by
  induction ops generalizing st with
  | nil => cases hr; exact h
  | cons op ops ih =>
    unfold runOps at hr
    rw [Res.bind_eq_ok] at hr
    obtain ⟨⟨r, st1⟩, h1, hr⟩ := hr
    exact ih (fun o ho => hc o (List.mem_cons_of_mem _ ho)) (marked_op he (hc _ List.mem_cons_self) h h1) hr

theorem hexEncode_quote : ∀ b : Bytes, (34 : UInt8) ∉ hexEncode b
  | [] => by simp [hexEncode]
  | b :: bs => by
    have key : ∀ n : Fin 256, hexDigit (UInt8.ofNat n >>> 4) ≠ 34 ∧ hexDigit (UInt8.ofNat n &&& 0x0f) ≠ 34 := by decide +kernel
    have hb := key ⟨b.toNat, b.toNat_lt⟩
    rw [show UInt8.ofNat ((⟨b.toNat, b.toNat_lt⟩ : Fin 256) : Nat) = b from UInt8.ofNat_toNat] at hb
    simp only [hexEncode, List.mem_cons, not_or]
    exact ⟨hb.1.symm, hb.2.symm, hexEncode_quote bs⟩

theorem byCommands_quote {lib : KdLib} {sha : Bytes → Bytes} {ns : Bytes} (hs : ∀ b, (sha b).length = 32) {st : StoreState}
    (h : ByCommands (appStore lib sha ns) st) : ∀ k ∈ st.kd, (34 : UInt8) ∉ k.fingerprint := by
  obtain ⟨ops, h1, h2⟩ := h
  have hm := marked_run (appStore_ok lib sha ns hs) ops h1 (st := .empty) ⟨(fun e he => nomatch he), (fun k hk => nomatch hk)⟩ h2
  intro k hk
  rcases hm.2 k hk with hf | ⟨x, hf⟩
  · rw [hf]; simp
  · rw [hf]; exact hexEncode_quote _

/-! ### Lines -/

theorem splitSlash_size : ∀ w : Bytes, pathBytes (splitSlash w) + (splitSlash w).length = w.length + 1
  | [] => by simp [splitSlash, pathBytes]
  | c :: rest => by
    have ih := splitSlash_size rest
    unfold splitSlash
    split
    · simp only [pathBytes, List.map_cons, List.length_nil, List.sum_cons, List.length_cons] at ih ⊢
      omega
    · cases hs : splitSlash rest with
      | nil => exact absurd hs (splitSlash_ne rest)
      | cons x xs =>
        rw [hs] at ih
        simp only [pathBytes, List.map_cons, List.sum_cons, List.length_cons] at ih ⊢
        omega

theorem mem_length_le_pathBytes {path : Path} {c : Bytes} (h : c ∈ path) : c.length ≤ pathBytes path := by
  induction path with
  | nil => cases h
  | cons x xs ih =>
    simp only [pathBytes, List.map_cons, List.sum_cons] at ih ⊢
    rcases List.mem_cons.1 h with rfl | h
    · omega
    · have := ih h
      omega

theorem short_comfortable {p : PathParams} {n : Nat} (hcc : n ≤ p.cc) (hcl : n ≤ p.cl) (hpl : n ≤ p.pl) {w : Bytes} (h : w.length < n) :
    Comfortable p (splitSlash w) := by
  have hs := splitSlash_size w
  have hne := splitSlash_ne w
  have hpos : 0 < (splitSlash w).length := List.length_pos_iff.2 hne
  refine ⟨⟨by omega, fun c hc => ?_, by omega⟩, ?_⟩
  · have := mem_length_le_pathBytes hc
    omega
  · refine ⟨(splitSlash w).dropLast, (splitSlash w).getLast hne, [], ?_, ?_, ?_, by simp⟩
    · rw [List.dropLast_concat_getLast]
    · have := mem_length_le_pathBytes (List.getLast_mem hne)
      omega
    · rw [List.dropLast_concat_getLast]
      omega

theorem splitSpace_infix : ∀ (s : Bytes), splitSpace s ≠ [] ∧ (∃ b, s = (splitSpace s).headD [] ++ b) ∧
    ∀ w ∈ splitSpace s, (32 : UInt8) ∉ w ∧ ∃ a b, s = a ++ w ++ b
  | [] => by simp [splitSpace]
  | c :: rest => by
    obtain ⟨h1, ⟨b0, h2⟩, h3⟩ := splitSpace_infix rest
    unfold splitSpace
    split
    · refine ⟨by simp, ⟨c :: rest, rfl⟩, fun w hw => ?_⟩
      rcases List.mem_cons.1 hw with rfl | hw
      · exact ⟨by simp, [], c :: rest, rfl⟩
      · obtain ⟨hn, a, b, e⟩ := h3 w hw
        exact ⟨hn, c :: a, b, by simpa using e⟩
    · rename_i hc
      cases hs : splitSpace rest with
      | nil => exact absurd hs h1
      | cons word more =>
        rw [hs] at h2 h3
        simp only [List.headD_cons] at h2
        refine ⟨by simp, ⟨b0, by simp [← h2]⟩, fun w hw => ?_⟩
        rcases List.mem_cons.1 hw with rfl | hw
        · refine ⟨fun hm => ?_, [], b0, by simp [← h2]⟩
          rcases List.mem_cons.1 hm with h | h
          · exact hc h.symm
          · exact (h3 word List.mem_cons_self).1 h
        · obtain ⟨hn, a, b, e⟩ := h3 w (List.mem_cons_of_mem _ hw)
          exact ⟨hn, c :: a, b, by simpa using e⟩

theorem trimSpace_infix (s : Bytes) : ∃ a b, s = a ++ trimSpace s ++ b := by
  obtain ⟨pre, _, h2, _⟩ := trimLeft_split s
  obtain ⟨post, _, h5, _⟩ := trimFront_split code_spacesR (trimLeft s).length (trimLeft s).reverse (by simp)
  have h6 := congrArg List.reverse h5
  rw [List.reverse_append, List.reverse_reverse] at h6
  refine ⟨pre.flatten, post.flatten.reverse, ?_⟩
  unfold trimSpace trimRight
  rw [List.append_assoc, ← h6, ← h2]

theorem shortWords_word {n : Nat} {line w : Bytes} (h : ShortWords n line) (hw : w ∈ splitSpace (trimSpace line)) : w.length < n := by
  obtain ⟨a, b, e⟩ := trimSpace_infix line
  obtain ⟨hn, a', b', e'⟩ := (splitSpace_infix (trimSpace line)).2.2 w hw
  refine h (a ++ a') w (b' ++ b) ?_ hn
  rw [e]
  conv => lhs; rw [e']
  simp only [List.append_assoc]

/-- What a line in a namespace does to the store and prints. -/
theorem setLine_step {env : StoreEnv} {readFile : Bytes → FileRead} {now : UInt64} {st st' : StoreState} {dir dir' : Bool}
    {objects : List Bytes} {out : Printed} (hr : setLine env readFile now st dir objects = .ok (.stay out st' dir')) :
    (st' = st ∧ out = .message) ∨ ∃ sub w t payload r, w ∈ objects ∧ storeSet env st now ⟨sub, splitSlash w, t, payload⟩ sub = .ok (r, st') ∧
      ((r = none ∧ out = .message) ∨ ∃ pruned lines, r = some pruned ∧ out = .pruned lines) := by
  unfold setLine at hr
  split at hr
  · cases hr; exact .inl ⟨rfl, rfl⟩
  · rename_i hlen
    have hw : objects.getD 2 [] ∈ objects := by
      rw [List.getD_eq_getElem?_getD, List.getElem?_eq_getElem (by omega), Option.getD_some]
      exact List.getElem_mem _
    split at hr
    · cases hr; exact .inl ⟨rfl, rfl⟩
    · cases hr
    · split at hr
      · cases hr
      · rename_i payload _ _ r he
        obtain ⟨t, ht⟩ : ∃ t, r = storeSet env st now ⟨objects.getD 1 [], splitSlash (objects.getD 2 []), t, payload⟩ (objects.getD 1 []) := by
          unfold setCommand at he
          split at he
          · simp only [Option.some.injEq] at he
            exact ⟨_, he.symm⟩
          · dsimp only at he
            split at he
            · cases he
            · simp only [Option.some.injEq] at he
              exact ⟨_, he.symm⟩
        cases r with
        | ok x =>
          obtain ⟨pruned, st1⟩ := x
          simp only [Res.ok_bind] at hr
          cases pruned with
          | none =>
            simp only [Res.ok.injEq, NsStep.stay.injEq] at hr
            obtain ⟨rfl, rfl, _⟩ := hr
            exact .inr ⟨_, _, t, payload, _, hw, ht.symm, .inl ⟨rfl, rfl⟩⟩
          | some pruned =>
            dsimp only at hr
            rw [Res.bind_eq_ok] at hr
            obtain ⟨lines, _, hr⟩ := hr
            simp only [Res.ok.injEq, NsStep.stay.injEq] at hr
            obtain ⟨rfl, rfl, _⟩ := hr
            exact .inr ⟨_, _, t, payload, _, hw, ht.symm, .inr ⟨_, _, rfl, rfl⟩⟩
        | err => cases hr
        | crash => cases hr
        | block => cases hr

theorem nsLine_step {env : StoreEnv} {lib : SortLib} {readFile : Bytes → FileRead} {now : UInt64} {st st' : StoreState} {dir dir' : Bool}
    {line : Bytes} {out : Printed} (hr : nsLine env lib readFile now st dir line = .ok (.stay out st' dir')) :
    (st' = st ∧ ∀ lines, out ≠ .pruned lines) ∨ ∃ sub w t payload r, w ∈ splitSpace (trimSpace line) ∧
      storeSet env st now ⟨sub, splitSlash w, t, payload⟩ sub = .ok (r, st') ∧
      ((r = none ∧ out = .message) ∨ ∃ pruned lines, r = some pruned ∧ out = .pruned lines) := by
  unfold nsLine at hr
  dsimp only at hr
  repeat' split at hr
  all_goals first
    | (cases hr; done)
    | (cases hr; exact .inl ⟨rfl, fun _ h => by cases h⟩)
    | (rcases setLine_step hr with ⟨h1, h2⟩ | h
       · exact .inl ⟨h1, fun _ h => by rw [h2] at h; cases h⟩
       · exact .inr h)
    | skip
  all_goals
    cases hx : (getLine env st dir ((splitSpace (trimSpace line)).getD 1 []) ((splitSpace (trimSpace line)).getD 2 [])) <;>
    cases hy : (printAll listLine (lib.sorted (storeList env st))) <;>
    simp only [hx, hy, Res.bind, Res.ok.injEq, NsStep.stay.injEq, reduceCtorEq] at hr <;>
    (obtain ⟨rfl, rfl, _⟩ := hr; exact .inl ⟨rfl, fun _ h => by cases h⟩)

/-! ### Sessions -/

theorem byFine_step {env : StoreEnv} {st st' : StoreState} {op : StoreOp} {r : Option (List Entry)} (h : ByFineCommands env st)
    (ho : CommandOp op ∧ FineOp env op) (hr : runOp env st op = .ok (r, st')) : ByFineCommands env st' := by
  obtain ⟨ops, h1, h2⟩ := h
  refine ⟨ops ++ [op], ?_, ?_⟩
  · intro o hm
    rcases List.mem_append.1 hm with hm | hm
    · exact h1 o hm
    · rw [List.mem_singleton.1 hm]; exact ho
  · rw [runOps_appendBind, h2]
    simp only [Res.bind, runOps, hr, Res.ok_bind]

theorem byFine_empty (env : StoreEnv) : ByFineCommands env .empty := ⟨[], by simp, rfl⟩

theorem byFine_restart {env : StoreEnv} {st st' : StoreState} (h : ByFineCommands env st)
    (hr : restart env (fun kv => kv) st = .ok st') : ByFineCommands env st' :=
  byFine_step (op := .restart) (r := some []) h ⟨.inl rfl, fun _ _ h => by cases h⟩ (by simp [runOp, hr, Res.ok_bind])

/-- The stores of an application, the one that is open, and the file. -/
def FileInv (env : Bytes → StoreEnv) (isNil : Bool) (mode : AppMode) (app : AppState) (file : Option Bytes) : Prop :=
  (∀ name st, app.disk.get name = some st → ByFineCommands (env name) st.1) ∧
  ∀ name st dir, mode = .inside name st dir → ByFineCommands (env name) st ∧ file = some (entriesJson isNil ((env name).lib.values st.kd))

theorem fileInv_enter {env : Bytes → StoreEnv} {isNil : Bool} {app app' : AppState} {name : Bytes} {mode : AppMode} {out : Printed}
    (h : ∀ name st, app.disk.get name = some st → ByFineCommands (env name) st.1)
    (hr : enterNamespace env app name = .ok (.next mode out app')) :
    ∃ st dir, mode = .inside name st dir ∧ FileInv env isNil mode app' (some (entriesJson isNil ((env name).lib.values st.kd))) := by
  unfold enterNamespace at hr
  split at hr
  · cases hr
  · rw [Res.bind_eq_ok] at hr
    obtain ⟨st, h1, hr⟩ := hr
    simp only [Res.ok.injEq, AppStep.next.injEq] at hr
    obtain ⟨rfl, _, rfl⟩ := hr
    have hst : ByFineCommands (env name) st := by
      apply byFine_restart _ h1
      cases hd : app.disk.get name with
      | none => exact byFine_empty _
      | some st0 => exact h _ _ hd
    refine ⟨st, _, rfl, fun n s hn => ?_, fun n s d hn => ?_⟩
    · simp only [GoMap.get_set] at hn
      split at hn
      · rename_i he; subst he; cases hn; exact hst
      · exact h _ _ hn
    · cases hn
      exact ⟨hst, rfl⟩

theorem fileInv_line {env : Bytes → StoreEnv} {n : Nat} (he : ∀ name, EnvOk (env name))
    (hp : ∀ name, n ≤ (env name).p.cc ∧ n ≤ (env name).p.cl ∧ n ≤ (env name).p.pl)
    {lib : SortLib} {readFile : Bytes → FileRead} {isNil : Bool} {now : UInt64}
    {mode mode' : AppMode} {app app' : AppState} {file : Option Bytes} {line : Bytes} {out : Printed} (h : FileInv env isNil mode app file)
    (hl : ShortWords n line) (hr : appLine env lib readFile now mode app line = .ok (.next mode' out app')) :
    FileInv env isNil mode' app' (entriesAfter env isNil mode (.next mode' out app') file) := by
  have outside : ∀ name, (∀ n st dir, mode ≠ .inside n st dir) → enterNamespace env app name = .ok (.next mode' out app') →
      FileInv env isNil mode' app' (entriesAfter env isNil mode (.next mode' out app') file) := by
    intro name hm hr
    obtain ⟨st, dir, rfl, hi⟩ := fileInv_enter (isNil := isNil) h.1 hr
    cases mode with
    | menu => exact hi
    | confirm _ => exact hi
    | inside n st dir => exact absurd rfl (hm n st dir)
  cases mode with
  | menu =>
    unfold appLine at hr
    dsimp only at hr
    repeat' split at hr
    all_goals first
      | (cases hr; done)
      | exact outside _ (fun _ _ _ h => by cases h) hr
      | (simp only [Res.ok.injEq, AppStep.next.injEq] at hr
         obtain ⟨rfl, _, rfl⟩ := hr
         exact ⟨h.1, fun _ _ _ hn => by cases hn⟩)
  | confirm name =>
    unfold appLine at hr
    dsimp only at hr
    split at hr
    · exact outside _ (fun _ _ _ h => by cases h) hr
    · simp only [Res.ok.injEq, AppStep.next.injEq] at hr
      obtain ⟨rfl, _, rfl⟩ := hr
      exact ⟨h.1, fun _ _ _ hn => by cases hn⟩
  | inside name st dir =>
    unfold appLine at hr
    dsimp only at hr
    rw [Res.bind_eq_ok] at hr
    obtain ⟨r, h1, hr⟩ := hr
    obtain ⟨hst, hfile⟩ := h.2 _ _ _ rfl
    cases r with
    | stay o st1 d1 =>
      simp only [Res.ok.injEq, AppStep.next.injEq] at hr
      obtain ⟨rfl, rfl, rfl⟩ := hr
      have key : ByFineCommands (env name) st1 ∧
          entriesAfter env isNil (.inside name st dir) (.next (.inside name st1 d1) o { app with disk := app.disk.set name (st1, d1) }) file =
            some (entriesJson isNil ((env name).lib.values st1.kd)) := by
        rcases nsLine_step h1 with ⟨rfl, ho⟩ | ⟨sub, w, t, payload, r, hw, hset, hcase⟩
        · refine ⟨hst, ?_⟩
          cases o with
          | pruned lines => exact absurd rfl (ho lines)
          | message => exact hfile
          | payload b => exact hfile
          | listing ls => exact hfile
        · have hc : Comfortable (env name).p (splitSlash w) :=
            short_comfortable (hp name).1 (hp name).2.1 (hp name).2.2 (shortWords_word hl hw)
          have hfine : FineOp (env name) (.set now ⟨sub, splitSlash w, t, payload⟩ sub) := by
            intro e token ha
            simp only [attempt, Option.map_eq_some_iff, Prod.mk.injEq] at ha
            obtain ⟨_, _, rfl, _⟩ := ha
            exact ⟨hc, (he name).hash _⟩
          refine ⟨byFine_step (op := .set now ⟨sub, splitSlash w, t, payload⟩ sub) (r := r) hst
            ⟨.inr ⟨_, _, _, _, _, rfl, splitSlash_ne _⟩, hfine⟩ hset, ?_⟩
          rcases hcase with ⟨rfl, rfl⟩ | ⟨pruned, lines, rfl, rfl⟩
          · obtain ⟨ops, ho1, ho2⟩ := hst
            have := C79_refused_partial (env name) (he name) ops (fun op hop => (ho1 op hop).2) st st1 ho2 now _ _ hfine hset
            show file = _
            rw [hfile, this.2.1]
          · rfl
      refine ⟨fun n s hn => ?_, fun n s d hn => ?_⟩
      · simp only [GoMap.get_set] at hn
        split at hn
        · rename_i he; subst he; cases hn; exact key.1
        · exact h.1 _ _ hn
      · cases hn
        exact key
    | leave =>
      simp only [Res.ok.injEq, AppStep.next.injEq] at hr
      obtain ⟨rfl, _, rfl⟩ := hr
      exact ⟨h.1, fun _ _ _ hn => by cases hn⟩
    | abandon =>
      simp only [Res.ok.injEq, AppStep.next.injEq] at hr
      obtain ⟨rfl, _, rfl⟩ := hr
      exact ⟨h.1, fun _ _ _ hn => by cases hn⟩

theorem fileInv_run {env : Bytes → StoreEnv} {n : Nat} (he : ∀ name, EnvOk (env name))
    (hp : ∀ name, n ≤ (env name).p.cc ∧ n ≤ (env name).p.cl ∧ n ≤ (env name).p.pl)
    {lib : SortLib} {readFile : Bytes → FileRead} {isNil : Bool} (lines : List (UInt64 × Bytes))
    {mode mode' : AppMode} {app app' : AppState} {file file' : Option Bytes} (h : FileInv env isNil mode app file)
    (hl : ∀ l ∈ lines, ShortWords n l.2)
    (hr : appRunFile env lib readFile isNil lines mode app file = .ok (some mode', app', file')) : FileInv env isNil mode' app' file' := by
  induction lines generalizing mode app file with
  | nil => cases hr; exact h
  | cons l lines ih =>
    obtain ⟨now, line⟩ := l
    unfold appRunFile at hr
    rw [Res.bind_eq_ok] at hr
    obtain ⟨step, h1, hr⟩ := hr
    cases step with
    | next m o a =>
      exact ih (fileInv_line he hp h (hl (now, line) List.mem_cons_self) h1) (fun x hx => hl x (List.mem_cons_of_mem _ hx)) hr
    | exit a => cases hr
    | fatal => cases hr

/-- The session with the file is the session without it. -/
theorem appRun_file {env : Bytes → StoreEnv} {lib : SortLib} {readFile : Bytes → FileRead} {isNil : Bool} (lines : List (UInt64 × Bytes))
    {mode : AppMode} {app app' : AppState} (file : Option Bytes) {m : Option AppMode}
    (hr : appRun env lib readFile lines mode app = .ok (m, app')) :
    ∃ file', appRunFile env lib readFile isNil lines mode app file = .ok (m, app', file') := by
  induction lines generalizing mode app file with
  | nil => cases hr; exact ⟨_, rfl⟩
  | cons l lines ih =>
    obtain ⟨now, line⟩ := l
    unfold appRun at hr
    rw [Res.bind_eq_ok] at hr
    obtain ⟨step, h1, hr⟩ := hr
    unfold appRunFile
    rw [h1]
    cases step with
    | next m o a => exact ih _ hr
    | exit a => cases hr; exact ⟨_, rfl⟩
    | fatal => cases hr; exact ⟨_, rfl⟩

end Willow.Props
