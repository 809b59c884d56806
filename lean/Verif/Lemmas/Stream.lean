import Verif.Model.Stream
import Verif.Lemmas.Encoding

/-! Lemmas on reading from a stream. -/

namespace Willow
open Spec

/-- All bytes of the stream that have not been consumed. -/
def GB.content (g : GB) : Bytes := g.buf ++ g.rest.flatten

/-- The stream after `Prune`. -/
def GB.pruned (g : GB) (n : Nat) : GB :=
  { g with buf := g.buf.drop n, mem := if n ≥ g.buf.length then { g.mem with spare := 0 } else g.mem }

@[simp] theorem GB.pruned_buf (g : GB) (n : Nat) : (g.pruned n).buf = g.buf.drop n := rfl
@[simp] theorem GB.pruned_rest (g : GB) (n : Nat) : (g.pruned n).rest = g.rest := rfl
@[simp] theorem GB.pruned_sched (g : GB) (n : Nat) : (g.pruned n).sched = g.sched := rfl

@[simp] theorem Mem.exact_append (n : Nat) : Mem.exact.append n = .exact := by
  unfold Mem.append Mem.exact
  by_cases h : n = 0 <;> simp [h]

theorem GB.pruned_exact {g : GB} (h : g.mem = .exact) (n : Nat) : (g.pruned n).mem = .exact := by
  unfold GB.pruned
  simp only [h]
  split <;> rfl

theorem absorb_content : ∀ (k : Nat) (g : GB), (GB.absorb k g).content = g.content
  | 0, _ => rfl
  | _ + 1, ⟨_, [], _, _⟩ => rfl
  | k + 1, ⟨buf, c :: cs, s, m⟩ => by
    rw [GB.absorb, absorb_content k]
    simp [GB.content]

theorem absorb_buf : ∀ (k : Nat) (g : GB), g.buf <+: (GB.absorb k g).buf
  | 0, _ => List.prefix_refl _
  | _ + 1, ⟨_, [], _, _⟩ => List.prefix_refl _
  | k + 1, ⟨buf, c :: cs, s, m⟩ => by
    rw [GB.absorb]
    exact List.IsPrefix.trans (by simp) (absorb_buf k ⟨buf ++ c, cs, s, m.append c.length⟩)

theorem absorb_exact : ∀ (k : Nat) (g : GB), g.mem = .exact → (GB.absorb k g).mem = .exact
  | 0, _, h => h
  | _ + 1, ⟨_, [], _, _⟩, h => h
  | k + 1, ⟨buf, c :: cs, s, m⟩, h => by
    simp only at h
    rw [GB.absorb]
    exact absorb_exact k _ (by simp [h])

/-- Bytes that there is room for are put behind the others, without a new array. -/
theorem absorb_room : ∀ (k : Nat) (g : GB), (g.rest.take k).flatten.length ≤ g.mem.spare →
    (GB.absorb k g).buf.length + (GB.absorb k g).mem.spare = g.buf.length + g.mem.spare ∧
      (GB.absorb k g).mem.room = g.mem.room
  | 0, _, _ => ⟨rfl, rfl⟩
  | _ + 1, ⟨_, [], _, _⟩, _ => ⟨rfl, rfl⟩
  | k + 1, ⟨buf, c :: cs, s, m⟩, h => by
    simp only [List.take_succ_cons, List.flatten_cons, List.length_append] at h
    have hc : c.length ≤ m.spare := by omega
    rw [GB.absorb]
    have hm : m.append c.length = { m with spare := m.spare - c.length } := by
      unfold Mem.append
      rw [if_pos hc]
    obtain ⟨h1, h2⟩ := absorb_room k ⟨buf ++ c, cs, s, m.append c.length⟩ (by simp only [hm]; omega)
    rw [h1, h2, hm]
    simp only [List.length_append]
    exact ⟨by omega, trivial⟩

theorem pull_some (n : Nat) : ∀ (rest : List Bytes) (buf : Bytes) (m : Mem), n ≤ (buf ++ rest.flatten).length →
    ∃ b r m', GB.pull n buf m rest = some (b, r, m') ∧ b ++ r.flatten = buf ++ rest.flatten ∧ n ≤ b.length ∧ buf <+: b
  | [], buf, m, h => by
    refine ⟨buf, [], m, ?_, rfl, by simpa using h, List.prefix_refl _⟩
    rw [GB.pull, if_pos (by simpa using h)]
  | c :: cs, buf, m, h => by
    rw [GB.pull]
    split
    · rename_i h'
      exact ⟨_, _, _, rfl, rfl, h', List.prefix_refl _⟩
    · obtain ⟨b, r, m', h1, h2, h3, h4⟩ := pull_some n cs (buf ++ c) (m.append c.length) (by simpa using h)
      exact ⟨b, r, m', h1, by simpa using h2, h3, List.IsPrefix.trans (by simp) h4⟩

theorem pull_exact (n : Nat) : ∀ (rest : List Bytes) (buf : Bytes) (b : Bytes) (r : List Bytes) (m : Mem),
    GB.pull n buf .exact rest = some (b, r, m) → m = .exact
  | [], buf, b, r, m, h => by
    rw [GB.pull] at h
    split at h
    · simp at h; exact h.2.2.symm
    · simp at h
  | c :: cs, buf, b, r, m, h => by
    rw [GB.pull] at h
    split at h
    · simp at h; exact h.2.2.symm
    · rw [Mem.exact_append] at h
      exact pull_exact n cs _ b r m h

theorem pull_none (n : Nat) : ∀ (rest : List Bytes) (buf : Bytes) (m : Mem), (buf ++ rest.flatten).length < n →
    GB.pull n buf m rest = none
  | [], buf, m, h => by
    rw [GB.pull, if_neg (by simp at h; omega)]
  | c :: cs, buf, m, h => by
    rw [GB.pull, if_neg (by simp at h; omega)]
    exact pull_none n cs (buf ++ c) _ (by simpa using h)

theorem nextAbsolute_ok (n : Nat) (g : GB) (h : n ≤ g.content.length) :
    ∃ g', nextAbsolute n g = .ok (g'.buf, g') ∧ g'.content = g.content ∧ n ≤ g'.buf.length ∧
      g.buf.length ≤ g'.buf.length := by
  unfold nextAbsolute
  have hc := absorb_content (g.sched.headD 0) g
  have hb := (absorb_buf (g.sched.headD 0) g).length_le
  generalize GB.absorb (g.sched.headD 0) g = g1 at *
  obtain ⟨b, r, m, h1, h2, h3, h4⟩ := pull_some n g1.rest g1.buf g1.mem (by rw [← hc] at h; exact h)
  refine ⟨⟨b, r, g.sched.tail, m⟩, ?_, ?_, h3, Nat.le_trans hb h4.length_le⟩
  · simp [h1]
  · rw [← hc]; exact h2

theorem nextAbsolute_exact {n : Nat} {g g' : GB} {b : Bytes} (h : nextAbsolute n g = .ok (b, g')) (hm : g.mem = .exact) :
    g'.mem = .exact := by
  unfold nextAbsolute at h
  have hc := absorb_exact (g.sched.headD 0) g hm
  generalize GB.absorb (g.sched.headD 0) g = g1 at *
  simp only at h
  rw [hc] at h
  cases hp : GB.pull n g1.buf .exact g1.rest with
  | none => simp [hp] at h
  | some x =>
    obtain ⟨b', r, m⟩ := x
    simp only [hp, Res.ok.injEq, Prod.mk.injEq] at h
    rw [← h.2]
    exact pull_exact _ _ _ _ _ _ hp

theorem nextAbsolute_block (n : Nat) (g : GB) (h : g.content.length < n) : nextAbsolute n g = .block := by
  unfold nextAbsolute
  have hc := absorb_content (g.sched.headD 0) g
  generalize GB.absorb (g.sched.headD 0) g = g1 at *
  simp only [pull_none n g1.rest g1.buf g1.mem (by rw [← hc] at h; exact h)]

/-- Within the length, a slice is what it is of the value. -/
theorem sliceArray_ok {acc x : Bytes} {i j : Nat} (h : slice acc i j = .ok x) (g : GB) : sliceArray acc i j g = .ok (x, g) := by
  unfold slice at h
  split at h
  · rename_i hi
    unfold sliceArray
    rw [if_pos ⟨hi.1, by omega⟩]
    simp only [Res.ok.injEq] at h
    rw [← h, List.drop_append_of_le_length (by omega), List.take_append_of_le_length (by simp; omega)]
  · cases h

/-- Without room beyond the length, a slice is what it is of the value. -/
theorem sliceArray_exact {g : GB} (h : g.mem = .exact) (acc : Bytes) (i j : Nat) :
    sliceArray acc i j g = Dec.lift (slice acc i j) g := by
  unfold sliceArray slice Dec.lift
  simp only [h, Mem.exact, Nat.add_zero, List.replicate_zero, List.append_nil]
  split <;> rfl

@[simp] theorem Dec.pure_apply {α : Type} (a : α) (g : GB) : (pure a : Dec α) g = .ok (a, g) := rfl

@[simp] theorem Dec.bind_apply {α β : Type} (d : Dec α) (f : α → Dec β) (g : GB) :
    (d >>= f) g = match d g with
      | .ok (a, g') => f a g'
      | .err => .err
      | .crash => .crash
      | .block => .block := rfl

@[simp] theorem Dec.lift_ok {α : Type} (a : α) (g : GB) : Dec.lift (.ok a) g = .ok (a, g) := rfl
@[simp] theorem Dec.lift_err {α : Type} (g : GB) : (Dec.lift (.err : Res α)) g = .err := rfl
@[simp] theorem Dec.lift_crash {α : Type} (g : GB) : (Dec.lift (.crash : Res α)) g = .crash := rfl
@[simp] theorem Dec.liftD_ok {α : Type} (a z : α) (g : GB) : Dec.liftD (.ok a) z g = .ok (a, g) := rfl
@[simp] theorem Dec.liftD_err {α : Type} (z : α) (g : GB) : Dec.liftD (.err : Res α) z g = .ok (z, g) := rfl
@[simp] theorem prune_apply (n : Nat) (g : GB) : prune n g = .ok ((), g.pruned n) := rfl

theorem slice_buf (g : GB) (i j : Nat) (h : j ≤ g.buf.length) : slice g.buf i j = slice g.content i j := by
  unfold slice GB.content
  by_cases hi : i ≤ j
  · rw [if_pos ⟨hi, h⟩, if_pos ⟨hi, by simp; omega⟩]
    rw [List.drop_append_of_le_length (by omega), List.take_append_of_le_length (by simp; omega)]
  · rw [if_neg (by omega), if_neg (by omega)]

theorem prune_content (g : GB) (n : Nat) (h : n ≤ g.buf.length) :
    (g.pruned n).content = g.content.drop n := by
  unfold GB.content GB.pruned
  rw [List.drop_append_of_le_length h]

theorem slice_zero_append {α : Type} (a b : List α) (n : Nat) (h : n = a.length) : slice (a ++ b) 0 n = .ok a :=
  slice_append_left a b n h

/-- Outcome of the component loop on the encoding of `cs` followed by `rest`. -/
theorem decodePathStreamLoop_encode (p : PathParams) (rest : Bytes) : ∀ (cs : Path) (g : GB) (done : Path),
    (∀ c ∈ cs, c.length ≤ p.cl) → (∀ c ∈ cs, c.length < 2 ^ 32) →
    g.content = encodeComponents p cs ++ rest →
    (g.mem = .exact → ∀ x g', decodePathStreamLoop p cs.length done g = .ok (x, g') →
      x = done ++ cs ∧ g'.content = rest ∧ g'.mem = .exact) ∧
    (((∀ c ∈ cs, c.length ≤ getWidthMax32Int p.cl) ∨ (encodeComponents p cs).length ≤ g.buf.length) →
      (∀ c, cs.getLast? = some c → getWidthMax32Int p.cl ≤ c.length + rest.length) →
      ∃ g', decodePathStreamLoop p cs.length done g = .ok (done ++ cs, g') ∧ g'.content = rest)
  | [], g, done, _, _, hg => by
    simp only [encodeComponents, List.nil_append] at hg
    simp only [List.length_nil, decodePathStreamLoop, Dec.pure_apply]
    refine ⟨?_, ?_⟩
    · intro hm x g' h
      simp only [Res.ok.injEq, Prod.mk.injEq] at h
      obtain ⟨rfl, rfl⟩ := h
      simp [hg, hm]
    · intro _ _
      exact ⟨g, by simp, hg⟩
  | c :: cs, g, done, h, h32, hg => by
    have hc := h c (by simp)
    have hconv : p.conv c.length = c.length := conv_of_le hc p.hcl
    simp only [encodeComponents, hconv, List.append_assoc] at hg
    have hel := encodeIntMax32_length c.length p.cl
    generalize hw : getWidthMax32Int p.cl = w at *
    obtain ⟨g1, e1, c1, l1, b1⟩ := nextAbsolute_ok w g (by rw [hg]; simp [hel])
    have s1 : slice g1.buf 0 w = .ok (encodeIntMax32 c.length p.cl) := by
      rw [slice_buf _ _ _ l1, c1, hg]
      exact slice_append_left _ _ _ hel.symm
    simp only [List.length_cons, decodePathStreamLoop, hw, Dec.bind_apply, e1, sliceArray_ok s1,
      decode_encodeIntMax32 hc (h32 c (by simp)), Dec.liftD_ok]
    have hlen : g1.content.length = w + c.length + (encodeComponents p cs ++ rest).length := by
      rw [c1, hg]; simp [hel]; omega
    by_cases hbl : w + w ≤ g1.content.length
    · obtain ⟨g2, e2, c2, l2, b2⟩ := nextAbsolute_ok (w + w) g1 hbl
      rw [e2]
      simp only
      by_cases hfit : w + c.length ≤ g2.buf.length
      · have s2 : slice g2.buf w (w + c.length) = .ok c := by
          rw [slice_buf _ _ _ hfit, c2, c1, hg]
          exact slice_mid _ _ _ _ _ hel.symm (by rw [hel])
        simp only [sliceArray_ok s2, prune_apply]
        have c3 : (g2.pruned (w + c.length)).content = encodeComponents p cs ++ rest := by
          rw [prune_content _ _ hfit, c2, c1, hg, ← List.append_assoc]
          rw [List.drop_left' (by simp [hel])]
        have ih := decodePathStreamLoop_encode p rest cs _ (done ++ [c]) (fun d hd => h d (by simp [hd]))
          (fun d hd => h32 d (by simp [hd])) c3
        simp only [List.append_assoc, List.singleton_append] at ih
        refine ⟨fun hm => ih.1 (GB.pruned_exact (nextAbsolute_exact e2 (nextAbsolute_exact e1 hm)) _), fun ha hr => ih.2 ?_ ?_⟩
        · rcases ha with ha | ha
          · exact .inl fun d hd => by rw [hw]; exact ha d (by simp [hd])
          · right
            simp only [encodeComponents, hconv, List.append_assoc, List.length_append, hel] at ha
            simp only [GB.pruned_buf, List.length_drop]
            omega
        · intro d hd
          rw [hw]
          refine hr d ?_
          cases cs with
          | nil => simp at hd
          | cons e es => rw [← hd, List.getLast?_cons_cons]
      · have s2 : slice g2.buf w (w + c.length) = .crash := by
          unfold slice; rw [if_neg (by omega)]
        refine ⟨fun hm => ?_, ?_⟩
        · rw [sliceArray_exact (nextAbsolute_exact e2 (nextAbsolute_exact e1 hm)), s2]
          intro x g' h
          simp at h
        intro ha _
        exfalso
        rcases ha with ha | ha
        · have := ha c (by simp); omega
        · simp only [encodeComponents, hconv, List.append_assoc, List.length_append, hel] at ha
          omega
    · rw [nextAbsolute_block _ _ (by omega)]
      simp only
      refine ⟨by intro _ x g' h; simp at h, ?_⟩
      intro _ hr
      exfalso
      cases cs with
      | nil =>
        have := hr c (by simp)
        simp only [encodeComponents, List.nil_append] at hlen
        omega
      | cons d ds =>
        have : w ≤ (encodeComponents p (d :: ds)).length := by
          simp only [encodeComponents, List.length_append, encodeIntMax32_length, hw]
          omega
        simp only [List.length_append] at hlen
        omega

theorem decodePathStream_encode (p : PathParams) (path : Path) (hv : ValidPath p path) (hs : Small p path)
    (rest : Bytes) (g : GB) (hg : g.content = encodePath p path ++ rest) :
    (g.mem = .exact → ∀ x g', decodePathStream p g = .ok (x, g') → x = path ∧ g'.content = rest ∧ g'.mem = .exact) ∧
    (((∀ c ∈ path, c.length ≤ getWidthMax32Int p.cl) ∨ (encodePath p path).length ≤ g.buf.length) →
      (∀ c, path.getLast? = some c → getWidthMax32Int p.cl ≤ c.length + rest.length) →
      ∃ g', decodePathStream p g = .ok (path, g') ∧ g'.content = rest) := by
  have hel := encodeIntMax32_length path.length p.cc
  unfold encodePath at hg
  rw [conv_of_le hv.count p.hcc, List.append_assoc] at hg
  obtain ⟨g1, e1, c1, l1, b1⟩ := nextAbsolute_ok (getWidthMax32Int p.cc) g (by rw [hg]; simp [hel])
  have s1 : slice g1.buf 0 (getWidthMax32Int p.cc) = .ok (encodeIntMax32 path.length p.cc) := by
    rw [slice_buf _ _ _ l1, c1, hg]
    exact slice_append_left _ _ _ hel.symm
  have c2 : (g1.pruned (getWidthMax32Int p.cc)).content = encodeComponents p path ++ rest := by
    rw [prune_content _ _ l1, c1, hg, List.drop_left' hel]
  have := decodePathStreamLoop_encode p rest path _ [] hv.comp hs.comp c2
  simp only [List.nil_append] at this
  unfold decodePathStream
  simp only [Dec.bind_apply, e1, sliceArray_ok s1, decode_encodeIntMax32 hv.count hs.count, Dec.liftD_ok, prune_apply]
  refine ⟨fun hm => this.1 (GB.pruned_exact (nextAbsolute_exact e1 hm) _), fun ha hr => this.2 ?_ hr⟩
  rcases ha with ha | ha
  · exact .inl ha
  · right
    simp only [encodePath, List.length_append, encodeIntMax32_length] at ha
    simp only [GB.pruned_buf, List.length_drop]
    omega

end Willow
