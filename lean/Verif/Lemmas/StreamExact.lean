import Verif.Lemmas.Relative
import Verif.Lemmas.Reads

/-! Exactly when the stream decoder of paths returns. -/

namespace Willow
open Spec

theorem pull_slow (n : Nat) : ∀ (l buf : Bytes), buf.length ≤ n → n ≤ (buf ++ l).length →
    GB.pull n buf .exact (l.map fun b => [b]) = some ((buf ++ l).take n, ((buf ++ l).drop n).map fun b => [b], .exact)
  | [], buf, h1, h2 => by
    have : n = buf.length := by simp at h2; omega
    subst this
    simp [GB.pull]
  | c :: cs, buf, h1, h2 => by
    rw [List.map_cons, GB.pull]
    split
    · have : n = buf.length := by omega
      subst this
      simp
    · rw [Mem.exact_append, pull_slow n cs (buf ++ [c]) (by simp; omega) (by simpa using h2)]
      simp

/-- Bytes that come one at a time, no sooner than asked for. -/
def slow (k : Nat) (content : Bytes) : GB := ⟨content.take k, (content.drop k).map fun b => [b], [], .exact⟩

theorem slow_content (k : Nat) (content : Bytes) : (slow k content).content = content := by
  unfold slow GB.content
  rw [flatten_singles]
  exact List.take_append_drop k content

theorem next_slow {k n : Nat} {content : Bytes} (hk : k ≤ n) (hn : n ≤ content.length) :
    nextAbsolute n (slow k content) = .ok (content.take n, slow n content) := by
  unfold nextAbsolute slow
  simp only [List.headD_nil, GB.absorb]
  rw [pull_slow n _ _ (by simp; omega) (by simp; omega)]
  simp

theorem prune_slow {k n : Nat} {content : Bytes} (hk : k ≤ n) :
    (slow n content).pruned k = slow (n - k) (content.drop k) := by
  have hm := GB.pruned_exact (g := slow n content) rfl k
  unfold GB.pruned slow at *
  simp only [List.drop_drop, GB.mk.injEq, true_and] at hm ⊢
  refine ⟨?_, by rw [Nat.add_sub_cancel' hk], hm⟩
  rw [List.drop_take]

/-- A component longer than its length field is wide is not decoded when the bytes come slowly. -/
theorem decodePathStreamLoop_slow (p : PathParams) (rest : Bytes) : ∀ (cs : Path) (k : Nat) (done : Path),
    (∀ c ∈ cs, c.length ≤ p.cl) → (∀ c ∈ cs, c.length < 2 ^ 32) → k ≤ getWidthMax32Int p.cl →
    (∃ c ∈ cs, getWidthMax32Int p.cl < c.length) →
    ∀ x, decodePathStreamLoop p cs.length done (slow k (encodeComponents p cs ++ rest)) ≠ .ok x
  | [], _, _, _, _, _, h, _ => by simp at h
  | c :: cs, k, done, h, h32, hk, hl, x => by
    have hc := h c (by simp)
    have hconv : p.conv c.length = c.length := conv_of_le hc p.hcl
    have hel := encodeIntMax32_length c.length p.cl
    simp only [encodeComponents, hconv, List.append_assoc]
    generalize hw : getWidthMax32Int p.cl = w at *
    generalize hcon : encodeIntMax32 c.length p.cl ++ (c ++ (encodeComponents p cs ++ rest)) = content
    have hlen : content.length = w + c.length + (encodeComponents p cs ++ rest).length := by
      rw [← hcon]; simp [hel]; omega
    have s1 : slice (content.take w) 0 w = .ok (encodeIntMax32 c.length p.cl) := by
      rw [← hcon, List.take_left' hel, ← List.append_nil (encodeIntMax32 c.length p.cl)]
      rw [slice_append_left _ _ _ hel.symm]
      simp
    simp only [List.length_cons, decodePathStreamLoop, hw, Dec.bind_apply, next_slow hk (show w ≤ content.length by omega),
      sliceArray_ok s1, decode_encodeIntMax32 hc (h32 c (by simp)), Dec.liftD_ok]
    by_cases hbl : w + w ≤ content.length
    · simp only [next_slow (show w ≤ w + w by omega) hbl]
      have hlb : (content.take (w + w)).length = w + w := by simp; omega
      by_cases hfit : c.length ≤ w
      · have s2 : slice (content.take (w + w)) w (w + c.length) = .ok c := by
          have := slice_buf (slow (w + w) content) w (w + c.length) (by unfold slow; simp only; omega)
          rw [slow_content] at this
          refine this.trans ?_
          rw [← hcon]
          exact slice_mid _ _ _ _ _ hel.symm (by rw [hel])
        simp only [sliceArray_ok s2, prune_apply]
        rw [prune_slow (by omega)]
        have hd : content.drop (w + c.length) = encodeComponents p cs ++ rest := by
          rw [← hcon, ← List.append_assoc]
          exact List.drop_left' (by simp [hel])
        rw [hd]
        refine decodePathStreamLoop_slow p rest cs _ _ (fun d hd => h d (by simp [hd])) (fun d hd => h32 d (by simp [hd]))
          (by omega) ?_ x
        obtain ⟨d, hd, hdl⟩ := hl
        rcases List.mem_cons.1 hd with rfl | hd
        · omega
        · exact ⟨d, hd, by omega⟩
      · have s2 : slice (content.take (w + w)) w (w + c.length) = .crash := by
          unfold slice
          rw [if_neg (by omega)]
        simp [sliceArray_exact (g := slow (w + w) content) rfl, s2]
    · rw [nextAbsolute_block _ _ (by rw [slow_content]; omega)]
      simp

/-- The decoder waits for bytes that do not come if the last component and what follows are shorter than
the length field. -/
theorem decodePathStreamLoop_waits (p : PathParams) (rest : Bytes) (last : Bytes) (hr : last.length + rest.length < getWidthMax32Int p.cl) :
    ∀ (cs : Path) (g : GB) (done : Path), (∀ c ∈ cs, c.length ≤ p.cl) → (∀ c ∈ cs, c.length < 2 ^ 32) →
    g.mem = .exact → g.content = encodeComponents p cs ++ rest → cs.getLast? = some last →
    ∀ x, decodePathStreamLoop p cs.length done g ≠ .ok x
  | [], _, _, _, _, _, _, h, _ => by simp at h
  | c :: cs, g, done, h, h32, hm, hg, hl, x => by
    have hc := h c (by simp)
    have hconv : p.conv c.length = c.length := conv_of_le hc p.hcl
    have hel := encodeIntMax32_length c.length p.cl
    simp only [encodeComponents, hconv, List.append_assoc] at hg
    generalize hw : getWidthMax32Int p.cl = w at *
    obtain ⟨g1, e1, c1, l1, b1⟩ := nextAbsolute_ok w g (by rw [hg]; simp [hel])
    have s1 : slice g1.buf 0 w = .ok (encodeIntMax32 c.length p.cl) := by
      rw [slice_buf _ _ _ l1, c1, hg]
      exact slice_append_left _ _ _ hel.symm
    simp only [List.length_cons, decodePathStreamLoop, hw, Dec.bind_apply, e1, sliceArray_ok s1,
      decode_encodeIntMax32 hc (h32 c (by simp)), Dec.liftD_ok]
    have hlen : g1.content.length = w + c.length + (encodeComponents p cs ++ rest).length := by
      rw [c1, hg]; simp [hel]; omega
    by_cases hbl : w + w ≤ g1.content.length
    · obtain ⟨g2, e2, c2, l2, b2⟩ := nextAbsolute_ok (w + w) g1 hbl
      rw [e2]
      simp only
      by_cases hfit : w + c.length ≤ g2.buf.length
      · have s2 : slice g2.buf w (w + c.length) = .ok c := by
          rw [slice_buf _ _ _ hfit, c2, c1, hg]
          exact slice_mid _ _ _ _ _ hel.symm (by rw [hel])
        simp only [sliceArray_ok s2, prune_apply]
        have c3 : (g2.pruned (w + c.length)).content = encodeComponents p cs ++ rest := by
          rw [prune_content _ _ hfit, c2, c1, hg, ← List.append_assoc]
          rw [List.drop_left' (by simp [hel])]
        refine decodePathStreamLoop_waits p rest last (by rw [hw]; exact hr) cs _ _ (fun d hd => h d (by simp [hd]))
          (fun d hd => h32 d (by simp [hd])) (GB.pruned_exact (nextAbsolute_exact e2 (nextAbsolute_exact e1 hm)) _) c3 ?_ x
        cases cs with
        | nil =>
          simp only [List.getLast?_singleton, Option.some.injEq] at hl
          subst hl
          simp only [encodeComponents, List.nil_append] at hlen
          omega
        | cons d ds => rw [← hl, List.getLast?_cons_cons]
      · have s2 : slice g2.buf w (w + c.length) = .crash := by
          unfold slice; rw [if_neg (by omega)]
        simp [sliceArray_exact (nextAbsolute_exact e2 (nextAbsolute_exact e1 hm)), s2]
    · rw [nextAbsolute_block _ _ (by omega)]
      simp

/-- The decoder of a path, once the count has been read. -/
theorem decodePathStream_count {p : PathParams} {path : Path} (hv : ValidPath p path) (hs : Small p path) {rest : Bytes} {g : GB}
    (hg : g.content = encodePath p path ++ rest) : ∃ g1 : GB, g1.content = encodeComponents p path ++ rest ∧ (g.mem = .exact → g1.mem = .exact) ∧
      decodePathStream p g = decodePathStreamLoop p path.length [] g1 := by
  have hel := encodeIntMax32_length path.length p.cc
  unfold encodePath at hg
  rw [conv_of_le hv.count p.hcc, List.append_assoc] at hg
  obtain ⟨g1, e1, c1, l1, b1⟩ := nextAbsolute_ok (getWidthMax32Int p.cc) g (by rw [hg]; simp [hel])
  have s1 : slice g1.buf 0 (getWidthMax32Int p.cc) = .ok (encodeIntMax32 path.length p.cc) := by
    rw [slice_buf _ _ _ l1, c1, hg]
    exact slice_append_left _ _ _ hel.symm
  refine ⟨g1.pruned (getWidthMax32Int p.cc), by
    rw [prune_content _ _ l1, c1, hg, List.drop_left' hel],
    fun hm => GB.pruned_exact (nextAbsolute_exact e1 hm) _, ?_⟩
  unfold decodePathStream
  simp only [Dec.bind_apply, e1, sliceArray_ok s1, decode_encodeIntMax32 hv.count hs.count, Dec.liftD_ok, prune_apply]

theorem decodePathStream_waits {p : PathParams} {path : Path} (hv : ValidPath p path) (hs : Small p path) {rest last : Bytes} {g : GB}
    (hg : g.content = encodePath p path ++ rest) (hl : path.getLast? = some last)
    (hr : last.length + rest.length < getWidthMax32Int p.cl) (hm : g.mem = .exact) (x : Path × GB) :
    decodePathStream p g ≠ .ok x := by
  obtain ⟨g1, h1, hm1, h2⟩ := decodePathStream_count hv hs hg
  rw [h2]
  exact decodePathStreamLoop_waits p rest last hr path g1 [] hv.comp hs.comp (hm1 hm) h1 hl x

theorem decodePathStream_slow {p : PathParams} {path : Path} (hv : ValidPath p path) (hs : Small p path) {rest : Bytes} {k : Nat}
    (hk : k ≤ getWidthMax32Int p.cc) (hl : ∃ c ∈ path, getWidthMax32Int p.cl < c.length) (x : Path × GB) :
    decodePathStream p (slow k (encodePath p path ++ rest)) ≠ .ok x := by
  have hel := encodeIntMax32_length path.length p.cc
  unfold encodePath decodePathStream
  rw [conv_of_le hv.count p.hcc, List.append_assoc]
  generalize hw : getWidthMax32Int p.cc = w at *
  generalize hcon : encodeIntMax32 path.length p.cc ++ (encodeComponents p path ++ rest) = content
  have hlen : w ≤ content.length := by rw [← hcon]; simp [hel]
  have s1 : slice (content.take w) 0 w = .ok (encodeIntMax32 path.length p.cc) := by
    rw [← hcon, List.take_left' hel, ← List.append_nil (encodeIntMax32 path.length p.cc)]
    rw [slice_append_left _ _ _ hel.symm]
    simp
  simp only [Dec.bind_apply, next_slow hk hlen, sliceArray_ok s1, decode_encodeIntMax32 hv.count hs.count, Dec.liftD_ok, prune_apply]
  rw [prune_slow (Nat.le_refl _), ← hcon, List.drop_left' hel]
  exact decodePathStreamLoop_slow p rest path _ [] hv.comp hs.comp (by omega) hl x

/-! Room in the arrays is of no help: what is decoded rightly thanks to it is decoded rightly without. -/

/-- The same stream with arrays that have room for their bytes only. -/
def GB.tight (g : GB) : GB := { g with mem := .exact }

@[simp] theorem GB.tight_content (g : GB) : g.tight.content = g.content := rfl
@[simp] theorem GB.tight_buf (g : GB) : g.tight.buf = g.buf := rfl

theorem GB.tight_pruned (g : GB) (n : Nat) : g.tight.pruned n = (g.pruned n).tight := by
  have := GB.pruned_exact (g := g.tight) rfl n
  unfold GB.pruned GB.tight at *
  simp only [GB.mk.injEq, true_and] at this ⊢
  exact this

theorem absorb_tight : ∀ (k : Nat) (g : GB), GB.absorb k g.tight = (GB.absorb k g).tight
  | 0, _ => rfl
  | _ + 1, ⟨_, [], _, _⟩ => rfl
  | k + 1, ⟨buf, c :: cs, s, m⟩ => by
    rw [GB.absorb, ← absorb_tight k]
    show GB.absorb (k + 1) ⟨buf, c :: cs, s, .exact⟩ = _
    rw [GB.absorb, Mem.exact_append]
    rfl

theorem pull_tight (n : Nat) : ∀ (rest : List Bytes) (buf : Bytes) (m : Mem),
    GB.pull n buf .exact rest = (GB.pull n buf m rest).map fun x => (x.1, x.2.1, .exact)
  | [], buf, m => by
    rw [GB.pull, GB.pull]
    split <;> rfl
  | c :: cs, buf, m => by
    rw [GB.pull, GB.pull]
    split
    · rfl
    · rw [Mem.exact_append, pull_tight n cs]

theorem nextAbsolute_tight {n : Nat} {g g' : GB} {b : Bytes} (h : nextAbsolute n g = .ok (b, g')) :
    nextAbsolute n g.tight = .ok (b, g'.tight) := by
  unfold nextAbsolute at h ⊢
  simp only at h ⊢
  rw [show g.tight.sched = g.sched from rfl, absorb_tight]
  generalize GB.absorb (g.sched.headD 0) g = g1 at *
  show (match GB.pull n g1.buf .exact g1.rest with
    | some (buf, rest, mem) => Res.ok (buf, (⟨buf, rest, g.sched.tail, mem⟩ : GB))
    | none => .block) = _
  rw [pull_tight n _ _ g1.mem]
  cases hp : GB.pull n g1.buf g1.mem g1.rest with
  | none => simp [hp] at h
  | some x =>
    simp only [hp, Res.ok.injEq, Prod.mk.injEq] at h
    obtain ⟨rfl, rfl⟩ := h
    rfl

/-- The bytes taken from a stream. -/
theorem nextAbsolute_content {n : Nat} {g g' : GB} {b : Bytes} (h : nextAbsolute n g = .ok (b, g')) :
    g'.content = g.content ∧ b = g'.buf ∧ n ≤ b.length := by
  by_cases hn : n ≤ g.content.length
  · obtain ⟨g1, e1, c1, l1, -⟩ := nextAbsolute_ok n g hn
    rw [e1] at h
    simp only [Res.ok.injEq, Prod.mk.injEq] at h
    obtain ⟨rfl, rfl⟩ := h
    exact ⟨c1, rfl, l1⟩
  · rw [nextAbsolute_block _ _ (by omega)] at h
    cases h

theorem pruned_length (g : GB) (n : Nat) : g.content.length ≤ (g.pruned n).content.length + n ∧
    (g.content.length = (g.pruned n).content.length + n → n ≤ g.buf.length) := by
  unfold GB.content
  simp only [GB.pruned_buf, GB.pruned_rest, List.length_append, List.length_drop]
  omega

theorem liftD_inv {α : Type} {r : Res α} {z a : α} {g g' : GB} (h : Dec.liftD r z g = .ok (a, g')) :
    g' = g ∧ ∀ h' : GB, Dec.liftD r z h' = .ok (a, h') := by
  unfold Dec.liftD at h ⊢
  cases r <;> simp_all

theorem sliceArray_inv {acc x : Bytes} {i j : Nat} {g g' : GB} (h : sliceArray acc i j g = .ok (x, g')) :
    g' = g ∧ i ≤ j ∧ x.length = j - i ∧ (j ≤ acc.length → ∀ h' : GB, sliceArray acc i j h' = .ok (x, h')) := by
  unfold sliceArray at h
  split at h
  · rename_i hi
    simp only [Res.ok.injEq, Prod.mk.injEq] at h
    obtain ⟨rfl, rfl⟩ := h
    refine ⟨rfl, hi.1, by simp; omega, fun hj h' => ?_⟩
    refine sliceArray_ok ?_ h'
    unfold slice
    rw [if_pos ⟨hi.1, hj⟩, List.drop_append_of_le_length (by omega), List.take_append_of_le_length (by simp; omega)]
  · cases h

/-- The bytes that the components of a path take. -/
def spent (w : Nat) (cs : Path) : Nat := (cs.map fun c => w + c.length).sum

theorem encodeComponents_spent (p : PathParams) : ∀ cs : Path, (encodeComponents p cs).length = spent (getWidthMax32Int p.cl) cs
  | [] => rfl
  | c :: cs => by
    simp [encodeComponents, spent, encodeIntMax32_length, encodeComponents_spent p cs, Nat.add_assoc]

/-- The loop takes no more bytes than the encoding of what it returns, and if it takes as many, then it
does not depend on room in the arrays. -/
theorem decodePathStreamLoop_tight (p : PathParams) : ∀ (n : Nat) (done x : Path) (g g' : GB),
    decodePathStreamLoop p n done g = .ok (x, g') → ∃ cs, x = done ++ cs ∧ cs.length = n ∧
      g.content.length ≤ g'.content.length + spent (getWidthMax32Int p.cl) cs ∧
      (g.content.length = g'.content.length + spent (getWidthMax32Int p.cl) cs →
        decodePathStreamLoop p n done g.tight = .ok (x, g'.tight))
  | 0, done, x, g, g', h => by
    simp only [decodePathStreamLoop, Dec.pure_apply, Res.ok.injEq, Prod.mk.injEq] at h
    obtain ⟨rfl, rfl⟩ := h
    exact ⟨[], by simp, rfl, by simp [spent], fun _ => rfl⟩
  | n + 1, done, x, g, g', h => by
    simp only [decodePathStreamLoop] at h
    generalize hw : getWidthMax32Int p.cl = w at *
    obtain ⟨acc, g1, e1, h⟩ := Dec.bind_ok.1 h
    obtain ⟨lb, g2, e2, h⟩ := Dec.bind_ok.1 h
    obtain ⟨len, g3, e3, h⟩ := Dec.bind_ok.1 h
    obtain ⟨acc2, g4, e4, h⟩ := Dec.bind_ok.1 h
    obtain ⟨comp, g5, e5, h⟩ := Dec.bind_ok.1 h
    obtain ⟨_, g6, e6, h⟩ := Dec.bind_ok.1 h
    obtain ⟨c1, rfl, l1⟩ := nextAbsolute_content e1
    obtain ⟨rfl, -, -, s1⟩ := sliceArray_inv e2
    obtain ⟨rfl, s2⟩ := liftD_inv e3
    obtain ⟨c4, rfl, l4⟩ := nextAbsolute_content e4
    obtain ⟨rfl, -, hcl, s5⟩ := sliceArray_inv e5
    simp only [prune_apply, Res.ok.injEq, Prod.mk.injEq, true_and] at e6
    subst e6
    obtain ⟨cs, rfl, hlen, hle, ht⟩ := decodePathStreamLoop_tight p n _ _ _ _ h
    rw [hw] at hle ht
    have hp := pruned_length g5 (w + len)
    have hsp : spent w (comp :: cs) = w + len + spent w cs := by
      simp [spent, hcl]
    rw [c4, c1] at hp
    refine ⟨comp :: cs, by simp, by simp [hlen], by rw [hsp]; omega, fun he => ?_⟩
    rw [hsp] at he
    have hfit := hp.2 (by omega)
    simp only [decodePathStreamLoop, hw, Dec.bind_apply, nextAbsolute_tight e1, s1 l1, s2, nextAbsolute_tight e4, s5 hfit, prune_apply,
      GB.tight_pruned]
    exact ht (by omega)

theorem decodePathStream_tight {p : PathParams} {g g' : GB} {x : Path} (h : decodePathStream p g = .ok (x, g')) :
    g.content.length ≤ g'.content.length + (encodePath p x).length ∧
    (g.content.length = g'.content.length + (encodePath p x).length → decodePathStream p g.tight = .ok (x, g'.tight)) := by
  unfold decodePathStream at h
  obtain ⟨acc, g1, e1, h⟩ := Dec.bind_ok.1 h
  obtain ⟨lb, g2, e2, h⟩ := Dec.bind_ok.1 h
  obtain ⟨len, g3, e3, h⟩ := Dec.bind_ok.1 h
  obtain ⟨_, g6, e6, h⟩ := Dec.bind_ok.1 h
  obtain ⟨c1, rfl, l1⟩ := nextAbsolute_content e1
  obtain ⟨rfl, -, -, s1⟩ := sliceArray_inv e2
  obtain ⟨rfl, s2⟩ := liftD_inv e3
  simp only [prune_apply, Res.ok.injEq, Prod.mk.injEq, true_and] at e6
  subst e6
  obtain ⟨cs, hx, hlen, hle, ht⟩ := decodePathStreamLoop_tight p _ _ _ _ _ h
  have hp := pruned_length g3 (getWidthMax32Int p.cc)
  have hsp : (encodePath p cs).length = getWidthMax32Int p.cc + spent (getWidthMax32Int p.cl) cs := by
    simp [encodePath, encodeComponents_spent, encodeIntMax32_length]
  rw [c1] at hp
  rw [List.nil_append] at hx
  subst hx
  rw [hsp]
  refine ⟨by omega, fun he => ?_⟩
  unfold decodePathStream
  simp only [Dec.bind_apply, nextAbsolute_tight e1, s1 l1, s2, prune_apply, GB.tight_pruned]
  exact ht (by omega)

/-- A path that is decoded rightly is decoded rightly without room in the arrays. -/
theorem decodePathStream_right {p : PathParams} {g g' : GB} {x : Path} {rest : Bytes} (hg : g.content = encodePath p x ++ rest)
    (h : decodePathStream p g = .ok (x, g')) (hr : g'.content = rest) : decodePathStream p g.tight = .ok (x, g'.tight) :=
  (decodePathStream_tight h).2 (by rw [hg, hr, List.length_append]; omega)

/-- A relative path when the bytes come slowly. -/
theorem decodeRelPathStream_slow {p : PathParams} {a r : Path} {enc : Bytes}
    (ha : ShortPath p a) (h : encodeRelativePath p a r = .ok enc) (hl : ¬ ShortAfterShared (getWidthMax32Int p.cl) a r)
    (rest : Bytes) (x : Path × GB) : decodeRelPathStream p r (slow 0 (enc ++ rest)) ≠ .ok x := by
  obtain ⟨k, hk, hk2, ht, rfl, -⟩ := encodeRelativePath_inv h
  have hel := encodeIntMax32_length (p.conv k) p.cc
  rw [List.append_assoc]
  have hlen : getWidthMax32Int p.cc ≤ (encodeIntMax32 (p.conv k) p.cc ++ (encodePath p (a.drop k) ++ rest)).length := by
    simp [hel]
  have e1 := next_slow (Nat.zero_le _) hlen
  obtain ⟨h1, -⟩ := decodeRelPathStream_step (g1 := slow (getWidthMax32Int p.cc) _) ha hk hk2 (slow_content _ _) e1
    (by rw [slow_content, slow_content]) (by unfold slow; simp [hel])
  rw [h1, prune_slow (Nat.le_refl _), List.drop_left' hel]
  intro hx
  obtain ⟨y, g2, h2, -⟩ := Dec.bind_ok.1 hx
  have hv := shortPath_drop ha k
  refine decodePathStream_slow hv.toValidPath (shortPath_small hv) (by omega) ?_ _ h2
  refine Classical.byContradiction fun hn => hl ⟨k, hk, hk2, ht, fun c hc => Nat.le_of_not_lt fun hlt => hn ⟨c, hc, hlt⟩⟩

/-- A relative path that is decoded rightly takes no more bytes than its encoding, and if it takes as many, it
is decoded rightly without room in the arrays. -/
theorem decodeRelPathStream_tight {p : PathParams} {a r : Path} {enc rest : Bytes}
    (ha : ShortPath p a) (h : encodeRelativePath p a r = .ok enc) {g g' : GB} (hg : g.content = enc ++ rest)
    (hx : decodeRelPathStream p r g = .ok (a, g')) : g.content.length ≤ g'.content.length + enc.length ∧
      (g.content.length = g'.content.length + enc.length → decodeRelPathStream p r g.tight = .ok (a, g'.tight)) := by
  obtain ⟨k, hk, hk2, ht, rfl, -⟩ := encodeRelativePath_inv h
  have hel := encodeIntMax32_length (p.conv k) p.cc
  rw [List.append_assoc] at hg
  have hlen : getWidthMax32Int p.cc ≤ g.content.length := by rw [hg]; simp [hel]
  obtain ⟨g1, e1, c1, l1, -⟩ := nextAbsolute_ok _ _ hlen
  obtain ⟨h1, h2⟩ := decodeRelPathStream_step ha hk hk2 hg e1 c1 l1
  obtain ⟨h3, -⟩ := decodeRelPathStream_step (g := g.tight) (g1 := g1.tight) ha hk hk2 hg (nextAbsolute_tight e1) c1 l1
  rw [h1] at hx
  obtain ⟨y, g2, h4, h5⟩ := Dec.bind_ok.1 hx
  simp only [Dec.pure_apply, Res.ok.injEq, Prod.mk.injEq] at h5
  obtain ⟨h5, rfl⟩ := h5
  have hy : y = a.drop k := by
    have : (r.take k ++ y).drop k = a.drop k := by rw [h5]
    rw [← this, List.drop_left' (by simp; omega)]
  subst hy
  obtain ⟨h6, h7⟩ := decodePathStream_tight h4
  have hl : g.content.length = getWidthMax32Int p.cc + (g1.pruned (getWidthMax32Int p.cc)).content.length := by
    rw [hg, h2, List.length_append, hel]
  simp only [List.length_append, hel]
  refine ⟨by omega, fun he => ?_⟩
  rw [h3, GB.tight_pruned]
  refine Dec.bind_ok.2 ⟨_, _, h7 (by omega), ?_⟩
  simp only [Dec.pure_apply, Res.ok.injEq, Prod.mk.injEq, and_true]
  exact h5

theorem readCompact_takes {w v : Nat} {g g' : GB} (h : readCompact w g = .ok (v, g')) :
    g.content.length = g'.content.length + w := by
  unfold readCompact at h
  obtain ⟨acc, g1, e1, h⟩ := Dec.bind_ok.1 h
  obtain ⟨lb, g2, e2, h⟩ := Dec.bind_ok.1 h
  obtain ⟨len, g3, e3, h⟩ := Dec.bind_ok.1 h
  obtain ⟨_, g4, e4, h4⟩ := Dec.bind_ok.1 h
  rw [prune_apply] at e4
  cases e4
  obtain ⟨c1, rfl, l1⟩ := nextAbsolute_content e1
  obtain ⟨rfl, -, -, -⟩ := sliceArray_inv e2
  have : g3 = g2 := by
    cases hd : decodeIntMax64 lb <;> rw [hd] at e3 <;> cases e3
    rfl
  subst this
  cases h4
  rw [ prune_content _ _ l1, c1, List.length_drop]
  have : g3.buf.length ≤ g3.content.length := by simp [GB.content]
  rw [c1] at this
  omega

theorem fixedCodec_frugal (n : Nat) : (fixedCodec n).Frugal := by
  intro g g' x h
  have h : (nextAbsolute n >>= fun acc => Dec.lift (slice acc 0 n) >>= fun x => prune n >>= fun _ => pure x) g =
    .ok (x, g') := h
  obtain ⟨b, g1, h1, h2⟩ := Dec.bind_ok.1 h
  obtain ⟨y, g2, h3, h4⟩ := Dec.bind_ok.1 h2
  obtain ⟨c1, rfl, l1⟩ := nextAbsolute_content h1
  obtain ⟨rfl, hs⟩ := lift_same h3
  have h5 : (.ok (y, g2.pruned n) : Res (Bytes × GB)) = .ok (x, g') := h4
  simp only [Res.ok.injEq, Prod.mk.injEq] at h5
  obtain ⟨rfl, rfl⟩ := h5
  have hl : ((fixedCodec n).enc y).length = n := by
    show y.length = n
    unfold slice at hs
    rw [if_pos ⟨Nat.zero_le _, l1⟩] at hs
    simp only [Res.ok.injEq] at hs
    rw [← hs]
    simp; omega
  have := (pruned_length g2 n).1
  rw [c1] at this
  omega

theorem singles_content (b : Bytes) (sched : List Nat) (m : Mem) : GB.content ⟨[], b.map fun x => [x], sched, m⟩ = b := by
  unfold GB.content
  rw [flatten_singles]
  rfl

/-- The bytes come slowly, into arrays with some room. -/
def slowly (m : Mem) (content : Bytes) : GB := { slow 0 content with mem := m }

theorem slowly_content (m : Mem) (content : Bytes) : (slowly m content).content = content := slow_content 0 content

theorem slowly_tight (m : Mem) (content : Bytes) : (slowly m content).tight = slow 0 content := rfl

/-- Bytes that come one at a time, no sooner than asked for, into arrays with some room. -/
def slowIn (m : Mem) (k : Nat) (content : Bytes) : GB := { slow k content with mem := m }

theorem slowIn_content (m : Mem) (k : Nat) (content : Bytes) : (slowIn m k content).content = content := slow_content k content

theorem next_slowIn {k n : Nat} {content : Bytes} (m : Mem) (hk : k ≤ n) (hn : n ≤ content.length) :
    ∃ m', nextAbsolute n (slowIn m k content) = .ok (content.take n, slowIn m' n content) := by
  obtain ⟨g', e, -, -, -⟩ := nextAbsolute_ok n (slowIn m k content) (by rw [slowIn_content]; exact hn)
  have ht := nextAbsolute_tight e
  rw [show (slowIn m k content).tight = slow k content from rfl, next_slow hk hn] at ht
  simp only [Res.ok.injEq, Prod.mk.injEq] at ht
  refine ⟨g'.mem, ?_⟩
  rw [e, ← ht.1]
  have : g' = slowIn g'.mem n content := by
    unfold slowIn
    rw [ht.2]
    rfl
  rw [← this]

theorem prune_slowIn {k n : Nat} {content : Bytes} (m : Mem) (hk : k ≤ n) :
    ∃ m', (slowIn m n content).pruned k = slowIn m' (n - k) (content.drop k) := by
  refine ⟨((slowIn m n content).pruned k).mem, ?_⟩
  have := prune_slow (content := content) hk
  unfold slowIn
  rw [← this]
  rfl

/-- A component longer than its length field is wide is decoded from slow bytes only if the bytes in excess
are zero, whatever room the arrays have. -/
theorem decodePathStreamLoop_zeros (p : PathParams) (rest : Bytes) (c : Bytes) (post : Path) : ∀ (pre : Path) (k : Nat) (done : Path)
    (m : Mem), (∀ d ∈ pre ++ c :: post, d.length ≤ p.cl) → (∀ d ∈ pre ++ c :: post, d.length < 2 ^ 32) →
    k ≤ getWidthMax32Int p.cl → (∀ d ∈ pre, d.length ≤ getWidthMax32Int p.cl) → ∀ g',
    decodePathStreamLoop p (pre ++ c :: post).length done (slowIn m k (encodeComponents p (pre ++ c :: post) ++ rest)) =
      .ok (done ++ (pre ++ c :: post), g') → ∀ b ∈ c.drop (getWidthMax32Int p.cl), b = 0
  | [], k, done, m, h, h32, hk, _, g', hx => by
    have hc := h c (by simp)
    have hconv : p.conv c.length = c.length := conv_of_le hc p.hcl
    have hel := encodeIntMax32_length c.length p.cl
    simp only [List.nil_append, encodeComponents, hconv, List.append_assoc] at hx
    generalize hw : getWidthMax32Int p.cl = w at *
    generalize hcon : encodeIntMax32 c.length p.cl ++ (c ++ (encodeComponents p post ++ rest)) = content at hx
    have hlen : content.length = w + c.length + (encodeComponents p post ++ rest).length := by
      rw [← hcon]; simp [hel]; omega
    have s1 : slice (content.take w) 0 w = .ok (encodeIntMax32 c.length p.cl) := by
      rw [← hcon, List.take_left' hel, ← List.append_nil (encodeIntMax32 c.length p.cl)]
      rw [slice_append_left _ _ _ hel.symm]
      simp
    obtain ⟨m1, e1⟩ := next_slowIn m hk (show w ≤ content.length by omega)
    simp only [List.length_cons, decodePathStreamLoop, hw, Dec.bind_apply, e1,
      sliceArray_ok s1, decode_encodeIntMax32 hc (h32 c (by simp)), Dec.liftD_ok] at hx
    intro b hb
    have hcw : w < c.length := by
      refine Nat.lt_of_not_le fun hle => ?_
      rw [List.drop_eq_nil_of_le hle] at hb
      simp at hb
    obtain ⟨m2, e2⟩ := next_slowIn m1 (show w ≤ w + w by omega) (show w + w ≤ content.length by omega)
    simp only [e2] at hx
    have htake : content.take (w + w) = encodeIntMax32 c.length p.cl ++ c.take w := by
      rw [← hcon, List.take_append, List.take_of_length_le (by omega), hel, List.take_append_of_le_length (by omega)]
      congr 2
      omega
    cases hs : sliceArray (content.take (w + w)) w (w + c.length) (slowIn m2 (w + w) content) with
    | ok r =>
      obtain ⟨comp, g1⟩ := r
      simp only [hs, prune_apply] at hx
      obtain ⟨cs, he, -⟩ := decodePathStreamLoop_tight p _ _ _ _ _ hx
      rw [List.append_assoc] at he
      have he := List.append_cancel_left he
      simp only [List.singleton_append, List.cons.injEq] at he
      obtain ⟨he, -⟩ := he
      subst he
      unfold sliceArray at hs
      split at hs
      · simp only [Res.ok.injEq, Prod.mk.injEq] at hs
        have hs := hs.1
        rw [htake, List.append_assoc, List.drop_left' hel] at hs
        rw [← hs] at hb
        rw [List.drop_take] at hb
        have hb := List.mem_of_mem_take hb
        rw [List.drop_left' (by simp; omega)] at hb
        exact List.eq_of_mem_replicate hb
      · cases hs
    | err => simp [hs] at hx
    | crash => simp [hs] at hx
    | block => simp [hs] at hx
  | d :: pre, k, done, m, h, h32, hk, hpre, g', hx => by
    have hc := h d (by simp)
    have hconv : p.conv d.length = d.length := conv_of_le hc p.hcl
    have hel := encodeIntMax32_length d.length p.cl
    simp only [List.cons_append, encodeComponents, hconv, List.append_assoc] at hx
    have hdw := hpre d (by simp)
    generalize hw : getWidthMax32Int p.cl = w at *
    generalize hcon : encodeIntMax32 d.length p.cl ++ (d ++ (encodeComponents p (pre ++ c :: post) ++ rest)) = content at hx
    have hlen : content.length = w + d.length + (encodeComponents p (pre ++ c :: post) ++ rest).length := by
      rw [← hcon]; simp [hel]; omega
    have s1 : slice (content.take w) 0 w = .ok (encodeIntMax32 d.length p.cl) := by
      rw [← hcon, List.take_left' hel, ← List.append_nil (encodeIntMax32 d.length p.cl)]
      rw [slice_append_left _ _ _ hel.symm]
      simp
    obtain ⟨m1, e1⟩ := next_slowIn m hk (show w ≤ content.length by omega)
    simp only [List.length_cons, decodePathStreamLoop, hw, Dec.bind_apply, e1,
      sliceArray_ok s1, decode_encodeIntMax32 hc (h32 d (by simp)), Dec.liftD_ok] at hx
    by_cases hbl : w + w ≤ content.length
    · obtain ⟨m2, e2⟩ := next_slowIn m1 (show w ≤ w + w by omega) hbl
      simp only [e2] at hx
      have s2 : slice (content.take (w + w)) w (w + d.length) = .ok d := by
        have := slice_buf (slow (w + w) content) w (w + d.length) (by unfold slow; simp; omega)
        rw [slow_content] at this
        refine this.trans ?_
        rw [← hcon]
        exact slice_mid _ _ _ _ _ hel.symm (by rw [hel])
      obtain ⟨m3, e3⟩ := prune_slowIn (content := content) m2 (show w + d.length ≤ w + w by omega)
      have hd : content.drop (w + d.length) = encodeComponents p (pre ++ c :: post) ++ rest := by
        rw [← hcon, ← List.append_assoc]
        exact List.drop_left' (by simp [hel])
      simp only [sliceArray_ok s2, prune_apply, e3, hd] at hx
      rw [← hw]
      refine decodePathStreamLoop_zeros p rest c post pre (w + w - (w + d.length)) (done ++ [d]) m3
        (fun e he => h e (by simp at he ⊢; exact .inr he)) (fun e he => h32 e (by simp at he ⊢; exact .inr he)) (by omega)
        (fun e he => by rw [hw]; exact hpre e (by simp [he])) g' ?_
      rw [hx]
      simp
    · rw [nextAbsolute_block _ _ (by rw [slowIn_content]; omega)] at hx
      cases hx

/-- The same for a whole path. -/
theorem decodePathStream_zeros {p : PathParams} {pre post : Path} {c : Bytes} (hv : ValidPath p (pre ++ c :: post))
    (hs : Small p (pre ++ c :: post)) {rest : Bytes} (m : Mem) (hp : ∀ d ∈ pre, d.length ≤ getWidthMax32Int p.cl) {g' : GB}
    (h : decodePathStream p (slowly m (encodePath p (pre ++ c :: post) ++ rest)) = .ok (pre ++ c :: post, g')) :
    ∀ b ∈ c.drop (getWidthMax32Int p.cl), b = 0 := by
  have hel := encodeIntMax32_length (pre ++ c :: post).length p.cc
  unfold encodePath decodePathStream at h
  rw [conv_of_le hv.count p.hcc, List.append_assoc] at h
  generalize hw : getWidthMax32Int p.cc = w at *
  generalize hcon : encodeIntMax32 (pre ++ c :: post).length p.cc ++ (encodeComponents p (pre ++ c :: post) ++ rest) = content at *
  have hlen : w ≤ content.length := by rw [← hcon, List.length_append, hel]; omega
  have s1 : slice (content.take w) 0 w = .ok (encodeIntMax32 (pre ++ c :: post).length p.cc) := by
    rw [← hcon, List.take_left' hel, ← List.append_nil (encodeIntMax32 (pre ++ c :: post).length p.cc)]
    rw [slice_append_left _ _ _ hel.symm]
    simp
  obtain ⟨m1, e1⟩ := next_slowIn m (Nat.zero_le w) hlen
  rw [show slowIn m 0 content = slowly m content from rfl] at e1
  obtain ⟨m2, e2⟩ := prune_slowIn (content := content) m1 (Nat.le_refl w)
  simp only [Dec.bind_apply, e1, sliceArray_ok s1, decode_encodeIntMax32 hv.count hs.count, Dec.liftD_ok, prune_apply, e2] at h
  rw [← hcon, List.drop_left' hel] at h
  exact decodePathStreamLoop_zeros p rest c post pre _ [] m2 hv.comp hs.comp (by omega) hp g' h

/-- An entry relative to one of the same namespace and subspace when the bytes come slowly. -/
theorem entryRelative_slow {ns ss pd : Codec} {eqNs : Bytes → Bytes → Bool} {ordS : Bytes → Bytes → Ordering}
    (hq : ∀ a b, eqNs a b = true ↔ a = b) (ho : Decides BytesLt ordS) (hf : pd.Frugal)
    {p : PathParams} {e ref : Entry} (h3 : ShortPath p e.path)
    (h1 : e.namespaceId = ref.namespaceId) (h2 : e.subspaceId = ref.subspaceId)
    {enc : Bytes} (h : encodeEntryRelativeEntry ns ss pd eqNs ordS p e ref = .ok enc)
    (hl : ¬ ShortAfterShared (getWidthMax32Int p.cl) e.path ref.path) (rest : Bytes) (m : Mem) (g' : GB)
    (hr : g'.content = rest) :
    decodeStreamEntryRelativeEntry ns ss pd p ref (slowly m (enc ++ rest)) ≠ .ok (e, g') := by
  unfold encodeEntryRelativeEntry at h
  dsimp only at h
  obtain ⟨rel, hrel, h⟩ := Res.bind_eq_ok.1 h
  simp only [Res.ok.injEq] at h
  subst h
  have hwt := width64 (absDiffUint64 e.timestamp ref.timestamp).toNat
  have hwl := width64 e.payloadLength.toNat
  have key := header_entry (!eqNs e.namespaceId ref.namespaceId) (ordS e.subspaceId ref.subspaceId != .eq)
    (decide (e.timestamp > ref.timestamp)) hwt hwl
  simp only [decide_eq_true_eq] at key
  generalize byteOf _ = hdr at key ⊢
  obtain ⟨k1, k2, -, k4, k5⟩ := key
  rw [(hq _ _).2 h1] at k1 ⊢
  rw [show (ordS e.subspaceId ref.subspaceId != .eq) = false by simpa using (ho.eq_iff _ _).2 h2] at k2 ⊢
  simp only [Bool.not_true, Bool.false_eq_true, if_false, if_true, List.append_assoc, List.cons_append, List.nil_append]
  generalize htail : encodeIntMax64 _ ++ _ = tail
  intro hx
  unfold decodeStreamEntryRelativeEntry peekByte at hx
  have hlen : 1 ≤ (slowly m (hdr :: (rel ++ tail))).content.length := by rw [slowly_content]; simp
  obtain ⟨ga, ea, ca, la, -⟩ := nextAbsolute_ok _ _ hlen
  rw [slowly_content] at ca
  have hbuf : ∃ t, ga.buf = hdr :: t := by
    unfold GB.content at ca
    cases hb : ga.buf with
    | nil => rw [hb] at la; simp at la
    | cons b t =>
      rw [hb] at ca
      simp only [List.cons_append, List.cons.injEq] at ca
      exact ⟨t, by rw [ca.1]⟩
  obtain ⟨t, hbuf⟩ := hbuf
  obtain ⟨h0, g1, e2, hx⟩ := Dec.bind_ok.1 hx
  obtain ⟨acc, g2, e3, e2⟩ := Dec.bind_ok.1 e2
  rw [ea] at e3
  simp only [Res.ok.injEq, Prod.mk.injEq] at e3
  obtain ⟨rfl, rfl⟩ := e3
  simp only [hbuf, Dec.pure_apply, Res.ok.injEq, Prod.mk.injEq] at e2
  obtain ⟨rfl, rfl⟩ := e2
  simp only [k1, k2, k4, k5] at hx
  obtain ⟨_, g3, e4, hx⟩ := Dec.bind_ok.1 hx
  simp only [prune_apply, Res.ok.injEq, Prod.mk.injEq, true_and] at e4
  obtain ⟨_, g4, e5, hx⟩ := Dec.bind_ok.1 hx
  simp only [Bool.not_true, Bool.false_eq_true, if_false, Dec.pure_apply, Res.ok.injEq, Prod.mk.injEq] at e5
  obtain ⟨_, g5, e6, hx⟩ := Dec.bind_ok.1 hx
  simp only [Bool.false_eq_true, if_false, Dec.pure_apply, Res.ok.injEq, Prod.mk.injEq] at e6
  obtain ⟨y, g6, e7, hx⟩ := Dec.bind_ok.1 hx
  obtain ⟨td, g7, e8, hx⟩ := Dec.bind_ok.1 hx
  obtain ⟨pl, g8, e9, hx⟩ := Dec.bind_ok.1 hx
  obtain ⟨dg, g9, e10, hx⟩ := Dec.bind_ok.1 hx
  simp only [Dec.pure_apply, Res.ok.injEq, Prod.mk.injEq] at hx
  obtain ⟨hx1, hx2⟩ := hx
  rw [hx2] at e10
  have hy : y = e.path := congrArg (fun z : Entry => z.path) hx1
  have hd : dg = e.payloadDigest := congrArg (fun z : Entry => z.payloadDigest) hx1
  rw [hy] at e7
  rw [hd] at e10
  rw [← e6.2, ← e5.2, ← e4] at e7
  have cc : (ga.pruned 1).content = rel ++ tail := by rw [prune_content _ _ la, ca]; rfl
  obtain ⟨-, t2⟩ := decodeRelPathStream_tight h3 hrel cc e7
  have t1 := (decodeRelPathStream_tight h3 hrel cc e7).1
  have r1 := readCompact_takes e8
  have r2 := readCompact_takes e9
  have r3 := hf _ _ _ e10
  have htl : tail.length = (encodeIntMax64 (absDiffUint64 e.timestamp ref.timestamp).toNat).length +
      ((encodeIntMax64 e.payloadLength.toNat).length + ((pd.enc e.payloadDigest).length + rest.length)) := by
    rw [← htail]; simp
  rw [cc, List.length_append] at t1 t2
  have hlt : getWidthMax64Int (absDiffUint64 e.timestamp ref.timestamp).toNat =
    (encodeIntMax64 (absDiffUint64 e.timestamp ref.timestamp).toNat).length := (encodeIntMax64_length _).symm
  have hll : getWidthMax64Int e.payloadLength.toNat =
    (encodeIntMax64 e.payloadLength.toNat).length := (encodeIntMax64_length _).symm
  rw [hr] at r3
  have := t2 (by omega)
  rw [← GB.tight_pruned] at this
  have hga : ga.tight = slow 1 (hdr :: (rel ++ tail)) := by
    have := nextAbsolute_tight ea
    rw [slowly_tight, next_slow (by omega) (by simp)] at this
    simp only [Res.ok.injEq, Prod.mk.injEq] at this
    exact this.2.symm
  rw [hga, prune_slow (Nat.le_refl 1)] at this
  exact decodeRelPathStream_slow h3 hrel hl tail _ this

end Willow
