import Verif.Lemmas.Stream
import Verif.Model.Relative
import Verif.Spec.Relative

/-! Composable facts about stream decoders. -/

namespace Willow
open Spec

/-- Whenever `d` returns on a stream that starts with `enc`, it returns `v` and consumes
exactly `enc`, whatever the chunking and the schedule, if arrays have no room for more than their bytes. -/
def Sound {α : Type} (d : Dec α) (enc : Bytes) (v : α) : Prop :=
  ∀ g rest x g', g.mem = .exact → g.content = enc ++ rest → d g = .ok (x, g') →
    x = v ∧ g'.content = rest ∧ g'.mem = .exact

/-- With `all`, everything has arrived by the time of the next request. -/
def GB.ready (all : Bool) (g : GB) : Prop := all = true → (GB.absorb (g.sched.headD 0) g).rest = []

/-- On a stream that starts with `enc` and has `slack` more bytes, `d` returns `v` and consumes
exactly `enc`. -/
def Reads {α : Type} (all : Bool) (slack : Nat) (d : Dec α) (enc : Bytes) (v : α) : Prop :=
  ∀ g rest, g.ready all → g.content = enc ++ rest → slack ≤ rest.length →
    ∃ g', d g = .ok (v, g') ∧ g'.ready all ∧ g'.content = rest

theorem absorb_rest_nil : ∀ (k : Nat) (g : GB), g.rest = [] → (GB.absorb k g).rest = []
  | 0, _, h => h
  | _ + 1, ⟨_, [], _, _⟩, _ => rfl
  | _ + 1, ⟨_, _ :: _, _, _⟩, h => by simp at h

theorem absorb_rest_buf : ∀ (k : Nat) (b b' : Bytes) (r : List Bytes) (s s' : List Nat) (m m' : Mem),
    (GB.absorb k ⟨b, r, s, m⟩).rest = (GB.absorb k ⟨b', r, s', m'⟩).rest
  | 0, _, _, _, _, _, _, _ => rfl
  | _ + 1, _, _, [], _, _, _, _ => rfl
  | k + 1, _, _, _ :: _, _, _, _, _ => by rw [GB.absorb, GB.absorb]; exact absorb_rest_buf k ..

theorem pull_rest_nil {n : Nat} {buf b : Bytes} {r : List Bytes} {m m' : Mem} (h : GB.pull n buf m [] = some (b, r, m')) : r = [] := by
  rw [GB.pull] at h
  split at h <;> simp at h
  exact h.2.1

theorem ready_of_nil {all : Bool} {g : GB} (h : g.rest = []) : g.ready all := fun _ => absorb_rest_nil _ _ h

theorem nextAbsolute_ready {all : Bool} (n : Nat) (g : GB) (hr : g.ready all) (h : n ≤ g.content.length) :
    ∃ g', nextAbsolute n g = .ok (g'.buf, g') ∧ g'.content = g.content ∧ n ≤ g'.buf.length ∧ g'.ready all ∧
      (all = true → g'.rest = []) := by
  unfold nextAbsolute
  unfold GB.ready at hr
  have hc := absorb_content (g.sched.headD 0) g
  generalize GB.absorb (g.sched.headD 0) g = g1 at *
  obtain ⟨b, r, m, h1, h2, h3, h4⟩ := pull_some n g1.rest g1.buf g1.mem (by rw [← hc] at h; exact h)
  have hn : all = true → r = [] := by
    intro ha
    rw [hr ha] at h1
    exact pull_rest_nil h1
  refine ⟨⟨b, r, g.sched.tail, m⟩, ?_, ?_, h3, ?_, hn⟩
  · simp [h1]
  · rw [← hc]; exact h2
  · intro ha
    exact absorb_rest_nil _ _ (hn ha)

/-- What a returning request says. -/
theorem nextAbsolute_inv {n : Nat} {g g' : GB} {b : Bytes} (h : nextAbsolute n g = .ok (b, g')) :
    b = g'.buf ∧ g'.content = g.content ∧ n ≤ g'.buf.length := by
  rcases Nat.lt_or_ge g.content.length n with hl | hl
  · rw [nextAbsolute_block _ _ hl] at h; simp at h
  · obtain ⟨g1, e, c, l, _⟩ := nextAbsolute_ok n g hl
    rw [e] at h
    simp only [Res.ok.injEq, Prod.mk.injEq] at h
    obtain ⟨rfl, rfl⟩ := h
    exact ⟨rfl, c, l⟩

theorem ready_prune {all : Bool} {g : GB} (n : Nat) (h : g.ready all) :
    (g.pruned n).ready all := by
  intro ha
  rw [← h ha]
  exact absorb_rest_buf ..

theorem Dec.bind_ok {α β : Type} {d : Dec α} {f : α → Dec β} {g g' : GB} {b : β} :
    (d >>= f) g = .ok (b, g') ↔ ∃ a g1, d g = .ok (a, g1) ∧ f a g1 = .ok (b, g') := by
  rw [Dec.bind_apply]
  cases d g with
  | ok a =>
    obtain ⟨a, g1⟩ := a
    constructor
    · intro h; exact ⟨a, g1, rfl, h⟩
    · rintro ⟨a', g1', h, h'⟩
      simp only [Res.ok.injEq, Prod.mk.injEq] at h
      obtain ⟨rfl, rfl⟩ := h
      exact h'
  | err => simp
  | crash => simp
  | block => simp

theorem Sound.bind {α β : Type} {d : Dec α} {f : α → Dec β} {e1 e2 : Bytes} {a : α} {b : β}
    (h1 : Sound d e1 a) (h2 : Sound (f a) e2 b) : Sound (d >>= f) (e1 ++ e2) b := by
  intro g rest x g' hm hg h
  obtain ⟨a', g1, h3, h4⟩ := Dec.bind_ok.1 h
  obtain ⟨rfl, hc, hm1⟩ := h1 g (e2 ++ rest) a' g1 hm (by simpa using hg) h3
  exact h2 g1 rest x g' hm1 hc h4

theorem Reads.bind {α β : Type} {all : Bool} {s1 s2 s : Nat} {d : Dec α} {f : α → Dec β} {e1 e2 : Bytes} {a : α} {b : β}
    (h1 : Reads all s1 d e1 a) (h2 : Reads all s2 (f a) e2 b) (hs1 : s1 ≤ e2.length + s) (hs2 : s2 ≤ s) :
    Reads all s (d >>= f) (e1 ++ e2) b := by
  intro g rest hr hg hs
  obtain ⟨g1, h3, r1, c1⟩ := h1 g (e2 ++ rest) hr (by simpa using hg) (by simp; omega)
  obtain ⟨g2, h4, r2, c2⟩ := h2 g1 rest r1 c1 (by omega)
  exact ⟨g2, Dec.bind_ok.2 ⟨a, g1, h3, h4⟩, r2, c2⟩

theorem Sound.pure {α : Type} (v : α) : Sound (pure v : Dec α) [] v := by
  intro g rest x g' hm hg h
  simp only [Dec.pure_apply, Res.ok.injEq, Prod.mk.injEq] at h
  obtain ⟨rfl, rfl⟩ := h
  exact ⟨rfl, hg, hm⟩

theorem Reads.pure {α : Type} {all : Bool} (v : α) : Reads all 0 (pure v : Dec α) [] v :=
  fun g _ hr hg _ => ⟨g, rfl, hr, hg⟩

theorem Sound.lift_err {α : Type} {enc : Bytes} {v : α} : Sound (Dec.lift .err : Dec α) enc v := by
  intro g rest x g' _ _ h; simp at h

theorem Sound.lift_crash {α : Type} {enc : Bytes} {v : α} : Sound (Dec.lift .crash : Dec α) enc v := by
  intro g rest x g' _ _ h; simp at h

theorem Reads.mono {α : Type} {all : Bool} {s s' : Nat} {d : Dec α} {enc : Bytes} {v : α} (h : Reads all s d enc v)
    (hs : s ≤ s') : Reads all s' d enc v := fun g rest hr hg hl => h g rest hr hg (by omega)

/-! ### Peeking at the header -/

theorem peekByte_inv {g g' : GB} {b : UInt8} (h : peekByte g = .ok (b, g')) :
    g'.content = g.content ∧ g'.buf.head? = some b ∧ (g.mem = .exact → g'.mem = .exact) := by
  obtain ⟨acc, g1, h1, h2⟩ := Dec.bind_ok.1 h
  obtain ⟨rfl, hc, hl⟩ := nextAbsolute_inv h1
  cases hb : g1.buf with
  | nil => rw [hb] at hl; simp at hl
  | cons c cs =>
    rw [hb] at h2
    simp only [Dec.pure_apply, Res.ok.injEq, Prod.mk.injEq] at h2
    obtain ⟨rfl, rfl⟩ := h2
    exact ⟨hc, by rw [hb]; rfl, nextAbsolute_exact h1⟩

theorem Sound.peek {α : Type} {f : UInt8 → Dec α} {k : Unit → Dec α} {b : UInt8} {enc : Bytes} {v : α}
    (hf : f b = (prune 1 >>= k)) (h : Sound (k ()) enc v) : Sound (peekByte >>= f) (b :: enc) v := by
  intro g rest x g' hm hg hx
  obtain ⟨b', g1, h1, h2⟩ := Dec.bind_ok.1 hx
  obtain ⟨hc, hh, hm1⟩ := peekByte_inv h1
  obtain ⟨c, cs, hb⟩ : ∃ c cs, g1.buf = c :: cs := by
    cases hb : g1.buf with
    | nil => simp [hb] at hh
    | cons c cs => exact ⟨c, cs, rfl⟩
  have hc' := hc
  rw [hg] at hc'
  unfold GB.content at hc'
  rw [hb] at hc' hh
  simp only [List.cons_append, List.cons.injEq, List.head?_cons, Option.some.injEq] at hc' hh
  obtain ⟨rfl, hc'⟩ := hc'
  subst hh
  rw [hf] at h2
  obtain ⟨_, g2, h3, h4⟩ := Dec.bind_ok.1 h2
  simp only [prune_apply, Res.ok.injEq, Prod.mk.injEq] at h3
  obtain ⟨-, rfl⟩ := h3
  refine h _ rest x g' (GB.pruned_exact (hm1 hm) 1) ?_ h4
  simp [GB.content, hb, hc']

theorem Reads.peek {α : Type} {all : Bool} {s : Nat} {f : UInt8 → Dec α} {k : Unit → Dec α} {b : UInt8} {enc : Bytes}
    {v : α} (hf : f b = (prune 1 >>= k)) (h : Reads all s (k ()) enc v) : Reads all s (peekByte >>= f) (b :: enc) v := by
  intro g rest hr hg hs
  obtain ⟨g1, e1, c1, l1, r1, -⟩ := nextAbsolute_ready 1 g hr (by rw [hg]; simp)
  obtain ⟨c, cs, hb⟩ : ∃ c cs, g1.buf = c :: cs := by
    cases hb : g1.buf with
    | nil => simp [hb] at l1
    | cons c cs => exact ⟨c, cs, rfl⟩
  have hc' := c1
  rw [hg] at hc'
  unfold GB.content at hc'
  rw [hb] at hc'
  simp only [List.cons_append, List.cons.injEq] at hc'
  obtain ⟨rfl, hc'⟩ := hc'
  have hp : peekByte g = .ok (c, g1) := by
    unfold peekByte
    refine Dec.bind_ok.2 ⟨_, g1, e1, ?_⟩
    rw [hb]; rfl
  obtain ⟨g2, h4, r2, c2⟩ := h (g1.pruned 1) rest (ready_prune 1 r1) (by simp [GB.content, hb, hc']) hs
  refine ⟨g2, Dec.bind_ok.2 ⟨c, g1, hp, ?_⟩, r2, c2⟩
  rw [hf]
  exact Dec.bind_ok.2 ⟨(), _, rfl, h4⟩

/-! ### Compact integers -/

/-- Reading the first `w` bytes, decoding them and pruning. -/
theorem readCompact_sound {w : Nat} {enc : Bytes} (hw : enc.length = w) {v : Nat} (hd : decodeIntMax64 enc = .ok v) :
    Sound (readCompact w) enc v := by
  intro g rest x g' hm hg h
  obtain ⟨acc, g1, h1, h2⟩ := Dec.bind_ok.1 h
  obtain ⟨rfl, hc, hl⟩ := nextAbsolute_inv h1
  have s1 : slice g1.buf 0 w = .ok enc := by rw [slice_buf _ _ _ hl, hc, hg, slice_append_left _ _ _ hw.symm]
  simp only [Dec.bind_apply, sliceArray_ok s1, Dec.lift_ok, hd, prune_apply, Dec.pure_apply, Res.ok.injEq, Prod.mk.injEq] at h2
  obtain ⟨rfl, rfl⟩ := h2
  refine ⟨rfl, ?_, GB.pruned_exact (nextAbsolute_exact h1 hm) _⟩
  rw [prune_content _ _ hl, hc, hg, List.drop_left' hw]

theorem readCompact_reads {all : Bool} {w : Nat} {enc : Bytes} (hw : enc.length = w) {v : Nat}
    (hd : decodeIntMax64 enc = .ok v) : Reads all 0 (readCompact w) enc v := by
  intro g rest hr hg _
  obtain ⟨g1, e1, c1, l1, r1, -⟩ := nextAbsolute_ready w g hr (by rw [hg]; simp [hw])
  refine ⟨g1.pruned w, ?_, ready_prune w r1, ?_⟩
  · refine Dec.bind_ok.2 ⟨_, g1, e1, ?_⟩
    have s1 : slice g1.buf 0 w = .ok enc := by rw [slice_buf _ _ _ l1, c1, hg, slice_append_left _ _ _ hw.symm]
    simp [sliceArray_ok s1, hd]
  · rw [prune_content _ _ l1, c1, hg, List.drop_left' hw]

/-- A compact integer with its own width. -/
theorem readCompact_encode {n : Nat} (h : n < 2 ^ 64) {w : Nat} (hw : w = getWidthMax64Int n) :
    Sound (readCompact w) (encodeIntMax64 n) n ∧ ∀ all, Reads all 0 (readCompact w) (encodeIntMax64 n) n := by
  have hl : (encodeIntMax64 n).length = w := by rw [encodeIntMax64_length, hw]
  exact ⟨readCompact_sound hl (decode_encodeIntMax64 h), fun all => readCompact_reads hl (decode_encodeIntMax64 h)⟩

/-! ### Paths -/

theorem nextAbsolute_rest_nil {n : Nat} {g g' : GB} {b : Bytes} (hn : g.rest = [])
    (h : nextAbsolute n g = .ok (b, g')) : g'.rest = [] := by
  unfold nextAbsolute at h
  have hr := absorb_rest_nil (g.sched.headD 0) g hn
  generalize GB.absorb (g.sched.headD 0) g = g1 at *
  dsimp only at h
  rw [hr] at h
  split at h
  · rename_i hp
    simp only [Res.ok.injEq, Prod.mk.injEq] at h
    rw [← h.2]
    exact pull_rest_nil hp
  · simp at h

theorem lift_same {α : Type} {r : Res α} {g g' : GB} {a : α} (h : Dec.lift r g = .ok (a, g')) : g' = g ∧ r = .ok a := by
  cases r with
  | ok x =>
    simp only [Dec.lift_ok, Res.ok.injEq, Prod.mk.injEq] at h
    exact ⟨h.2.symm, by rw [h.1]⟩
  | err => simp at h
  | crash => simp at h
  | block => simp [Dec.lift, Res.map', Res.bind] at h

theorem liftD_same {α : Type} {r : Res α} {z : α} {g g' : GB} {a : α} (h : Dec.liftD r z g = .ok (a, g')) : g' = g := by
  cases r <;> simp [Dec.liftD] at h
  · exact h.2.symm
  · exact h.2.symm

theorem sliceArray_same {acc a : Bytes} {i j : Nat} {g g' : GB} (h : sliceArray acc i j g = .ok (a, g')) : g' = g := by
  unfold sliceArray at h
  split at h
  · simp only [Res.ok.injEq, Prod.mk.injEq] at h
    exact h.2.symm
  · cases h

theorem decodePathStreamLoop_rest_nil (p : PathParams) : ∀ (n : Nat) (done x : Path) (g g' : GB), g.rest = [] →
    decodePathStreamLoop p n done g = .ok (x, g') → g'.rest = []
  | 0, _, _, g, g', hn, h => by
    simp only [decodePathStreamLoop, Dec.pure_apply, Res.ok.injEq, Prod.mk.injEq] at h
    rw [← h.2]; exact hn
  | n + 1, done, x, g, g', hn, h => by
    simp only [decodePathStreamLoop] at h
    obtain ⟨_, g1, h1, h⟩ := Dec.bind_ok.1 h
    obtain ⟨_, g2, h2, h⟩ := Dec.bind_ok.1 h
    obtain ⟨_, g3, h3, h⟩ := Dec.bind_ok.1 h
    obtain ⟨_, g4, h4, h⟩ := Dec.bind_ok.1 h
    obtain ⟨_, g5, h5, h⟩ := Dec.bind_ok.1 h
    obtain ⟨_, g6, h6, h⟩ := Dec.bind_ok.1 h
    have n1 := nextAbsolute_rest_nil hn h1
    rw [← sliceArray_same h2] at n1
    rw [← liftD_same h3] at n1
    have n4 := nextAbsolute_rest_nil n1 h4
    rw [← sliceArray_same h5] at n4
    simp only [prune_apply, Res.ok.injEq, Prod.mk.injEq, true_and] at h6
    exact decodePathStreamLoop_rest_nil p n _ x g6 g' (by rw [← h6]; exact n4) h

/-- `path` is decoded from a stream under any chunking, or everything has arrived. -/
def PathArrives (p : PathParams) (all : Bool) (path : Path) : Prop :=
  all = true ∨ ∀ c ∈ path, c.length ≤ getWidthMax32Int p.cl

/-- The same for a path encoded relative to another one. -/
def RelArrives (p : PathParams) (all : Bool) (path reference : Path) : Prop :=
  all = true ∨ ShortAfterShared (getWidthMax32Int p.cl) path reference

theorem PathArrives.rel {p : PathParams} {all : Bool} {path : Path} (h : PathArrives p all path) (reference : Path) :
    RelArrives p all path reference :=
  h.imp_right fun h => ⟨0, Nat.zero_le _, Nat.zero_le _, by simp, by simpa using h⟩

theorem decodePathStream_sound {p : PathParams} {path : Path} (hv : ValidPath p path) (hs : Small p path) :
    Sound (decodePathStream p) (encodePath p path) path :=
  fun g rest x g' hm hg h => (decodePathStream_encode p path hv hs rest g hg).1 hm x g' h

theorem decodePathStream_reads {p : PathParams} {all : Bool} {path : Path} (hv : ValidPath p path) (hs : Small p path)
    (ha : PathArrives p all path) : Reads all (getWidthMax32Int p.cl) (decodePathStream p) (encodePath p path) path := by
  intro g rest hr hg hsl
  have hel := encodeIntMax32_length path.length p.cc
  unfold encodePath at hg
  rw [conv_of_le hv.count p.hcc, List.append_assoc] at hg
  obtain ⟨g1, e1, c1, l1, r1, n1⟩ := nextAbsolute_ready (getWidthMax32Int p.cc) g hr (by rw [hg]; simp [hel])
  have s1 : slice g1.buf 0 (getWidthMax32Int p.cc) = .ok (encodeIntMax32 path.length p.cc) := by
    rw [slice_buf _ _ _ l1, c1, hg]
    exact slice_append_left _ _ _ hel.symm
  have c2 : (g1.pruned (getWidthMax32Int p.cc)).content = encodeComponents p path ++ rest := by
    rw [prune_content _ _ l1, c1, hg, List.drop_left' hel]
  have hloop := (decodePathStreamLoop_encode p rest path _ [] hv.comp hs.comp c2).2
  simp only [List.nil_append] at hloop
  by_cases hall : all = true
  · have hrest := n1 hall
    obtain ⟨g', e2, c3⟩ := hloop (.inr (by
      have := congrArg List.length c2
      simp only [GB.content, GB.pruned_rest, GB.pruned_buf, hrest, List.flatten_nil, List.append_nil, List.length_append] at this
      simp only [GB.pruned_buf, List.length_drop] at *
      omega)) (fun _ _ => by omega)
    refine ⟨g', ?_, ready_of_nil (decodePathStreamLoop_rest_nil p _ _ _ _ _ (by exact hrest) e2), c3⟩
    unfold decodePathStream
    simp only [Dec.bind_apply, e1, sliceArray_ok s1, decode_encodeIntMax32 hv.count hs.count, Dec.liftD_ok, prune_apply]
    exact e2
  · obtain ⟨g', e2, c3⟩ := hloop (.inl (ha.resolve_left hall)) (fun _ _ => by omega)
    refine ⟨g', ?_, fun h => absurd h hall, c3⟩
    unfold decodePathStream
    simp only [Dec.bind_apply, e1, sliceArray_ok s1, decode_encodeIntMax32 hv.count hs.count, Dec.liftD_ok, prune_apply]
    exact e2

/-- What a successful relative path encoding consists of. -/
theorem encodeRelativePath_inv {p : PathParams} {a r : Path} {enc : Bytes} (h : encodeRelativePath p a r = .ok enc) :
    ∃ k, k ≤ a.length ∧ k ≤ r.length ∧ a.take k = r.take k ∧
      enc = encodeIntMax32 (p.conv k) p.cc ++ encodePath p (a.drop k) ∧
      ∀ j, j ≤ a.length → j ≤ r.length → a.take j = r.take j → j ≤ k := by
  unfold encodeRelativePath at h
  obtain ⟨h1, h2, h3⟩ := commonPrefixIndex_spec a r
  cases hcp : commonPrefix a r with
  | ok l =>
    have : l = a.take (commonPrefixIndex a r) := by
      unfold commonPrefix at hcp
      dsimp only at hcp
      split at hcp
      · simp at hcp
      · rw [slice_take _ _ h1] at hcp
        simpa using hcp.symm
    subst this
    rw [hcp] at h
    have hl : (a.take (commonPrefixIndex a r)).length = commonPrefixIndex a r := by simp [h1]
    simp only [hl, sliceFrom_drop _ _ h1, Res.ok_bind, Res.ok.injEq] at h
    exact ⟨_, h1, h2, h3, h.symm, commonPrefixIndex_max a r⟩
  | err => simp [hcp] at h
  | crash => simp [hcp] at h
  | block => simp [hcp] at h

theorem validPath_drop {p : PathParams} {a : Path} (h : ValidPath p a) (k : Nat) : ValidPath p (a.drop k) := by
  refine ⟨by have := h.count; simp; omega, fun c hc => h.comp c (List.mem_of_mem_drop hc), ?_⟩
  have h4 := h.total
  rw [← List.take_append_drop k a, pathBytes_append] at h4
  omega

theorem shortPath_drop {p : PathParams} {a : Path} (h : ShortPath p a) (k : Nat) : ShortPath p (a.drop k) :=
  ⟨validPath_drop h.toValidPath k, by have := h.few; simp; omega, fun c hc => h.short c (List.mem_of_mem_drop hc)⟩

section Rel
variable {p : PathParams} {a r : Path} {enc : Bytes}

/-- The bytes after the common prefix length. -/
theorem decodeRelPathStream_step (ha : ShortPath p a) {k : Nat} (hk : k ≤ a.length)
    (hk2 : k ≤ r.length) {g g1 : GB} {rest : Bytes}
    (hg : g.content = encodeIntMax32 (p.conv k) p.cc ++ rest) (e1 : nextAbsolute (getWidthMax32Int p.cc) g = .ok (g1.buf, g1))
    (c1 : g1.content = g.content) (l1 : getWidthMax32Int p.cc ≤ g1.buf.length) :
    decodeRelPathStream p r g = ((do let suffix ← decodePathStream p; return r.take k ++ suffix) : Dec Path)
      (g1.pruned (getWidthMax32Int p.cc)) ∧
    (g1.pruned (getWidthMax32Int p.cc)).content = rest := by
  have hkcc : k ≤ p.cc := Nat.le_trans hk ha.count
  have hel := encodeIntMax32_length (p.conv k) p.cc
  refine ⟨?_, by rw [prune_content _ _ l1, c1, hg, List.drop_left' hel]⟩
  have s1 : slice g1.buf 0 (getWidthMax32Int p.cc) = .ok (encodeIntMax32 k p.cc) := by
    rw [slice_buf _ _ _ l1, c1, hg]
    rw [conv_of_le hkcc p.hcc] at hel ⊢
    exact slice_append_left _ _ _ hel.symm
  unfold decodeRelPathStream
  simp only [Dec.bind_apply, e1, sliceArray_ok s1, Dec.lift_ok, decode_encodeIntMax32 hkcc (Nat.lt_of_le_of_lt hk ha.few), Dec.liftD_ok,
    slice_take _ _ hk2, prune_apply]

theorem decodeRelPathStream_sound (ha : ShortPath p a)
    (h : encodeRelativePath p a r = .ok enc) : Sound (decodeRelPathStream p r) enc a := by
  obtain ⟨k, hk, hk2, ht, rfl, hmax⟩ := encodeRelativePath_inv h
  have hv := shortPath_drop ha k
  intro g rest x g' hm hg hx
  rw [List.append_assoc] at hg
  obtain ⟨g1, e1, c1, l1, -⟩ := nextAbsolute_ok (getWidthMax32Int p.cc) g (by rw [hg]; simp [encodeIntMax32_length])
  obtain ⟨e2, c2⟩ := decodeRelPathStream_step ha hk hk2 hg e1 c1 l1
  rw [e2] at hx
  obtain ⟨y, g2, h3, h4⟩ := Dec.bind_ok.1 hx
  obtain ⟨rfl, hc, hm2⟩ := decodePathStream_sound hv.toValidPath (shortPath_small hv) _ rest y g2
    (GB.pruned_exact (nextAbsolute_exact e1 hm) _) c2 h3
  simp only [Dec.pure_apply, Res.ok.injEq, Prod.mk.injEq] at h4
  obtain ⟨rfl, rfl⟩ := h4
  exact ⟨by rw [← ht, List.take_append_drop], hc, hm2⟩

theorem decodeRelPathStream_reads {all : Bool} (ha : ShortPath p a)
    (h : encodeRelativePath p a r = .ok enc) (har : RelArrives p all a r) :
    Reads all (getWidthMax32Int p.cl) (decodeRelPathStream p r) enc a := by
  obtain ⟨k, hk, hk2, ht, rfl, hmax⟩ := encodeRelativePath_inv h
  have hv := shortPath_drop ha k
  intro g rest hr hg hs
  rw [List.append_assoc] at hg
  obtain ⟨g1, e1, c1, l1, r1, -⟩ := nextAbsolute_ready (getWidthMax32Int p.cc) g hr (by rw [hg]; simp [encodeIntMax32_length])
  obtain ⟨e2, c2⟩ := decodeRelPathStream_step ha hk hk2 hg e1 c1 l1
  have har' : PathArrives p all (a.drop k) := har.imp_right fun ⟨j, h1, h2, h3, h4⟩ c hc => by
    refine h4 c ?_
    rw [← Nat.add_sub_cancel' (hmax j h1 h2 h3), ← List.drop_drop] at hc
    exact List.mem_of_mem_drop hc
  obtain ⟨g2, h3, r2, c3⟩ := decodePathStream_reads hv.toValidPath (shortPath_small hv) har' _ rest
    (ready_prune _ r1) c2 hs
  refine ⟨g2, ?_, r2, c3⟩
  rw [e2]
  exact Dec.bind_ok.2 ⟨_, g2, h3, by simp [← ht]⟩

theorem decodeRelativePath_encode (ha : ShortPath p a)
    (h : encodeRelativePath p a r = .ok enc) (rest : Bytes) : decodeRelativePath p (enc ++ rest) r = .ok a := by
  obtain ⟨k, hk, hk2, ht, rfl, hmax⟩ := encodeRelativePath_inv h
  have hv := shortPath_drop ha k
  have hkcc : k ≤ p.cc := Nat.le_trans hk ha.count
  unfold decodeRelativePath
  dsimp only
  rw [conv_of_le hkcc p.hcc, List.append_assoc, slice_append_left _ _ _ (encodeIntMax32_length _ _).symm]
  simp only [Res.ok_bind, decode_encodeIntMax32 hkcc (Nat.lt_of_le_of_lt hk ha.few), slice_take _ _ hk2]
  rw [sliceFrom_append _ _ _ (encodeIntMax32_length _ _).symm]
  simp only [Res.ok_bind, decodePath_encode p (a.drop k) hv.toValidPath (shortPath_small hv) rest, ← ht,
    List.take_append_drop]

end Rel

/-! ### Id schemes -/

/-- An id scheme decodes the encodings of the ids in `valid`, with whatever follows, and knows
their length. -/
structure Codec.Lawful (c : Codec) (valid : Bytes → Prop) : Prop where
  dec : ∀ x rest, valid x → c.dec (c.enc x ++ rest) = .ok x
  len : ∀ x, valid x → c.len x = (c.enc x).length
  sound : ∀ x, valid x → Sound c.decStream (c.enc x) x
  reads : ∀ x all, valid x → Reads all 0 c.decStream (c.enc x) x

/-- Decoding from a stream takes no more bytes than the encoding of what it returns. -/
def Codec.Frugal (c : Codec) : Prop := ∀ (g g' : GB) (x : Bytes), c.decStream g = .ok (x, g') →
  g.content.length ≤ g'.content.length + (c.enc x).length

/-- Ids of `n` bytes encoded as they are. -/
def fixedCodec (n : Nat) : Codec where
  enc x := x
  dec b := slice b 0 n
  len _ := n
  decStream := do
    let acc ← nextAbsolute n
    let x ← Dec.lift (slice acc 0 n)
    prune n
    return x

theorem fixedCodec_lawful (n : Nat) : (fixedCodec n).Lawful fun x => x.length = n where
  dec x rest h := slice_append_left _ _ _ h.symm
  len x h := h.symm
  sound x hl := by
    intro g rest y g' hm hg h
    obtain ⟨acc, g1, h1, h2⟩ := Dec.bind_ok.1 h
    obtain ⟨rfl, hc, hlen⟩ := nextAbsolute_inv h1
    rw [slice_buf _ _ _ hlen, hc, hg] at h2
    rw [show (fixedCodec n).enc x = x from rfl, slice_append_left _ _ _ hl.symm] at h2
    simp only [Dec.bind_apply, Dec.lift_ok, prune_apply, Dec.pure_apply, Res.ok.injEq, Prod.mk.injEq] at h2
    obtain ⟨rfl, rfl⟩ := h2
    refine ⟨rfl, ?_, GB.pruned_exact (nextAbsolute_exact h1 hm) _⟩
    rw [prune_content _ _ hlen, hc, hg]
    exact List.drop_left' hl
  reads x all hl := by
    intro g rest hr hg _
    rw [show (fixedCodec n).enc x = x from rfl] at hg
    obtain ⟨g1, e1, c1, l1, r1, -⟩ := nextAbsolute_ready n g hr (by rw [hg]; simp [hl])
    refine ⟨g1.pruned n, ?_, ready_prune n r1, ?_⟩
    · refine Dec.bind_ok.2 ⟨_, g1, e1, ?_⟩
      rw [slice_buf _ _ _ l1, c1, hg, slice_append_left _ _ _ hl.symm]
      simp
    · rw [prune_content _ _ l1, c1, hg, List.drop_left' hl]

end Willow
