import Verif.Spec.Notebook
import Verif.Lemmas.PropsEntriesFile
import Verif.Props.Content
import Verif.Props.Commands
import Verif.Lemmas.Handles

/-! Lemmas about the application as a book of notes. -/

namespace Willow.Props

open Willow Spec

/-! ### Texts -/

theorem prefix_cons_iff {α : Type} (a b : α) (x y : List α) : a :: x <+: b :: y ↔ a = b ∧ x <+: y := by
  simp [List.cons_prefix_cons]

theorem splitSlash_cons {c : UInt8} (hc : c ≠ 47) (s : Bytes) : ∃ a m, splitSlash s = a :: m ∧ splitSlash (c :: s) = (c :: a) :: m := by
  cases h : splitSlash s with
  | nil => exact absurd h (splitSlash_ne s)
  | cons a m => exact ⟨a, m, rfl, by simp [splitSlash, hc, h]⟩

theorem under_iff (p q : Bytes) : Under p q ↔ splitSlash p <+: splitSlash q := by
  unfold Under
  induction p generalizing q with
  | nil =>
    cases q with
    | nil => simp [splitSlash]
    | cons d q =>
      by_cases hd : d = 47
      · subst hd
        simp [splitSlash, prefix_cons_iff]
      · obtain ⟨b, n, _, e2⟩ := splitSlash_cons hd q
        rw [e2]
        simp [splitSlash, prefix_cons_iff, Ne.symm hd]
  | cons c p ih =>
    by_cases hc : c = 47
    · subst hc
      have e : splitSlash (47 :: p) = [] :: splitSlash p := by simp [splitSlash]
      rw [e]
      cases q with
      | nil =>
        have hne := splitSlash_ne p
        simp [splitSlash, prefix_cons_iff, hne]
      | cons d q =>
        by_cases hd : d = 47
        · subst hd
          have e' : splitSlash (47 :: q) = [] :: splitSlash q := by simp [splitSlash]
          rw [e', prefix_cons_iff, ← ih q]
          simp [prefix_cons_iff]
        · obtain ⟨b, n, _, e2⟩ := splitSlash_cons hd q
          rw [e2]
          simp [prefix_cons_iff, Ne.symm hd]
    · obtain ⟨a, m, e0, e1⟩ := splitSlash_cons hc p
      rw [e1]
      cases q with
      | nil => simp [splitSlash, prefix_cons_iff]
      | cons d q =>
        by_cases hd : d = 47
        · subst hd
          simp [splitSlash, prefix_cons_iff, hc]
        · obtain ⟨b, n, f0, f2⟩ := splitSlash_cons hd q
          rw [f2, prefix_cons_iff]
          have := ih q
          rw [e0, f0, prefix_cons_iff] at this
          simp only [List.cons.injEq, List.cons_append, prefix_cons_iff]
          constructor
          · rintro (⟨rfl, rfl⟩ | ⟨rfl, h⟩)
            · have := this.1 (.inl rfl)
              exact ⟨⟨rfl, this.1⟩, this.2⟩
            · have := this.1 (.inr h)
              exact ⟨⟨rfl, this.1⟩, this.2⟩
          · rintro ⟨⟨rfl, h1⟩, h2⟩
            rcases this.2 ⟨h1, h2⟩ with h | h
            · exact .inl ⟨rfl, h⟩
            · exact .inr ⟨rfl, h⟩

theorem splitSlash_inj {p q : Bytes} (h : splitSlash p = splitSlash q) : p = q := by
  have := congrArg makePath h
  rw [makePath_split, makePath_split] at this
  exact Res.ok.inj this

theorem clock_time {h m : Nat} (hh : h < 24) (hm : m < 60) :
    parseTimeStampToMicroSeconds (clockText h m) = UInt64.ofNat ((h * 60 + m) * 60000000) := by
  have e := C81_time_partial [h / 10, h % 10] [m / 10, m % 10] (by simp; omega) (by simp; omega) (by simp) (by simp) (by
    simp [digitValue]; omega)
  apply UInt64.toNat_inj.1
  unfold clockText
  rw [e, UInt64.toNat_ofNat_of_lt' (by show _ < 2 ^ 64; omega)]
  simp [digitValue]
  omega

theorem clock_ne {h m : Nat} (hh : h < 24) (hm : m < 60) (h0 : ¬ (h = 0 ∧ m = 0)) : UInt64.ofNat ((h * 60 + m) * 60000000) ≠ 0 := by
  intro e
  have := congrArg UInt64.toNat e
  rw [UInt64.toNat_ofNat_of_lt' (by show _ < 2 ^ 64; omega)] at this
  simp at this
  omega

theorem clock_word {h m : Nat} (hh : h < 24) (hm : m < 60) : IsWord (clockText h m) := by
  have key : ∀ a : Fin 24, ∀ b : Fin 60, IsWord (clockText a b) := by decide +kernel
  exact key ⟨h, hh⟩ ⟨m, hm⟩

/-! ### One page -/

/-- The stored item of a note. -/
def noteItem (sha : Bytes → Bytes) (n : Note) : Item :=
  ⟨⟨n.subspace, splitSlash n.path, n.time⟩, ⟨UInt64.ofNat n.payload.length, hexEncode (sha n.payload), hexEncode (sha n.subspace)⟩⟩

/-- The call that writes a note. -/
def noteOp (now : UInt64) (s p : Bytes) (t : UInt64) (b : Bytes) : StoreOp := .set now ⟨s, splitSlash p, t, b⟩ s

theorem attempt_note (lib : KdLib) (sha : Bytes → Bytes) (ns : Bytes) (now : UInt64) (s p : Bytes) (t : UInt64) (b : Bytes) :
    attempt (appStore lib sha ns) (noteOp now s p t b) =
      some (⟨ns, s, splitSlash p, hexEncode (sha b), UInt64.ofNat b.length, if t = 0 then now else t⟩, s) := by
  simp [attempt, noteOp, appStore]

theorem fine_note (lib : KdLib) (sha : Bytes → Bytes) (ns : Bytes) (hs : ∀ b, (sha b).length = 32) (now : UInt64) (s p : Bytes) (t : UInt64)
    (b : Bytes) (hp : p.length < 50) : FineOp (appStore lib sha ns) (noteOp now s p t b) := by
  intro e token h
  rw [attempt_note] at h
  cases h
  exact ⟨short_comfortable (show 50 ≤ 50 by omega) (show 50 ≤ 50 by omega) (show 50 ≤ 50 by omega) hp, (appStore_ok lib sha ns hs).hash b⟩

theorem accepts_note (sha : Bytes → Bytes) (page : List Note) (n : Note) :
    Accepts (page.map (noteItem sha)) ⟨n.subspace, splitSlash n.path, n.time⟩ ↔ ¬ Superseded page n := by
  unfold Accepts Superseded
  simp only [List.forall_mem_map, noteItem, not_exists, not_and, ← under_iff]
  constructor
  · intro h x hx h1 h2 h3
    have := h x hx h1 h2
    exact absurd h3 (UInt64.not_le.2 this)
  · intro h x hx h1 h2
    exact UInt64.not_le.1 (h x hx h1 h2)

theorem acceptable_note (lib : KdLib) (sha : Bytes → Bytes) (ns : Bytes) (page : List Note) (n : Note) (d : Bytes) (l : UInt64) :
    Acceptable (appStore lib sha ns) (page.map (noteItem sha)) ⟨ns, n.subspace, splitSlash n.path, d, l, n.time⟩ n.subspace ↔ ¬ Superseded page n := by
  unfold Acceptable
  rw [← accepts_note sha]
  simp [appStore, (decides_bytes.eq_iff _ _).2]

theorem specStep_note (lib : KdLib) (sha : Bytes → Bytes) (ns : Bytes) (page : List Note) (now : UInt64) (s p : Bytes) (t : UInt64) (b : Bytes) (n : Note)
    (hn : n = ⟨s, p, if t = 0 then now else t, b⟩) :
    specStep (appStore lib sha ns) (page.map (noteItem sha)) (noteOp now s p t b) =
      (if Superseded page n then page else n :: page.filter fun x => ¬ Gone n x).map (noteItem sha) := by
  unfold specStep
  rw [attempt_note]
  dsimp only
  have hacc := acceptable_note lib sha ns page n (hexEncode (sha b)) (UInt64.ofNat b.length)
  subst hn
  by_cases h : Superseded page ⟨s, p, if t = 0 then now else t, b⟩
  · rw [if_neg (fun h' => hacc.1 h' h), if_pos h]
  · rw [if_pos (hacc.2 h), if_neg h]
    have hac := (accepts_note sha page _).2 h
    unfold afterInsert
    rw [List.map_cons]
    have e1 : newItem (appStore lib sha ns) ⟨ns, s, splitSlash p, hexEncode (sha b), UInt64.ofNat b.length, if t = 0 then now else t⟩ s =
        noteItem sha ⟨s, p, if t = 0 then now else t, b⟩ := rfl
    rw [e1, List.filter_map]
    congr 2
    apply List.filter_congr
    intro x hx
    simp only [Function.comp, decide_eq_decide]
    apply not_congr
    unfold Displaces Prunes Gone
    rw [under_iff]
    simp only [noteItem]
    constructor
    · rintro (⟨h1, h2⟩ | ⟨h1, h2, _, h4⟩)
      · refine ⟨h1, h2 ▸ List.prefix_refl _, ?_⟩
        exact hac (noteItem sha x) (List.mem_map.2 ⟨x, hx, rfl⟩) h1 (by simp only [noteItem]; rw [h2]; exact List.prefix_refl _)
      · exact ⟨h1, h2, h4⟩
    · rintro ⟨h1, h2, h3⟩
      by_cases h4 : splitSlash x.path = splitSlash p
      · exact .inl ⟨h1, h4⟩
      · exact .inr ⟨h1, h2, h4, h3⟩

theorem prunes_note (sha : Bytes → Bytes) (page : List Note) (n : Note) :
    ((page.map (noteItem sha)).filter fun a => decide (Prunes ⟨n.subspace, splitSlash n.path, n.time⟩ a.pos)) =
      (page.filter fun x => Gone n x ∧ x.path ≠ n.path).map (noteItem sha) := by
  rw [List.filter_map]
  congr 1
  apply List.filter_congr
  intro x _
  simp only [Function.comp, decide_eq_decide]
  unfold Prunes Gone
  rw [under_iff]
  simp only [noteItem, ne_eq]
  constructor
  · rintro ⟨h1, h2, h3, h4⟩
    exact ⟨⟨h1, h2, h4⟩, fun h => h3 (by rw [h])⟩
  · rintro ⟨⟨h1, h2, h4⟩, h3⟩
    exact ⟨h1, h2, fun h => h3 (splitSlash_inj h), h4⟩

/-- The store holds the page: it was made by writing notes of which the page is what is left. -/
def Kept (lib : KdLib) (sha : Bytes → Bytes) (ns : Bytes) (given : List Bytes) (count : Nat) (page : List Note) (st : StoreState) (dir : Bool) : Prop :=
  ∃ ops, (∀ op ∈ ops, op = .restart ∨ ∃ now s p t b, op = noteOp now s p t b ∧ p.length < 50 ∧ b ∈ given ∧ s ∈ given) ∧
    ops.length ≤ count ∧ runOps (appStore lib sha ns) .empty ops = .ok st ∧
    specRun (appStore lib sha ns) [] ops = page.map (noteItem sha) ∧ (dir = true ↔ page ≠ []) ∧
    ∀ n ∈ page, n.payload ∈ given ∧ n.path.length < 50

theorem Kept.fine {lib : KdLib} {sha : Bytes → Bytes} {ns : Bytes} {given : List Bytes} (hs : ∀ b, (sha b).length = 32) {ops : List StoreOp}
    (h : ∀ op ∈ ops, op = .restart ∨ ∃ now s p t b, op = noteOp now s p t b ∧ p.length < 50 ∧ b ∈ given ∧ s ∈ given) :
    ∀ op ∈ ops, FineOp (appStore lib sha ns) op := by
  intro op ho
  rcases h op ho with rfl | ⟨now, s, p, t, b, rfl, hp, _, _⟩
  · intro e tk ha; cases ha
  · exact fine_note lib sha ns hs now s p t b hp

theorem kept_empty (lib : KdLib) (sha : Bytes → Bytes) (ns : Bytes) (given : List Bytes) : Kept lib sha ns given 0 [] .empty false :=
  ⟨[], by simp, by simp, rfl, rfl, by simp, by simp⟩

theorem Kept.mono {lib : KdLib} {sha : Bytes → Bytes} {ns : Bytes} {given : List Bytes} {count count' : Nat} {page : List Note} {st : StoreState}
    {dir : Bool} (h : Kept lib sha ns given count page st dir) (hc : count ≤ count') : Kept lib sha ns given count' page st dir := by
  obtain ⟨ops, h1, h2, h3⟩ := h
  exact ⟨ops, h1, by omega, h3⟩

theorem kept_abs {lib : KdLib} {sha : Bytes → Bytes} {ns : Bytes} {given : List Bytes} {page : List Note} {st : StoreState}
    (hs : ∀ b, (sha b).length = 32) {ops : List StoreOp}
    (h : ∀ op ∈ ops, op = .restart ∨ ∃ now s p t b, op = noteOp now s p t b ∧ p.length < 50 ∧ b ∈ given ∧ s ∈ given)
    (h1 : runOps (appStore lib sha ns) .empty ops = .ok st) (h2 : specRun (appStore lib sha ns) [] ops = page.map (noteItem sha)) :
    Abs (appStore lib sha ns) st (page.map (noteItem sha)) (leakRun (appStore lib sha ns) [] (fun _ => 0) ops) ∧ st.locked = false := by
  obtain ⟨st', e1, e2, e3⟩ := run_ok (appStore_ok lib sha ns hs) ops (Kept.fine hs h)
  rw [h1] at e1
  cases e1
  rw [h2] at e2
  exact ⟨e2, e3⟩

theorem kept_restart {lib : KdLib} {sha : Bytes → Bytes} {ns : Bytes} {given : List Bytes} {count : Nat} {page : List Note} {st : StoreState}
    {dir : Bool} (hs : ∀ b, (sha b).length = 32) (h : Kept lib sha ns given count page st dir) :
    ∃ st', restart (appStore lib sha ns) (fun kv => kv) st = .ok st' ∧ Kept lib sha ns given (count + 1) page st' dir := by
  obtain ⟨ops, h1, h2, h3, h4, h5, h6⟩ := h
  obtain ⟨ha, _⟩ := kept_abs hs h1 h3 h4
  obtain ⟨L, _, e, _⟩ := restart_ok (appStore_ok lib sha ns hs) ha
  refine ⟨_, e, ops ++ [.restart], ?_, by simp; omega, ?_, ?_, h5, h6⟩
  · intro op ho
    rcases List.mem_append.1 ho with ho | ho
    · exact h1 op ho
    · exact .inl (List.mem_singleton.1 ho)
  · rw [runOps_appendBind, h3]
    simp [Res.bind, runOps, runOp, e, Res.ok_bind]
  · rw [specRun_append, h4]
    rfl

theorem kept_set {lib : KdLib} {sha : Bytes → Bytes} {ns : Bytes} {given : List Bytes} {count : Nat} {page : List Note} {st : StoreState}
    {dir : Bool} (hs : ∀ b, (sha b).length = 32) (h : Kept lib sha ns given count page st dir) (now : UInt64) (s p : Bytes) (t : UInt64) (b : Bytes)
    (hp : p.length < 50) (hb : b ∈ given) (hsg : s ∈ given) (n : Note) (hn : n = ⟨s, p, if t = 0 then now else t, b⟩) :
    ∃ r st', storeSet (appStore lib sha ns) st now ⟨s, splitSlash p, t, b⟩ s = .ok (r, st') ∧
      Kept lib sha ns given (count + 1) (if Superseded page n then page else n :: page.filter fun x => ¬ Gone n x) st' true ∧
      if Superseded page n then r = none
      else ∃ B : List Note, r = some (B.map fun x => (noteItem sha x).entry ns) ∧ B.Perm (page.filter fun x => Gone n x ∧ x.path ≠ p) := by
  obtain ⟨ops, h1, h2, h3, h4, h5, h6⟩ := h
  obtain ⟨ha, hl⟩ := kept_abs hs h1 h3 h4
  obtain ⟨r, st', e1, e2, e3, e4⟩ := runOp_ok (appStore_ok lib sha ns hs) ha hl (noteOp now s p t b) (fine_note lib sha ns hs now s p t b hp)
  refine ⟨r, st', e1, ⟨ops ++ [noteOp now s p t b], ?_, by simp; omega, ?_, ?_, ?_, ?_⟩, ?_⟩
  · intro op ho
    rcases List.mem_append.1 ho with ho | ho
    · exact h1 op ho
    · exact .inr ⟨now, s, p, t, b, List.mem_singleton.1 ho, hp, hb, hsg⟩
  · rw [runOps_appendBind, h3]
    simp [Res.bind, runOps, e1, Res.ok_bind]
  · rw [specRun_append, h4]
    exact specStep_note lib sha ns page now s p t b n hn
  · refine ⟨fun _ => ?_, fun _ => rfl⟩
    split
    · rename_i hsup
      obtain ⟨x, hx, _⟩ := hsup
      intro h0
      rw [h0] at hx
      cases hx
    · simp
  · split
    · exact h6
    · intro x hx
      rcases List.mem_cons.1 hx with rfl | hx
      · subst hn; exact ⟨hb, hp⟩
      · exact h6 x (List.mem_filter.1 hx).1
  · unfold ResultOk at e4
    rw [attempt_note] at e4
    dsimp only at e4
    have hacc := acceptable_note lib sha ns page n (hexEncode (sha b)) (UInt64.ofNat b.length)
    subst hn
    by_cases hsup : Superseded page ⟨s, p, if t = 0 then now else t, b⟩
    · rw [if_pos hsup]
      rwa [if_neg (fun h' => hacc.1 h' hsup)] at e4
    · rw [if_neg hsup]
      rw [if_pos (hacc.2 hsup)] at e4
      obtain ⟨B, hB1, hB2⟩ := e4
      have hB3 := hB2.trans (List.Perm.of_eq (prunes_note sha page ⟨s, p, if t = 0 then now else t, b⟩))
      obtain ⟨C, hC1, hC2⟩ := exists_map_of_perm hB3
      refine ⟨C, ?_, hC1⟩
      rw [hB1, hC2, List.map_map]
      rfl

theorem kept_list {lib : KdLib} {sha : Bytes → Bytes} {ns : Bytes} {given : List Bytes} {count : Nat} {page : List Note} {st : StoreState}
    {dir : Bool} (hs : ∀ b, (sha b).length = 32) (h : Kept lib sha ns given count page st dir) (sort : SortLib) (readFile : Bytes → FileRead)
    (now : UInt64) :
    ∃ lines, nsLine (appStore lib sha ns) sort readFile now st dir Word.list = .ok (.stay (.listing lines) st dir) ∧
      lines.Perm (page.map fun x => (x.subspace, x.time, x.path)) ∧ lines.Pairwise fun a b => ¬BytesLt b.1 a.1 := by
  obtain ⟨ops, h1, h2, h3, h4, h5, h6⟩ := h
  obtain ⟨ha, _⟩ := kept_abs hs h1 h3 h4
  have hperm : ((storeList (appStore lib sha ns) st).map (·.pos)).Perm _ := ((lib.valuesPerm st.kd).map _).trans ha.core.kd_perm
  obtain ⟨lines, e1, e2, e3⟩ := C97_list_partial (appStore lib sha ns) sort readFile now st dir (by
    intro k hk
    have := hperm.mem_iff.1 (List.mem_map.2 ⟨k, hk, rfl⟩)
    rw [List.map_map] at this
    obtain ⟨x, _, hx⟩ := List.mem_map.1 this
    rw [← hx]
    exact splitSlash_ne _)
  refine ⟨lines, e1, ?_, e3⟩
  have e4 : (storeList (appStore lib sha ns) st).map listLine = ((storeList (appStore lib sha ns) st).map (·.pos)).map fun q => (makePath q.path).bind fun path => .ok (q.subspace, q.time, path) := by
    rw [List.map_map]; rfl
  have e5 : (lines.map Res.ok).Perm (page.map fun x => Res.ok (x.subspace, x.time, x.path)) := by
    refine e2.trans ?_
    rw [e4]
    refine (hperm.map _).trans (List.Perm.of_eq ?_)
    rw [List.map_map, List.map_map]
    apply List.map_congr_left
    intro x _
    simp only [Function.comp, noteItem, makePath_split, Res.bind]
  have e6 := e5.map (fun r : Res (Bytes × UInt64 × Bytes) => match r with | .ok a => a | _ => ([], 0, []))
  rw [List.map_map, List.map_map] at e6
  have e7 : lines.map ((fun r : Res (Bytes × UInt64 × Bytes) => match r with | .ok a => a | _ => ([], 0, [])) ∘ Res.ok) = lines := by
    rw [show ((fun r : Res (Bytes × UInt64 × Bytes) => match r with | .ok a => a | _ => ([], 0, [])) ∘ Res.ok) = id from rfl, List.map_id]
  rw [e7] at e6
  exact e6

theorem kept_get {lib : KdLib} {sha : Bytes → Bytes} {ns : Bytes} {given : List Bytes} {count : Nat} {page : List Note} {st : StoreState}
    {dir : Bool} (hs : ∀ b, (sha b).length = 32) (hc : NoCollision sha given) (hcount : count < 2 ^ 64)
    (h : Kept lib sha ns given count page st dir) (s p : Bytes) (hp : p.length < 50) :
    getCommand (appStore lib sha ns) st s p = .ok (match page.find? fun x => x.subspace = s ∧ x.path = p with
      | some x => x.payload
      | none => []) := by
  obtain ⟨ops, h1, h2, h3, h4, h5, h6⟩ := h
  have hat : ∀ op ∈ ops, ∀ e tk, attempt (appStore lib sha ns) op = some (e, tk) → tk = e.subspaceId := by
    intro op ho e tk ha
    rcases h1 op ho with rfl | ⟨now, s, p, t, b, rfl, _⟩
    · cases ha
    · rw [attempt_note] at ha; cases ha; rfl
  have he := appStore_ok lib sha ns hs
  have hn := C42_application lib sha ns hs
  obtain ⟨st', e1, e2, e3⟩ := payload_run he hn (all := ops) (by
      intro op ho
      rcases h1 op ho with rfl | ⟨now, s, p, t, b, rfl, _⟩
      · exact .inl rfl
      · exact .inr ⟨_, _, _, rfl⟩) (by
      intro op ho op' ho' e tk e' tk' ha ha' hsub
      rw [hat op ho e tk ha, hat op' ho' e' tk' ha', hsub]) ops .empty [] (fun _ => 0) (fun _ h => h) (Kept.fine hs h1) (abs_empty _) rfl
    (fun a h => by simp at h) (fun a h => by simp at h) (fun d => by simp [refsTo]; omega)
  rw [h3] at e1
  cases e1
  rw [h4] at e2 e3
  have hcomf : Comfortable (appStore lib sha ns).p (splitSlash p) :=
    short_comfortable (show 50 ≤ 50 by omega) (show 50 ≤ 50 by omega) (show 50 ≤ 50 by omega) hp
  unfold getCommand
  rcases e2.core.entryGet s (splitSlash p) hcomf.valid (.inr hcomf) with ⟨hm, hno⟩ | ⟨a, ha, ha1, ha2, hg⟩
  · have hf : page.find? (fun x => x.subspace = s ∧ x.path = p) = none := by
      rw [List.find?_eq_none]
      intro x hx hx'
      simp only [decide_eq_true_eq] at hx'
      exact hno (noteItem sha x) (List.mem_map.2 ⟨x, hx, rfl⟩) ⟨hx'.1, by simp only [noteItem, hx'.2]⟩
    rw [hm, hf]
    rfl
  · have hapart := e2.core.apart
    obtain ⟨x, hx, rfl⟩ := List.mem_map.1 ha
    have hf : ∃ y, page.find? (fun x => x.subspace = s ∧ x.path = p) = some y := by
      cases hff : page.find? (fun x => x.subspace = s ∧ x.path = p) with
      | some y => exact ⟨y, rfl⟩
      | none =>
        rw [List.find?_eq_none] at hff
        exact absurd (decide_eq_true (⟨ha1, splitSlash_inj ha2⟩ : x.subspace = s ∧ x.path = p)) (hff x hx)
    obtain ⟨y, hy⟩ := hf
    have hy1 := List.mem_of_find?_eq_some hy
    have hy2 := List.find?_some hy
    simp only [decide_eq_true_eq] at hy2
    have hxy : noteItem sha x = noteItem sha y :=
      apart_unique hapart ha (List.mem_map.2 ⟨y, hy1, rfl⟩) (ha1.trans hy2.1.symm) (ha2.trans (by simp only [noteItem, hy2.2]))
    obtain ⟨b, hb1, hb2⟩ := e3 _ ha
    have hpg : payloadGet (appStore lib sha ns) st.files ((appStore lib sha ns).hash y.payload) = some b := by
      unfold payloadGet
      dsimp only
      rw [if_neg (hn.ne _)]
      rw [hxy] at hb1
      exact hb1
    obtain ⟨hb3, op, ho, hb4⟩ := C100_digest _ hn ops st h3 y.payload b hpg
    have hbg : b ∈ given := by
      rcases h1 op ho with rfl | ⟨now, s', p', t, b', rfl, _, hbg, hsg⟩
      · cases hb4
      · unfold bytesGiven at hb4
        rw [attempt_note] at hb4
        simp only [noteOp, List.mem_append, List.mem_singleton] at hb4
        rcases hb4 with rfl | rfl
        · exact hbg
        · exact hsg
    have hbe : b = y.payload := hc b hbg y.payload (h6 y hy1).1 (hexEncode_inj hb3)
    rw [hg, hy]
    simp only [Res.ok_bind, Item.entry]
    rw [hxy]
    simp only [noteItem]
    rw [show hexEncode (sha y.payload) = (appStore lib sha ns).hash y.payload from rfl, hpg, hbe]

theorem printAll_map {α β : Type} (f : α → Res β) (g : α → β) (l : List α) (h : ∀ a ∈ l, f a = .ok (g a)) : printAll f l = .ok (l.map g) := by
  induction l with
  | nil => rfl
  | cons a l ih =>
    simp only [printAll, h a (by simp), ih fun a ha => h a (List.mem_cons_of_mem _ ha), Res.ok_bind, List.map_cons]

theorem set_words (s p f : Bytes) (time : Option (Nat × Nat)) (h : (Typed.set s p f time).InOrder) :
    ∃ rest, (Typed.set s p f time).text = spaced (Word.set :: s :: p :: f :: rest) ∧ (∀ x ∈ Word.set :: s :: p :: f :: rest, IsWord x) ∧
      (rest = [] ∧ time = none ∨ ∃ hh mm, time = some (hh, mm) ∧ rest = [clockText hh mm] ∧ hh < 24 ∧ mm < 60 ∧ ¬ (hh = 0 ∧ mm = 0)) := by
  obtain ⟨h1, h2, h3, _, h5⟩ := h
  have hw : IsWord Word.set := by decide
  cases time with
  | none => exact ⟨[], rfl, by simp [h1, h2, h3, hw], .inl ⟨rfl, rfl⟩⟩
  | some x =>
    obtain ⟨hh, mm⟩ := x
    obtain ⟨a, b, c⟩ := h5 hh mm rfl
    exact ⟨[clockText hh mm], rfl, by simp [h1, h2, h3, hw, clock_word a b], .inr ⟨hh, mm, rfl, rfl, a, b, c⟩⟩

theorem page_set {lib : KdLib} {sha : Bytes → Bytes} {ns : Bytes} {given : List Bytes} {count : Nat} {page page' : List Note} {st : StoreState}
    {dir : Bool} (hs : ∀ b, (sha b).length = 32) (h : Kept lib sha ns given count page st dir) (sort : SortLib) (readFile : Bytes → FileRead)
    (now : UInt64) (s p f : Bytes) (time : Option (Nat × Nat)) (ht : (Typed.set s p f time).InOrder)
    (hg : ∀ b ∈ bytesTyped readFile (.set s p f time), b ∈ given) (out : Shown) (ho : onPage readFile now page (.set s p f time) = some (out, page')) :
    ∃ pr st' dir', nsLine (appStore lib sha ns) sort readFile now st dir (Typed.set s p f time).text = .ok (.stay pr st' dir') ∧ Shows out pr ∧
      Kept lib sha ns given (count + 1) page' st' dir' := by
  obtain ⟨rest, e1, e2, e3⟩ := set_words s p f time ht
  have key := nsLine_words (appStore lib sha ns) sort readFile now st dir Word.set s (p :: f :: rest) e2
  rw [if_neg (by decide), if_pos rfl] at key
  rw [e1, key]
  have hlen : ¬ ((Word.set :: s :: p :: f :: rest).length < 4 ∨ (Word.set :: s :: p :: f :: rest).length > 5) := by
    rcases e3 with ⟨rfl, _⟩ | ⟨_, _, _, rfl, _⟩ <;> simp
  have hcmd : ∀ b, ∃ t, setCommand (appStore lib sha ns) st now s p b (Word.set :: s :: p :: f :: rest)[4]? =
      some (storeSet (appStore lib sha ns) st now ⟨s, splitSlash p, t, b⟩ s) ∧ timeMeant now time = if t = 0 then now else t := by
    intro b
    rcases e3 with ⟨rfl, rfl⟩ | ⟨hh, mm, rfl, rfl, a1, a2, a3⟩
    · exact ⟨0, rfl, rfl⟩
    · refine ⟨UInt64.ofNat ((hh * 60 + mm) * 60000000), ?_, ?_⟩
      · simp only [List.getElem?_cons_succ, List.getElem?_cons_zero, setCommand, clock_time a1 a2]
        rw [if_neg (clock_ne a1 a2 a3)]
      · rw [if_neg (clock_ne a1 a2 a3)]
        rfl
  unfold setLine
  rw [if_neg hlen]
  simp only [List.getD_cons_succ, List.getD_cons_zero]
  simp only [onPage] at ho
  simp only [bytesTyped] at hg
  cases hf : readFile f with
  | missing =>
    rw [hf] at ho
    simp only [Option.some.injEq, Prod.mk.injEq] at ho
    obtain ⟨rfl, rfl⟩ := ho
    exact ⟨_, _, _, rfl, trivial, h.mono (by omega)⟩
  | unreadable => rw [hf] at ho; cases ho
  | contents b =>
    rw [hf] at ho hg
    obtain ⟨t, ec, et⟩ := hcmd b
    obtain ⟨r, st', k1, k2, k3⟩ := kept_set hs h now s p t b ht.2.2.2.1 (hg b (by simp)) (hg s (by simp)) ⟨s, p, timeMeant now time, b⟩ (by rw [et])
    dsimp only at ho ⊢
    rw [ec]
    simp only [k1, Res.ok_bind]
    by_cases hsup : Superseded page ⟨s, p, timeMeant now time, b⟩
    · rw [if_pos hsup] at ho k2 k3
      simp only [Option.some.injEq, Prod.mk.injEq] at ho
      obtain ⟨rfl, rfl⟩ := ho
      subst k3
      exact ⟨_, _, _, rfl, trivial, k2⟩
    · rw [if_neg hsup] at ho k2 k3
      simp only [Option.some.injEq, Prod.mk.injEq] at ho
      obtain ⟨rfl, rfl⟩ := ho
      obtain ⟨B, rfl, hB⟩ := k3
      dsimp only
      have hpr := printAll_map (fun (e : Entry) => (makePath e.path).bind fun path => .ok (e.subspaceId, path, e.timestamp))
        (fun e => (e.subspaceId, (match makePath e.path with | .ok a => a | _ => []), e.timestamp))
        (B.map fun x => (noteItem sha x).entry ns) (by
          intro e he
          obtain ⟨x, _, rfl⟩ := List.mem_map.1 he
          simp only [Item.entry, noteItem, makePath_split, Res.bind])
      rw [hpr]
      refine ⟨_, _, _, rfl, ?_, k2⟩
      rw [List.map_map]
      refine List.Perm.trans (List.Perm.of_eq ?_) (hB.map _)
      apply List.map_congr_left
      intro x _
      simp only [Function.comp, Item.entry, noteItem, makePath_split]

theorem page_get {lib : KdLib} {sha : Bytes → Bytes} {ns : Bytes} {given : List Bytes} {count : Nat} {page page' : List Note} {st : StoreState}
    {dir : Bool} (hs : ∀ b, (sha b).length = 32) (hc : NoCollision sha given) (hcount : count < 2 ^ 64)
    (h : Kept lib sha ns given count page st dir) (sort : SortLib) (readFile : Bytes → FileRead)
    (now : UInt64) (s p : Bytes) (ht : (Typed.get s p).InOrder) (out : Shown) (ho : onPage readFile now page (.get s p) = some (out, page')) :
    ∃ pr st' dir', nsLine (appStore lib sha ns) sort readFile now st dir (Typed.get s p).text = .ok (.stay pr st' dir') ∧ Shows out pr ∧
      Kept lib sha ns given (count + 1) page' st' dir' := by
  obtain ⟨h1, h2, h3⟩ := ht
  have hd : page ≠ [] → dir = true := by
    obtain ⟨_, _, _, _, _, h5, _⟩ := h
    exact h5.2
  have hk := kept_get hs hc hcount h s p h3
  have key := nsLine_words (appStore lib sha ns) sort readFile now st dir Word.get s [p] (by
    have hw : IsWord Word.get := by decide
    simp [h1, h2, hw])
  rw [if_neg (by decide), if_neg (by decide), if_pos rfl, if_neg (by simp)] at key
  simp only [onPage] at ho
  split at ho
  · cases ho
  · rename_i hne
    have hdir := hd hne
    subst hdir
    have ht : (Typed.get s p).text = spaced (Word.get :: s :: [p]) := rfl
    simp only [ht, key, getLine, List.getD_cons_zero, if_true, hk, Res.bind]
    split at ho
    · rename_i x hx
      cases ho
      rw [hx]
      exact ⟨_, _, _, rfl, rfl, h.mono (by omega)⟩
    · rename_i hx
      cases ho
      rw [hx]
      exact ⟨_, _, _, rfl, rfl, h.mono (by omega)⟩

/-! ### The book -/

theorem nsLine_other (env : StoreEnv) (lib : SortLib) (readFile : Bytes → FileRead) (now : UInt64) (st : StoreState) (dir : Bool)
    (w : Bytes) (ws : List Bytes) (h : ∀ x ∈ w :: ws, IsWord x) (hw : w ∉ [Word.back, Word.set, Word.get, Word.list]) (hx : ws = [] → toLower w ≠ Word.exit) :
    nsLine env lib readFile now st dir (spaced (w :: ws)) = .ok (.stay .message st dir) := by
  simp only [List.mem_cons, List.not_mem_nil, or_false, not_or] at hw
  obtain ⟨h1, h2, h3, h4⟩ := hw
  cases ws with
  | cons v ws => rw [nsLine_words _ _ _ _ _ _ _ _ _ h, if_neg h1, if_neg h2, if_neg h3, if_neg h4]
  | nil =>
    unfold nsLine
    rw [if_neg (show ¬ toLower (spaced [w]) = Word.exit from hx rfl)]
    dsimp only
    rw [trim_spaced _ _ h, splitSpace_spaced _ _ fun x hx => isWord_noSpace (h x hx)]
    simp only [List.getD_cons_zero]
    rw [if_neg h1, if_neg h2, if_neg h3, if_neg h4]

theorem toLower_small {w : Bytes} (h : ∀ c ∈ w, ¬ (65 ≤ c ∧ c ≤ 90)) (hi : ¬ utf8 0x130 <:+: w) (hx : toLower w = Word.exit) : w = Word.exit := by
  have hk : (107 : UInt8) ∉ toLower w := by rw [hx]; decide
  suffices toLower w = w by rw [← this, hx]
  clear hx
  fun_induction toLower w with
  | case1 => rfl
  | case2 rest ih => exact absurd ⟨[], rest, rfl⟩ hi
  | case3 rest ih => exact absurd List.mem_cons_self hk
  | case4 c rest _ _ ih =>
    rw [if_neg (h c List.mem_cons_self), ih (fun x hx => h x (List.mem_cons_of_mem _ hx)) (fun hh => hi (hh.trans (List.suffix_cons c rest).isInfix))
      (fun hh => hk (List.mem_cons_of_mem _ hh))]

theorem page_step {lib : KdLib} {sha : Bytes → Bytes} {ns : Bytes} {given : List Bytes} {count : Nat} {page page' : List Note} {st : StoreState}
    {dir : Bool} (hs : ∀ b, (sha b).length = 32) (hc : NoCollision sha given) (hcount : count < 2 ^ 64)
    (h : Kept lib sha ns given count page st dir) (sort : SortLib) (readFile : Bytes → FileRead)
    (now : UInt64) (t : Typed) (ht : t.InOrder) (hg : ∀ b ∈ bytesTyped readFile t, b ∈ given) (hb : t ≠ .back) (hx : t ≠ .exit)
    (out : Shown) (ho : onPage readFile now page t = some (out, page')) :
    ∃ pr st' dir', nsLine (appStore lib sha ns) sort readFile now st dir t.text = .ok (.stay pr st' dir') ∧ Shows out pr ∧
      Kept lib sha ns given (count + 1) page' st' dir' := by
  have hmsg : ∀ w ws, t.text = spaced (w :: ws) → (∀ x ∈ w :: ws, IsWord x) → w ∉ [Word.back, Word.set, Word.get, Word.list] →
      (ws = [] → toLower w ≠ Word.exit) → onPage readFile now page t = some (.message, page) →
      ∃ pr st' dir', nsLine (appStore lib sha ns) sort readFile now st dir t.text = .ok (.stay pr st' dir') ∧ Shows out pr ∧
        Kept lib sha ns given (count + 1) page' st' dir' := by
    intro w ws e1 e2 e3 e4 e5
    rw [ho] at e5
    cases e5
    rw [e1, nsLine_other _ _ _ _ _ _ w ws e2 e3 e4]
    exact ⟨_, _, _, rfl, trivial, h.mono (by omega)⟩
  cases t with
  | back => exact absurd rfl hb
  | exit => exact absurd rfl hx
  | set s p f time => exact page_set hs h sort readFile now s p f time ht hg out ho
  | get s p => exact page_get hs hc hcount h sort readFile now s p ht out ho
  | list =>
    obtain ⟨lines, e1, e2, e3⟩ := kept_list hs h sort readFile now
    simp only [onPage] at ho
    cases ho
    exact ⟨_, _, _, e1, ⟨e2, e3⟩, h.mono (by omega)⟩
  | new name =>
    refine hmsg Word.new [name] rfl ?_ (by decide) (fun h => by cases h) rfl
    have hw : IsWord Word.new := by decide
    have hn : IsWord name := ht
    simp [hw, hn]
  | enter name =>
    refine hmsg Word.enter [name] rfl ?_ (by decide) (fun h => by cases h) rfl
    have hw : IsWord Word.enter := by decide
    have hn : IsWord name := ht
    simp [hw, hn]
  | yes =>
    refine hmsg Word.yes [] rfl ?_ (by decide) (fun _ => by decide) rfl
    have hw : IsWord Word.yes := by decide
    simp [hw]
  | other w ws =>
    obtain ⟨h1, h2, h3, h4⟩ := ht
    refine hmsg w ws rfl h1 (fun h => h2 ?_) (fun _ hx => ?_) rfl
    · simp only [List.mem_cons, List.not_mem_nil, or_false] at h
      rcases h with rfl | rfl | rfl | rfl <;> decide
    · rw [toLower_small h3 h4 hx] at h2
      exact h2 (by decide)

/-- The application has what is in the book. -/
structure Agrees (lib : KdLib) (sha : Bytes → Bytes) (given : List Bytes) (count : Nat) (book : Book) (mode : AppMode) (app : AppState) : Prop where
  none : ∀ n, book.pages n = none → app.disk.get n = none
  some : ∀ n page, book.pages n = some page → IsWord n ∧ ∃ st dir, app.disk.get n = some (st, dir) ∧ Kept lib sha n given count page st dir
  known : ∀ n, book.known n = true ↔ n ∈ app.known
  words : ∀ n ∈ app.known, IsWord n
  held : app.held = []
  place : match book.place, mode with
    | .menu, .menu => True
    | .asked n, .confirm n' => n' = n ∧ IsWord n
    | .inside n, .inside n' st dir => n' = n ∧ app.disk.get n = Option.some (st, dir) ∧ book.pages n ≠ Option.none
    | _, _ => False

theorem GoMap.mem_keys {κ α : Type} [DecidableEq κ] (m : GoMap κ α) (k : κ) : k ∈ m.map Prod.fst ↔ (m.get k).isSome = true := by
  induction m with
  | nil => simp [GoMap.get]
  | cons e m ih =>
    obtain ⟨k', v⟩ := e
    simp only [List.map_cons, List.mem_cons, GoMap.get]
    by_cases hk : k' = k
    · simp [hk]
    · rw [if_neg hk, ← ih]
      simp [Ne.symm hk]

theorem agrees_turnTo {lib : KdLib} {sha : Bytes → Bytes} {given : List Bytes} {count : Nat} {book : Book} {mode : AppMode} {app : AppState}
    (hs : ∀ b, (sha b).length = 32) (h : Agrees lib sha given count book mode app) (name : Bytes) (hw : IsWord name) :
    ∃ mode' app', enterNamespace (appStore lib sha) app name = .ok (.next mode' .message app') ∧
      Agrees lib sha given (count + 1) (book.turnTo name) mode' app' := by
  have hk : ∃ st dir, (app.disk.get name).getD (.empty, false) = (st, dir) ∧ Kept lib sha name given count ((book.pages name).getD []) st dir := by
    cases hp : book.pages name with
    | none => rw [h.none name hp]; exact ⟨_, _, rfl, (kept_empty lib sha name given).mono (by omega)⟩
    | some page =>
      obtain ⟨_, st, dir, e, k⟩ := h.some name page hp
      rw [e]
      exact ⟨st, dir, rfl, k⟩
  obtain ⟨st, dir, e, k⟩ := hk
  obtain ⟨st', e', k'⟩ := kept_restart hs k
  refine ⟨.inside name st' dir, { app with disk := app.disk.set name (st', dir) }, by
    unfold enterNamespace
    rw [h.held, if_neg (by simp)]
    simp only [e, e', Res.ok_bind], ?_⟩
  refine ⟨fun n hn => ?_, fun n page hn => ?_, h.known, h.words, h.held, ?_⟩
  · simp only [Book.turnTo] at hn
    rw [GoMap.get_set]
    split at hn
    · cases hn
    · rename_i hne
      rw [if_neg hne]
      exact h.none n hn
  · simp only [Book.turnTo] at hn
    simp only [GoMap.get_set]
    split at hn
    · rename_i he
      subst he
      cases hn
      exact ⟨hw, st', dir, if_pos rfl, k'⟩
    · rename_i hne
      obtain ⟨h1, st1, dir1, h2, h3⟩ := h.some n page hn
      rw [if_neg hne]
      exact ⟨h1, st1, dir1, h2, h3.mono (by omega)⟩
  · simp [Book.turnTo, GoMap.get_set]

/-- The first word of a line. -/
def Typed.head : Typed → Bytes
  | .new _ => Word.new
  | .yes => Word.yes
  | .enter _ => Word.enter
  | .back => Word.back
  | .exit => Word.exit
  | .set .. => Word.set
  | .get .. => Word.get
  | .list => Word.list
  | .other w _ => w

theorem typed_words (t : Typed) (ht : t.InOrder) : ∃ ws, t.text = spaced (Typed.head t :: ws) ∧ ∀ x ∈ Typed.head t :: ws, IsWord x := by
  have hc : ∀ w ∈ commandWords, IsWord w := by decide
  cases t with
  | new name => exact ⟨[name], rfl, by simp [Typed.head, hc Word.new (by decide), show IsWord name from ht]⟩
  | yes => exact ⟨[], rfl, by simp [Typed.head, hc Word.yes (by decide)]⟩
  | enter name => exact ⟨[name], rfl, by simp [Typed.head, hc Word.enter (by decide), show IsWord name from ht]⟩
  | back => exact ⟨[], rfl, by simp [Typed.head, hc Word.back (by decide)]⟩
  | exit => exact ⟨[], rfl, by simp [Typed.head, hc Word.exit (by decide)]⟩
  | set s p f time =>
    obtain ⟨rest, e1, e2, _⟩ := set_words s p f time ht
    exact ⟨s :: p :: f :: rest, e1, e2⟩
  | get s p => exact ⟨[s, p], rfl, by simp [Typed.head, hc Word.get (by decide), ht.1, ht.2.1]⟩
  | list => exact ⟨[], rfl, by simp [Typed.head, hc Word.list (by decide)]⟩
  | other w ws => exact ⟨ws, rfl, ht.1⟩

theorem typed_split (t : Typed) (ht : t.InOrder) : ∃ ws, splitSpace t.text = Typed.head t :: ws := by
  obtain ⟨ws, e1, e2⟩ := typed_words t ht
  exact ⟨ws, by rw [e1, splitSpace_spaced _ _ fun x hx => isWord_noSpace (e2 x hx)]⟩

theorem text_yes (t : Typed) (ht : t.InOrder) (h : t ≠ .yes) : t.text ≠ Word.yes := by
  intro e
  obtain ⟨ws, e1⟩ := typed_split t ht
  rw [e, show splitSpace Word.yes = [Word.yes] from rfl] at e1
  have e2 := (List.cons.inj e1).1
  cases t with
  | yes => exact h rfl
  | other w ws => exact ht.2.1 (by rw [show w = Word.yes from e2.symm]; decide)
  | _ => revert e2; simp only [Typed.head]; decide

theorem menu_other {lib : KdLib} {sha : Bytes → Bytes} {app : AppState} (hw : ∀ n ∈ app.known, IsWord n)
    (sort : SortLib) (readFile : Bytes → FileRead) (now : UInt64) (t : Typed) (ht : t.InOrder)
    (h1 : Typed.head t ≠ Word.new) (h2 : Typed.head t ≠ Word.exit) (h3 : Typed.head t ≠ Word.enter) :
    appLine (appStore lib sha) sort readFile now .menu app t.text = .ok (.next .menu .message app) := by
  obtain ⟨ws, e⟩ := typed_split t ht
  simp only [appLine, e, List.getD_cons_zero, if_neg h1, if_neg h2, if_neg h3]

theorem agrees_message {lib : KdLib} {sha : Bytes → Bytes} {given : List Bytes} {count : Nat} {book : Book} {mode : AppMode} {app : AppState}
    (h : Agrees lib sha given count book mode app) : Agrees lib sha given (count + 1) book mode app :=
  ⟨h.none, fun n page hp => by
    obtain ⟨h1, st, dir, h2, h3⟩ := h.some n page hp
    exact ⟨h1, st, dir, h2, h3.mono (by omega)⟩, h.known, h.words, h.held, h.place⟩

theorem agrees_move {lib : KdLib} {sha : Bytes → Bytes} {given : List Bytes} {count : Nat} {book : Book} {mode : AppMode} {app : AppState}
    (h : Agrees lib sha given count book mode app) (place : Place) (mode' : AppMode) (hp : match place, mode' with
      | .menu, .menu => True
      | .asked n, .confirm n' => n' = n ∧ IsWord n
      | _, _ => False) : Agrees lib sha given (count + 1) { book with place := place } mode' app := by
  have := agrees_message h
  refine ⟨this.none, this.some, this.known, this.words, this.held, ?_⟩
  cases place <;> cases mode' <;> simp_all

/-- One line. -/
theorem book_line {lib : KdLib} {sha : Bytes → Bytes} {given : List Bytes} {count : Nat} {book book' : Book} {mode : AppMode} {app : AppState}
    (hs : ∀ b, (sha b).length = 32) (hc : NoCollision sha given) (hcount : count < 2 ^ 64) (h : Agrees lib sha given count book mode app)
    (sort : SortLib) (readFile : Bytes → FileRead) (now : UInt64) (t : Typed) (ht : t.InOrder) (hg : ∀ b ∈ bytesTyped readFile t, b ∈ given)
    (out : Shown) (ho : book.line readFile now t = some (out, book')) :
    ∃ pr mode' app', (appLine (appStore lib sha) sort readFile now mode app t.text = .ok (.next mode' pr app') ∨
        appLine (appStore lib sha) sort readFile now mode app t.text = .ok (.exit app) ∧ pr = .message ∧ mode' = .menu ∧ app' = appStart app.disk) ∧
      Shows out pr ∧ Agrees lib sha given (count + 1) book' mode' app' := by
  have hplace := h.place
  cases hbp : book.place with
  | menu =>
    rw [hbp] at hplace
    cases mode with
    | confirm n => exact hplace.elim
    | inside n st dir => exact hplace.elim
    | menu =>
      have hother : Typed.head t ≠ Word.new → Typed.head t ≠ Word.exit → Typed.head t ≠ Word.enter → (out, book') = (Shown.message, book) →
          ∃ pr mode' app', (appLine (appStore lib sha) sort readFile now .menu app t.text = .ok (.next mode' pr app') ∨
            appLine (appStore lib sha) sort readFile now .menu app t.text = .ok (.exit app) ∧ pr = .message ∧ mode' = .menu ∧ app' = appStart app.disk) ∧
          Shows out pr ∧ Agrees lib sha given (count + 1) book' mode' app' := by
        intro h1 h2 h3 e
        cases e
        exact ⟨_, _, _, .inl (menu_other h.words sort readFile now t ht h1 h2 h3), trivial, agrees_message h⟩
      unfold Book.line at ho
      rw [hbp] at ho
      cases t with
      | new name =>
        cases ho
        obtain ⟨ws, e⟩ := typed_split (.new name) ht
        have e2 : splitSpace (Typed.new name).text = [Word.new, name] := by
          refine splitSpace_spaced Word.new [name] fun x hx => ?_
          simp only [List.mem_cons, List.not_mem_nil, or_false] at hx
          rcases hx with rfl | rfl
          · decide
          · exact isWord_noSpace ht
        refine ⟨.message, .confirm name, app, .inl ?_, trivial, agrees_move h _ _ ⟨rfl, ht⟩⟩
        simp only [appLine, e2, List.getD_cons_zero, if_true]
        rw [if_neg]
        · rfl
        · intro hk
          exact isWord_noSpace (h.words _ hk) (by show (32 : UInt8) ∈ Word.new ++ 32 :: name; simp)
      | enter name =>
        have e2 : splitSpace (Typed.enter name).text = [Word.enter, name] := by
          refine splitSpace_spaced Word.enter [name] fun x hx => ?_
          simp only [List.mem_cons, List.not_mem_nil, or_false] at hx
          rcases hx with rfl | rfl
          · decide
          · exact isWord_noSpace ht
        have e3 : appLine (appStore lib sha) sort readFile now .menu app (Typed.enter name).text =
            if name ∈ app.known then enterNamespace (appStore lib sha) app name else .ok (.next .menu .message app) := by
          simp only [appLine, e2, List.getD_cons_zero]
          rw [if_neg (by decide), if_neg (by decide)]
          exact if_pos trivial
        cases ho
        rw [e3]
        by_cases hk : name ∈ app.known
        · rw [if_pos hk, if_pos ((h.known name).2 hk)]
          obtain ⟨m, a, e4, e5⟩ := agrees_turnTo hs h name ht
          exact ⟨_, m, a, .inl e4, trivial, e5⟩
        · rw [if_neg hk, if_neg (fun hx => hk ((h.known name).1 hx))]
          exact ⟨_, _, _, .inl rfl, trivial, agrees_message h⟩
      | exit =>
        cases ho
        refine ⟨.message, .menu, appStart app.disk, .inr ⟨rfl, rfl, rfl, rfl⟩, trivial, ?_⟩
        have hm := agrees_message h
        refine ⟨hm.none, hm.some, fun n => ?_, fun n hn => ?_, rfl, by simp only [hbp]⟩
        · show (book.pages n).isSome = true ↔ n ∈ app.disk.map Prod.fst
          rw [GoMap.mem_keys]
          cases hp : book.pages n with
          | none => rw [h.none n hp]; simp
          | some page =>
            obtain ⟨_, st, dir, e, _⟩ := h.some n page hp
            rw [e]; simp
        · have hn' : n ∈ app.disk.map Prod.fst := hn
          rw [GoMap.mem_keys] at hn'
          cases hp : book.pages n with
          | none => rw [h.none n hp] at hn'; simp at hn'
          | some page => exact (h.some n page hp).1
      | yes => cases ho; exact hother (by decide) (by decide) (by decide) rfl
      | back => cases ho; exact hother (by decide) (by decide) (by decide) rfl
      | set s p f time => cases ho; exact hother (by simp only [Typed.head]; decide) (by simp only [Typed.head]; decide) (by simp only [Typed.head]; decide) rfl
      | get s p => cases ho; exact hother (by simp only [Typed.head]; decide) (by simp only [Typed.head]; decide) (by simp only [Typed.head]; decide) rfl
      | list => cases ho; exact hother (by decide) (by decide) (by decide) rfl
      | other w ws =>
        cases ho
        refine hother (fun e => ht.2.1 ?_) (fun e => ht.2.1 ?_) (fun e => ht.2.1 ?_) rfl
        all_goals (simp only [Typed.head] at e; rw [e]; decide)
  | asked n =>
    rw [hbp] at hplace
    cases mode with
    | menu => exact hplace.elim
    | inside n st dir => exact hplace.elim
    | confirm n' =>
      obtain ⟨rfl, hw⟩ := hplace
      unfold Book.line at ho
      rw [hbp] at ho
      by_cases hy : t = .yes
      · subst hy
        cases ho
        obtain ⟨m, a, e4, e5⟩ := agrees_turnTo hs h n' hw
        exact ⟨_, m, a, .inl e4, trivial, e5⟩
      · have : (out, book') = (Shown.message, { book with place := .menu }) := by
          cases t <;> first | exact absurd rfl hy | (cases ho; rfl)
        cases this
        refine ⟨.message, .menu, app, .inl ?_, trivial, agrees_move h _ _ trivial⟩
        simp only [appLine]
        rw [if_neg (text_yes t ht hy)]
  | inside n =>
    rw [hbp] at hplace
    cases mode with
    | menu => exact hplace.elim
    | confirm n => exact hplace.elim
    | inside n' st dir =>
      obtain ⟨rfl, hd, hp⟩ := hplace
      unfold Book.line at ho
      rw [hbp] at ho
      have hleave : t = .back ∨ t = .exit → ∃ pr mode' app', (appLine (appStore lib sha) sort readFile now (.inside n' st dir) app t.text = .ok (.next mode' pr app') ∨
            appLine (appStore lib sha) sort readFile now (.inside n' st dir) app t.text = .ok (.exit app) ∧ pr = .message ∧ mode' = .menu ∧ app' = appStart app.disk) ∧
          Shows out pr ∧ Agrees lib sha given (count + 1) book' mode' app' := by
        rintro (rfl | rfl) <;> (cases ho; exact ⟨.message, .menu, app, .inl rfl, trivial, agrees_move h _ _ trivial⟩)
      by_cases hl : t = .back ∨ t = .exit
      · exact hleave hl
      · rw [not_or] at hl
        have ho' : (onPage readFile now ((book.pages n').getD []) t).map (fun x => (x.1, book.write n' x.2)) = some (out, book') := by
          cases t <;> first | exact absurd rfl hl.1 | exact absurd rfl hl.2 | exact ho
        rw [Option.map_eq_some_iff] at ho'
        obtain ⟨⟨o, page'⟩, e1, e2⟩ := ho'
        simp only [Prod.mk.injEq] at e2
        obtain ⟨rfl, rfl⟩ := e2
        cases hpp : book.pages n' with
        | none => exact absurd hpp hp
        | some page =>
          rw [hpp] at e1
          obtain ⟨hw, st0, dir0, e3, hk⟩ := h.some n' page hpp
          rw [hd] at e3
          cases e3
          obtain ⟨pr, st', dir', e4, e5, e6⟩ := page_step hs hc hcount hk sort readFile now t ht hg hl.1 hl.2 o e1
          refine ⟨pr, .inside n' st' dir', { app with disk := app.disk.set n' (st', dir') }, .inl ?_, e5, ?_⟩
          · simp only [appLine, e4, Res.ok_bind]
          · refine ⟨fun m hm => ?_, fun m pg hm => ?_, h.known, h.words, h.held, ?_⟩
            · simp only [Book.write] at hm
              rw [GoMap.get_set]
              split at hm
              · cases hm
              · rename_i hne
                rw [if_neg hne]
                exact h.none m hm
            · simp only [Book.write] at hm
              simp only [GoMap.get_set]
              split at hm
              · rename_i he
                subst he
                cases hm
                exact ⟨hw, st', dir', if_pos rfl, e6⟩
              · rename_i hne
                obtain ⟨h1, st1, dir1, h2, h3⟩ := h.some m pg hm
                rw [if_neg hne]
                exact ⟨h1, st1, dir1, h2, h3.mono (by omega)⟩
            · simp [Book.write, hbp, GoMap.get_set]

/-- Lines one after the other. -/
theorem book_lines {lib : KdLib} {sha : Bytes → Bytes} {given : List Bytes} (hs : ∀ b, (sha b).length = 32) (hc : NoCollision sha given)
    (sort : SortLib) (readFile : Bytes → FileRead) : ∀ (lines : List (UInt64 × Typed)) (count : Nat) (book book' : Book) (mode : AppMode) (app : AppState)
    (outs : List Shown), count + lines.length < 2 ^ 64 → Agrees lib sha given count book mode app → (∀ l ∈ lines, l.2.InOrder) →
    (∀ l ∈ lines, ∀ b ∈ bytesTyped readFile l.2, b ∈ given) → book.lines readFile lines = some (outs, book') →
    ∃ printed mode' app', appShown (appStore lib sha) sort readFile (lines.map fun l => (l.1, l.2.text)) mode app = .ok (printed, mode', app') ∧
      ShowsAll outs printed ∧ Agrees lib sha given (count + lines.length) book' mode' app'
  | [], count, book, book', mode, app, outs, _, h, _, _, hb => by
    cases hb
    exact ⟨[], mode, app, rfl, trivial, h⟩
  | (now, t) :: rest, count, book, book', mode, app, outs, hl, h, ht, hg, hb => by
    simp only [Book.lines] at hb
    simp only [List.length_cons] at hl
    cases hline : book.line readFile now t with
    | none => rw [hline] at hb; cases hb
    | some x =>
      obtain ⟨out, book1⟩ := x
      rw [hline] at hb
      simp only [Option.map_eq_some_iff] at hb
      obtain ⟨⟨outs1, book2⟩, e1, e2⟩ := hb
      simp only [Prod.mk.injEq] at e2
      obtain ⟨rfl, rfl⟩ := e2
      obtain ⟨pr, mode1, app1, e3, e4, e5⟩ := book_line hs hc (by omega) h sort readFile now t (ht _ List.mem_cons_self) (hg _ List.mem_cons_self) out hline
      obtain ⟨printed, mode2, app2, e6, e7, e8⟩ := book_lines hs hc sort readFile rest (count + 1) book1 book2 mode1 app1 outs1 (by omega) e5
        (fun l hl => ht l (List.mem_cons_of_mem _ hl)) (fun l hl => hg l (List.mem_cons_of_mem _ hl)) e1
      refine ⟨pr :: printed, mode2, app2, ?_, ⟨e4, e7⟩, by
        rw [List.length_cons, show count + (rest.length + 1) = count + 1 + rest.length by omega]; exact e8⟩
      rw [List.map_cons]
      unfold appShown
      rcases e3 with e3 | ⟨e3, rfl, rfl, rfl⟩
      · simp only [e3, Res.ok_bind, e6]
      · simp only [e3, Res.ok_bind, e6]

theorem agrees_first (lib : KdLib) (sha : Bytes → Bytes) (given : List Bytes) : Agrees lib sha given 0 Book.first .menu (appStart []) :=
  ⟨fun _ _ => rfl, (fun _ _ h => by cases h), (fun n => by simp [Book.first, appStart]), (fun n hn => by simp [appStart] at hn), rfl, trivial⟩

/-- A new namespace is made and entered, and other lines follow. -/
theorem shown_entered (env : Bytes → StoreEnv) (sort : SortLib) (readFile : Bytes → FileRead) (t1 t2 : UInt64) (n : Bytes) (hw : IsWord n)
    (disk : GoMap Bytes (StoreState × Bool)) (known held : List Bytes) (hn : ∀ x ∈ known, IsWord x) (rest : List (UInt64 × Bytes)) :
    appShown env sort readFile ((t1, (Typed.new n).text) :: (t2, Typed.yes.text) :: rest) .menu ⟨disk, known, held⟩ =
      (do
        match ← enterNamespace env ⟨disk, known, held⟩ n with
        | .next mode out app => do
          let (outs, mode, app) ← appShown env sort readFile rest mode app
          .ok (.message :: out :: outs, mode, app)
        | .exit app => do
          let (outs, mode, app) ← appShown env sort readFile rest .menu (appStart app.disk)
          .ok (.message :: .message :: outs, mode, app)
        | .fatal => .crash) := by
  have e : splitSpace (Typed.new n).text = [Word.new, n] := by
    refine splitSpace_spaced Word.new [n] fun x hx => ?_
    simp only [List.mem_cons, List.not_mem_nil, or_false] at hx
    rcases hx with rfl | rfl
    · decide
    · exact isWord_noSpace hw
  have h1 : appLine env sort readFile t1 .menu ⟨disk, known, held⟩ (Typed.new n).text = .ok (.next (.confirm n) .message ⟨disk, known, held⟩) := by
    simp only [appLine, e, List.getD_cons_zero, if_true]
    rw [if_neg]
    · rfl
    · intro hk
      exact isWord_noSpace (hn _ hk) (by show (32 : UInt8) ∈ Word.new ++ 32 :: n; simp)
  have h2 : appLine env sort readFile t2 (.confirm n) ⟨disk, known, held⟩ Typed.yes.text = enterNamespace env ⟨disk, known, held⟩ n := by
    simp only [appLine]
    exact if_pos rfl
  rw [appShown, h1]
  simp only [Res.ok_bind]
  rw [appShown, h2]
  cases enterNamespace env ⟨disk, known, held⟩ n with
  | ok r =>
    cases r with
    | next mode out app =>
      simp only [Res.ok_bind]
      cases appShown env sort readFile rest mode app <;> rfl
    | exit app =>
      simp only [Res.ok_bind]
      cases appShown env sort readFile rest .menu (appStart app.disk) <;> rfl
    | fatal => rfl
  | err => rfl
  | crash => rfl
  | block => rfl

/-- A line that puts one out of the namespace leaves it locked: it cannot be made again. -/
theorem shown_locked (env : Bytes → StoreEnv) (sort : SortLib) (readFile : Bytes → FileRead) (t1 t2 t3 t4 t5 : UInt64) (n line : Bytes)
    (hw : IsWord n) (h : nsLine (env n) sort readFile t3 .empty false line = .ok .abandon) :
    appShown env sort readFile [(t1, (Typed.new n).text), (t2, Typed.yes.text), (t3, line), (t4, (Typed.new n).text), (t5, Typed.yes.text)]
      .menu (appStart []) = .crash := by
  refine (shown_entered _ sort readFile t1 t2 n hw [] [] [] (by simp) _).trans ?_
  have e : enterNamespace env ⟨[], [], []⟩ n = .ok (.next (.inside n .empty false) .message ⟨[(n, .empty, false)], [], []⟩) := rfl
  have e2 : enterNamespace env ⟨[(n, .empty, false)], [], [n]⟩ n = .ok .fatal := if_pos (by simp)
  rw [e]
  simp only [Res.ok_bind]
  rw [appShown]
  simp only [appLine, h, Res.ok_bind]
  rw [shown_entered env sort readFile t4 t5 n hw _ _ _ (by simp), e2]
  rfl

end Willow.Props
