import Verif.Lemmas.PropsConcurrent
import Verif.Lemmas.PropsStoreKept

/-! Lemmas for the theorems of `Verif/Props/Concurrent.lean`: the payload files. -/

namespace Willow.Props

open Willow Spec

/-- The call has got past its ingest. -/
def past : CallStage → Bool
  | .start _ => false
  | .written _ _ => false
  | _ => true

/-- The stage is one of the call. -/
def StageOf (env : StoreEnv) (c : StoreCall) : CallStage → Prop
  | .start c' => c' = c
  | .written e t => ∃ now input au, c = .set now input au ∧ e = setEntry env now input ∧ env.authorise e au = some t
  | .ingested d _ => d = digestOf env c
  | .counted d _ => d = digestOf env c
  | .done _ => True

/-- The calls are under way, and the payloads of all entries are in their files. -/
structure Held (env : StoreEnv) (calls : List StoreCall) (stages : List CallStage) (st : StoreState) (A : List Item)
    (leak : Bytes → Nat) : Prop where
  abs : Abs env st A leak
  unlocked : st.locked = false
  len : stages.length = calls.length
  stage : ∀ (i : Nat) (c : StoreCall) (x : CallStage), calls[i]? = some c → stages[i]? = some x → StageOf env c x
  brought : Allowed env (calls.map asOp) A
  origin : ∀ a ∈ A, ∃ (i : Nat) (c : StoreCall) (x : CallStage), calls[i]? = some c ∧ stages[i]? = some x ∧ past x = true ∧
    a.val.payloadDigest = digestOf env c
  bound : ∀ d, refsTo A d + leak d ≤ stages.countP past
  filed : ∀ a ∈ A, Filed env st.files a.val.payloadDigest
  ready : ∀ (i : Nat) (e : Entry) (t : Bytes), stages[i]? = some (.written e t) → Filed env st.files e.payloadDigest
  none : ∀ (i : Nat) (d : Bytes) (p : List Entry), stages[i]? = some (.counted d p) → ∀ a ∈ A, a.val.payloadDigest ≠ d

theorem getElem?_set_cases {stages : List CallStage} {i : Nat} {x : CallStage} {j : Nat} {y : CallStage}
    (hy : (stages.set i x)[j]? = some y) : (j = i ∧ y = x) ∨ (j ≠ i ∧ stages[j]? = some y) := by
  rw [List.getElem?_set] at hy
  split at hy
  · rename_i hij
    split at hy
    · exact .inl ⟨hij.symm, (Option.some.inj hy).symm⟩
    · cases hy
  · rename_i hij
    exact .inr ⟨fun h => hij h.symm, hy⟩

theorem countP_set_ge {stages : List CallStage} {i : Nat} {x x' : CallStage} (hx : stages[i]? = some x)
    (h : past x = true → past x' = true) : stages.countP past ≤ (stages.set i x').countP past := by
  obtain ⟨hi, hxi⟩ := List.getElem?_eq_some_iff.1 hx
  rw [List.countP_set hi, hxi]
  by_cases h1 : past x = true
  · rw [if_pos h1, if_pos (h h1)]; omega
  · rw [if_neg h1]; omega

theorem countP_set_more {stages : List CallStage} {i : Nat} {x x' : CallStage} (hx : stages[i]? = some x)
    (h : past x = false) (h' : past x' = true) : stages.countP past + 1 ≤ (stages.set i x').countP past := by
  obtain ⟨hi, hxi⟩ := List.getElem?_eq_some_iff.1 hx
  rw [List.countP_set hi, hxi, if_neg (by simp [h]), if_pos h']
  omega

theorem countP_set_lt {stages : List CallStage} {i : Nat} {x : CallStage} (hx : stages[i]? = some x)
    (h : past x = false) : stages.countP past < stages.length := by
  refine Nat.lt_of_le_of_ne List.countP_le_length fun heq => ?_
  have := List.countP_eq_length.1 heq x (List.mem_of_getElem? hx)
  rw [h] at this
  cases this

/-- What a step needs if the entries stay. -/
theorem Held.keep {env : StoreEnv} {calls : List StoreCall} {stages : List CallStage} {st : StoreState} {A : List Item}
    {leak : Bytes → Nat} (h : Held env calls stages st A leak) {i : Nat} {x x' : CallStage} {c : StoreCall} {st' : StoreState}
    (hx : stages[i]? = some x) (hc : calls[i]? = some c) (hp : past x = true → past x' = true) (hs : StageOf env c x')
    (habs : Abs env st' A leak) (hu : st'.locked = false)
    (hfiles : ∀ a ∈ A, Filed env st'.files a.val.payloadDigest)
    (hready : ∀ (j : Nat) (e : Entry) (t : Bytes), j ≠ i → stages[j]? = some (.written e t) → Filed env st'.files e.payloadDigest)
    (hown : ∀ e t, x' = .written e t → Filed env st'.files e.payloadDigest)
    (hnone : ∀ d p, x' = .counted d p → ∀ a ∈ A, a.val.payloadDigest ≠ d) : Held env calls (stages.set i x') st' A leak := by
  refine ⟨habs, hu, by rw [List.length_set, h.len], fun j c' y hj hy => ?_, h.brought, fun a ha => ?_, fun d => ?_, hfiles, fun j e t hj => ?_,
    fun j d p hj => ?_⟩
  · rcases getElem?_set_cases hy with ⟨rfl, rfl⟩ | ⟨_, hy⟩
    · rw [hc] at hj; cases hj; exact hs
    · exact h.stage j c' y hj hy
  · obtain ⟨j, c', y, h1, h2, h3, h4⟩ := h.origin a ha
    by_cases hij : i = j
    · subst hij
      rw [hx] at h2
      cases h2
      exact ⟨i, c', x', h1, by rw [List.getElem?_set, if_pos rfl, if_pos (List.getElem?_eq_some_iff.1 hx).1], hp h3, h4⟩
    · exact ⟨j, c', y, h1, by rw [List.getElem?_set, if_neg hij]; exact h2, h3, h4⟩
  · exact Nat.le_trans (h.bound d) (countP_set_ge hx hp)
  · rcases getElem?_set_cases hj with ⟨rfl, hself⟩ | ⟨hne, hj⟩
    · exact hown e t hself.symm
    · exact hready j e t hne hj
  · rcases getElem?_set_cases hj with ⟨rfl, hself⟩ | ⟨hne, hj⟩
    · exact hnone d p hself.symm
    · exact h.none j d p hj

/-- The ingest of a write. -/
theorem Held.ingest {env : StoreEnv} (he : EnvOk env) (hn : GoodNames env) {calls : List StoreCall} {stages : List CallStage}
    {st : StoreState} {A : List Item} {leak : Bytes → Nat} (h : Held env calls stages st A leak) {i : Nat}
    (hf : ∀ c ∈ calls, FineOp env (asOp c)) (hta : TokensApart env (calls.map asOp))
    (hdiff : ∀ (j k : Nat) (c d : StoreCall), calls[j]? = some c → calls[k]? = some d → digestOf env c = digestOf env d → j = k)
    (hlen : calls.length < 2 ^ 64) {e : Entry} {t : Bytes} (hx : stages[i]? = some (.written e t)) {r st'}
    (hi : ingestEntry env st e t = .ok (r, st')) {x' : CallStage} (hx' : x' = .done r ∨ ∃ p, x' = .ingested e.payloadDigest p) :
    ∃ A' leak', Held env calls (stages.set i x') st' A' leak' := by
  have hil : i < stages.length := (List.getElem?_eq_some_iff.1 hx).1
  obtain ⟨c, hc⟩ : ∃ c, calls[i]? = some c := ⟨calls[i]'(h.len ▸ hil), List.getElem?_eq_getElem (h.len ▸ hil)⟩
  have hso := h.stage i c _ hc hx
  obtain ⟨now, input, au, rfl, hent, hau⟩ := hso
  have hcm : StoreCall.set now input au ∈ calls := List.mem_of_getElem? hc
  have hat : attempt env (asOp (.set now input au)) = some (e, t) := by
    show (env.authorise (setEntry env now input) au).map (fun token => (setEntry env now input, token)) = _
    rw [← hent, hau]
    rfl
  have hopm : asOp (.set now input au) ∈ calls.map asOp := List.mem_map.2 ⟨_, hcm, rfl⟩
  have hdig : e.payloadDigest = digestOf env (.set now input au) := by rw [hent]; rfl
  obtain ⟨hcf, hd⟩ := hf _ hcm e t hat
  have hpast : past x' = true := by rcases hx' with rfl | ⟨p, rfl⟩ <;> rfl
  have hso' : StageOf env (.set now input au) x' := by
    rcases hx' with rfl | ⟨p, rfl⟩
    · trivial
    · exact hdig
  have hnw : ∀ e t, x' ≠ .written e t := by
    rcases hx' with rfl | ⟨p, rfl⟩ <;> simp
  have hnc : ∀ d p, x' ≠ .counted d p := by
    rcases hx' with rfl | ⟨p, rfl⟩ <;> simp
  by_cases hacc : Acceptable env A e t
  · obtain ⟨B, st1, h1, h2, h3, h4, h5, h6⟩ := ingestEntry_accepted he h.abs h.unlocked e t hcf hd hacc.1 hacc.2.1 hacc.2.2
    rw [h1] at hi
    cases hi
    have hcount := countP_set_lt hx rfl
    have hlen' := h.len
    have hfi := h6 fun d => by have := h.bound d; omega
    -- no entry has the digest of a call that is not past its ingest
    have hfresh : ∀ (j : Nat) (c' : StoreCall) (y : CallStage), calls[j]? = some c' → stages[j]? = some y → past y = false →
        ∀ a ∈ A, a.val.payloadDigest ≠ digestOf env c' := by
      intro j c' y hj hy hpy a ha heq
      obtain ⟨k, c2, z, g1, g2, g3, g4⟩ := h.origin a ha
      have := hdiff k j c2 c' g1 hj (g4.symm.trans heq)
      subst this
      rw [hy] at g2
      cases g2
      rw [hpy] at g3
      cases g3
    -- names of payload files
    have hkeep : ∀ dg, Filed env st.files dg → (∀ b ∈ A, Displaces (newItem env e t).pos b.pos →
        refsTo (afterInsert A (newItem env e t)) b.val.payloadDigest + leakAfter A e leak b.val.payloadDigest = 0 → b.val.payloadDigest ≠ dg) →
        (∃ op ∈ calls.map asOp, ∃ e' t', attempt env op = some (e', t') ∧ e'.payloadDigest = dg) → Filed env st'.files dg := by
      intro dg hfl hgone ⟨op', hop', e', t', hat', hdg⟩
      obtain ⟨x, hx1, hx2⟩ := hfl
      refine ⟨x, ?_, hx2⟩
      have htok : ∀ op ∈ calls.map asOp, ∀ e2 t2, attempt env op = some (e2, t2) →
          env.fileKey (env.hash (env.tokenEncode t2)) ≠ env.fileKey dg := by
        intro op ho e2 t2 ha2 hk
        rw [← hx2] at hk
        have := hn.inj _ _ hk
        rw [hx2, ← hdg] at this
        exact hta op ho op' hop' e2 t2 e' t' ha2 hat' this
      rw [hfi.kept _ (fun hk => htok _ hopm e t hat hk.symm) (fun o ho _ _ => ?_) (fun b hb hdis hz => ?_)]
      · exact hx1
      · obtain ⟨o2, ho2, e2, t2, ha2, _, rfl⟩ := h.brought o ho
        exact htok o2 ho2 e2 t2 ha2
      · intro hk
        obtain ⟨xb, _, hxb⟩ := h.filed b hb
        rw [← hxb, ← hx2] at hk
        have := hn.inj _ _ hk
        rw [hxb, hx2] at this
        exact hgone b hb hdis hz this
    refine ⟨_, _, h3, h4, by rw [List.length_set, h.len], fun j c' y hj hy => ?_, ?_, fun a ha => ?_, fun d => ?_, fun a ha => ?_,
      fun j e' t' hj => ?_, fun j d p hj => ?_⟩
    · rcases getElem?_set_cases hy with ⟨rfl, rfl⟩ | ⟨_, hy⟩
      · rw [hc] at hj; cases hj; exact hso'
      · exact h.stage j c' y hj hy
    · intro a ha
      rcases List.mem_cons.1 ha with rfl | ha
      · exact ⟨_, hopm, e, t, hat, hacc.2.1, rfl⟩
      · exact h.brought a (List.mem_filter.1 ha).1
    · have hseti : (stages.set i x')[i]? = some x' := by rw [List.getElem?_set, if_pos rfl, if_pos hil]
      rcases List.mem_cons.1 ha with rfl | ha
      · exact ⟨i, _, x', hc, hseti, hpast, hdig⟩
      · obtain ⟨j, c', y, g1, g2, g3, g4⟩ := h.origin a (List.mem_filter.1 ha).1
        have hij : i ≠ j := fun hij => by
          subst hij
          rw [hx] at g2
          cases g2
          cases g3
        exact ⟨j, c', y, g1, by rw [List.getElem?_set, if_neg hij]; exact g2, g3, g4⟩
    · have g1 := refs_run (env := env) [.ingest e t] A leak d
      have hspec : specStep env A (.ingest e t) = afterInsert A (newItem env e t) := by
        unfold specStep
        have ha : attempt env (.ingest e t) = some (e, t) := rfl
        rw [ha]
        dsimp only
        rw [if_pos hacc]
      have hleak : leakStep env A (.ingest e t) leak = leakAfter A e leak := by
        unfold leakStep
        have ha : attempt env (.ingest e t) = some (e, t) := rfl
        rw [ha]
        dsimp only
        rw [if_pos hacc]
      simp only [specRun, leakRun, hspec, hleak, List.length_cons, List.length_nil] at g1
      have g2 := h.bound d
      have g3 := countP_set_more hx rfl hpast
      omega
    · obtain ⟨o2, ho2, e2, t2, ha2, _, ha2'⟩ : ∃ op ∈ calls.map asOp, ∃ e' t', attempt env op = some (e', t') ∧
          env.isAuthorised e' t' = true ∧ a = newItem env e' t' := by
        rcases List.mem_cons.1 ha with rfl | ha
        · exact ⟨_, hopm, e, t, hat, hacc.2.1, rfl⟩
        · exact h.brought a (List.mem_filter.1 ha).1
      refine hkeep _ ?_ (fun b hb hdis hz hbd => ?_) ⟨o2, ho2, e2, t2, ha2, by rw [ha2']; rfl⟩
      · rcases List.mem_cons.1 ha with rfl | ha
        · exact h.ready i e t hx
        · exact h.filed a (List.mem_filter.1 ha).1
      · rw [hbd] at hz
        have hrefs : 0 < refsTo (afterInsert A (newItem env e t)) a.val.payloadDigest := by
          unfold refsTo
          exact List.countP_pos_iff.2 ⟨a, ha, by simp⟩
        omega
    · rcases getElem?_set_cases hj with ⟨rfl, hself⟩ | ⟨hne, hj⟩
      · exact absurd hself.symm (hnw _ _)
      · have hjl : j < calls.length := h.len ▸ (List.getElem?_eq_some_iff.1 hj).1
        have hcj := List.getElem?_eq_getElem hjl
        generalize calls[j] = cj at hcj
        obtain ⟨now', input', au', rfl, hent', hau'⟩ := h.stage j _ _ hcj hj
        have hdig' : e'.payloadDigest = digestOf env (.set now' input' au') := by rw [hent']; rfl
        refine hkeep _ (h.ready j e' t' hj) (fun b hb _ _ hbd => ?_) ⟨_, List.mem_map.2 ⟨_, List.mem_of_getElem? hcj, rfl⟩, e', t', ?_, rfl⟩
        · exact hfresh j _ _ hcj hj rfl b hb (hbd.trans hdig')
        · show (env.authorise (setEntry env now' input') au').map (fun token => (setEntry env now' input', token)) = _
          rw [← hent', hau']
          rfl
    · rcases getElem?_set_cases hj with ⟨rfl, hself⟩ | ⟨hne, hj⟩
      · exact absurd hself.symm (hnc _ _)
      · intro a ha hd'
        have hjl : j < calls.length := h.len ▸ (List.getElem?_eq_some_iff.1 hj).1
        have hcj := List.getElem?_eq_getElem hjl
        generalize calls[j] = cj at hcj
        have hdj : d = digestOf env cj := h.stage j _ _ hcj hj
        rcases List.mem_cons.1 ha with rfl | ha
        · have : (newItem env e t).val.payloadDigest = digestOf env (.set now input au) := hdig
          exact hne (hdiff j i _ _ hcj hc (hdj.symm.trans (hd'.symm.trans this)))
        · exact h.none j d p hj a (List.mem_filter.1 ha).1 hd'
  · rw [ingestEntry_refused h.abs.core h.unlocked e t hcf hacc] at hi
    cases hi
    exact ⟨A, leak, h.keep hx hc (fun hp => by cases hp) hso' h.abs h.unlocked h.filed (fun j e t _ hj => h.ready j e t hj)
      (fun e t hx => absurd hx (hnw e t)) (fun d p hx => absurd hx (hnc d p))⟩

theorem Held.step {env : StoreEnv} (he : EnvOk env) (hn : GoodNames env) {calls : List StoreCall} {stages : List CallStage}
    {st : StoreState} {A : List Item} {leak : Bytes → Nat} (h : Held env calls stages st A leak)
    (hset : ∀ c ∈ calls, IsSet c) (hf : ∀ c ∈ calls, FineOp env (asOp c)) (hta : TokensApart env (calls.map asOp))
    (hdiff : ∀ (j k : Nat) (c d : StoreCall), calls[j]? = some c → calls[k]? = some d → digestOf env c = digestOf env d → j = k)
    (hlen : calls.length < 2 ^ 64) {i : Nat} {x x' : CallStage} {st' : StoreState} (hx : stages[i]? = some x)
    (ha : advance env st x = .ok (x', st')) : ∃ A' leak', Held env calls (stages.set i x') st' A' leak' := by
  have hil : i < stages.length := (List.getElem?_eq_some_iff.1 hx).1
  obtain ⟨c, hc⟩ : ∃ c, calls[i]? = some c := ⟨calls[i]'(h.len ▸ hil), List.getElem?_eq_getElem (h.len ▸ hil)⟩
  have hso := h.stage i c _ hc hx
  have hlen' := h.len
  cases x with
  | start c' =>
    have hso : c' = c := hso
    subst hso
    obtain ⟨now, input, au, rfl⟩ := hset _ (List.mem_of_getElem? hc)
    simp only [advance] at ha
    have hf1 : ∀ dg, Filed env st.files dg → Filed env (payloadSet env st.files input.payload).1 dg := fun dg h =>
      filed_payloadSet hn _ h
    cases hau : env.authorise (setEntry env now input) au with
    | none =>
      rw [hau] at ha
      cases ha
      exact ⟨A, leak, h.keep hx hc (fun _ => rfl) trivial (h.abs.ofSame rfl rfl rfl) h.unlocked (fun a ha => hf1 _ (h.filed a ha))
        (fun j e t _ hj => hf1 _ (h.ready j e t hj)) (fun e t hh => by cases hh) (fun d p hh => by cases hh)⟩
    | some token =>
      rw [hau] at ha
      cases ha
      refine ⟨A, leak, h.keep hx hc (fun hp => by cases hp) ⟨now, input, au, rfl, rfl, hau⟩ (h.abs.ofSame rfl rfl rfl) h.unlocked
        (fun a ha => hf1 _ (h.filed a ha)) (fun j e t _ hj => hf1 _ (h.ready j e t hj)) (fun e t hh => ?_) (fun d p hh => by cases hh)⟩
      cases hh
      exact ⟨input.payload, payloadSet_get_self env st.files input.payload (hn.ne _), rfl⟩
  | written e t =>
    simp only [advance] at ha
    cases hi : ingestEntry env st e t with
    | err => rw [hi] at ha; cases ha
    | crash => rw [hi] at ha; cases ha
    | block =>
      rw [hi] at ha
      cases ha
      exact ⟨A, leak, h.keep hx hc (fun hp => hp) hso h.abs h.unlocked h.filed (fun j e t _ hj => h.ready j e t hj)
        (fun e' t' hh => by cases hh; exact h.ready i _ _ hx) (fun d p hh => by cases hh)⟩
    | ok y =>
      obtain ⟨r, st2⟩ := y
      rw [hi] at ha
      cases r with
      | none =>
        cases ha
        exact h.ingest he hn hf hta hdiff hlen hx hi (.inl rfl)
      | some p =>
        cases ha
        exact h.ingest he hn hf hta hdiff hlen hx hi (.inr ⟨_, rfl⟩)
  | ingested d p =>
    have hd : d = digestOf env c := hso
    simp only [advance] at ha
    have hdone : ∀ r, Held env calls (stages.set i (.done r)) st A leak := fun r =>
      h.keep hx hc (fun _ => rfl) trivial h.abs h.unlocked h.filed (fun j e t _ hj => h.ready j e t hj)
        (fun e t hh => by cases hh) (fun d p hh => by cases hh)
    cases hr : refCount st.refs d with
    | crash => rw [hr] at ha; cases ha
    | block => rw [hr] at ha; cases ha
    | err => rw [hr] at ha; cases ha; exact ⟨A, leak, hdone _⟩
    | ok count =>
      rw [hr] at ha
      cases ha
      split
      · rename_i hz
        refine ⟨A, leak, h.keep hx hc (fun _ => rfl) hd h.abs h.unlocked h.filed (fun j e t _ hj => h.ready j e t hj)
          (fun e t hh => by cases hh) (fun d' p' hh a haA had => ?_)⟩
        cases hh
        have hpos : 0 < refsTo A d := by
          unfold refsTo
          exact List.countP_pos_iff.2 ⟨a, haA, by simp [had]⟩
        have hle := h.bound d
        have hcl := List.countP_le_length (p := past) (l := stages)
        rcases h.abs.refs d with ⟨_, h0, _⟩ | hg
        · omega
        · unfold refCount at hr
          rw [hg] at hr
          dsimp only at hr
          rw [bigEndianUint64_putU64] at hr
          cases hr
          have := congrArg UInt64.toNat hz
          rw [UInt64.toNat_ofNat'] at this
          have h0 : (0 : UInt64).toNat = 0 := rfl
          rw [h0, Nat.mod_eq_of_lt (by omega)] at this
          omega
      · exact ⟨A, leak, hdone _⟩
  | counted d p =>
    have hd : d = digestOf env c := hso
    simp only [advance] at ha
    cases ha
    obtain ⟨now, input, au, rfl⟩ := hset _ (List.mem_of_getElem? hc)
    have hf1 : ∀ dg, dg ≠ d → Filed env st.files dg → Filed env (payloadErase env st.files d) dg := by
      intro dg hne ⟨b, h1, h2⟩
      refine ⟨b, ?_, h2⟩
      rw [payloadErase_get env st.files d _ fun hk => ?_]
      · exact h1
      · have hd' : d = env.hash input.payload := hd
        rw [hd', ← h2] at hk
        have := hn.inj _ _ hk
        exact hne (by rw [hd', this, h2])
    refine ⟨A, leak, h.keep hx hc (fun _ => rfl) trivial (h.abs.ofSame rfl rfl rfl) h.unlocked
      (fun a ha => hf1 _ (h.none i d p hx a ha) (h.filed a ha)) (fun j e t hne hj => hf1 _ (fun hed => ?_) (h.ready j e t hj))
      (fun e t hh => by cases hh) (fun d p hh => by cases hh)⟩
    have hjl : j < calls.length := h.len ▸ (List.getElem?_eq_some_iff.1 hj).1
    have hcj := List.getElem?_eq_getElem hjl
    generalize calls[j] = cj at hcj
    obtain ⟨now', input', au', rfl, hent', hau'⟩ := h.stage j _ _ hcj hj
    have hdig' : e.payloadDigest = digestOf env (.set now' input' au') := by rw [hent']; rfl
    exact hne (hdiff j i _ _ hcj hc (hdig'.symm.trans (hed.trans hd)))
  | done r =>
    simp only [advance] at ha
    cases ha
    exact ⟨A, leak, h.keep hx hc (fun _ => rfl) trivial h.abs h.unlocked h.filed (fun j e t _ hj => h.ready j e t hj)
        (fun e t hh => by cases hh) (fun d p hh => by cases hh)⟩

theorem Held.run_on {env : StoreEnv} (he : EnvOk env) (hn : GoodNames env) {calls : List StoreCall}
    (hset : ∀ c ∈ calls, IsSet c) (hf : ∀ c ∈ calls, FineOp env (asOp c)) (hta : TokensApart env (calls.map asOp))
    (hdiff : ∀ (j k : Nat) (c d : StoreCall), calls[j]? = some c → calls[k]? = some d → digestOf env c = digestOf env d → j = k)
    (hlen : calls.length < 2 ^ 64) : ∀ (schedule : List Nat) {stages : List CallStage}
    {st : StoreState} {A : List Item} {leak : Bytes → Nat}, Held env calls stages st A leak → ∀ {stages' st'},
    runTogether env schedule stages st = .ok (stages', st') → ∃ A' leak', Held env calls stages' st' A' leak'
  | [], stages, st, A, leak, h, stages', st', hr => by
    simp only [runTogether] at hr
    cases hr
    exact ⟨A, leak, h⟩
  | i :: schedule, stages, st, A, leak, h, stages', st', hr => by
    simp only [runTogether] at hr
    cases hx : stages[i]? with
    | none => rw [hx] at hr; exact Held.run_on he hn hset hf hta hdiff hlen schedule h hr
    | some x =>
      rw [hx] at hr
      obtain ⟨⟨x', st1⟩, h1, h2⟩ := Res.bind_eq_ok.1 hr
      obtain ⟨A1, leak1, hg⟩ := h.step he hn hset hf hta hdiff hlen hx h1
      exact Held.run_on he hn hset hf hta hdiff hlen schedule hg h2

theorem Held.begin (env : StoreEnv) (calls : List StoreCall) : Held env calls (calls.map .start) .empty [] (fun _ => 0) := by
  refine ⟨abs_empty env, rfl, by simp, fun i c x hc hx => ?_, fun a h => by simp at h, fun a h => by simp at h, fun d => ?_, fun a h => by simp at h,
    fun i e t hi => ?_, fun i d p hi a h => by simp at h⟩
  · rw [List.getElem?_map, hc] at hx
    cases hx
    rfl
  · simp [refsTo]
  · rw [List.getElem?_map, Option.map_eq_some_iff] at hi
    obtain ⟨_, _, hi⟩ := hi
    cases hi

end Willow.Props
