import Verif.Lemmas.CrashPart
import Verif.Lemmas.Files

/-! A call cut off, and the store opened again. -/

namespace Willow

open Spec Props

/-- The file of the payload of an entry that the call leaves alone. -/
def Safe (env : StoreEnv) (A : List Item) (op : StoreOp) (name : Bytes) : Prop :=
  Elsewhere env A op name ∧ ∃ a ∈ A, Unmoved env A op a ∧ env.fileKey a.val.payloadDigest = name ∧
    ∀ x ∈ A, env.fileKey x.val.payloadDigest = name → x.val.payloadDigest = a.val.payloadDigest

/-- What holds throughout a call. -/
def Meanwhile (env : StoreEnv) (A : List Item) (leak : Bytes → Nat) (op : StoreOp) (st0 : StoreState) (b : Bool) (st : StoreState) : Prop :=
  st.partials = st0.partials ∧
  ∃ kd A' leak', Core env.p st.kv kd A' ∧ CutOff env A A' op ∧ (b = false → RefsOk st.refs A' leak') ∧
    ((∀ d, refsTo A d + leak d + 1 < 2 ^ 64) → ∀ name, Safe env A op name → st.files.get name = st0.files.get name)

theorem Throughout.mono {P Q : Bool → StoreState → Prop} (h : ∀ b st, P b st → Q b st) : ∀ (ws : List DiskWrite) (b : Bool) (st : StoreState),
    Throughout P b st ws → Throughout Q b st ws
  | [], b, st, hw => h b st hw
  | w :: ws, b, st, hw => ⟨h b st hw.1, Throughout.mono h ws _ _ hw.2⟩

theorem throughout_refused {env : StoreEnv} {A : List Item} {leak : Bytes → Nat} {op : StoreOp} {st0 : StoreState} (payload : Bytes)
    (h : Abs env st0 A leak) (hcut : CutOff env A A op) (hname : ∀ name, Safe env A op name → env.fileKey (env.hash payload) ≠ name) :
    Throughout (Meanwhile env A leak op st0) false st0 (payloadWrites env payload) := by
  unfold payloadWrites
  dsimp only
  split
  · exact ⟨rfl, st0.kd, A, leak, h.core, hcut, fun _ => h.refs, fun _ _ _ => rfl⟩
  · refine ⟨⟨rfl, st0.kd, A, leak, h.core, hcut, fun _ => h.refs, fun _ _ _ => rfl⟩,
      ⟨rfl, st0.kd, A, leak, h.core, hcut, fun _ => h.refs, fun _ name hn => ?_⟩,
      ⟨rfl, st0.kd, A, leak, h.core, hcut, fun _ => h.refs, fun _ name hn => ?_⟩⟩
    · show (st0.files.set _ _).get name = _
      rw [KV.get_set, if_neg (fun hc => hname name hn hc.symm)]
    · show ((st0.files.set _ _).set _ _).get name = _
      rw [KV.get_set, if_neg (fun hc => hname name hn hc.symm), KV.get_set, if_neg (fun hc => hname name hn hc.symm)]

theorem throughout_op {env : StoreEnv} (he : EnvOk env) {A : List Item} {leak : Bytes → Nat} {st : StoreState}
    (h : Abs env st A leak) (hl : st.locked = false) (op : StoreOp) (hf : FineOp env op) :
    Throughout (Meanwhile env A leak op st) false st (opWrites env st op) := by
  -- an acceptable entry
  have hacc : ∀ (e : Entry) (token : Bytes) (sf : Option Bytes) (ws : List DiskWrite), attempt env op = some (e, token) →
      Acceptable env A e token → (∀ name, Elsewhere env A op name → sf ≠ some name) →
      Throughout (During env sf A leak (newItem env e token) st) false st ws →
      Throughout (Meanwhile env A leak op st) false st ws := by
    intro e token sf ws ha hac hsf
    refine Throughout.mono (fun b s hs => ?_) ws false st
    obtain ⟨h0, kd, A', leak', h1, h2, h3, h4⟩ := hs
    refine ⟨h0, kd, A', leak', h1, ?_, h3, fun hb name hn => h4 hb name ?_⟩
    · unfold CutOff
      rw [ha]
      dsimp only
      rw [if_pos hac]
      exact h2
    · obtain ⟨hel, a, haA, hun, hna, huniq⟩ := hn
      exact ⟨⟨a, haA, hun e token ha hac, hna, huniq⟩, fun hc => hel.token e token ha hc.symm,
        fun o ho hos hop => hel.replaced e token ha o ho hos hop, hsf name hel⟩
  have hsame : ∀ e token, attempt env op = some (e, token) → ¬ Acceptable env A e token → CutOff env A A op := by
    intro e token ha hac
    unfold CutOff
    rw [ha]
    dsimp only
    rw [if_neg hac]
  cases op with
  | restart =>
    exact ⟨rfl, st.kd, A, leak, h.core, rfl, fun _ => h.refs, fun _ _ _ => rfl⟩
  | ingest e token =>
    obtain ⟨hc, hd⟩ := hf e token rfl
    simp only [opWrites]
    by_cases hac : Acceptable env A e token
    · exact hacc e token none _ rfl hac (fun _ _ hc => by cases hc)
        (throughout_ingest he st h hl e token hc hd hac rfl fun _ _ _ => rfl)
    · rw [ingestWrites_refused h.core e token hc hac]
      exact ⟨rfl, st.kd, A, leak, h.core, hsame e token rfl hac, fun _ => h.refs, fun _ _ _ => rfl⟩
  | set now input au =>
    have hset : attempt env (.set now input au) = (env.authorise (setEntry env now input) au).map fun token => (setEntry env now input, token) := rfl
    have hname : ∀ name, Safe env A (.set now input au) name → env.fileKey (env.hash input.payload) ≠ name :=
      fun name hn => hn.1.payload now input au rfl
    have hfiles : Abs env { st with files := (payloadSet env st.files input.payload).1 } A leak := ⟨h.core, h.refs⟩
    have hdig : (payloadSet env st.files input.payload).2.1 = env.hash input.payload := rfl
    unfold opWrites setWrites
    dsimp only
    rw [hdig]
    cases hau : env.authorise (setEntry env now input) au with
    | none =>
      rw [hau] at hset
      dsimp only
      rw [List.append_nil]
      refine throughout_refused _ h ?_ hname
      unfold CutOff
      rw [hset]
      rfl
    | some token =>
      rw [hau] at hset
      obtain ⟨hc, hd⟩ := hf _ token hset
      dsimp only
      by_cases hac : Acceptable env A (setEntry env now input) token
      · refine hacc _ token (some (env.fileKey (env.hash input.payload))) _ hset hac
          (fun name hn hc => hn.payload now input au rfl (Option.some.inj hc)) ?_
        have hpw : PartWay A A (newItem env (setEntry env now input) token) :=
          ⟨fun _ h _ => h, fun _ h => .inr h, fun _ h _ hc => absurd h hc, OnePerPath.of_apart h.core.apart⟩
        have hdur : During env (some (env.fileKey (env.hash input.payload))) A leak (newItem env (setEntry env now input) token) st false st :=
          ⟨rfl, st.kd, A, leak, h.core, hpw, fun _ => h.refs, fun _ _ _ => rfl⟩
        have hother : (∀ d, refsTo A d + leak d + 1 < 2 ^ 64) →
            ∀ name, Protected env (some (env.fileKey (env.hash input.payload))) A (newItem env (setEntry env now input) token) name →
            env.fileKey (env.hash input.payload) ≠ name := fun _ name hn hc => hn.other (by rw [hc])
        refine Throughout.append (fun _ => During.weaken) _ _ _ _ (throughout_payload hdur hdur _ hother) ?_ (fun _ => hdur)
        rw [applyWrites_payload]
        have hing := throughout_ingest he (sf := some (env.fileKey (env.hash input.payload))) st hfiles hl (setEntry env now input) token hc hd hac rfl
          (fun hb name hn => payloadSet_get_ne env st.files _ _ fun hc => hother hb name hn hc.symm)
        obtain ⟨B, st', i1, i2, i3, i4, i5, i6⟩ := ingestEntry_accepted he hfiles hl _ token hc hd hac.1 hac.2.1 hac.2.2
        have hall := ingestWrites_all env _ st' _ token _ i1
        refine Throughout.append (fun _ => During.weaken) _ _ _ _ hing ?_ (fun _ => hing.start)
        rw [i1]
        dsimp only
        have hend : During env (some (env.fileKey (env.hash input.payload))) A leak (newItem env (setEntry env now input) token) st false
            (applyWrites { st with files := (payloadSet env st.files input.payload).1 } (ingestWrites env
              { st with files := (payloadSet env st.files input.payload).1 } (setEntry env now input) token)) := by
          obtain ⟨b', ⟨h0, _, _, _, _, _, _, h8⟩, _⟩ := Throughout.take _ _ _ (ingestWrites env
              { st with files := (payloadSet env st.files input.payload).1 } (setEntry env now input) token).length hing
          rw [List.take_length] at h8 h0
          refine ⟨h0, st'.kd, _, _, by rw [hall.kv]; exact i3.core, ?_, fun _ => by rw [hall.refs]; exact i3.refs, h8⟩
          refine ⟨fun a ha hd => ?_, fun a ha => ?_, fun _ _ _ _ => ?_, OnePerPath.of_apart i3.core.apart⟩
          · exact List.mem_cons_of_mem _ (List.mem_filter.2 ⟨ha, by simpa using hd⟩)
          · exact (List.mem_cons.1 ha).imp_right fun ha => (List.mem_filter.1 ha).1
          · exact List.mem_cons_self
        split
        · split
          · exact throughout_erase hend hend _ hother
          · exact hend
        · exact hend
      · rw [ingestWrites_refused (st := { st with files := (payloadSet env st.files input.payload).1 }) h.core _ token hc hac,
          ingestEntry_refused (st := { st with files := (payloadSet env st.files input.payload).1 }) h.core hl _ token hc hac]
        dsimp only
        rw [List.append_nil, List.append_nil]
        exact throughout_refused _ h (hsame _ token hset hac) hname

theorem restart_core {env : StoreEnv} (he : EnvOk env) {st : StoreState} {kd : List KdKey} {A : List Item} (h : Core env.p st.kv kd A) :
    ∃ st', restart env (fun kv => kv) st = .ok st' ∧ Core env.p st'.kv st'.kd A ∧ st'.locked = false ∧ st'.refs = st.refs ∧
      st'.files = st.files ∧ st'.partials = st.partials := by
  obtain ⟨L, h1, h2⟩ := exists_map_of_perm h.kv_perm
  refine ⟨{ st with kd := L.map fun a => ⟨a.pos, a.val.authDigest⟩, locked := false }, ?_,
    ⟨h.sorted, h.kv_perm, ?_, h.fine, h.apart⟩, rfl, rfl, rfl, rfl⟩
  · unfold restart
    dsimp only
    rw [h2, initKeys_ok he L fun a ha => h.fine a (h1.mem_iff.1 ha)]
    rfl
  · dsimp only
    rw [List.map_map]
    exact h1.map _

theorem crash_ok {env : StoreEnv} (he : EnvOk env) {A : List Item} {leak : Bytes → Nat} {st : StoreState}
    (h : Abs env st A leak) (hl : st.locked = false) (op : StoreOp) (hf : FineOp env op) (n : Nat) :
    ∃ st' A', crashAfter env st op n = .ok st' ∧ CutOff env A A' op ∧ Core env.p st'.kv st'.kd A' ∧ st'.locked = false ∧
      (¬ EndsInEntry ((opWrites env st op).take n) → ∃ leak', Abs env st' A' leak') ∧
      ((∀ d, refsTo A d + leak d + 1 < 2 ^ 64) → ∀ name, Safe env A op name → st'.files.get name = st.files.get name) := by
  obtain ⟨b, ⟨h0, kd, A', leak', h1, h2, h3, h4⟩, h5⟩ := Throughout.take _ _ _ n (throughout_op he h hl op hf)
  obtain ⟨st', r1, r2, r3, r4, r5, r6⟩ := restart_core he h1
  refine ⟨st', A', r1, h2, r2, r3, fun hne => ?_, fun hb name hn => by rw [r5]; exact h4 hb name hn⟩
  cases b with
  | false => exact ⟨leak', r2, by rw [r4]; exact h3 rfl⟩
  | true =>
    rcases h5 rfl with ⟨hc, _⟩ | hc
    · cases hc
    · exact absurd hc hne

end Willow
