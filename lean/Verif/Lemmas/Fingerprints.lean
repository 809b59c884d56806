import Verif.Lemmas.StoreRun

/-! The fingerprints in the tree of a store. -/

namespace Willow.Props

open Willow.Spec

/-- The values in the database end with hashes, and the fingerprints in the tree have the property `Q`. -/
def MarkedBy (Q : Bytes → Prop) (env : StoreEnv) (st : StoreState) : Prop :=
  (∀ e ∈ st.kv, ∃ v x, e.2 = encodeValues v ∧ v.payloadDigest.length < 2 ^ 64 ∧ v.authDigest = env.hash x) ∧
  ∀ k ∈ st.kd, Q k.fingerprint

theorem markedBy_delete {Q : Bytes → Prop} {env : StoreEnv} {st : StoreState} (h : MarkedBy Q env st) (e : Entry) : MarkedBy Q env (entryDelete env st e) :=
  ⟨fun x hx => h.1 x (List.mem_filter.1 hx).1, fun k hk => h.2 k (List.mem_of_mem_eraseP hk)⟩

theorem markedBy_prune {Q : Bytes → Prop} {env : StoreEnv} (l : List (Entry × Bytes)) {st st' : StoreState} {r : Option (List Entry)} (h : MarkedBy Q env st)
    (hr : pruneLoop env l st = .ok (r, st')) : MarkedBy Q env st' := by
  induction l generalizing st r with
  | nil => cases hr; exact h
  | cons x l ih =>
    obtain ⟨e, a⟩ := x
    simp only [pruneLoop] at hr
    have hd := markedBy_delete h e
    split at hr
    · rename_i count refs _
      split at hr
      · rename_i pruned st1 hp
        cases hr
        refine ih (st := _) ?_ hp
        split <;> exact hd
      · rename_i hp _
        refine ih (st := _) ?_ hr
        split <;> exact hd
    · cases hr; exact hd
    · cases hr
    · cases hr

theorem markedBy_insert {Q : Bytes → Prop} {env : StoreEnv} {st st' : StoreState} {e : Entry} {token : Bytes} {r : Option (List Entry)}
    (hQ : Q []) (hd : e.payloadDigest.length < 2 ^ 64) (h : MarkedBy Q env st) (hr : insertEntry env st e token = .ok (r, st')) : MarkedBy Q env st' := by
  unfold insertEntry at hr
  simp only [payloadSet, entryInsert, kdAdd] at hr
  have hkv : ∀ x ∈ st.kv.set (encodeKey env.p e.position) (encodeValues ⟨e.payloadLength, e.payloadDigest, env.hash (env.tokenEncode token)⟩),
      ∃ v y, x.2 = encodeValues v ∧ v.payloadDigest.length < 2 ^ 64 ∧ v.authDigest = env.hash y := by
    intro x hx
    rcases KV.mem_set hx with rfl | hx
    · exact ⟨_, _, rfl, hd, rfl⟩
    · exact h.1 x hx
  by_cases hany : (st.kd.any fun x => decide (x.pos = e.position)) = true
  · rw [if_pos hany] at hr
    cases hr
    exact ⟨hkv, h.2⟩
  · rw [if_neg hany] at hr
    dsimp only at hr
    split at hr
    · rename_i c refs _
      have hm : MarkedBy Q env { st with
          kv := st.kv.set (encodeKey env.p e.position) (encodeValues ⟨e.payloadLength, e.payloadDigest, env.hash (env.tokenEncode token)⟩),
          kd := corruptKey env.p (st.kd ++ [⟨e.position, []⟩]) e.position,
          files := (if env.fileKey (env.hash (env.tokenEncode token)) = [] then st.files
            else st.files.set (env.fileKey (env.hash (env.tokenEncode token))) (env.tokenEncode token)), refs := refs } := by
        refine ⟨hkv, fun k hk => ?_⟩
        obtain ⟨k0, h0, rfl⟩ := List.mem_map.1 hk
        have : Q k0.fingerprint := by
          rcases List.mem_append.1 h0 with h0 | h0
          · exact h.2 k0 h0
          · rw [List.mem_singleton.1 h0]; exact hQ
        split <;> exact this
      split at hr
      · exact markedBy_prune _ hm hr
      · cases hr; exact hm
      · cases hr
      · cases hr
      · cases hr
    · cases hr
    · cases hr
    · cases hr

theorem markedBy_ingest {Q : Bytes → Prop} {env : StoreEnv} {st st' : StoreState} {e : Entry} {token : Bytes} {r : Option (List Entry)}
    (hQ : Q []) (hd : e.payloadDigest.length < 2 ^ 64) (h : MarkedBy Q env st) (hr : ingestEntry env st e token = .ok (r, st')) : MarkedBy Q env st' := by
  have hfin : ∀ {st st' : StoreState} {r : Option (List Entry)}, MarkedBy Q env st → finishIngest env st e token = .ok (r, st') → MarkedBy Q env st' := by
    intro st st' r h hr
    unfold finishIngest at hr
    split at hr
    · rename_i hi
      cases hr
      have hm := markedBy_insert hQ hd h hi
      exact hm
    · exact markedBy_insert hQ hd h hr
  unfold ingestEntry at hr
  split at hr
  · cases hr
  · dsimp only at hr
    split at hr
    · cases hr; exact h
    · split at hr
      · cases hr; exact h
      · split at hr
        · split at hr
          · cases hr; exact h
          · split at hr
            · cases hr; exact h
            · exact hfin (st := { st with locked := true }) h hr
            · rename_i other otherAuth _
              split at hr
              · split at hr
                · cases hr; exact h
                · have hrep : ∀ u st1, replaceOther env { st with locked := true } other otherAuth e = .ok (u, st1) → MarkedBy Q env st1 := by
                    intro u st1 hrep
                    unfold replaceOther at hrep
                    have hm := markedBy_delete (st := { st with locked := true }) h other
                    dsimp only at hrep
                    split at hrep
                    · split at hrep
                      · cases hrep
                        split <;> exact hm
                      · cases hrep; exact hm
                      · cases hrep
                      · cases hrep
                    · cases hrep; exact hm
                  split at hr
                  · rename_i hx
                    exact hfin (hrep _ _ hx) hr
                  · rename_i hx
                    cases hr
                    exact hrep _ _ hx
                  · cases hr
                  · cases hr
                  · cases hr
              · exact hfin (st := { st with locked := true }) h hr
            · cases hr
            · cases hr
            · cases hr
        · cases hr
        · cases hr
        · cases hr

theorem markedBy_set {Q : Bytes → Prop} {env : StoreEnv} (hQ : Q []) (he : EnvOk env) {st st' : StoreState} {now : UInt64} {input : EntryInput} {au : Bytes}
    {r : Option (List Entry)} (h : MarkedBy Q env st) (hr : storeSet env st now input au = .ok (r, st')) : MarkedBy Q env st' := by
  unfold storeSet at hr
  dsimp only [payloadSet] at hr
  split at hr
  · cases hr; exact h
  · rename_i token _
    have hd : (setEntry env now input).payloadDigest.length < 2 ^ 64 := he.hash _
    have hst : ∀ files, MarkedBy Q env { st with files := files } := fun _ => h
    split at hr
    · rename_i hi
      have hm := markedBy_ingest hQ hd (hst _) hi
      split at hr
      · cases hr
        split <;> exact hm
      · cases hr; exact hm
      · cases hr
      · cases hr
    · exact markedBy_ingest hQ hd (hst _) hr

theorem marked_keys {env : StoreEnv} (he : EnvOk env) (l : List (Bytes × Bytes)) {keys : List KdKey}
    (h : ∀ e ∈ l, ∃ v x, e.2 = encodeValues v ∧ v.payloadDigest.length < 2 ^ 64 ∧ v.authDigest = env.hash x)
    (hr : initKeys env.p l = .ok keys) : ∀ k ∈ keys, ∃ x, k.fingerprint = env.hash x := by
  induction l generalizing keys with
  | nil => cases hr; intro k hk; cases hk
  | cons e l ih =>
    obtain ⟨key, value⟩ := e
    unfold initKeys at hr
    rw [Res.bind_eq_ok] at hr
    obtain ⟨pos, _, hr⟩ := hr
    rw [Res.bind_eq_ok] at hr
    obtain ⟨v, hv, hr⟩ := hr
    rw [Res.bind_eq_ok] at hr
    obtain ⟨more, hm, hr⟩ := hr
    cases hr
    intro k hk
    rcases List.mem_cons.1 hk with rfl | hk
    · obtain ⟨w, x, h1, h2, h3⟩ := h _ List.mem_cons_self
      dsimp only at h1
      rw [h1, C24_roundtrip w h2 (by rw [h3]; exact he.hash _)] at hv
      cases hv
      exact ⟨x, h3⟩
    · exact ih (fun e he => h e (List.mem_cons_of_mem _ he)) hm k hk

theorem unmarked_run {env : StoreEnv} (he : EnvOk env) (ops : List StoreOp) (hf : ∀ op ∈ ops, FineOp env op) (hw : .restart ∉ ops)
    {st st' : StoreState} (h : MarkedBy (· = []) env st) (hr : runOps env st ops = .ok st') : MarkedBy (· = []) env st' := by
  induction ops generalizing st with
  | nil => cases hr; exact h
  | cons op ops ih =>
    unfold runOps at hr
    rw [Res.bind_eq_ok] at hr
    obtain ⟨⟨r, st1⟩, h1, hr⟩ := hr
    refine ih (fun o ho => hf o (List.mem_cons_of_mem _ ho)) (fun ho => hw (List.mem_cons_of_mem _ ho)) ?_ hr
    have hfo := hf op List.mem_cons_self
    cases op with
    | set now input au => exact markedBy_set (Q := (· = [])) rfl he h h1
    | ingest e token => exact markedBy_ingest (Q := (· = [])) rfl (hfo _ _ rfl).2 h h1
    | restart => exact absurd List.mem_cons_self hw

end Willow.Props
