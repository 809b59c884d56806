import Verif.Lemmas.Transport

/-! Lemmas for the theorems of `Verif/Props/Transport.lean`. -/

namespace Willow.Props

open Willow Spec

/-- A goroutine that starts on a stream on which `done` and a part of `m` have arrived. -/
theorem recv_start {maxAlloc : Nat} (hmax : maxAlloc < 2 ^ 64) {done : List Bytes} {m part missing : Bytes}
    (hpart : part ++ missing = frame m) (hmiss : missing ≠ []) (hlen : ∀ x ∈ done ++ [m], x.length ≤ maxAlloc)
    {chunks : List Bytes} (hc : chunks.flatten = frames done ++ part) (n : Nat) :
    ∃ r chunks', recvReads maxAlloc n .new chunks = .ok (r, chunks') ∧ r.out <+: done ∧
      (chunks.flatten.length + chunks.length ≤ n → r.out = done ∧ chunks' = []) := by
  have hend : EndsIn missing (done ++ [m]) := by
    refine ⟨done, m, rfl, ?_⟩
    rw [← hpart]
    simp
  have hat : RecvAt maxAlloc missing (done ++ [m]) .new chunks := by
    refine ⟨by simp [RecvState.new], ?_⟩
    simp [RecvState.new, hc, frames, hpart]
  obtain ⟨r, c', todo, h1, h2, h3, h4, h5⟩ := recv_reads hmax hmiss n _ _ _ hlen hend hat
  refine ⟨r, c', h1, ?_, fun hn => ?_⟩
  · obtain ⟨pre, x, rfl, -⟩ := h4
    have h6 : done ++ [m] = (r.out ++ pre) ++ [x] := by simpa only [RecvState.new, List.nil_append, List.append_assoc] using h3
    exact ⟨pre, (List.append_inj_left' h6 rfl).symm⟩
  · obtain rfl := h5 hn
    obtain ⟨x, rfl⟩ := recv_done hmiss h4 h2
    have h6 : done ++ [m] = r.out ++ [x] := by simpa only [RecvState.new, List.nil_append] using h3
    exact ⟨(List.append_inj_left' h6 rfl).symm, rfl⟩

/-- The goroutine of a listener that is the only one to read does what it does alone. -/
theorem run_alone (maxAlloc : Nat) (l : Listener) : ∀ (n : Nat) (s : Receiving) (r : RecvState) (chunks : List Bytes),
    recvReads maxAlloc n (match l with | .data => s.data | .reconciliation => s.reconciliation) (s.arrived .data) =
      .ok (r, chunks) →
    ∃ s', s.run maxAlloc (List.replicate n l) = .ok s' ∧ given s' l = r.out ∧ s'.arrived .data = chunks ∧
      (∀ k, k ≠ l → given s' k = given s k) := by
  intro n
  induction n with
  | zero =>
    intro s r chunks h
    simp only [recvReads, Res.ok.injEq, Prod.mk.injEq] at h
    obtain ⟨h1, h2⟩ := h
    refine ⟨s, rfl, ?_, h2, fun _ _ => rfl⟩
    subst h1
    cases l <;> rfl
  | succ n ih =>
    intro s r chunks h
    have hd : l.stream = .data := by cases l <;> rfl
    cases hs : s.arrived .data with
    | nil =>
      rw [hs] at h
      simp only [recvReads, Res.ok.injEq, Prod.mk.injEq] at h
      obtain ⟨h1, h2⟩ := h
      have hstep : s.step maxAlloc l = .ok s := by
        unfold Receiving.step
        rw [hd, hs]
      obtain ⟨s', a1, a2, a3, a4⟩ := ih s r chunks (by rw [hs, h1, ← h2]; cases n <;> rfl)
      refine ⟨s', ?_, a2, a3, a4⟩
      rw [List.replicate_succ, Receiving.run, hstep, Res.ok_bind, a1]
    | cons c rest =>
      rw [hs, recvReads, Res.bind_eq_ok] at h
      obtain ⟨⟨r1, c1⟩, h1, h2⟩ := h
      cases l with
      | data =>
        have hstep : s.step maxAlloc .data =
            .ok { s with arrived := fun ch => if ch = .data then c1 else s.arrived ch, data := r1 } := by
          unfold Receiving.step
          rw [hd, hs]
          dsimp only at h1 ⊢
          rw [h1]
          rfl
        obtain ⟨s', a1, a2, a3, a4⟩ := ih { s with arrived := fun ch => if ch = .data then c1 else s.arrived ch, data := r1 }
          r chunks (by simpa using h2)
        refine ⟨s', ?_, a2, a3, fun k hk => ?_⟩
        · rw [List.replicate_succ, Receiving.run, hstep, Res.ok_bind, a1]
        · rw [a4 k hk]
          cases k
          · exact (hk rfl).elim
          · rfl
      | reconciliation =>
        have hstep : s.step maxAlloc .reconciliation =
            .ok { s with arrived := fun ch => if ch = .data then c1 else s.arrived ch, reconciliation := r1 } := by
          unfold Receiving.step
          rw [hd, hs]
          dsimp only at h1 ⊢
          rw [h1]
          rfl
        obtain ⟨s', a1, a2, a3, a4⟩ := ih
          { s with arrived := fun ch => if ch = .data then c1 else s.arrived ch, reconciliation := r1 } r chunks
          (by simpa using h2)
        refine ⟨s', ?_, a2, a3, fun k hk => ?_⟩
        · rw [List.replicate_succ, Receiving.run, hstep, Res.ok_bind, a1]
        · rw [a4 k hk]
          cases k
          · rfl
          · exact (hk rfl).elim

theorem step_other {maxAlloc : Nat} {s s' : Receiving} {l : Listener} (h : s.step maxAlloc l = .ok s') (ch : Channel)
    (hch : ch ≠ .data) : s'.arrived ch = s.arrived ch := by
  have hd : l.stream = .data := by cases l <;> rfl
  unfold Receiving.step at h
  rw [hd] at h
  dsimp only at h
  split at h
  · cases h; rfl
  · obtain ⟨⟨r, c⟩, -, h⟩ := Res.bind_eq_ok.1 h
    cases l <;> · simp only [Res.ok.injEq] at h
                  subst h
                  simp [hch]

/-- A goroutine that finds as many bytes as it wants, and more, reads them at once. -/
theorem read_all {maxAlloc : Nat} {r r' : RecvState} {c : Bytes} (hg : r.got = []) (hc : r.body.getD 8 < c.length)
    (h : r.full maxAlloc (c.take (r.body.getD 8)) = .ok r') :
    r.read maxAlloc [c] = .ok (r', [c.drop (r.body.getD 8)]) := by
  unfold RecvState.read
  simp only [hg, List.length_nil, Nat.sub_zero, List.nil_append]
  rw [if_neg (by rw [List.length_take]; omega), if_pos hc, h]
  rfl

theorem read_crash {maxAlloc : Nat} {r : RecvState} {c : Bytes} (hg : r.got = []) (hc : r.body.getD 8 < c.length)
    (h : r.full maxAlloc (c.take (r.body.getD 8)) = .crash) : r.read maxAlloc [c] = .crash := by
  unfold RecvState.read
  simp only [hg, List.length_nil, Nat.sub_zero, List.nil_append]
  rw [if_neg (by rw [List.length_take]; omega), h]
  rfl

/-- Closing the streams of one side. -/
theorem closeLoop_ok : ∀ (chs : List Channel) (streams : Channel → Option StreamEnd), (∀ ch ∈ chs, (streams ch).isSome) →
    ∃ streams', closeLoop chs streams = .ok streams' ∧
      ∀ ch, streams' ch = if ch ∈ chs then (streams ch).map fun s => { s with closed := true } else streams ch := by
  intro chs
  induction chs with
  | nil => intro streams _; exact ⟨streams, rfl, by simp⟩
  | cons c rest ih =>
    intro streams h
    obtain ⟨s, hs⟩ := Option.isSome_iff_exists.1 (h c List.mem_cons_self)
    obtain ⟨st', h1, h2⟩ := ih (fun ch => if ch = c then some { s with closed := true } else streams ch) (by
      intro ch hch
      split
      · rfl
      · exact h ch (List.mem_cons_of_mem _ hch))
    refine ⟨st', ?_, fun ch => ?_⟩
    · unfold closeLoop
      rw [hs]
      exact h1
    · rw [h2]
      by_cases hc : ch = c
      · subst hc
        by_cases hm : ch ∈ rest <;> simp [hm, hs]
      · simp [hc]

theorem closeLoop_crash : ∀ (chs : List Channel) (streams : Channel → Option StreamEnd), (∃ ch ∈ chs, streams ch = none) →
    closeLoop chs streams = .crash := by
  intro chs
  induction chs with
  | nil => intro streams h; obtain ⟨_, h, _⟩ := h; cases h
  | cons c rest ih =>
    intro streams ⟨ch, hm, h⟩
    unfold closeLoop
    split
    · rfl
    · rename_i s hs
      refine ih _ ⟨ch, ?_, ?_⟩
      · cases hm with
        | head => rw [h] at hs; cases hs
        | tail _ hm => exact hm
      · split
        · rename_i hc
          rw [← hc, h] at hs
          cases hs
        · exact h

theorem channel_all (ch : Channel) : ch ∈ Channel.all := by cases ch <;> decide

end Willow.Props
