import Verif.Spec.Transport
import Verif.Lemmas.Encoding

/-! Lemmas about the transport and the receiving goroutines. -/

namespace Willow

open Spec

theorem frame_eq (m : Bytes) : frame m = beBytes 8 m.length ++ m := by
  have hb : ∀ n, byteOf n = UInt8.ofNat n := fun n => by
    apply UInt8.toNat_inj.1
    rw [byteOf_toNat]
    simp [UInt8.toNat_ofNat']
  simp [frame, beBytes, hb]

theorem frame_length (m : Bytes) : (frame m).length = 8 + m.length := by rw [frame_eq]; simp

theorem beUint64_frame (m : Bytes) (h : m.length < 2 ^ 64) : beUint64 (beBytes 8 m.length) = .ok m.length := by
  unfold beUint64
  rw [if_pos (by simp), List.take_of_length_le (by simp), getBE_beBytes, Nat.mod_eq_of_lt (by omega)]

theorem bigIntToBytes_frame (m : Bytes) (h : m.length < 2 ^ 64) :
    bigIntToBytes (UInt64.ofNat m.length) ++ m = frame m := by
  rw [frame_eq, bigIntToBytes, putU64_eq, UInt64.toNat_ofNat_of_lt' h]

/-- Where the goroutine is, when `todo` are the messages not yet sent on, `missing` the bytes that
have not arrived. -/
def RecvAt (maxAlloc : Nat) (missing : Bytes) (todo : List Bytes) (r : RecvState) (chunks : List Bytes) : Prop :=
  match r.body with
  | none => r.got.length < 8 ∧ r.got ++ chunks.flatten ++ missing = frames todo
  | some n => r.got.length < n ∧ ∃ m rest, todo = m :: rest ∧ m.length = n ∧ r.got ++ chunks.flatten ++ missing = m ++ frames rest

theorem frames_cons (m : Bytes) (ms : List Bytes) : frames (m :: ms) = frame m ++ frames ms := by simp [frames]

/-- Cutting the bytes wanted off the chunks. -/
theorem cut_chunks (got c : Bytes) (rest : List Bytes) (want : Nat) :
    got ++ (c :: rest).flatten =
      (got ++ c.take want) ++ (if want < c.length then c.drop want :: rest else rest).flatten := by
  split
  · simp only [List.flatten_cons, List.append_assoc]
    rw [← List.append_assoc (List.take want c), List.take_append_drop]
  · rw [List.take_of_length_le (by omega)]; simp

/-- The chunks that are left after a read are fewer or have fewer bytes. -/
theorem cut_chunks_lt (c : Bytes) (rest : List Bytes) (want : Nat) (hw : 0 < want) :
    (if want < c.length then c.drop want :: rest else rest).flatten.length +
        (if want < c.length then c.drop want :: rest else rest).length <
      (c :: rest).flatten.length + (c :: rest).length := by
  split <;> simp <;> omega

/-- There is a last message, of which the missing bytes are a part. -/
def EndsIn (missing : Bytes) (todo : List Bytes) : Prop := ∃ pre m, todo = pre ++ [m] ∧ missing.length ≤ (frame m).length

theorem EndsIn.tail {missing m : Bytes} {rest : List Bytes} (h : EndsIn missing (m :: rest)) (hr : rest ≠ []) :
    EndsIn missing rest := by
  obtain ⟨pre, x, h1, h2⟩ := h
  cases pre with
  | nil => simp at h1; exact (hr h1.2).elim
  | cons y pre =>
    simp only [List.cons_append, List.cons.injEq] at h1
    exact ⟨pre, x, h1.2, h2⟩

/-- One read keeps the goroutine in its place, or brings it to the next. -/
theorem recv_read {maxAlloc : Nat} (hmax : maxAlloc < 2 ^ 64) {missing : Bytes} (hmiss : missing ≠ []) {todo : List Bytes}
    (htodo : ∀ m ∈ todo, m.length ≤ maxAlloc) {r : RecvState} {c : Bytes} {rest : List Bytes}
    (hend : EndsIn missing todo)
    (h : RecvAt maxAlloc missing todo r (c :: rest)) :
    ∃ r' chunks' todo', r.read maxAlloc (c :: rest) = .ok (r', chunks') ∧ RecvAt maxAlloc missing todo' r' chunks' ∧
      r.out ++ todo = r'.out ++ todo' ∧ (∃ pre, todo = pre ++ todo') ∧
      chunks'.flatten.length + chunks'.length < (c :: rest).flatten.length + (c :: rest).length ∧
      EndsIn missing todo' := by
  obtain ⟨got, body, out⟩ := r
  have hcut := fun want => cut_chunks got c rest want
  have hlt := fun want hw => cut_chunks_lt c rest want hw
  cases body with
  | none =>
    obtain ⟨hg, he⟩ := h
    dsimp only at hg he
    have hw : 0 < 8 - got.length := by omega
    rw [hcut (8 - got.length)] at he
    unfold RecvState.read
    dsimp only [Option.getD_none]
    split
    · rename_i hsmall
      exact ⟨_, _, todo, rfl, ⟨hsmall, he⟩, rfl, ⟨[], rfl⟩, hlt _ hw, hend⟩
    · rename_i hfull
      have h8 : (got ++ c.take (8 - got.length)).length = 8 := by
        have : (got ++ c.take (8 - got.length)).length ≤ 8 := by simp; omega
        omega
      obtain ⟨pre, x, hx, -⟩ := id hend
      cases todo with
      | nil => simp at hx
      | cons m todo =>
        rw [frames_cons, frame_eq, List.append_assoc (beBytes 8 m.length),
          List.append_assoc (got ++ c.take (8 - got.length))] at he
        obtain ⟨e1, e2⟩ := List.append_inj he (by rw [h8]; simp)
        have hm := htodo m List.mem_cons_self
        unfold RecvState.full
        dsimp only
        rw [e1, beUint64_frame m (by omega), Res.ok_bind, if_neg (by omega)]
        split
        · rename_i h0
          obtain rfl := List.length_eq_zero_iff.1 h0
          simp only [List.nil_append] at e2
          refine ⟨_, _, todo, rfl, ⟨by simp, by simpa using e2⟩, by simp, ⟨[[]], rfl⟩, hlt _ hw, hend.tail ?_⟩
          rintro rfl
          simp [frames] at e2
          exact hmiss e2.2
        · rename_i h0
          exact ⟨_, _, m :: todo, rfl, ⟨by simp; omega, m, todo, rfl, rfl, by simpa using e2⟩, rfl, ⟨[], rfl⟩, hlt _ hw, hend⟩
  | some n =>
    obtain ⟨hg, m, todo, rfl, hn, he⟩ := h
    dsimp only at hg he
    have hw : 0 < n - got.length := by omega
    rw [hcut (n - got.length)] at he
    unfold RecvState.read
    dsimp only [Option.getD_some]
    split
    · rename_i hsmall
      exact ⟨_, _, m :: todo, rfl, ⟨hsmall, m, todo, rfl, hn, he⟩, rfl, ⟨[], rfl⟩, hlt _ hw, hend⟩
    · rename_i hfull
      have hl : (got ++ c.take (n - got.length)).length = n := by
        have : (got ++ c.take (n - got.length)).length ≤ n := by simp; omega
        omega
      rw [List.append_assoc] at he
      obtain ⟨e1, e2⟩ := List.append_inj he (by rw [hl, hn])
      refine ⟨_, _, todo, rfl, ⟨by simp, by simpa using e2⟩, by simp [e1], ⟨[m], rfl⟩, hlt _ hw, hend.tail ?_⟩
      rintro rfl
      simp [frames] at e2
      exact hmiss e2.2

/-- When everything that arrived has been read, only the last message is left to do. -/
theorem recv_done {maxAlloc : Nat} {missing : Bytes} (hmiss : missing ≠ []) {todo : List Bytes} {r : RecvState}
    (hend : EndsIn missing todo) (h : RecvAt maxAlloc missing todo r []) : ∃ m, todo = [m] := by
  obtain ⟨pre, x, rfl, hx⟩ := hend
  cases pre with
  | nil => exact ⟨x, rfl⟩
  | cons y pre =>
    exfalso
    have hlen : (frames (pre ++ [x])).length ≥ (frame x).length := by simp [frames]
    unfold RecvAt at h
    split at h
    · obtain ⟨h1, h2⟩ := h
      have := congrArg List.length h2
      simp only [List.cons_append, frames_cons, List.length_append, frame_length, List.flatten_nil, List.length_nil] at this hlen hx
      omega
    · rename_i n _
      obtain ⟨h1, m, rest, h2, h3, h4⟩ := h
      simp only [List.cons_append, List.cons.injEq] at h2
      obtain ⟨rfl, rfl⟩ := h2
      have := congrArg List.length h4
      simp only [List.length_append, List.flatten_nil, List.length_nil] at this
      omega

/-- Any number of reads. -/
theorem recv_reads {maxAlloc : Nat} (hmax : maxAlloc < 2 ^ 64) {missing : Bytes} (hmiss : missing ≠ []) :
    ∀ (n : Nat) (todo : List Bytes) (r : RecvState) (chunks : List Bytes), (∀ m ∈ todo, m.length ≤ maxAlloc) →
      EndsIn missing todo → RecvAt maxAlloc missing todo r chunks →
      ∃ r' chunks' todo', recvReads maxAlloc n r chunks = .ok (r', chunks') ∧ RecvAt maxAlloc missing todo' r' chunks' ∧
        r.out ++ todo = r'.out ++ todo' ∧ EndsIn missing todo' ∧
        (chunks.flatten.length + chunks.length ≤ n → chunks' = []) := by
  intro n
  induction n with
  | zero =>
    intro todo r chunks ht he h
    exact ⟨r, chunks, todo, rfl, h, rfl, he, fun hn => by cases chunks <;> simp_all⟩
  | succ n ih =>
    intro todo r chunks ht he h
    cases chunks with
    | nil => exact ⟨r, [], todo, rfl, h, rfl, he, fun _ => rfl⟩
    | cons c rest =>
      obtain ⟨r1, c1, t1, a1, a2, a3, ⟨pre, a4⟩, a5, a6⟩ := recv_read hmax hmiss ht he h
      obtain ⟨r2, c2, t2, b1, b2, b3, b4, b5⟩ := ih t1 r1 c1 (fun m hm => ht m (by rw [a4]; exact List.mem_append_right _ hm)) a6 a2
      refine ⟨r2, c2, t2, ?_, b2, by rw [a3, b3], b4, fun hn => b5 (by omega)⟩
      unfold recvReads
      rw [a1, Res.ok_bind]
      exact b1

end Willow
