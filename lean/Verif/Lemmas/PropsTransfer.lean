import Verif.Spec.Wgps
import Verif.Lemmas.Prefix

/-! Lemmas for the theorems of `Verif/Props/Transfer.lean`. -/

namespace Willow.Props

open Willow Spec

theorem handle_new (process : Bytes → UInt64 → Bytes) (e : IngestEvent) : Ingester.new.handle process e = .ok .new := by
  obtain ⟨entry, data, cancel⟩ := e
  cases cancel <;> cases entry <;> rfl

theorem handleAll_new (process : Bytes → UInt64 → Bytes) (es : List IngestEvent) : Ingester.new.handleAll process es = .ok .new := by
  induction es with
  | nil => rfl
  | cons e es ih =>
    unfold Ingester.handleAll
    rw [handle_new]
    exact ih

theorem handleAll_cancelled (process : Bytes → UInt64 → Bytes) (s : Ingester) (hk : s.kind = .cancelled)
    (ops : List IngesterOp) : s.handleAll process (ops.flatMap IngesterOp.events) = .ok s := by
  suffices h : ∀ es : List IngestEvent, s.handleAll process es = .ok s from h _
  intro es
  induction es with
  | nil => rfl
  | cons e es ih =>
    have : s.handle process e = .ok s := by
      obtain ⟨entry, data, cancel⟩ := e
      cases cancel <;> cases entry <;> simp [Ingester.handle, hk]
    unfold Ingester.handleAll
    rw [this]
    exact ih

theorem bytesFrom_eq (content : Bytes) (offset : UInt64) (hs : content.length < 2 ^ 63) :
    bytesFrom content offset = if offset.toNat < content.length then some (content.drop offset.toNat) else none := by
  unfold bytesFrom payloadBytesWithOffset goInt
  by_cases h : offset.toNat < content.length
  · rw [if_pos h, if_pos (by omega : offset.toNat < 2 ^ 63), if_neg (by omega), if_neg (by omega)]
  · have hp : payloadBytesWithOffset content offset.toNat = none := if_pos (by omega)
    unfold payloadBytesWithOffset at hp
    rw [if_neg h, hp]
    simp

theorem following_payload (transform : Bytes → Bytes) (l : Bytes) (ms : List DataMsg) :
    sections.following (payloadMessages transform l ++ ms) = l.flatMap (fun b => transform [b]) ++ sections.following ms := by
  induction l with
  | nil => rfl
  | cons b l ih => simp only [payloadMessages, List.cons_append, sections.following, ih, List.flatMap_cons, List.append_assoc]

theorem sections_payload (transform : Bytes → Bytes) (l : Bytes) (ms : List DataMsg) :
    sections (payloadMessages transform l ++ ms) = sections ms := by
  induction l with
  | nil => rfl
  | cons b l ih => simp only [payloadMessages, List.cons_append, sections, ih]

theorem following_messages (transform : Bytes → Bytes) (q : List SendItem) : sections.following (dataMessages transform q).1 = [] := by
  induction q with
  | nil => rfl
  | cons x q ih =>
    cases x with
    | nil => exact ih
    | entry e o s d p =>
      unfold dataMessages
      cases bytesFrom p o <;> rfl
    | request h o p =>
      unfold dataMessages
      cases bytesFrom p o <;> rfl

theorem mem_prefixesOf (path q : Path) : q ∈ prefixesOf path ↔ q <+: path := by
  unfold prefixesOf
  rw [List.mem_cons, List.mem_map]
  constructor
  · rintro (rfl | ⟨i, _, rfl⟩)
    · exact List.nil_prefix
    · exact List.take_prefix _ _
  · intro h
    cases q with
    | nil => exact .inl rfl
    | cons c q =>
      refine .inr ⟨q.length, ?_, ?_⟩
      · have := h.length_le
        simp only [List.length_cons] at this
        exact List.mem_range.2 (by omega)
      · exact (List.prefix_iff_eq_take.1 h).symm

theorem prefixesOf_nodup (path : Path) : (prefixesOf path).Nodup := by
  unfold prefixesOf
  rw [List.nodup_cons]
  constructor
  · intro h
    obtain ⟨i, hi, he⟩ := List.mem_map.1 h
    rw [List.mem_range] at hi
    have := congrArg List.length he
    simp at this
    subst this
    simp at hi
  · have key : ∀ l : List Nat, l.Nodup → (∀ i ∈ l, i < path.length) → (l.map fun i => path.take (i + 1)).Nodup := by
      intro l
      induction l with
      | nil => intro _ _; exact List.nodup_nil
      | cons a l ih =>
        intro hn hl
        rw [List.nodup_cons] at hn
        refine List.nodup_cons.2 ⟨fun hm => ?_, ih hn.2 fun i hi => hl i (List.mem_cons_of_mem _ hi)⟩
        obtain ⟨i, hi, he⟩ := List.mem_map.1 hm
        have h1 := congrArg List.length he
        rw [List.length_take, List.length_take] at h1
        have h2 := hl i (List.mem_cons_of_mem _ hi)
        have h3 := hl a List.mem_cons_self
        have : i = a := by omega
        exact hn.1 (this ▸ hi)
    exact key _ List.nodup_range fun i hi => List.mem_range.1 hi

theorem map_nodup {α β : Type} (f : α → β) (hf : ∀ a b, f a = f b → a = b) (l : List α) (h : l.Nodup) : (l.map f).Nodup := by
  induction l with
  | nil => exact List.nodup_nil
  | cons a l ih =>
    rw [List.nodup_cons] at h
    refine List.nodup_cons.2 ⟨fun hm => ?_, ih h.2⟩
    obtain ⟨b, hb, he⟩ := List.mem_map.1 hm
    exact h.1 (hf _ _ he ▸ hb)

end Willow.Props
