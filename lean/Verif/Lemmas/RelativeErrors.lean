import Verif.Model.RelativeErrors
import Verif.Lemmas.Stream

namespace Willow

section
variable {α β : Type}

theorem DecE.strict_bind (d : DecE α) (f : α → DecE β) : (d >>= f).strict = d.strict >>= fun a => (f a).strict := by
  funext g
  show Dec.bind (Dec.bind d.run _) _ g = Dec.bind (Dec.bind d.run _) _ g
  unfold Dec.bind
  cases hd : d.run g with
  | ok x =>
    obtain ⟨o, g'⟩ := x
    cases o <;> rfl
  | _ => rfl

theorem DecE.strict_lift (d : Dec α) : DecE.strict (OptionT.lift d) = d := by
  funext g
  show Dec.bind (Dec.bind d _) _ g = d g
  unfold Dec.bind
  cases d g <;> rfl

theorem DecE.strict_liftM (d : Dec α) : DecE.strict (liftM d) = d := DecE.strict_lift d

theorem DecE.strict_pure (a : α) : DecE.strict (pure a) = pure a := rfl

theorem DecE.strict_failure : DecE.strict (failure : DecE α) = Dec.lift .err := rfl

theorem DecE.strict_ite (c : Prop) [Decidable c] (x y : DecE α) :
    DecE.strict (if c then x else y) = if c then x.strict else y.strict := by
  split <;> rfl

/-- What a decoder whose errors are ignored gives: the same as a strict one, or the zero value where that fails. -/
theorem DecE.ignoring_ok {zero : α} {d : DecE α} {g : GB} {x : α × GB} (h : d.strict g = .ok x) :
    d.ignoring zero g = .ok x := by
  unfold DecE.strict at h
  unfold DecE.ignoring
  rw [Dec.bind_apply] at h ⊢
  cases hd : d.run g with
  | ok y =>
    obtain ⟨o, g'⟩ := y
    rw [hd] at h
    cases o with
    | some a => exact h
    | none => simp [Dec.lift, Res.map', Res.bind] at h
  | _ => rw [hd] at h; simp at h

theorem DecE.ignoring_inv {zero : α} {d : DecE α} {g : GB} {x : α × GB} (h : d.ignoring zero g = .ok x) :
    d.strict g = .ok x ∨ (d.strict g = .err ∧ d.run g = .ok (none, x.2) ∧ x.1 = zero) := by
  unfold DecE.ignoring at h
  unfold DecE.strict
  rw [Dec.bind_apply] at h ⊢
  cases hd : d.run g with
  | ok y =>
    obtain ⟨o, g'⟩ := y
    rw [hd] at h
    cases o with
    | some a => exact .inl h
    | none =>
      simp only [Dec.pure_apply, Res.ok.injEq] at h
      subst h
      exact .inr ⟨rfl, rfl, rfl⟩
  | _ => rw [hd] at h; simp at h

theorem DecE.ignoring_crash {zero : α} {d : DecE α} {g : GB} (h : d.strict g = .crash) : d.ignoring zero g = .crash := by
  unfold DecE.strict at h
  unfold DecE.ignoring
  rw [Dec.bind_apply] at h ⊢
  cases hd : d.run g with
  | ok y =>
    obtain ⟨o, g'⟩ := y
    rw [hd] at h
    cases o <;> simp [Dec.lift, Res.map', Res.bind, Dec.pure_apply] at h
  | crash => rfl
  | _ => rw [hd] at h; simp at h

theorem DecE.run_bind (d : DecE α) (f : α → DecE β) (g : GB) : (d >>= f).run g = match d.run g with
    | .ok (some a, g') => (f a).run g'
    | .ok (none, g') => .ok (none, g')
    | .err => .err
    | .crash => .crash
    | .block => .block := by
  show Dec.bind d.run _ g = _
  unfold Dec.bind
  cases d.run g with
  | ok x =>
    obtain ⟨o, g'⟩ := x
    cases o <;> rfl
  | _ => rfl

theorem DecE.run_lift (d : Dec α) (g : GB) : (OptionT.lift d : DecE α).run g = (d g).map' fun x => (some x.1, x.2) := by
  show Dec.bind d _ g = _
  unfold Dec.bind
  cases d g <;> rfl

theorem DecE.run_lift_bind (d : Dec α) (f : α → DecE β) (g : GB) :
    ((OptionT.lift d : DecE α) >>= f).run g = (d >>= fun a => (f a).run) g := by
  rw [DecE.run_bind, DecE.run_lift, Dec.bind_apply]
  cases d g <;> rfl

theorem DecE.run_liftM_bind (d : Dec α) (f : α → DecE β) (g : GB) :
    ((liftM d : DecE α) >>= f).run g = (d >>= fun a => (f a).run) g := DecE.run_lift_bind d f g

theorem DecE.run_of_ignoring {zero : α} {d : DecE α} {g : GB} {x : α × GB} (h : d.ignoring zero g = .ok x) :
    ∃ o, d.run g = .ok (o, x.2) ∧ o.getD zero = x.1 := by
  unfold DecE.ignoring at h
  rw [Dec.bind_apply] at h
  cases hd : d.run g with
  | ok y =>
    obtain ⟨o, g'⟩ := y
    rw [hd] at h
    cases o <;> (simp only [Dec.pure_apply, Res.ok.injEq] at h; subst h; exact ⟨_, rfl, rfl⟩)
  | _ => rw [hd] at h; simp at h

end

theorem decodeStreamRange3dRelativeE_strict (ss : Codec) (p : PathParams) (ref : Range3d) :
    (decodeStreamRange3dRelativeE ss p ref).strict = decodeStreamRange3dRelative ss p ref := by
  unfold decodeStreamRange3dRelativeE decodeStreamRange3dRelative
  simp only [DecE.strict_bind, DecE.strict_liftM]
  congr 1
  funext ⟨b1, b2⟩
  simp only [DecE.strict_bind, DecE.strict_liftM, DecE.strict_lift, DecE.strict_ite, DecE.strict_failure, DecE.strict_pure]
  cases endBound b1 <;> simp only [DecE.strict_ite, DecE.strict_lift, DecE.strict_failure, DecE.strict_pure]

theorem decodeStreamEntryInNamespaceAreaE_strict (ss pd : Codec) (p : PathParams) (outer : Area) (n : Bytes) :
    (decodeStreamEntryInNamespaceAreaE ss pd p outer n).strict = decodeStreamEntryInNamespaceArea ss pd p outer n := by
  unfold decodeStreamEntryInNamespaceAreaE decodeStreamEntryInNamespaceArea
  simp only [DecE.strict_bind, DecE.strict_liftM, DecE.strict_lift, DecE.strict_ite, DecE.strict_failure, DecE.strict_pure]

theorem decodeStreamEntryRelativeRange3dE_strict (ss pd : Codec) (p : PathParams) (outer : Range3d) (n : Bytes) :
    (decodeStreamEntryRelativeRange3dE ss pd p outer n).strict = decodeStreamEntryRelativeRange3d ss pd p outer n := by
  unfold decodeStreamEntryRelativeRange3dE decodeStreamEntryRelativeRange3d
  simp only [DecE.strict_bind, DecE.strict_liftM, DecE.strict_lift, DecE.strict_ite, DecE.strict_failure, DecE.strict_pure]

end Willow
