import Verif.Model.Pai

/-! What submitting an authorisation to the private area intersection has to do. -/

namespace Willow.Spec

variable {C G S : Type}

/-- A fragment to be bound: its class, and what is to be done when the other peer has it too. -/
structure Planned where
  fragment : Fragment
  secondary : Bool
  on : OnIntersection
  path : Path
  namespaceId : Bytes
  subspace : Option Bytes
deriving Repr, DecidableEq

/-- The fragments of an authorisation, the least specific first. A grant of a whole namespace has
a primary one for every prefix of the path; a grant of one subspace has primary ones with the
subspace and secondary ones without it, and if only the most specific of the latter is shared, a
subspace capability has to be asked for. -/
def plan : FragmentKit → List Planned
  | .complete n path => (List.range (path.length + 1)).map fun i =>
      ⟨.pair n (path.take i), false, if i = path.length then .bindReadCap else .replyReadCap, path.take i, n, none⟩
  | .selective n s path =>
      ((List.range (path.length + 1)).map fun i =>
        ⟨.triple n s (path.take i), false, if i = path.length then .bindReadCap else .replyReadCap, path.take i, n, some s⟩) ++
      (List.range (path.length + 1)).map fun i =>
        ⟨.pair n (path.take i), true, if i = path.length then .requestSubspaceCap else .replyReadCap, path.take i, n, none⟩

/-- The group member of a fragment, multiplied by our scalar. -/
def blinded (env : PaiEnv C G S) (scalar : S) (f : Fragment) : G := env.scalarMult (env.fragmentToGroup f) scalar

/-- `p'` is `p` after the fragments of a plan were bound to the next handles, in order, queued to
be sent, and written down. -/
structure Submitted (env : PaiEnv C G S) (authorisation : C) (fragments : List Planned) (p p' : PaiFinder C G S) : Prop where
  binds : p'.binds = p.binds ++ fragments.map fun f => (blinded env p.scalar f.fragment, f.secondary)
  bound : ∀ i f, fragments[i]? = some f →
    p'.ours.get (p.ours.least + UInt64.ofNat i) = some ⟨blinded env p.scalar f.fragment, false, f.secondary⟩
  info : ∀ i f, fragments[i]? = some f →
    p'.info.get (p.ours.least + UInt64.ofNat i) = some ⟨f.on, some authorisation, f.path, f.namespaceId, f.subspace⟩
  others : ∀ h, (∀ i < fragments.length, h ≠ p.ours.least + UInt64.ofNat i) →
    p'.ours.get h = p.ours.get h ∧ p'.info.get h = p.info.get h
  least : p'.ours.least = p.ours.least + UInt64.ofNat fragments.length
  rest : p'.theirs = p.theirs ∧ p'.intersections = p.intersections ∧ p'.replies = p.replies ∧
    p'.capRequests = p.capRequests ∧ p'.capReplies = p.capReplies ∧ p'.scalar = p.scalar ∧ p'.requested = p.requested

/-- The entries of a list that is a Go map: no key twice. -/
def GoodMap {α : Type} (m : GoMap UInt64 α) : Prop := (m.map Prod.fst).Nodup

end Willow.Spec
