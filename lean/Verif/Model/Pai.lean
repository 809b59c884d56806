import Verif.Model.Wgps
import Verif.Model.Handles
import Verif.Model.Paths

/-!
# Private area intersection

`/repo/pkg/wgps/pai/pai_finder.go`. The file ranges over handle stores as if they were maps from
handles to intersections; it is read as ranging over the values of the field `Map`, which is what
is meant. Places with the comment "throw an error" do nothing.
-/

namespace Willow

/-- `Fragment`, `/repo/pkg/wgps/wgpstypes/pai_types.go:9-25`. -/
inductive Fragment where
  | triple (namespaceId subspaceId : Bytes) (path : Path)
  | pair (namespaceId : Bytes) (path : Path)
deriving Repr, DecidableEq

/-- `Intersection` of `/repo/pkg/wgps/wgpstypes/pai_types.go:67-71`. -/
structure PaiIntersection (G : Type) where
  group : G
  isComplete : Bool
  isSecondary : Bool
deriving Repr, DecidableEq

/-- `PaiScheme`, `/repo/pkg/wgps/wgpstypes/pai_types.go:58-65`, without the scalars, which are
arguments below (`GetScalar` may return another one at each call); the zero value of the group
type; and the order in which Go's `range` visits a map. `C` is the type of read authorisations. -/
structure PaiEnv (C G S : Type) where
  fragmentToGroup : Fragment → G
  scalarMult : G → S → G
  isGroupEqual : G → G → Bool
  getFragmentKit : C → FragmentKit
  zeroGroup : G
  order : List (UInt64 × PaiIntersection G) → List (UInt64 × PaiIntersection G)
  perm : ∀ l, (order l).Perm l

/-- The constants at `/repo/pkg/wgps/pai/pai_finder.go:20-24`. -/
inductive OnIntersection where
  | bindReadCap
  | requestSubspaceCap
  | replyReadCap
deriving Repr, DecidableEq

/-- `LocalFragmentInfo`, `/repo/pkg/wgps/pai/pai_finder.go:31-38`. `none` as the subspace is
`ANY_SUBSPACE`; as the authorisation, the zero value. -/
structure FragmentInfo (C : Type) where
  onIntersection : OnIntersection
  authorisation : Option C
  path : Path
  namespaceId : Bytes
  subspace : Option Bytes
deriving Repr, DecidableEq

/-- The zero `LocalFragmentInfo`, which a lookup of a missing handle gives: the constant
`BIND_READ_CAP` is zero. -/
def FragmentInfo.zero {C : Type} : FragmentInfo C := ⟨.bindReadCap, none, [], [], none⟩

/-- `PaiFinder`, `/repo/pkg/wgps/pai/pai_finder.go:63-86`. -/
structure PaiFinder (C G S : Type) where
  ours : HandleStore (PaiIntersection G)
  theirs : HandleStore (PaiIntersection G)
  intersections : List (Bytes × Option C × UInt64)
  binds : List (G × Bool)
  replies : List (UInt64 × G)
  capRequests : List UInt64
  capReplies : List (UInt64 × C)
  info : GoMap UInt64 (FragmentInfo C)
  scalar : S
  requested : GoMap UInt64 Bool

variable {C G S : Type}

/-- `NewPaiFinder`, `/repo/pkg/wgps/pai/pai_finder.go:88-98`, with new handle stores. -/
def PaiFinder.new (scalar : S) : PaiFinder C G S := ⟨.empty, .empty, [], [], [], [], [], [], scalar, []⟩

/-- `p.FragmentsInfo[handle]`. -/
def PaiFinder.infoOf (p : PaiFinder C G S) (handle : UInt64) : FragmentInfo C := (p.info.get handle).getD .zero

/-- The function `SubmitFragment` in `SubmitAuthorisation`,
`/repo/pkg/wgps/pai/pai_finder.go:104-117`. -/
def PaiFinder.submitFragment (env : PaiEnv C G S) (p : PaiFinder C G S) (fragment : Fragment) (isSecondary : Bool) :
    UInt64 × PaiFinder C G S :=
  let multiplied := env.scalarMult (env.fragmentToGroup fragment) p.scalar
  let (handle, ours) := p.ours.bind ⟨multiplied, false, isSecondary⟩
  (handle, { p with ours := ours, binds := p.binds ++ [(multiplied, isSecondary)] })

/-- The loop over the primary fragments, `/repo/pkg/wgps/pai/pai_finder.go:153-185`. -/
def submitPrimary (env : PaiEnv C G S) (authorisation : C) : List (Bytes × Bytes × Path) → PaiFinder C G S → PaiFinder C G S
  | [], p => p
  | (n, s, path) :: rest, p =>
    let (handle, p) := p.submitFragment env (.triple n s path) false
    let on := if rest = [] then OnIntersection.bindReadCap else .replyReadCap
    submitPrimary env authorisation rest { p with info := p.info.set handle ⟨on, some authorisation, path, n, some s⟩ }

/-- The loop over the secondary fragments, `/repo/pkg/wgps/pai/pai_finder.go:188-220`. -/
def submitSecondary (env : PaiEnv C G S) (authorisation : C) : List (Bytes × Path) → PaiFinder C G S → PaiFinder C G S
  | [], p => p
  | (n, path) :: rest, p =>
    let (handle, p) := p.submitFragment env (.pair n path) false
    let on := if rest = [] then OnIntersection.bindReadCap else .replyReadCap
    submitSecondary env authorisation rest { p with info := p.info.set handle ⟨on, some authorisation, path, n, none⟩ }

/-- `SubmitAuthorisation`, `/repo/pkg/wgps/pai/pai_finder.go:100-221`; `CreateFragmentSet` never
returns a `FragmentsComplete`. -/
def PaiFinder.submit (env : PaiEnv C G S) (p : PaiFinder C G S) (authorisation : C) : PaiFinder C G S :=
  let fragments := createFragmentSet (env.getFragmentKit authorisation)
  submitSecondary env authorisation fragments.secondary (submitPrimary env authorisation fragments.primary p)

/-- What `Get` of a handle store returns, with the zero value for a missing handle. -/
def paiGet (env : PaiEnv C G S) (s : HandleStore (PaiIntersection G)) (handle : UInt64) : PaiIntersection G :=
  (s.get handle).getD ⟨env.zeroGroup, false, false⟩

/-- The pairs that `range` over a handle store visits, in order. -/
def paiRange (env : PaiEnv C G S) (s : HandleStore (PaiIntersection G)) : List (UInt64 × PaiIntersection G) :=
  env.order (s.map.map fun x => (x.1, x.2.value))

/-- The conditions of the loops at `/repo/pkg/wgps/pai/pai_finder.go:324-332`, 376-384 and
420-428. -/
def paiMatches (env : PaiEnv C G S) (a b : PaiIntersection G) : Bool :=
  b.isComplete && !(a.isSecondary && b.isSecondary) && env.isGroupEqual a.group b.group

/-- The loop of `CheckForIntersections`, `/repo/pkg/wgps/pai/pai_finder.go:323-355`. -/
def checkLoop (env : PaiEnv C G S) (handle : UInt64) (ours : Bool) (intersection : PaiIntersection G) :
    List (UInt64 × PaiIntersection G) → PaiFinder C G S → PaiFinder C G S
  | [], p => p
  | (otherHandle, other) :: rest, p =>
    if paiMatches env intersection other then
      let ourHandle := if ours then handle else otherHandle
      let info := p.infoOf ourHandle
      match info.onIntersection with
      | .bindReadCap => checkLoop env handle ours intersection rest
          { p with intersections := p.intersections ++ [(info.namespaceId, info.authorisation, ourHandle)] }
      | .requestSubspaceCap => checkLoop env handle ours intersection rest
          { p with requested := p.requested.set ourHandle true, capRequests := p.capRequests ++ [handle] }
      | .replyReadCap => checkLoop env handle ours intersection rest p
    else checkLoop env handle ours intersection rest p

/-- `CheckForIntersections`, `/repo/pkg/wgps/pai/pai_finder.go:302-356`. -/
def PaiFinder.check (env : PaiEnv C G S) (p : PaiFinder C G S) (handle : UInt64) (ours : Bool) : PaiFinder C G S :=
  let intersection := paiGet env (if ours then p.ours else p.theirs) handle
  if !intersection.isComplete then p
  else checkLoop env handle ours intersection (paiRange env (if ours then p.theirs else p.ours)) p

/-- `ReceivedBind`, `/repo/pkg/wgps/pai/pai_finder.go:223-235`; `scalar` is what `GetScalar`
returns. -/
def PaiFinder.receivedBind (env : PaiEnv C G S) (p : PaiFinder C G S) (scalar : S) (member : G) (isSecondary : Bool) :
    PaiFinder C G S :=
  let multiplied := env.scalarMult member scalar
  let (handle, ours) := p.ours.bind ⟨multiplied, true, isSecondary⟩
  PaiFinder.check env { p with ours := ours, replies := p.replies ++ [(handle, multiplied)] } handle false

/-- `ReceivedReply`, `/repo/pkg/wgps/pai/pai_finder.go:237-248`; an error of `Update` is ignored. -/
def PaiFinder.receivedReply (env : PaiEnv C G S) (p : PaiFinder C G S) (handle : UInt64) (member : G) : PaiFinder C G S :=
  PaiFinder.check env { p with ours := (p.ours.update handle ⟨member, true, false⟩).getD p.ours } handle true

/-- `ReceivedSubspaceCapRequest`, `/repo/pkg/wgps/pai/pai_finder.go:250-277`. The replies are those
of the authorisations that have a subspace capability; a missing fragment has none. -/
def PaiFinder.receivedCapRequest (env : PaiEnv C G S) (hasSubspaceCap : C → Bool) (p : PaiFinder C G S) (handle : UInt64) :
    PaiFinder C G S :=
  let result := paiGet env p.theirs handle
  let found := (paiRange env p.ours).filter fun x => x.2.isComplete && env.isGroupEqual x.2.group result.group
  { p with capReplies := p.capReplies ++
      ((found.filterMap fun x => (p.infoOf x.1).authorisation).filter hasSubspaceCap).map fun c => (handle, c) }

/-- `ReceivedVerifiedSubspaceCapReply`, `/repo/pkg/wgps/pai/pai_finder.go:279-300`. -/
def PaiFinder.receivedCapReply (p : PaiFinder C G S) (handle : UInt64) (namespaceId : Bytes) : PaiFinder C G S :=
  { p with requested := p.requested.delete handle,
           intersections := p.intersections ++ [(namespaceId, (p.infoOf handle).authorisation, handle)] }

/-- `ReceivedReadCapForIntersection`, `/repo/pkg/wgps/pai/pai_finder.go:370-397`. -/
def PaiFinder.receivedReadCap (env : PaiEnv C G S) (p : PaiFinder C G S) (theirHandle : UInt64) : PaiFinder C G S :=
  let theirs := paiGet env p.theirs theirHandle
  let found := (paiRange env p.ours).filter fun x =>
    x.2.isComplete && !(x.2.isSecondary && theirs.isSecondary) && env.isGroupEqual x.2.group theirs.group &&
      ((p.infoOf x.1).onIntersection == .replyReadCap)
  { p with intersections := p.intersections ++
      found.map fun x => ((p.infoOf x.1).namespaceId, (p.infoOf x.1).authorisation, x.1) }

/-- `GetHandleOuterArea`, `/repo/pkg/wgps/pai/pai_finder.go:358-368`: the type assertion on
`ANY_SUBSPACE`, an integer, panics, and so does that on the nil of a missing fragment. -/
def PaiFinder.outerArea (p : PaiFinder C G S) (handle : UInt64) : Res Area :=
  match (p.infoOf handle).subspace with
  | none => .crash
  | some s => .ok ⟨s, false, (p.infoOf handle).path, ⟨0, 0, true⟩⟩

/-- `GetIntersectionPrivy`, `/repo/pkg/wgps/pai/pai_finder.go:399-448`: the namespace and the
outer area; without a match, those of the placeholder at line 447. -/
def PaiFinder.privy (env : PaiEnv C G S) (p : PaiFinder C G S) (handle : UInt64) (ours : Bool) : Res (Bytes × Area) :=
  let intersection := paiGet env (if ours then p.ours else p.theirs) handle
  match (paiRange env (if ours then p.theirs else p.ours)).find? fun x => paiMatches env intersection x.2 with
  | none => .ok ([], ⟨[], false, [], ⟨0, 0, false⟩⟩)
  | some (otherHandle, _) =>
    let ourHandle := if ours then handle else otherHandle
    (p.outerArea ourHandle).bind fun outer => .ok ((p.infoOf ourHandle).namespaceId, outer)

/-- A call of the finder's methods that change it. -/
inductive PaiOp (C G S : Type) where
  | submit (authorisation : C)
  | bind (scalar : S) (member : G) (isSecondary : Bool)
  | reply (handle : UInt64) (member : G)
  | capRequest (handle : UInt64)
  | capReply (handle : UInt64) (namespaceId : Bytes)
  | readCap (theirHandle : UInt64)

/-- One call. -/
def PaiFinder.step (env : PaiEnv C G S) (hasSubspaceCap : C → Bool) (p : PaiFinder C G S) : PaiOp C G S → PaiFinder C G S
  | .submit c => p.submit env c
  | .bind s g sec => p.receivedBind env s g sec
  | .reply h g => p.receivedReply env h g
  | .capRequest h => p.receivedCapRequest env hasSubspaceCap h
  | .capReply h n => p.receivedCapReply h n
  | .readCap h => p.receivedReadCap env h

end Willow
