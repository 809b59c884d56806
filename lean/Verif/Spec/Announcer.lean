import Verif.Model.Announcer

/-! Definitions used in the statements about announcing entries. -/

namespace Willow.Spec

open Willow

/-- The static tokens that the peer is told of, in order. The peer numbers them from zero. -/
def told (packs : List AnnouncementPack) : List Bytes := packs.flatMap (·.staticTokenBinds)

/-- Neither binds a token nor asks to free one. -/
def Quiet : HandleOp Bytes → Prop
  | .bind _ => False
  | .free _ => False
  | _ => True

/-- The announcements among the calls. -/
def requests : List AnnouncerOp → List AnnounceRequest
  | [] => []
  | .announce r :: rest => r :: requests rest
  | .handles _ :: rest => requests rest

/-- What a pack has to say apart from the tokens, for a request: that of the request, and the entries
with their positions in order. -/
def Carries (r : AnnounceRequest) (pack : AnnouncementPack) : Prop :=
  pack.range = r.range ∧ pack.wantResponse = r.wantResponse ∧ pack.senderHandle = r.senderHandle ∧
  pack.receiverHandle = r.receiverHandle ∧ pack.covers = r.covers ∧ pack.count = pack.entries.length ∧
  pack.entries.map (fun e => (e.entry.subspaceId, e.entry.path, e.entry.timestamp)) =
    r.results.map fun k => (k.pos.subspace, k.pos.path, k.pos.time)

/-- The entry refers to its static token by the number that the peer gave it, and carries its
dynamic token. -/
def Refers (scheme : TokenScheme) (tokens : List Bytes) (e : AnnouncedEntry) : Prop :=
  tokens[e.staticTokenHandle.toNat]? = some (scheme.decompose e.entry.subspaceId).1 ∧
  e.dynamicToken = (scheme.decompose e.entry.subspaceId).2

end Willow.Spec
