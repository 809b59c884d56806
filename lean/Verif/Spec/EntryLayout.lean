import Verif.Model.Schemes
import Verif.Model.Keys
import Verif.Spec.ControlLayout
import Verif.Spec.Order

/-! The layout of paths, keys, entries, areas and ranges: which numbers are written one after the other. -/

namespace Willow.Spec

/-- The bytes as numbers. -/
def natBytes (b : Bytes) : List Nat := b.map UInt8.toNat

/-- `w` is the least number of bytes, at least one, in which `limit` fits. -/
def LimitWidth (limit w : Nat) : Prop := 1 ≤ w ∧ limit < 256 ^ w ∧ ∀ v, 1 ≤ v → v < w → 256 ^ v ≤ limit

/-- A flag as a bit. -/
def bit (q : Prop) [Decidable q] : Nat := if q then 1 else 0

/-- A path: the number of components, and each component after its length, the numbers in as many bytes as the limits need. -/
def PathLayout (p : PathParams) (path : Path) (bytes : List Nat) : Prop := ∃ wc wl, LimitWidth p.cc wc ∧ LimitWidth p.cl wl ∧
  bytes = inBytes wc path.length ++ path.flatMap fun c => inBytes wl c.length ++ natBytes c

/-- `k` is the number of components at the beginning that the paths share. -/
def SharedComponents (a b : Path) (k : Nat) : Prop :=
  k ≤ a.length ∧ k ≤ b.length ∧ a.take k = b.take k ∧ ∀ j, j ≤ a.length → j ≤ b.length → a.take j = b.take j → j ≤ k

/-- A path relative to another: the number of shared components, and the others as a path. -/
def RelativeLayout (p : PathParams) (path reference : Path) (bytes : List Nat) : Prop := ∃ k wc rest,
  SharedComponents path reference k ∧ LimitWidth p.cc wc ∧ PathLayout p (path.drop k) rest ∧ bytes = inBytes wc k ++ rest

/-- The distance of two times. -/
def distance (a b : UInt64) : Nat := max a.toNat b.toNat - min a.toNat b.toNat

/-- An entry: namespace, subspace, path, time and length of the payload in eight bytes each, digest. -/
def EntryLayout (ns ss pd : Codec) (p : PathParams) (e : Entry) (bytes : List Nat) : Prop := ∃ path, PathLayout p e.path path ∧
  bytes = natBytes (ns.enc e.namespaceId) ++ natBytes (ss.enc e.subspaceId) ++ path ++ inBytes 8 e.timestamp.toNat ++
    inBytes 8 e.payloadLength.toNat ++ natBytes (pd.enc e.payloadDigest)

/-- A key of the store: the time in eight bytes, the path, the subspace. -/
def KeyLayout (p : PathParams) (k : Position) (bytes : List Nat) : Prop := ∃ path, PathLayout p k.path path ∧
  bytes = inBytes 8 k.time.toNat ++ path ++ natBytes k.subspace

/-- A value of the store: the length of the payload, and the two digests, each after its length; the numbers in eight bytes. -/
def ValuesLayout (v : Values) (bytes : List Nat) : Prop :=
  bytes = inBytes 8 v.payloadLength.toNat ++ inBytes 8 v.payloadDigest.length ++ natBytes v.payloadDigest ++
    inBytes 8 v.authDigest.length ++ natBytes v.authDigest

/-- An entry relative to another: a byte with the bits "other namespace", "other subspace", "later", a zero, and the codes of the
widths of the time difference and of the length; namespace and subspace if they are others; the relative path, the time
difference, the length, the digest. -/
def RelativeEntryLayout (ns ss pd : Codec) (p : PathParams) (e ref : Entry) (bytes : List Nat) : Prop := ∃ wt wl path,
  WidthCode (distance e.timestamp ref.timestamp) wt ∧ WidthCode e.payloadLength.toNat wl ∧ RelativeLayout p e.path ref.path path ∧
  bytes = packed [(1, bit (e.namespaceId ≠ ref.namespaceId)), (1, bit (e.subspaceId ≠ ref.subspaceId)),
      (1, bit (ref.timestamp < e.timestamp)), (1, 0), (2, wt), (2, wl)] ::
    ((if e.namespaceId ≠ ref.namespaceId then natBytes (ns.enc e.namespaceId) else []) ++
    ((if e.subspaceId ≠ ref.subspaceId then natBytes (ss.enc e.subspaceId) else []) ++ (path ++
    (inBytes (2 ^ wt) (distance e.timestamp ref.timestamp) ++ (inBytes (2 ^ wl) e.payloadLength.toNat ++
    natBytes (pd.enc e.payloadDigest))))))

/-- The path of the entry shares at least as much with the start of the range as with its end. -/
def NearerStart (path start stop : Path) : Prop :=
  ∃ k l, SharedComponents path start k ∧ SharedComponents path stop l ∧ l ≤ k

/-- An entry relative to a range: a byte with the bits "subspace follows", "path relative to the start", "time relative to the
start", "not before", and the codes of the widths; then the subspace if it is not the start of the range, the path relative to
the one of start and end that shares more with it, the distance to the nearer one of start and end, the length, the digest. -/
def EntryInRangeLayout (ss pd : Codec) (p : PathParams) (e : Entry) (outer : Range3d) (bytes : List Nat) : Prop :=
  ∃ (wt wl : Nat) (path : List Nat) (fromStart nearStart : Bool),
  let time := if nearStart then outer.time.start else outer.time.stop
  (fromStart = true ↔ outer.path.openEnd = true ∨ NearerStart e.path outer.path.start outer.path.stop) ∧
  (nearStart = true ↔ outer.time.openEnd = true ∨
    distance e.timestamp outer.time.start ≤ distance e.timestamp outer.time.stop) ∧
  WidthCode (distance e.timestamp time) wt ∧ WidthCode e.payloadLength.toNat wl ∧
  RelativeLayout p e.path (if fromStart then outer.path.start else outer.path.stop) path ∧
  bytes = packed [(1, bit (e.subspaceId ≠ outer.subspace.start)), (1, bit (fromStart = true)), (1, bit (nearStart = true)),
      (1, bit (time ≤ e.timestamp)), (2, wt), (2, wl)] ::
    ((if e.subspaceId ≠ outer.subspace.start then natBytes (ss.enc e.subspaceId) else []) ++ (path ++
    (inBytes (2 ^ wt) (distance e.timestamp time) ++ (inBytes (2 ^ wl) e.payloadLength.toNat ++
    natBytes (pd.enc e.payloadDigest)))))

/-- The end of a time range; one without an end counts as ending 15 before 2^64. -/
def lastTime (t : GRange UInt64) : Nat := if t.openEnd then 2 ^ 64 - 15 else t.stop.toNat

/-- The times of the inner area lie in those of the outer. -/
def TimesInside (inner outer : GRange UInt64) : Prop :=
  outer.start ≤ inner.start ∧ inner.start.toNat ≤ lastTime inner ∧ lastTime inner ≤ lastTime outer

/-- The areas are for the same subspace, or both for any. -/
def SameSubspace (a b : Area) : Prop :=
  (a.anySubspace = true ∧ b.anySubspace = true) ∨ (a.anySubspace = false ∧ b.anySubspace = false ∧ a.subspace = b.subspace)

/-- An area in another: a byte with the bits "subspace follows", "no end", "start relative to the start", "end relative to the
start", and the codes of the widths of the two distances; the distance of the start to the nearer one of start and end of the outer
area, that of the end, if there is one, to the nearer one of its own start and the outer end, the relative path, and the
subspace if it is not the same. -/
def AreaInAreaLayout (ss : Codec) (p : PathParams) (inner outer : Area) (bytes : List Nat) : Prop := ∃ ws we path,
  let toStart := inner.times.start.toNat - outer.times.start.toNat
  let toEnd := lastTime outer.times - inner.times.start.toNat
  let endToStart := lastTime inner.times - inner.times.start.toNat
  let endToEnd := lastTime outer.times - lastTime inner.times
  WidthCode (min toStart toEnd) ws ∧ WidthCode (min endToStart endToEnd) we ∧ RelativeLayout p inner.path outer.path path ∧
  ∃ same : Bool, (same = true ↔ SameSubspace inner outer) ∧
  bytes = packed [(1, bit (same = false)), (1, bit (inner.times.openEnd = true)), (1, bit (toStart ≤ toEnd)),
      (1, bit (endToStart ≤ endToEnd)), (2, ws), (2, we)] ::
    (inBytes (2 ^ ws) (min toStart toEnd) ++ ((if inner.times.openEnd then [] else inBytes (2 ^ we) (min endToStart endToEnd)) ++
    (path ++ if same then [] else natBytes (ss.enc inner.subspace))))

/-- How a bound of a range of subspaces is given: 1 if it is the start of the reference, 2 if it is the end, 3 if it follows. -/
def BoundLayout (ss : Codec) (bound : Bytes) (ref : GRange Bytes) (code : Nat) (bytes : List Nat) : Prop :=
  (code = 1 ∧ bound = ref.start ∧ bytes = []) ∨ (code = 2 ∧ ref.openEnd = false ∧ bound = ref.stop ∧ bytes = []) ∨
    (code = 3 ∧ bytes = natBytes (ss.enc bound))

/-- The end of a time range; one without an end counts as ending at the largest number. -/
def greatestTime (t : GRange UInt64) : UInt64 := if t.openEnd then 18446744073709551615 else t.stop

/-- How the parts of a range before the end of the times are given relative to another range: `sc` and `ec` are the codes of the
bounds of the subspaces (0 for no end), which are written as `sub` and `stop`; `a`, `b` and `c` say if the start and the end of the
paths and the start of the times are relative to the start of the other range, as they are if they share as much with it or are as
near to it; `ws` is the code of the width of the distance of the times; the paths are written as `pathStart` and `pathStop`. -/
def RangeFront (ss : Codec) (p : PathParams) (r ref : Range3d) (sc ec ws : Nat) (sub stop pathStart pathStop : List Nat)
    (a b c : Bool) : Prop :=
  BoundLayout ss r.subspace.start ref.subspace sc sub ∧
  (if r.subspace.openEnd then ec = 0 ∧ stop = [] else BoundLayout ss r.subspace.stop ref.subspace ec stop) ∧
  (a = true ↔ NearerStart r.path.start ref.path.start ref.path.stop) ∧
  (b = true ↔ NearerStart r.path.stop ref.path.start ref.path.stop) ∧
  (c = true ↔ distance r.time.start ref.time.start ≤ distance r.time.start (greatestTime ref.time)) ∧
  WidthCode (distance r.time.start (if c then ref.time.start else greatestTime ref.time)) ws ∧
  RelativeLayout p r.path.start (if a then ref.path.start else ref.path.stop) pathStart ∧
  RelativeLayout p r.path.stop (if b then ref.path.start else ref.path.stop) pathStop

/-- How the end of the times is given: nothing if there is none; otherwise four bits, "relative to the start", "not before" and the
code of the width of the distance, and the distance to the nearer one of start and end of the other range. -/
def TimeEndLayout (t ref : GRange UInt64) (bits : Nat) (bytes : List Nat) : Prop :=
  if t.openEnd then bits < 16 ∧ bytes = []
  else ∃ (we : Nat) (d : Bool),
    let time := if d then ref.start else greatestTime ref
    (d = true ↔ distance t.stop ref.start ≤ distance t.stop (greatestTime ref)) ∧ WidthCode (distance t.stop time) we ∧
    bits = packed [(1, bit (d = true)), (1, bit (time ≤ t.stop)), (2, we)] ∧ bytes = inBytes (2 ^ we) (distance t.stop time)

/-- A range relative to another: a byte with the codes of the bounds of the subspaces and the bits "path start relative
to the start", "no path end", "path end relative to the start", "no time end"; a byte with, for the start and the end of the
times, the bits "relative to the start" and "not before" and the code of the width of the distance; the subspaces that are
not bounds of the reference, the relative paths, the distances. -/
def RangeLayout (ss : Codec) (p : PathParams) (r ref : Range3d) (bytes : List Nat) : Prop :=
  ∃ (sc ec ws endBits : Nat) (sub stop pathStart pathStop last : List Nat) (a b c : Bool),
  let time := if c then ref.time.start else greatestTime ref.time
  RangeFront ss p r ref sc ec ws sub stop pathStart pathStop a b c ∧ TimeEndLayout r.time ref.time endBits last ∧
  bytes = packed [(2, sc), (2, ec), (1, bit (a = true)), (1, bit (r.path.openEnd = true)),
      (1, bit (r.path.openEnd = false ∧ b = true)), (1, bit (r.time.openEnd = true))] ::
    packed [(1, bit (c = true)), (1, bit (time ≤ r.time.start)), (2, ws), (4, endBits)] ::
    (sub ++ (stop ++ (pathStart ++ (pathStop ++ (inBytes (2 ^ ws) (distance r.time.start time) ++ last)))))

end Willow.Spec
