import Verif.Spec.EntryLayout

/-! The layout of the messages other than control messages. Entries, ranges and areas, which are relative to earlier
ones, are given by their bytes (see `EntryLayout`). -/

namespace Willow.Spec

/-- Send entry (data): kind 0110 00 and the width of the token handle; "offset follows", the width of the offset (1 for an offset equal to the
length), "relative to an entry"; the handle, the dynamic token, the offset, the entry. -/
def SendEntryLayout (length handle offset : Nat) (token entry out : List Nat) : Prop := ∃ wh wo,
  WidthCode handle wh ∧ WidthCode offset wo ∧
  out = packed [(3, 3), (3, 0), (2, wh)] ::
    packed [(1, bit (offset ≠ 0 ∧ offset ≠ length)), (2, if offset = 0 then 0 else if offset = length then 1 else wo), (1, 1), (4, 0)] ::
    (inBytes (2 ^ wh) handle ++ (token ++ ((if offset = 0 ∨ offset = length then [] else inBytes (2 ^ wo) offset) ++ entry)))

/-- Send payload (data): kind 0110 01 and the width of the amount; the amount, the bytes. -/
def SendPayloadLayout (amount : Nat) (payload out : List Nat) : Prop := ∃ w, WidthCode amount w ∧
  out = packed [(3, 3), (3, 1), (2, w)] :: (inBytes (2 ^ w) amount ++ payload)

/-- Set eagerness: kind 0110 10 and the flag; the widths of the two handles; the handles. -/
def SetEagernessLayout (eager : Bool) (sender receiver : Nat) (out : List Nat) : Prop := ∃ ws wr,
  WidthCode sender ws ∧ WidthCode receiver wr ∧
  out = packed [(3, 3), (3, 2), (1, bit (eager = true)), (1, 0)] :: packed [(2, ws), (2, wr), (4, 0)] ::
    (inBytes (2 ^ ws) sender ++ inBytes (2 ^ wr) receiver)

/-- Bind payload request: kind 0110 11 and the width of the capability handle; "offset follows", its width, "relative to an
entry"; the handle, the offset, the entry. -/
def BindPayloadRequestLayout (offset capability : Nat) (entry out : List Nat) : Prop := ∃ wc wo,
  WidthCode capability wc ∧ WidthCode offset wo ∧
  out = packed [(3, 3), (3, 3), (2, wc)] :: packed [(1, bit (offset ≠ 0)), (2, wo), (1, 1), (4, 0)] ::
    (inBytes (2 ^ wc) capability ++ ((if offset = 0 then [] else inBytes (2 ^ wo) offset) ++ entry))

/-- Reply payload: kind 0111 00 and the width of the handle; the handle. -/
def ReplyPayloadLayout (handle : Nat) (out : List Nat) : Prop := ∃ w, WidthCode handle w ∧
  out = packed [(3, 3), (3, 4), (2, w)] :: inBytes (2 ^ w) handle

/-- Bind read capability: kind 0010 00 and the width of the handle; the handle, the capability, the signature. -/
def BindReadCapabilityLayout (handle : Nat) (capability signature out : List Nat) : Prop := ∃ w, WidthCode handle w ∧
  out = packed [(3, 1), (3, 0), (2, w)] :: (inBytes (2 ^ w) handle ++ (capability ++ signature))

/-- Bind area of interest: kind 0010 1, "limited", the width of the handle; the handle, the area, and if there are limits
their widths and the limits. -/
def BindAreaOfInterestLayout (handle count size : Nat) (area out : List Nat) : Prop := ∃ wh wc ws,
  WidthCode handle wh ∧ WidthCode count wc ∧ WidthCode size ws ∧
  out = packed [(3, 1), (2, 1), (1, bit (count ≠ 0 ∨ size ≠ 0)), (2, wh)] :: (inBytes (2 ^ wh) handle ++ (area ++
    if count = 0 ∧ size = 0 then [] else packed [(2, wc), (2, ws), (4, 0)] :: (inBytes (2 ^ wc) count ++ inBytes (2 ^ ws) size)))

/-- Bind static token: kind 0011 0000; the token. -/
def BindStaticTokenLayout (token out : List Nat) : Prop := out = packed [(3, 1), (1, 1), (4, 0)] :: token

/-- Bind fragment: kind 0000 01 and "secondary"; the group member. -/
def BindFragmentLayout (secondary : Bool) (member out : List Nat) : Prop :=
  out = packed [(3, 0), (3, 1), (1, bit (secondary = true)), (1, 0)] :: member

/-- The three messages about a fragment: the kind and the width of the handle, the handle, what is said of it. -/
def AboutFragmentLayout (kind handle : Nat) (rest out : List Nat) : Prop := ∃ w, WidthCode handle w ∧
  out = packed [(3, 0), (3, kind), (2, w)] :: (inBytes (2 ^ w) handle ++ rest)

/-- Send fingerprint: kind 0100, "neutral", "relative to a range", "same sender", "same receiver"; the widths of the handles that are not the same,
"covers follows" (1 stands for nothing), zero, its width; covers, the handles, the fingerprint, the range. -/
def SendFingerprintLayout (neutral sameSender sameReceiver : Prop) [Decidable neutral] [Decidable sameSender] [Decidable sameReceiver]
    (sender receiver covers : Nat) (fingerprint range out : List Nat) : Prop := ∃ ws wr wc,
  WidthCode sender ws ∧ WidthCode receiver wr ∧ WidthCode covers wc ∧
  out = packed [(4, 4), (1, bit neutral), (1, 1), (1, bit sameSender), (1, bit sameReceiver)] ::
    packed [(2, if sameSender then 0 else ws), (2, if sameReceiver then 0 else wr), (1, bit (covers ≠ 1)), (1, 0),
      (2, if covers = 1 then 0 else wc)] ::
    ((if covers = 1 then [] else inBytes (2 ^ wc) covers) ++ ((if sameSender then [] else inBytes (2 ^ ws) sender) ++
    ((if sameReceiver then [] else inBytes (2 ^ wr) receiver) ++ ((if neutral then [] else fingerprint) ++ range))))

/-- Announce entries: kind 0101, "want response", "relative to a range", "same sender", "same receiver"; the widths of the handles that are not
the same, the width of the count, "sorted", "covers follows"; covers (one byte, or its width and itself), the handles, the count,
the range. -/
def AnnounceEntriesLayout (want sort sameSender sameReceiver : Prop) [Decidable want] [Decidable sort] [Decidable sameSender]
    [Decidable sameReceiver] (sender receiver count covers : Nat) (range out : List Nat) : Prop := ∃ ws wr wn wc,
  WidthCode sender ws ∧ WidthCode receiver wr ∧ WidthCode count wn ∧ WidthCode covers wc ∧
  out = packed [(4, 5), (1, bit want), (1, 1), (1, bit sameSender), (1, bit sameReceiver)] ::
    packed [(2, if sameSender then 0 else ws), (2, if sameReceiver then 0 else wr), (2, wn), (1, bit sort), (1, bit (covers ≠ 1))] ::
    ((if covers = 1 then [] else if covers < 252 then [covers] else packed [(6, 63), (2, wc)] :: inBytes (2 ^ wc) covers) ++
    ((if sameSender then [] else inBytes (2 ^ ws) sender) ++ ((if sameReceiver then [] else inBytes (2 ^ wr) receiver) ++
    (inBytes (2 ^ wn) count ++ range))))

/-- Send entry (reconciliation): kind 0101, "same token", "relative to an entry", the width of the available amount; the handle of the token if it
is not the same (one byte, or its width and itself), the amount, the dynamic token, the entry. -/
def SendAnnouncedLayout (same : Prop) [Decidable same] (available handle : Nat) (token entry out : List Nat) : Prop := ∃ wa wh,
  WidthCode available wa ∧ WidthCode handle wh ∧
  out = packed [(4, 5), (1, bit same), (1, 1), (2, wa)] ::
    ((if same then [] else if handle < 63 then [handle] else packed [(2, wh), (6, 63)] :: inBytes (2 ^ wh) handle) ++
    (inBytes (2 ^ wa) available ++ (token ++ entry)))

/-- Send payload (reconciliation): kind 0101 00 and the width of the amount; the amount, the bytes. -/
def SendPartLayout (amount : Nat) (payload out : List Nat) : Prop := ∃ w, WidthCode amount w ∧
  out = packed [(4, 5), (2, 0), (2, w)] :: (inBytes (2 ^ w) amount ++ payload)

end Willow.Spec
