import Verif.Lemmas.PropsRaces
import Verif.Props.MessageLoop

/-! Property C124: the parts of a send-entry message are read in the order in which they were written. -/

namespace Willow.Props
open Willow Spec

/-- C124, partial: if each goroutine reads as soon as it is started, messages with entries relative to the previous one are
decoded as they were sent, under the conditions of C74. Missing: the other orders of the goroutines. -/
theorem C124_soon_partial (s : Schemes) (vn vs vp vt : Bytes → Prop) (hL : LawfulSchemes s vn vs vp vt)
    (privy : Privy) (e : Entry) (hv : ValidEntry s vn vs vp e) (available handle : UInt64) (token enc : Bytes)
    (ht : vt token) (h : encodeReconciliationSendEntry s privy e available handle token = .ok enc) (g : GB) (rest : Bytes)
    (hg : g.content = enc ++ rest)
    (hh : handle = privy.prevStaticTokenHandle ∨ (63 < handle ∧ handle.toNat < 2 ^ s.p.bits))
    (hav : available.toNat < 2 ^ s.p.bits) (ha : PathComes s g e)
    (hs : getWidthMax32Int s.p.cl ≤ 2 + (s.pd.enc e.payloadDigest).length + rest.length) (entrySoon : Bool) :
    Gives (message (.reconciliationSendEntry e available handle token)) rest
      (decodeReconciliationSendEntryRun s privy true entrySoon g) := by
  have hx := C74_sendEntry_partial s vn vs vp vt hL privy e hv available handle token enc ht h g rest hg hh hav ha hs
  rw [← sendEntryRun_soon] at hx
  obtain ⟨ee, g', -, h1, -⟩ := sendEntryHead_reads h hg hh hav
  obtain ⟨g2, h2, c2⟩ := hx
  refine ⟨g2, ?_, c2⟩
  rw [← h2]
  unfold decodeReconciliationSendEntryRun
  rw [Dec.bind_apply, Dec.bind_apply, h1]
  rfl

example : (decodeReconciliationSendEntryRun exSchemes exPrivy true false
      ⟨[0x5c, 200, 1, 2], [[0x81, 1, 1, 1, 1], [7, 1, 1, 44, 8, 9, 77]], [], .exact⟩).map' (fun r => (r.1, r.2.content)) =
    .ok (message (.reconciliationSendEntry exEntry 200 5 [1, 2]), [77]) := by decide +kernel

/-- C124, partial: in every order of the goroutines, if decoding a token reads no bytes. -/
theorem C124_emptyToken_partial (s : Schemes) (vn vs vp vt : Bytes → Prop) (hL : LawfulSchemes s vn vs vp vt)
    (t : Bytes) (hempty : s.dynamicToken.decStream = pure t)
    (privy : Privy) (e : Entry) (hv : ValidEntry s vn vs vp e) (available handle : UInt64) (token enc : Bytes)
    (ht : vt token) (h : encodeReconciliationSendEntry s privy e available handle token = .ok enc) (g : GB) (rest : Bytes)
    (hg : g.content = enc ++ rest)
    (hh : handle = privy.prevStaticTokenHandle ∨ (63 < handle ∧ handle.toNat < 2 ^ s.p.bits))
    (hav : available.toNat < 2 ^ s.p.bits) (ha : PathComes s g e)
    (hs : getWidthMax32Int s.p.cl ≤ 2 + (s.pd.enc e.payloadDigest).length + rest.length) (tokenSoon entrySoon : Bool) :
    Gives (message (.reconciliationSendEntry e available handle token)) rest
      (decodeReconciliationSendEntryRun s privy tokenSoon entrySoon g) := by
  obtain ⟨g2, h2, c2⟩ := C124_soon_partial s vn vs vp vt hL privy e hv available handle token enc ht h g rest hg hh hav ha hs
    entrySoon
  refine ⟨g2, ?_, c2⟩
  rw [← h2]
  unfold decodeReconciliationSendEntryRun
  rw [hempty]
  cases tokenSoon <;> rfl

/-- Schemes with tokens of no bytes. -/
def exNoToken : Schemes := { exSchemes with dynamicToken := noToken }

example : LawfulSchemes exNoToken (·.length = 1) (·.length = 1) (·.length = 2) (· = []) ∧
    exNoToken.dynamicToken.decStream = pure [] ∧
    encodeReconciliationSendEntry exNoToken exPrivy exEntry 200 5 [] = .ok [0x5c, 200, 0x81, 1, 1, 1, 1, 7, 1, 1, 44, 8, 9] ∧
    (decodeReconciliationSendEntryRun exNoToken exPrivy false true
      ⟨[0x5c, 200, 0x81, 1, 1, 1, 1, 7, 1, 1, 44, 8, 9], [], [], .exact⟩).map' (·.1) =
      .ok (message (.reconciliationSendEntry exEntry 200 5 [])) :=
  ⟨{ exSchemes_lawful with dynamicToken := noToken_lawful }, rfl, by decide +kernel, by decide +kernel⟩

/-- C124 is violated if the goroutine of the token reads only when the token is received: the entry is decoded from the
stream where the token begins. -/
theorem C124_violated_start (s : Schemes) (privy : Privy) (e : Entry) (available handle : UInt64) (token enc : Bytes)
    (h : encodeReconciliationSendEntry s privy e available handle token = .ok enc) (g : GB) (rest : Bytes)
    (hg : g.content = enc ++ rest)
    (hh : handle = privy.prevStaticTokenHandle ∨ (63 < handle ∧ handle.toNat < 2 ^ s.p.bits))
    (hav : available.toNat < 2 ^ s.p.bits) (entrySoon : Bool) :
    ∃ ee g', encodeEntryRelativeEntry s.ns s.ss s.pd s.eqNs s.ordS s.p e privy.prevEntry = .ok ee ∧
      g'.content = s.dynamicToken.enc token ++ ee ++ rest ∧
      decodeReconciliationSendEntryRun s privy false entrySoon g = (do
        let entry ← decodeStreamEntryRelativeEntry s.ns s.ss s.pd s.p privy.prevEntry
        let dynamicToken ← s.dynamicToken.decStream
        return message (.reconciliationSendEntry entry available handle dynamicToken) : Dec Msg) g' := by
  obtain ⟨ee, g', h0, h1, h2⟩ := sendEntryHead_reads h hg hh hav
  refine ⟨ee, g', h0, by rw [h2, List.append_assoc], ?_⟩
  unfold decodeReconciliationSendEntryRun
  rw [Dec.bind_apply, h1]
  rfl

example : encodeReconciliationSendEntry exSchemes exPrivy exEntry 200 5 [0xc0, 9] =
      .ok [0x5c, 200, 0xc0, 9, 0x81, 1, 1, 1, 1, 7, 1, 1, 44, 8, 9] ∧
    (decodeReconciliationSendEntryRun exSchemes exPrivy false true
      ⟨[0x5c, 200, 0xc0, 9, 0x81, 1, 1, 1, 1, 7, 1, 1, 44, 8, 9], [], [], .exact⟩).map' (fun r => (r.1, r.2.content)) =
      .ok (message (.reconciliationSendEntry ⟨[9], [0x81], [[5, 6], [1]], [1, 44], 1, 69994⟩ 200 5 [8, 9]), []) := by
  decide +kernel

/-- C124 is violated in that order by every token whose encoding begins with a byte from 128 on and the encoding of a
namespace: if the message is delivered, its entry is in that namespace, whatever the namespace of the entry that was sent. -/
theorem C124_violated_namespace (s : Schemes) (vn : Bytes → Prop) (hn : s.ns.Lawful vn) (privy : Privy) (e : Entry)
    (available handle : UInt64) (token enc : Bytes)
    (h : encodeReconciliationSendEntry s privy e available handle token = .ok enc) (g : GB) (rest : Bytes)
    (hg : g.content = enc ++ rest)
    (hh : handle = privy.prevStaticTokenHandle ∨ (63 < handle ∧ handle.toNat < 2 ^ s.p.bits))
    (hav : available.toNat < 2 ^ s.p.bits) (entrySoon : Bool) (b : UInt8) (hb : 128 ≤ b) (n ts : Bytes) (hv : vn n)
    (htok : s.dynamicToken.enc token = b :: (s.ns.enc n ++ ts)) (m : Msg) (g' : GB)
    (hd : decodeReconciliationSendEntryRun s privy false entrySoon g = .ok (m, g')) :
    ∃ e' token', m = message (.reconciliationSendEntry e' available handle token') ∧ e'.namespaceId = n := by
  obtain ⟨ee, g1, -, h1, h2⟩ := C124_violated_start s privy e available handle token enc h g rest hg hh hav entrySoon
  rw [h2] at hd
  obtain ⟨e', g2, h3, hd⟩ := Dec.bind_ok.1 hd
  obtain ⟨t', g3, -, hd⟩ := Dec.bind_ok.1 hd
  simp only [Dec.pure_apply, Res.ok.injEq, Prod.mk.injEq] at hd
  refine ⟨e', t', hd.1.symm, relativeEntry_namespace hn hv hb (bs := ts ++ ee ++ rest) ?_ h3⟩
  rw [h1, htok]
  simp

example : exSchemes.ns.Lawful (·.length = 1) ∧ (128 : UInt8) ≤ 0xc0 ∧
    exSchemes.dynamicToken.enc [0xc0, 9] = 0xc0 :: (exSchemes.ns.enc [9] ++ []) ∧ exEntry.namespaceId = [1] :=
  ⟨fixedCodec_lawful 1, by decide, rfl, rfl⟩

/-- C124 is violated by every entry in the announced range whose subspace is not the one the range starts with, if the message
loop goes on before the goroutine of the entry reads: the message is delivered, without its entry, and the loop takes the entry
for a control message. -/
theorem C124_violated_range (s : Schemes) (vt : Bytes → Prop) (hT : s.dynamicToken.Lawful vt) (privy : Privy) (e : Entry)
    (available : UInt64) (token ee : Bytes) (ht : vt token)
    (h : encodeEntryRelativeRange3d s.ss s.pd s.ordS s.p e privy.announcedRange = .ok ee)
    (hd : s.ordS e.subspaceId privy.announcedRange.subspace.start ≠ .eq) (g : GB) (rest : Bytes)
    (hg : g.content = [0x58 ||| byteOf (compactWidthOr 0 (getWidthMax64Int available.toNat))] ++
      encodeIntMax64 available.toNat ++ s.dynamicToken.enc token ++ ee ++ rest) (o : LoopOpts) (t : Tracker) :
    ∃ g', decodeReconciliationSendEntryRun s privy true false g =
        .ok (message (.reconciliationSendEntry
            { namespaceId := [], subspaceId := [], path := [], timestamp := 0, payloadLength := 0, payloadDigest := [] }
            available privy.prevStaticTokenHandle token), g') ∧
      g'.content = ee ++ rest ∧
      ∃ k ∈ [MsgKind.controlApologise, .controlAnnounceDropping, .controlFree, .controlPlead, .controlAbsolve,
          .controlIssueGuarantee], ∃ g'', loopIteration o t g' = loopBranch o t (.decoder k) g'' := by
  obtain ⟨g1, h1, r1, c1⟩ := sendEntryHead_range (privy := privy) (available := available) (g := g)
    (tail := s.dynamicToken.enc token ++ (ee ++ rest)) (by rw [hg]; simp)
  obtain ⟨g2, h2, r2, c2⟩ := hT.reads token false ht g1 (ee ++ rest) r1 c1 (Nat.zero_le _)
  refine ⟨g2, ?_, c2, ?_⟩
  · unfold decodeReconciliationSendEntryRun
    rw [Dec.bind_apply, h1]
    dsimp only
    rw [if_pos rfl, Dec.bind_apply, h2]
    rfl
  · obtain ⟨b, bs, rfl, hb⟩ := relativeRange_head h hd
    obtain ⟨g3, -, h3⟩ := loopIteration_eq (o := o) (t := t) (b := b) (bs := bs ++ rest) (g := g2) (by rw [c2]; rfl)
    have hm := branch_high t.isExpectingPayloadOrTermination t.isExpectingReconciliationSendEntry hb
    simp only [List.mem_cons, List.not_mem_nil, or_false] at hm
    rcases hm with hm | hm | hm | hm | hm | hm <;> rw [hm] at h3 <;> exact ⟨_, by simp, g3, h3⟩

example : exSchemes.dynamicToken.Lawful (·.length = 2) ∧
    encodeEntryRelativeRange3d exSchemes.ss exSchemes.pd exSchemes.ordS exSchemes.p exEntry exPrivy.announcedRange =
      .ok [193, 2, 1, 1, 1, 7, 2, 1, 44, 8, 9] ∧
    exSchemes.ordS exEntry.subspaceId exPrivy.announcedRange.subspace.start ≠ .eq ∧
    decodeReconciliationSendEntryRun exSchemes exPrivy true false
      ⟨[0x58, 200, 1, 2, 193, 2, 1, 1, 1, 7, 2, 1, 44, 8, 9], [], [], .exact⟩ =
      .ok (message (.reconciliationSendEntry ⟨[], [], [], [], 0, 0⟩ 200 5 [1, 2]), ⟨[193, 2, 1, 1, 1, 7, 2, 1, 44, 8, 9], [], [], .exact⟩) :=
  ⟨fixedCodec_lawful 2, by decide +kernel, by decide +kernel, by decide +kernel⟩

end Willow.Props
