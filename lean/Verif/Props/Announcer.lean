import Verif.Lemmas.PropsAnnouncer
import Verif.Spec.Order
import Verif.Lemmas.Ranges

/-! C99: announcing entries. -/

namespace Willow.Props

open Willow Spec

/-- C99, partial: if no static token is freed and only the announcer binds some, then in any
sequence of announcements each entry refers to its static token by the number under which the peer
has it, and was told of it in the same announcement or before; and the peer is told of no token
twice. Missing: tokens that are freed (see `C99_violated_freed`), tokens that the session binds (see
`C99_violated_copies`). -/
theorem C99_tokens_partial (scheme : TokenScheme) (hinj : ∀ s t, scheme.encode s = scheme.encode t → s = t)
    (ops : List AnnouncerOp) (hq : ∀ op, .handles op ∈ ops → Quiet op)
    (hlen : ((requests ops).map (·.results.length)).sum < 2 ^ 64) (packs : List AnnouncementPack) (a : Announcer)
    (h : Announcer.run scheme ops .new = (packs, a)) :
    (told packs).Nodup ∧
    ∀ before pack after, packs = before ++ pack :: after → ∀ e ∈ pack.entries, Refers scheme (told (before ++ [pack])) e := by
  obtain ⟨packs', a', h1, h2, _, _, h5⟩ := run_inv hinj ops hq .new [] (annInv_new scheme) (by simpa using hlen)
  rw [h] at h1
  cases h1
  exact ⟨by simpa using annInv_nodup h2, by simpa using h5⟩

example : let scheme : TokenScheme := ⟨fun s => (s, s.take 1), fun t => 0 :: t⟩
    let request : AnnounceRequest := ⟨1, 2, [⟨⟨[7], [[9]], 6⟩, []⟩, ⟨⟨[8], [[9]], 6⟩, []⟩, ⟨⟨[7], [[1]], 6⟩, []⟩],
      ⟨⟨[], [], true⟩, ⟨[], [], true⟩, ⟨5, 8, false⟩⟩, true, 3⟩
    (∀ s t, scheme.encode s = scheme.encode t → s = t) ∧ (∀ op, .handles op ∈ [AnnouncerOp.announce request] → Quiet op) ∧
    told (Announcer.run scheme [.announce request] .new).1 = [[7], [8]] :=
  ⟨fun _ _ h => (List.cons.inj h).2, fun op h => by simp at h, by decide⟩

/-- C99, partial: each pack says what its request says, and its entries are those of the store, in
order, as far as subspace, path and time go. Missing: the rest of an entry (see
`C99_violated_payload`), the range (see `C99_violated_range`). -/
theorem C99_packs_partial (scheme : TokenScheme) (hinj : ∀ s t, scheme.encode s = scheme.encode t → s = t)
    (ops : List AnnouncerOp) (hq : ∀ op, .handles op ∈ ops → Quiet op)
    (hlen : ((requests ops).map (·.results.length)).sum < 2 ^ 64) (packs : List AnnouncementPack) (a : Announcer)
    (h : Announcer.run scheme ops .new = (packs, a)) :
    packs.length = (requests ops).length ∧ ∀ x ∈ (requests ops).zip packs, Carries x.1 x.2 := by
  obtain ⟨packs', a', h1, _, h3, h4, _⟩ := run_inv hinj ops hq .new [] (annInv_new scheme) (by simpa using hlen)
  rw [h] at h1
  cases h1
  exact ⟨h3, h4⟩

/-- A scheme in which the static token is the subspace and the dynamic token is its first byte. -/
def exTokens : TokenScheme := ⟨fun s => (s, s.take 1), fun t => 0 :: t⟩

/-- Everything at times from 5 to 8. -/
def exTimes : Range3d := ⟨⟨[], [], true⟩, ⟨[], [], true⟩, ⟨5, 8, false⟩⟩

/-- An announcement of entries of the given subspaces. -/
def exAnnounce (subspaces : List Bytes) : AnnounceRequest :=
  ⟨1, 2, subspaces.map fun s => ⟨⟨s, [[9]], 6⟩, []⟩, exTimes, true, 3⟩

example : (Announcer.run exTokens [.announce (exAnnounce [[7], [8], [7]]), .handles (.increment 1), .announce (exAnnounce [[8], [6]])] .new).1.map
      (fun p => (p.staticTokenBinds, p.entries.map (·.staticTokenHandle))) =
    [([[7], [8]], [0, 1, 0]), ([[6]], [1, 2])] ∧ Quiet (.increment 1) ∧
    (∀ s t, exTokens.encode s = exTokens.encode t → s = t) :=
  ⟨by decide, trivial, fun _ _ h => (List.cons.inj h).2⟩

/-- C99 is violated: after any announcements, whichever static token that the peer was told of, other than the first, is
then freed, the next entry with it is announced with handle zero, which the peer has for the first token, and the peer is
told of the token again, so that its numbers no longer are ours. -/
theorem C99_violated_freed (scheme : TokenScheme) (hinj : ∀ s t, scheme.encode s = scheme.encode t → s = t)
    (ops : List AnnouncerOp) (hq : ∀ op, .handles op ∈ ops → Quiet op)
    (hlen : ((requests ops).map (·.results.length)).sum < 2 ^ 64) (h : UInt64) (h0 : h ≠ 0) (token : Bytes)
    (ht : (told (Announcer.run scheme ops .new).1)[h.toNat]? = some token)
    (r : AnnounceRequest) (k : KdKey) (rest : List KdKey) (hr : r.results = k :: rest)
    (hk : (scheme.decompose k.pos.subspace).1 = token) :
    ∃ (before : List AnnouncementPack) (pack : AnnouncementPack) (e : AnnouncedEntry),
      before = (Announcer.run scheme ops .new).1 ∧
      (Announcer.run scheme (ops ++ [.handles (.free h), .announce r]) .new).1 = before ++ [pack] ∧
      e ∈ pack.entries ∧ e.entry.subspaceId = k.pos.subspace ∧ ¬ Refers scheme (told (before ++ [pack])) e ∧
      (told (before ++ [pack]))[e.staticTokenHandle.toNat]? = (told before)[0]? ∧ ¬ (told (before ++ [pack])).Nodup := by
  have happ : ∀ (xs ys : List AnnouncerOp) (a : Announcer), (Announcer.run scheme (xs ++ ys) a).1 =
      (Announcer.run scheme xs a).1 ++ (Announcer.run scheme ys (Announcer.run scheme xs a).2).1 := by
    intro xs ys
    induction xs with
    | nil => exact fun a => rfl
    | cons x xs ih =>
      intro a
      cases x with
      | handles o => exact ih _
      | announce q => exact congrArg (_ :: ·) (ih _)
  obtain ⟨packs, a, e1, inv, _⟩ := run_inv hinj ops hq .new [] (annInv_new scheme) (by simpa using hlen)
  rw [List.nil_append] at inv
  rw [e1] at ht
  dsimp only at ht
  obtain ⟨hlt, hget⟩ := List.getElem?_eq_some_iff.1 ht
  have hpos : 0 < h.toNat := Nat.pos_of_ne_zero fun e => h0 (UInt64.toNat_inj.1 e)
  have hfirst : (told packs)[0]? ≠ some token := by
    intro e
    have k1 := (inv.known token 0).2 e
    have k2 := (inv.known token h).2 ht
    rw [k1] at k2
    exact h0 (Option.some.inj k2).symm
  let b := a.elsewhere (.free h)
  have hcan : b.store.canUse h = false := by
    obtain ⟨u, hu, _⟩ := inv.usable h hlt
    show HandleStore.canUse ⟨a.store.least, (HandleStore.step ⟨a.others, a.store.map⟩ (.free h)).map⟩ h = false
    simp only [HandleStore.step, HandleStore.free, hu]
    by_cases hz : u.refCount = 0
    · rw [if_pos hz]
      simp [HandleStore.canUse, GoMap.get_delete]
    · rw [if_neg hz]
      simp [HandleStore.canUse, GoMap.get_set]
  have hhand : b.handles.get (scheme.encode token) = some h := (inv.known token h).2 ht
  have htok' : b.tokenHandle scheme token = ((0, false), b) := by
    simp only [Announcer.tokenHandle, hhand, hcan]
    rfl
  have htok : b.tokenHandle scheme (scheme.decompose k.pos.subspace).1 = ((0, false), b) := hk ▸ htok'
  refine ⟨packs, (b.queueAnnounce scheme r).1, ⟨⟨[], k.pos.subspace, k.pos.path, [], 0, k.pos.time⟩, 1, 0, (scheme.decompose k.pos.subspace).2⟩,
    by rw [e1], by rw [happ, e1]; rfl, ?_, rfl, ?_⟩
  · simp only [Announcer.queueAnnounce, hr, announceLoop, htok]
    exact List.mem_cons_self
  · have htold : told (packs ++ [(b.queueAnnounce scheme r).1]) = told packs ++ token :: (announceLoop scheme rest b).1.1 := by
      simp only [told, List.flatMap_append, List.flatMap_cons, List.flatMap_nil, List.append_nil, Announcer.queueAnnounce, hr,
        announceLoop, hk, htok']
      rfl
    have hz : (told packs ++ token :: (announceLoop scheme rest b).1.1)[(0 : UInt64).toNat]? = (told packs)[0]? :=
      List.getElem?_append_left (Nat.lt_trans hpos hlt)
    rw [htold]
    refine ⟨fun hc => hfirst (hz ▸ hk ▸ hc.1), hz, fun hn => ?_⟩
    exact (List.nodup_append.1 hn).2.2 token (hget ▸ List.getElem_mem hlt) token List.mem_cons_self rfl

example : (told (Announcer.run exTokens [.announce (exAnnounce [[7], [8]])] .new).1)[(1 : UInt64).toNat]? = some [8] ∧
    (Announcer.run exTokens [.announce (exAnnounce [[7], [8]]), .handles (.free 1), .announce (exAnnounce [[8]])] .new).1.map
      (fun p => (p.staticTokenBinds, p.entries.map (·.staticTokenHandle))) = [([[7], [8]], [0, 1]), ([[8]], [0])] := by
  decide +kernel

/-- C99 is violated: the announcer's handle store is a copy. Whatever token the session binds first through its own, the
announcer gives the same handle to the token of the first entry it announces, and from then on the session has that token
under the handle. -/
theorem C99_violated_copies (scheme : TokenScheme) (token : Bytes) (r : AnnounceRequest) (k : KdKey) (rest : List KdKey)
    (hr : r.results = k :: rest) (hone : ∀ k' ∈ rest, (scheme.decompose k'.pos.subspace).1 = (scheme.decompose k.pos.subspace).1) :
    (Announcer.new.elsewhere (.bind token)).store.get 0 = some token ∧
    (∀ pack ∈ (Announcer.run scheme [.handles (.bind token), .announce r] .new).1, ∀ e ∈ pack.entries, e.staticTokenHandle = 0) ∧
    (Announcer.run scheme [.handles (.bind token), .announce r] .new).2.store.get 0 = some (scheme.decompose k.pos.subspace).1 := by
  refine ⟨rfl, ?_⟩
  let t := (scheme.decompose k.pos.subspace).1
  let s1 : Announcer := ⟨⟨1, GoMap.set (GoMap.set [] 0 ⟨token, false, 0⟩) 0 ⟨t, false, 0⟩⟩, GoMap.set [] (scheme.encode t) 0, 1⟩
  have hloop : ∀ (l : List KdKey), (∀ k' ∈ l, (scheme.decompose k'.pos.subspace).1 = t) →
      (announceLoop scheme l s1).2 = s1 ∧ ∀ e ∈ (announceLoop scheme l s1).1.2, e.staticTokenHandle = 0 := by
    intro l
    induction l with
    | nil => exact fun _ => ⟨rfl, fun e he => by cases he⟩
    | cons k' l ih =>
      intro h
      have ih := ih fun x hx => h x (List.mem_cons_of_mem _ hx)
      have e : s1.tokenHandle scheme (scheme.decompose k'.pos.subspace).1 = ((0, true), s1) := by
        rw [h k' List.mem_cons_self]
        have hg : s1.handles.get (scheme.encode t) = some 0 := by
          show (GoMap.set [] (scheme.encode t) (0 : UInt64)).get (scheme.encode t) = some 0
          rw [GoMap.get_set, if_pos rfl]
        simp only [Announcer.tokenHandle, hg]
        rfl
      simp only [announceLoop, e]
      refine ⟨ih.1, fun x hx => ?_⟩
      rcases List.mem_cons.1 hx with rfl | hx
      · rfl
      · exact ih.2 x hx
  have hrun : announceLoop scheme r.results (Announcer.new.elsewhere (.bind token)) =
      ((t :: (announceLoop scheme rest s1).1.1,
        ⟨⟨[], k.pos.subspace, k.pos.path, [], 0, k.pos.time⟩, 1, 0, (scheme.decompose k.pos.subspace).2⟩ ::
          (announceLoop scheme rest s1).1.2), s1) := by
    rw [hr]
    have e : (Announcer.new.elsewhere (.bind token)).tokenHandle scheme (scheme.decompose k.pos.subspace).1 = ((0, false), s1) := rfl
    simp only [announceLoop, e, (hloop rest hone).1]
    rfl
  have h1 : (Announcer.run scheme [.handles (.bind token), .announce r] .new) =
      ([((Announcer.new.elsewhere (.bind token)).queueAnnounce scheme r).1], ((Announcer.new.elsewhere (.bind token)).queueAnnounce scheme r).2) := rfl
  rw [h1]
  simp only [Announcer.queueAnnounce, hrun]
  refine ⟨?_, rfl⟩
  intro pack hp e he
  rw [List.mem_singleton.1 hp] at he
  rcases List.mem_cons.1 he with rfl | he
  · rfl
  · exact (hloop rest hone).2 e he

example : (Announcer.run exTokens [.handles (.bind [5]), .announce (exAnnounce [[7], [7]])] .new).1.map
      (fun p => (p.staticTokenBinds, p.entries.map (·.staticTokenHandle))) = [([[7]], [0, 0])] ∧
    (Announcer.run exTokens [.handles (.bind [5]), .announce (exAnnounce [[7], [7]])] .new).2.store.get 0 = some [7] := by decide +kernel

/-- C99 is violated: no announced entry has the payload digest, the payload length and the namespace
of the entry that it stands for; it says that one byte of the payload is available. -/
theorem C99_violated_payload (scheme : TokenScheme) (a : Announcer) (r : AnnounceRequest) :
    ∀ e ∈ (a.queueAnnounce scheme r).1.entries,
      e.entry.payloadDigest = [] ∧ e.entry.payloadLength = 0 ∧ e.entry.namespaceId = [] ∧ e.available = 1 := by
  have key : ∀ (results : List KdKey) (a : Announcer), ∀ e ∈ (announceLoop scheme results a).1.2,
      e.entry.payloadDigest = [] ∧ e.entry.payloadLength = 0 ∧ e.entry.namespaceId = [] ∧ e.available = 1 := by
    intro results
    induction results with
    | nil => intro a e he; cases he
    | cons k rest ih =>
      intro a e he
      simp only [announceLoop] at he
      rcases List.mem_cons.1 he with rfl | he
      · exact ⟨rfl, rfl, rfl, rfl⟩
      · exact ih _ _ he
  exact key r.results a

example : (Announcer.new.queueAnnounce exTokens (exAnnounce [[7]])).1.entries =
    [⟨⟨[], [7], [[9]], [], 0, 6⟩, 1, 0, [7]⟩] := by decide

/-- C99 is violated: what is announced does not depend on the range: entries outside of it are
announced with those in it. -/
theorem C99_violated_range : ∃ (r : AnnounceRequest) (pack : AnnouncementPack) (e : AnnouncedEntry),
    (Announcer.new.queueAnnounce exTokens r).1 = pack ∧ e ∈ pack.entries ∧
    ¬ InRange3d pack.range ⟨e.entry.subspaceId, e.entry.path, e.entry.timestamp⟩ := by
  refine ⟨⟨1, 2, [⟨⟨[7], [[9]], 60⟩, []⟩], exTimes, true, 3⟩, _, _, rfl, List.mem_cons_self, ?_⟩
  rw [← isIncluded3d_iff decides_subspace]
  decide

/-- C99 is violated: whatever the range of the request, all entries of the store are announced: those that are not in the
range too. -/
theorem C99_violated_all (scheme : TokenScheme) (a : Announcer) (r : AnnounceRequest) (range : Range3d) :
    (a.queueAnnounce scheme { r with range := range }).1.entries = (a.queueAnnounce scheme r).1.entries ∧
    (a.queueAnnounce scheme { r with range := range }).1.range = range ∧
    (a.queueAnnounce scheme r).1.entries.map (fun e => (⟨e.entry.subspaceId, e.entry.path, e.entry.timestamp⟩ : Position)) =
      r.results.map (·.pos) := by
  refine ⟨rfl, rfl, ?_⟩
  show (announceLoop scheme r.results a).1.2.map _ = _
  generalize r.results = results
  induction results generalizing a with
  | nil => rfl
  | cons k results ih =>
    simp only [announceLoop, List.map_cons, ih]

example : ((Announcer.new.queueAnnounce exTokens ⟨1, 2, [⟨⟨[7], [[9]], 60⟩, []⟩], exTimes, true, 3⟩).1.entries).length = 1 ∧
    ¬ InRange3d exTimes ⟨[7], [[9]], 60⟩ := by
  refine ⟨rfl, ?_⟩
  rw [← isIncluded3d_iff decides_subspace]
  decide

end Willow.Props
