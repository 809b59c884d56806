import Verif.Model.ClosedValues

/-! Definitions used in the statements about the memory of values. -/

namespace Willow.Spec

open Willow

/-- What was given back was made before. -/
def HeapOk (h : Heap) : Prop := ∀ s ∈ h.free, s < h.bufs.length

/-- Another call, on another digest, reads between the reading and the writing of an increment: what the increment
returns and writes. -/
def incrementAround (reuse : Bool) (refs : KV) (digest other : Bytes) (h : Heap) : Res (UInt64 × KV) :=
  let (found, h) := incrementBegin reuse refs digest h
  let (_, h) := incrementBegin reuse refs other h
  incrementEnd refs digest found h

end Willow.Spec
