import Verif.Model.Messenger

/-! Definitions for the statements about the messenger. -/

namespace Willow.Spec

open Willow

/-- Data messages are received, one after the other, each at some time of the clock. -/
def receiveAll (gob : Gob) (env : StoreEnv) (st : StoreState) : List (UInt64 × Bytes) → Res StoreState
  | [] => .ok st
  | m :: rest => do
    let st ← receiveData gob env st m.1 m.2
    receiveAll gob env st rest

end Willow.Spec
