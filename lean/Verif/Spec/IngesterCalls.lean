import Verif.Model.IngesterCalls

/-! What is asked for when a payload ends. -/

namespace Willow.Spec

/-- The last call targeted the entry with the wish that its payload is asked for should it end at
once. -/
def EndsAtOnce (calls : List IngesterCall) (e : Entry) : Prop :=
  ∃ before, calls = before ++ [.target e true]

/-- The events that a call should put. -/
def eventsOf : IngesterCall → List IngestEvent
  | .target e _ => [⟨some e, [], false⟩]
  | .push b true => [⟨none, b, false⟩, ⟨none, [], true⟩]
  | .push b false => [⟨none, b, false⟩]
  | .terminate => [⟨none, [], true⟩]

end Willow.Spec
