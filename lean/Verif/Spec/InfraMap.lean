import Verif.Model.InfraMap

/-! What the legend says should be drawn. -/

namespace Soro.InfraMap

/-- an element is to be drawn: its type is checked, and its direction, if it is no station -/
def Wanted (cs : List Control) (t : Nat) (rising : Bool) : Prop :=
  .type t ∈ cs ∧ (t = stationType ∨ (if rising then Control.rising else .falling) ∈ cs)

/-- events after which the directions are drawn as checked -/
def Event.refreshes : Event → Bool
  | .check (.type _) | .uncheck (.type _) => false
  | .check _ | .uncheck _ | .reset | .load => true
  | _ => false

end Soro.InfraMap
