import Verif.Model.RouteSwitch

/-
What users of the switches do: they stay with an infrastructure, and wait for the answer about a route before they
click on its switch again or come back to it.
-/

namespace Soro.RouteSwitch

/-- no request about this route is open -/
def State.Settled (s : State) (r : Nat) : Prop := ∀ q ∈ s.asked, q.2 ≠ r

/-- the event waits for answers -/
def Event.Patient (s : State) : Event → Prop
  | .panel ids => ∀ r ∈ ids, s.switches r = none → s.Settled r
  | .toggle r => s.Settled r
  | .answer _ => True
  | .infra _ => True

/-- all events of a run wait for answers -/
def Patient (ok : Nat → Nat → Bool) : State → List Event → Prop
  | _, [] => True
  | s, e :: es => e.Patient s ∧ Patient ok (s.step ok e) es

/-- the infrastructure stays -/
def Stays (evs : List Event) : Prop := ∀ i, Event.infra i ∉ evs

end Soro.RouteSwitch
