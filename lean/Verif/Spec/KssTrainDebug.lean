import Verif.Spec.KssXml

/-! Conditions on documents for a build with assertions. -/

namespace Soro.KssXml
open IssElement IssFiles Soro.Train

/-- the times of a point are written with eleven characters, as in `10:00:00.00` -/
def FullTimes (x : Xml) : Prop := ∀ n, n = "arrival".toList ∨ n = "departure".toList → ∀ k s, First x n k → SaysText k "time".toList s → s.length = 11

/-- the times of all points of a train are written with eleven characters -/
def AllFull (x : Xml) : Prop :=
  ∀ s ks, First x "sequence".toList s → Members s "sequenceServicePoints".toList ks → ∀ k ∈ ks, FullTimes k

/-- the train stops at the point or has a time for passing it -/
def SaidStop.Planned (s : SaidStop) : Prop := s.ty ≠ .transit ∨ s.departure ≠ none

instance (s : SaidStop) : Decidable s.Planned := by unfold SaidStop.Planned; infer_instance

/-- the train passes the point and has a time for it, but the route of the point has no node where times are taken -/
def Unmeasured (d : Data) (s : SaidStop) : Prop :=
  s.ty = .transit ∧ s.departure ≠ none ∧ ∃ sr r, Known d.stations s sr ∧ d.infra.stops[sr]? = some r ∧ r.checkpoint = none

end Soro.KssXml
