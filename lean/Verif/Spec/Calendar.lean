import Verif.Model.Departures

/-! Specification vocabulary for calendars and departures, in terms of the API `at`. -/

namespace Soro

/-- the calendar runs on day `d` -/
def RunsOn (b : Bitfield) (d : Int) : Prop := b.at? d = some true

/-- the run of the train starting on day `d` and the interval have a moment in common -/
def RunMeets (t : DepTrain) (iv : TimeInterval) (d : Int) : Prop :=
  ∃ x : Int, (d * 86400 + t.firstDeparture ≤ x ∧ x ≤ d * 86400 + t.lastArrival) ∧
    ((iv.start : Int) ≤ x ∧ x ≤ iv.stop)

/-- All runs of the train lie in the range of the 32 bit time type (1970 to 2106) and end after they start. -/
structure DepTrain.InRange (t : DepTrain) : Prop where
  wf : t.days.WF
  first : 0 ≤ t.days.first
  last : t.days.last * 86400 + t.lastArrival < 2 ^ 32
  order : t.firstDeparture ≤ t.lastArrival

end Soro
