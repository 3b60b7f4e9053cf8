import Verif.Spec.Kss
import Mathlib.Data.Set.Card

/-! Specification vocabulary: services that say what is the case already. -/

namespace Soro.Kss

/-- the day is a service day after these services, of which the first is a regular one: the last that says something about it
says so -/
def Running (pre : List Service) (d : Int) : Prop := Last (Says d) pre true

/-- service days that the service adds although they are service days already, minus the days it excludes although they are none -/
noncomputable def needless (pre : List Service) (s : Service) : Int :=
  Set.ncard {d | Says d true s ∧ Running pre d} - Set.ncard {d | Says d false s ∧ ¬ Running pre d}

/-- the sum over the services `ss` that follow on `pre` -/
noncomputable def surplus (pre : List Service) : List Service → Int
  | [] => 0
  | s :: ss => needless pre s + surplus (pre ++ [s]) ss

end Soro.Kss
