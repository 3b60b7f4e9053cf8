import Verif.Model.Trip
import Verif.Spec.Interlocking
import Verif.Spec.Train
import Verif.Spec.Runtime
import Verif.Spec.Ordering

/-
Specification vocabulary for trips whose times are calculated.
-/

namespace Soro.Trip.Spec
open Soro.Route Soro.Route.Spec Soro.Runtime

/-- at this position there is a main signal that is not omitted -/
def SignalAt (i : Train.Infra) (f : Facts) (p : Nat × Nat) : Prop :=
  ∃ n, shownAt i.routes p = some (n, false) ∧ f.kind n = .mainSignal

/-- the main signals known to the interlocking are those a train sees -/
def SameSignals (i : Train.Infra) (f : Facts) (infos : List Interlocking.Info) : Prop :=
  ∀ s k, Interlocking.Spec.Signal infos s k ↔ SignalAt i f (s, k)

/-- the train runs from a halt to a halt over signal to signal routes that meet at main signals -/
structure Routed (i : Train.Infra) (f : Facts) (infos : List Interlocking.Info) (g : Interlocking.SRG) (t : Train.Train)
    (p q : Nat × Nat) : Prop where
  noBreakIn : t.breakIn = false
  noBreakOut : t.breakOut = false
  routes : ∀ ir ∈ t.path, Interlocking.Spec.SignalRoute i.routes infos g ir
  two : ∀ ir ∈ t.path, 2 ≤ (positions i.routes ir).length
  meet : ∀ ir ∈ t.path.dropLast, ∀ x, (positions i.routes ir).getLast? = some x → SignalAt i f x
  startHalt : ¬ SignalAt i f p
  stopHalt : ¬ SignalAt i f q

end Soro.Trip.Spec
