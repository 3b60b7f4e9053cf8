import Verif.Model.OrderingGraph

/-! Specification vocabulary for the ordering graph: trips, their ranges of nodes and start times of usages. -/

namespace Soro.OrderingGraph

/-- the trains that pass the filter and have a main signal -/
def selected (filter : List Nat) (trains : List OTrain) : List OTrain :=
  trains.filter fun t => (decide (filter = []) || decide (t.id ∈ filter)) && decide (t.times ≠ [])

/-- all trips: one per selected train and departure -/
def allTrips (filter : List Nat) (trains : List OTrain) : List (OTrain × Int) :=
  (selected filter trains).flatMap fun t => t.anchors.map fun a => (t, a)

/-- number of routes of the first `j` trips -/
def offset (trips : List (OTrain × Int)) (j : Nat) : Nat := ((trips.take j).map fun t => t.1.path.length).sum

/-- when the `p`-th route of the trip is entered -/
def startTime (tr : OTrain) (anchor : Int) : Nat → Int
  | 0 => anchor + tr.firstDeparture
  | p + 1 => anchor + (tr.times[p]?.getD (0, 0)).1

/-- node `i` stands for route `ir`, the `p`-th one of trip `(tr, a)`, which is the `j`-th trip -/
def IsStep (trips : List (OTrain × Int)) (i j p : Nat) (tr : OTrain) (a : Int) (ir : Nat) : Prop :=
  trips[j]? = some (tr, a) ∧ i = offset trips j + p ∧ tr.path[p]? = some ir

/-- the inputs fit together: one timestamp per main signal, route and exclusion set ids are in range -/
def WellFormed (setCount : Nat) (irsToSets : List (List Nat)) (filter : List Nat) (trains : List OTrain) : Prop :=
  (∀ tr ∈ selected filter trains, tr.path.length = tr.times.length + 1 ∧ ∀ ir ∈ tr.path, ir < irsToSets.length) ∧
  ∀ ks ∈ irsToSets, ∀ k ∈ ks, k < setCount

/-- what is known about the result of `std::sort` by start time -/
def IsSorter (srt : Nat → List Usage → List Usage) : Prop :=
  ∀ k l, (srt k l).Perm l ∧ (srt k l).Pairwise (fun u v => u.frm ≤ v.frm)

end Soro.OrderingGraph
