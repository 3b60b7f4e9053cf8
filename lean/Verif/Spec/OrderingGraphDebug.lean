import Verif.Spec.Ordering

/-! Specification vocabulary for the assertions of the ordering graph. -/

namespace Soro.OrderingGraph

/-- The train is requested and departs in the requested interval. -/
def Used (filter : List Nat) (tr : OTrain) : Prop := (filter = [] ∨ tr.id ∈ filter) ∧ tr.anchors ≠ []

/-- One more interlocking route than there are timestamps of main signals. -/
def Fits (tr : OTrain) : Prop := tr.path.length = tr.times.length + 1

instance (tr : OTrain) : Decidable (Fits tr) := inferInstanceAs (Decidable (_ = _))

/-- All ids of interlocking routes and exclusion sets are in range. -/
def InRange (setCount : Nat) (irsToSets : List (List Nat)) (trains : List OTrain) : Prop :=
  (∀ tr ∈ trains, ∀ ir ∈ tr.path, ir < irsToSets.length) ∧ ∀ ks ∈ irsToSets, ∀ k ∈ ks, k < setCount

end Soro.OrderingGraph
