import Verif.Model.ExclElements
import Verif.Model.Exclusion
import Verif.Model.ExclusionSetDebug
import Verif.Model.HasCycle

/-
The exclusion data of an infrastructure (`src/infrastructure/exclusion/exclusion_elements.cc`, `get_exclusion.cc`,
`get_exclusion_graph.cc`) and `utls::has_cycle` (`include/soro/utls/graph/has_cycle.h`) in a build with assertions. Sections
(`section.cc`) make no assertions; those of the iteration of a route are in `InterlockingDebug`.
-/

namespace Soro.Infra
open Dbg

/-- exclusion_elements.cc:52-67, one node -/
def useSectionD (ids : Nat → List Nat) (used : List Nat) (e : Item) : Dbg (List Nat) :=
  if !e.ty.isTrack then .ok used
  else check 60 ((ids e.id).length = 1) >>= fun _ => lift (useSection ids used e)

/-- exclusion_elements.cc:49-70 -/
def usedSectionsD (ids : Nat → List Nat) (route : List Item) : Dbg (List Nat) := route.foldlM (useSectionD ids) []

/-- exclusion_elements.cc:96-148; there are no assertions after line 103 -/
def exclusionElementsD (sections : List Section) (ids : Nat → List Nat) (route : List Item) : Dbg (List Nat) :=
  usedSectionsD ids route >>= fun used =>
    check 103 (used ≠ []) >>= fun _ => lift (exclusionElements sections ids route)

/-- exclusion_elements.cc:150-155, release build -/
def closedElements (sections : List Section) (ids : Nat → List Nat) (routes : List (List Item)) : Option (List (List Nat)) :=
  routes.mapM (exclusionElements sections ids)

/-- exclusion_elements.cc:150-155 -/
def closedElementsD (sections : List Section) (ids : Nat → List Nat) (routes : List (List Item)) : Dbg (List (List Nat)) :=
  routes.mapM (exclusionElementsD sections ids)

end Soro.Infra

namespace Soro.Exclusion
open Dbg Algo

/-- get_exclusion.cc:78-97 -/
def combineD (elementCount T : Nat) (s : UState) : Dbg (List (List Nat)) :=
  check 94 ((combine elementCount T s).length = elementCount) >>= fun _ => .ok (combine elementCount T s)

/-- get_exclusion_graph.cc:36-61 -/
def exclusionNodeD (ch : Nat → Nat) (closed usedBy : List (List Nat)) (firstNode lastNode : Nat → Nat)
    (startingAt endingAt : Nat → List Nat) (ir : Nat) : Dbg ES :=
  let ranges := (closed[ir]?.getD []).map fun e => usedBy[e]?.getD []
  lift (multiSetMerge ch ranges) >>= fun merged =>
    let remove := eraseDup (startingAt (lastNode ir) ++ endingAt (firstNode ir))
    ES.makeD INVALID (setDifference merged remove)

/-- get_exclusion_graph.cc:14-64 -/
def exclusionGraphD (ch : Nat → Nat → Nat) (closed usedBy : List (List Nat)) (firstNode lastNode : Nat → Nat)
    (startingAt endingAt : Nat → List Nat) : Dbg (List ES) :=
  check 22 (usedBy.all isSorted = true) >>= fun _ =>
  check 26 (closed.all isSorted = true) >>= fun _ =>
  (List.range closed.length).mapM fun ir => exclusionNodeD (ch ir) closed usedBy firstNode lastNode startingAt endingAt ir

end Soro.Exclusion

namespace Soro.HasCycle
open Dbg

/-- has_cycle.h:14-55 -/
def hasCycleD (n : Nat) (nbrs : Nat → List Nat) : Dbg Bool :=
  lift (implAll nbrs (n + 1) (List.range n) { visited := [], finished := [] }) >>= fun r =>
    check 51 (r.1 = true ∨ (∀ i ∈ List.range n, i ∈ r.2.visited) ∧ ∀ i ∈ List.range n, i ∈ r.2.finished) >>= fun _ => .ok r.1

end Soro.HasCycle
