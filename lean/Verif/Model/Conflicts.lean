import Verif.Model.ExclElements
import Verif.Model.Cliques

/-
Model of `get_closed_exclusion_elements` (src/infrastructure/exclusion/exclusion_elements.cc:150-155) and of the whole of
`get_exclusion` (src/infrastructure/exclusion/get_exclusion.cc:100-128) with both options on: from the sections of the network
and the routes to the exclusion sets. Put together from the parts in `ExclElements`, `Exclusion` and `Cliques`.
-/

namespace Soro.Conflicts
open Infra

/-- what `get_exclusion` reads: the sections of the network, the sections of each element, the elements of each route,
the first and the last node of a route, and the routes that start or end at a node -/
structure Input where
  sections : List Section
  ids : Nat → List Nat
  routes : List (List Item)
  elementCount : Nat
  firstNode : Nat → Nat
  lastNode : Nat → Nat
  startingAt : Nat → List Nat
  endingAt : Nat → List Nat

/-- exclusion_elements.cc:150-155 -/
def closedElements (x : Input) : Option (List (List Nat)) := x.routes.mapM (exclusionElements x.sections x.ids)

/-- get_exclusion.cc:100-128 with both options; `T` threads that take turns as in `sched`, the heap choices `ch` as in
`Exclusion.exclusionGraph`; `none`: undefined behaviour, or the threads are not finished after `sched` -/
def exclusionOf (ch : Nat → Nat → Nat) (T : Nat) (sched : List Nat) (x : Input) (file : Option TypeNames.Text) :
    Option Cliques.Data :=
  (closedElements x).bind fun closed =>
  (Exclusion.runThreads x.elementCount sched (Exclusion.initThreads closed T)).bind fun s =>
  if Exclusion.finished s then
    Cliques.getExclusion true true (Exclusion.exclusionGraph ch closed (Exclusion.combine x.elementCount T s) x.firstNode
      x.lastNode x.startingAt x.endingAt) file x.routes.length
  else none

end Soro.Conflicts
