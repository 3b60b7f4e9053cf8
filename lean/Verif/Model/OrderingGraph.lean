import Verif.Model.Algo
import Verif.Model.OrderingAlgo

/-
Model of the construction of the ordering graph (`src/simulation/ordering/ordering_graph.cc`).

Inputs are, per train, what the constructor reads: id, path (ids of the interlocking routes), `departures(interval)`, first
departure, last arrival, and the timestamps of the running time calculation (arrival, departure), all times in seconds.
`none` is undefined behaviour: a read or write out of range.

Not modelled: the running time calculation itself, 32-bit wrap-around of node ids, logging. The result of `std::sort` is
determined up to the order of usages with the same start, so the sorter is a parameter.
-/

namespace Soro.OrderingGraph

open OGraph

/-- the parts of `tt::train` used, with the result of lines 86 and 88 -/
structure OTrain where
  id : Nat
  path : List Nat
  anchors : List Int
  firstDeparture : Int
  lastArrival : Int
  times : List (Int × Int)
deriving Repr

/-- ordering_graph.cc:57-61 -/
structure Usage where
  frm : Int
  to : Int
  id : Nat
deriving DecidableEq, Repr

/-- `ordering_node::INVALID`, `interlocking_route::INVALID`, `train::INVALID` -/
def INVALID : Nat := 2 ^ 32 - 1

/-- ordering_graph.h:18-23, a default constructed node -/
def defaultNode : ONode := ⟨INVALID, INVALID, INVALID, [], []⟩

/-- what the constructor builds up: `nodes_`, `orderings`, `trip_to_nodes_` and `glob_current_node_id` -/
structure BState where
  nodes : List ONode
  orderings : List (List Usage)
  trips : List ((Nat × Int) × (Nat × Nat))
  cur : Nat

/-- ordering_graph.cc:76-81, the loop over the exclusion sets of the route -/
def pushSets (u : Usage) : List Nat → List (List Usage) → Option (List (List Usage))
  | [], os => some os
  | k :: ks, os => if k < os.length then pushSets u ks (os.modify k (· ++ [u])) else none

/-- ordering_graph.cc:136-152: the routes between two main signals. `pathIdx` and `id` are the running counters. -/
def midOps (tr : OTrain) (anchor : Int) : List (Int × Int) → Nat → Nat → Option (List (ONode × Usage))
  | t :: t' :: ts, pathIdx, id =>
    match tr.path[pathIdx]? with
    | none => none
    | some ir =>
      (midOps tr anchor (t' :: ts) (pathIdx + 1) (id + 1)).map fun l =>
        (⟨id, ir, tr.id, [id - 1], [id + 1]⟩, ⟨anchor + t.1, anchor + t.2, id⟩) :: l
  | _, _, _ => some []

/-- ordering_graph.cc:118-169: nodes and usages of one trip, starting with node id `id` -/
def tripOps (tr : OTrain) (anchor : Int) (id : Nat) : Option (List (ONode × Usage)) :=
  match tr.path.head?, tr.path.getLast?, tr.times.head?, tr.times.getLast? with
  | some irFirst, some irLast, some tFirst, some tLast =>
    (midOps tr anchor tr.times 1 (id + 1)).map fun mid =>
      let lastId := id + 1 + mid.length
      (⟨id, irFirst, tr.id, [], [id + 1]⟩, ⟨anchor + tr.firstDeparture, anchor + tFirst.1, id⟩) :: mid ++
        [(⟨lastId, irLast, tr.id, [lastId - 1], []⟩, ⟨anchor + tLast.1, anchor + tr.lastArrival, lastId⟩)]
  | _, _, _, _ => none

/-- ordering_graph.cc:119-130 (and alike 137-148, 155-166): store a node, register its usage -/
def applyOp (irsToSets : List (List Nat)) (s : BState) (op : ONode × Usage) : Option BState :=
  if op.1.id < s.nodes.length then
    match irsToSets[op.1.ir]? with
    | none => none
    | some ks => (pushSets op.2 ks s.orderings).map fun os =>
        { s with nodes := s.nodes.set op.1.id op.1, orderings := os }
  else none

/-- all operations, in order -/
def applyOps (irsToSets : List (List Nat)) : List (ONode × Usage) → BState → Option BState
  | [], s => some s
  | op :: ops, s => (applyOp irsToSets s op).bind (applyOps irsToSets ops)

/-- `std::map::emplace` does not overwrite -/
def emplaceTrip (m : List ((Nat × Int) × (Nat × Nat))) (k : Nat × Int) (v : Nat × Nat) :
    List ((Nat × Int) × (Nat × Nat)) :=
  if m.any (fun e => e.1 == k) then m else m ++ [(k, v)]

/-- ordering_graph.cc:107-170: one trip -/
def addTrip (irsToSets : List (List Nat)) (tr : OTrain) (s : BState) (anchor : Int) : Option BState :=
  let s1 : BState :=
    { nodes := s.nodes ++ List.replicate tr.path.length defaultNode
      orderings := s.orderings
      trips := emplaceTrip s.trips (tr.id, anchor) (s.cur, s.cur + tr.path.length)
      cur := s.cur + tr.path.length }
  (tripOps tr anchor s.cur).bind fun ops => applyOps irsToSets ops s1

/-- ordering_graph.cc:83-172 `generate_route_orderings`; without timestamps nothing is done. -/
def addTrain (irsToSets : List (List Nat)) (s : BState) (tr : OTrain) : Option BState :=
  if tr.times = [] then some s else tr.anchors.foldlM (addTrip irsToSets tr) s

/-- ordering_graph.cc:175-181; `filter` is `filter.trains_` -/
def addTrains (irsToSets : List (List Nat)) (filter : List Nat) : List OTrain → BState → Option BState
  | [], s => some s
  | tr :: trs, s =>
    if filter ≠ [] ∧ tr.id ∉ filter then addTrains irsToSets filter trs s
    else (addTrain irsToSets s tr).bind (addTrains irsToSets filter trs)

/-- ordering_graph.cc:196-197; `none`: id out of range -/
def addEdge (g : OGraph) (a b : Nat) : Option OGraph :=
  if a < g.length ∧ b < g.length then
    some ((g.modify a fun n => { n with outs := n.outs ++ [b] }).modify b fun n => { n with ins := n.ins ++ [a] })
  else none

/-- ordering_graph.cc:191-198: edges between consecutive usages -/
def chainEdges : List Usage → OGraph → Option OGraph
  | u :: v :: us, g => (addEdge g u.id v.id).bind (chainEdges (v :: us))
  | _, g => some g

/-- ordering_graph.cc:183-199: sort every ordering, then add the edges. `srt k` sorts ordering `k`. -/
def addEdges (srt : Nat → List Usage → List Usage) : Nat → List (List Usage) → OGraph → Option OGraph
  | _, [], g => some g
  | k, o :: os, g => (chainEdges (srt k o) g).bind (addEdges srt (k + 1) os)

/-- ordering_graph.cc:201-204 -/
def dedup (g : OGraph) : OGraph :=
  g.map fun n => { n with outs := Algo.eraseDup n.outs, ins := Algo.eraseDup n.ins }

/-- ordering_graph.cc:71-181: nodes and usages -/
def generate (setCount : Nat) (irsToSets : List (List Nat)) (filter : List Nat) (trains : List OTrain) : Option BState :=
  addTrains irsToSets filter trains { nodes := [], orderings := List.replicate setCount [], trips := [], cur := 0 }

/-- ordering_graph.cc:67-204: the graph before transitive edges are removed, and the trip index -/
def preGraph (srt : Nat → List Usage → List Usage) (setCount : Nat) (irsToSets : List (List Nat)) (filter : List Nat)
    (trains : List OTrain) : Option (OGraph × List ((Nat × Int) × (Nat × Nat))) :=
  (generate setCount irsToSets filter trains).bind fun s =>
    (addEdges srt 0 s.orderings s.nodes).map fun g => (dedup g, s.trips)

/-- ordering_graph.cc:67-209: the constructor -/
def construct (srt : Nat → List Usage → List Usage) (setCount : Nat) (irsToSets : List (List Nat)) (filter : List Nat)
    (trains : List OTrain) : Option (OGraph × List ((Nat × Int) × (Nat × Nat))) :=
  (preGraph srt setCount irsToSets filter trains).bind fun p => (removeTransitive p.1).map fun g => (g, p.2)

/-- ordering_graph.cc:211-219 `trip_nodes`; `none`: unknown trip or invalid range (undefined in release builds) -/
def tripNodes (g : OGraph) (trips : List ((Nat × Int) × (Nat × Nat))) (trip : Nat × Int) : Option (List ONode) :=
  match trips.find? fun e => e.1 == trip with
  | none => none
  | some e => if e.2.1 ≤ e.2.2 ∧ e.2.2 ≤ g.length then some ((g.drop e.2.1).take (e.2.2 - e.2.1)) else none

/-- ordering_graph.cc:221-229 `ordering_node::next` (the asserts are not active in release builds) -/
def next (g : OGraph) (n : ONode) : Option ONode := n.outs.head?.bind fun i => g[i]?

end Soro.OrderingGraph
