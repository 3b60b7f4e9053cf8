import Verif.Model.Train
import Verif.Model.Runtime
import Verif.Model.OrderingGraph

/-
Model of how the ordering graph gets its times: `runtime_calculation(train, infra, {type::MAIN_SIGNAL})`
(src/simulation/ordering/ordering_graph.cc:83-105), put together from the iteration of a train (`Train`), the running time
calculation (`Runtime`) and the construction of the graph (`OrderingGraph`).

The nodes of the network are given by functions: type, distance of an element to the element before, speed limits. The speed
limit before the first node is a parameter of the train.
-/

namespace Soro.Trip
open Soro.Route Soro.Runtime

/-- what the running time calculation reads about nodes -/
structure Facts where
  kind : Nat → Kind
  /-- distance from the element of the first node to the element of the second one -/
  gap : Nat → Nat → Rat
  /-- the speed limit at a node -/
  spl : Nat → Option Limit
  /-- the extra speed limit with this index at a node -/
  extra : Nat → Nat → Option Limit

/-- a train of the timetable: what the constructor reads, `path` are the ids of the routes in `train.path` -/
structure Schedule where
  id : Nat
  path : List Nat
  train : Train.Train
  anchors : List Int
  start : Nat
  lastArrival : Nat
  physics : Physics.Train
  initial : Rat
  /-- stop time and departure of the sequence point with this index -/
  halts : Nat → Halt

/-- train.cc:19-21 and interval.cc:191-226: what the calculation sees of a node; `prev` is the node before -/
def tnode (f : Facts) (s : Schedule) (prev : Nat) (x : RNode × Option Nat) : TNode :=
  { id := x.1.node
    gap := f.gap prev x.1.node
    omitted := x.1.omitted || (decide (f.kind x.1.node = .halt) && x.2.isNone)
    mainSignal := decide (f.kind x.1.node = .mainSignal)
    halt := decide (f.kind x.1.node = .halt)
    isEvent := decide (f.kind x.1.node = .mainSignal)
    spl := f.spl x.1.node
    extra := x.1.extra.bind (f.extra x.1.node)
    stop := x.2.bind fun k => s.train.points[k]?.bind fun p => if p.isHalt then some (s.halts k) else none }

/-- interval.cc:190-192: all nodes -/
def tnodes (f : Facts) (s : Schedule) : Nat → List (RNode × Option Nat) → List TNode
  | _, [] => []
  | prev, x :: l => tnode f s prev x :: tnodes f s x.1.node l

/-- interval.cc:181-190: the nodes from the start node on -/
def nodesOf (i : Train.Infra) (f : Facts) (s : Schedule) : Option (List TNode) :=
  (Train.startNode i s.train).bind fun n => (Train.iterate i s.train).map (tnodes f s n)

/-- ordering_graph.cc:88 -/
def timesOf (fuel : Nat) (i : Train.Infra) (f : Facts) (s : Schedule) : Physics.Outcome (List Stamp) :=
  match nodesOf i f s with
  | none => .bad
  | some nodes => runtime fuel s.physics s.start s.initial nodes

/-- ordering_graph.cc:83-105: without departures nothing is calculated -/
def orderTrain (fuel : Nat) (i : Train.Infra) (f : Facts) (s : Schedule) : Physics.Outcome OrderingGraph.OTrain :=
  let make (times : List (Int × Int)) : OrderingGraph.OTrain :=
    { id := s.id, path := s.path, anchors := s.anchors, firstDeparture := s.start, lastArrival := s.lastArrival, times := times }
  if s.anchors = [] then .done (make [])
  else (timesOf fuel i f s).map fun l => make (l.map fun x => ((x.arrival : Int), (x.departure : Int)))

/-- the trains one after the other -/
def orderTrains (fuel : Nat) (i : Train.Infra) (f : Facts) : List Schedule → Physics.Outcome (List OrderingGraph.OTrain)
  | [] => .done []
  | s :: l => (orderTrain fuel i f s).bind fun t => (orderTrains fuel i f l).map fun ts => t :: ts

/-- ordering_graph.cc:67-209 with the running times calculated; `none` in the result is undefined behaviour -/
def graphOf (fuel : Nat) (i : Train.Infra) (f : Facts) (srt : Nat → List OrderingGraph.Usage → List OrderingGraph.Usage)
    (setCount : Nat) (irsToSets : List (List Nat)) (filter : List Nat) (trains : List Schedule) :
    Physics.Outcome (Option (OGraph × List ((Nat × Int) × (Nat × Nat)))) :=
  (orderTrains fuel i f (trains.filter fun s => decide (filter = []) || decide (s.id ∈ filter))).map fun ts =>
    OrderingGraph.construct srt setCount irsToSets filter ts

end Soro.Trip
