import Verif.Model.Debug
import Verif.Model.OrderingGraph

/-
The construction of the ordering graph and its access functions (`src/simulation/ordering/ordering_graph.cc`) in a build with
assertions. As in `OrderingGraph`, the timestamps are an input; all of them belong to main signals, because only these are
recorded (line 88), so the count of lines 91-93 is their number.
-/

namespace Soro.OrderingGraph
open OGraph Dbg

/-- ordering_graph.cc:135-152: `path_idx` after the loop over pairs of timestamps -/
def pathIdxAfter : List (Int × Int) → Nat → Nat
  | _ :: t' :: ts, i => pathIdxAfter (t' :: ts) (i + 1)
  | _, i => i

/-- ordering_graph.cc:107-170 with the assertion at the end of a trip -/
def addTripD (irsToSets : List (List Nat)) (tr : OTrain) (s : BState) (anchor : Int) : Dbg BState := do
  let s' ← lift (addTrip irsToSets tr s anchor)
  check 170 (pathIdxAfter tr.times 1 = tr.path.length - 1)
  return s'

/-- ordering_graph.cc:83-172 with the assertion on the first trip of a train (lines 90-99) -/
def addTrainD (irsToSets : List (List Nat)) (s : BState) (tr : OTrain) : Dbg BState :=
  if tr.anchors = [] then .ok s
  else check 95 (tr.path.length = tr.times.length + 1) >>= fun _ =>
    if tr.times = [] then .ok s else tr.anchors.foldlM (addTripD irsToSets tr) s

/-- ordering_graph.cc:175-181 -/
def addTrainsD (irsToSets : List (List Nat)) (filter : List Nat) : List OTrain → BState → Dbg BState
  | [], s => .ok s
  | tr :: trs, s =>
    if filter ≠ [] ∧ tr.id ∉ filter then addTrainsD irsToSets filter trs s
    else addTrainD irsToSets s tr >>= addTrainsD irsToSets filter trs

/-- ordering_graph.cc:67-209: the constructor -/
def constructD (srt : Nat → List Usage → List Usage) (setCount : Nat) (irsToSets : List (List Nat)) (filter : List Nat)
    (trains : List OTrain) : Dbg (OGraph × List ((Nat × Int) × (Nat × Nat))) :=
  addTrainsD irsToSets filter trains { nodes := [], orderings := List.replicate setCount [], trips := [], cur := 0 } >>= fun s =>
    lift ((addEdges srt 0 s.orderings s.nodes).bind fun g => (removeTransitive (dedup g)).map fun g' => (g', s.trips))

/-- ordering_graph.cc:211-219 `trip_nodes` -/
def tripNodesD (g : OGraph) (trips : List ((Nat × Int) × (Nat × Nat))) (trip : Nat × Int) : Dbg (List ONode) := do
  check 215 ((trips.find? fun e => e.1 == trip).isSome = true)
  lift (tripNodes g trips trip)

/-- ordering_graph.cc:221-229 `ordering_node::next` -/
def nextD (g : OGraph) (n : ONode) : Dbg ONode := do
  check 223 (n.outs ≠ [])
  let x ← lift (next g n)
  check 225 (x.train = n.train)
  return x

end Soro.OrderingGraph
