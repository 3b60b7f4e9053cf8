import Verif.Model.Traversal

/-
Model of `src/simulation/sim_graph.cc`, `include/soro/simulation/sim_graph.h`: nodes and edges of the simulation graph,
`path_exists`, `simulate`.
Node ids are natural numbers (32 bit in the code, not exceeded). The ordering edges (`in_`, `out_`) are not created by the
constructor (commented out, sim_graph.cc:120-149), but the other functions use them: they are part of a node.
`compute_dists` and the constructor of `simulation_result` are not implemented in the code: they are parameters of `simulate`.
-/

namespace Soro.Sim

/-- sim_graph.h:20-47; `INVALID` is `none` -/
structure SimNode where
  id : Nat
  train : Nat
  pred : Option Nat
  succ : Option Nat
  orderIn : List Nat
  orderOut : List Nat
  deriving DecidableEq, Repr

/-- sim_graph.cc:40-48 -/
def SimNode.outs (n : SimNode) : List Nat := n.succ.toList ++ n.orderOut

/-- sim_graph.cc:50-58 -/
def SimNode.ins (n : SimNode) : List Nat := n.pred.toList ++ n.orderIn

/-- the default values of sim_graph.h:37-46 -/
def freshNode (id train : Nat) : SimNode := { id := id, train := train, pred := none, succ := none, orderIn := [], orderOut := [] }

/-- sim_graph.cc:62-66: what the loop over all trains changes: the nodes, and the range of nodes of each train -/
structure Build where
  nodes : List SimNode
  ranges : List (Nat × Nat)

/-- sim_graph.cc:67-105: the three nodes of a train; `none`: its id is out of bounds of `train_to_sim_nodes_` -/
def addTrain (b : Build) (train : Nat) : Option Build :=
  let first := b.nodes.length
  let nodes := b.nodes ++ [freshNode first train]
  let nodes := nodes ++ [freshNode nodes.length train]
  let nodes := nodes ++ [freshNode nodes.length train]
  if train < b.ranges.length then some { nodes := nodes, ranges := b.ranges.set train (first, nodes.length) } else none

/-- sim_graph.cc:110-118: predecessor and successor of a node -/
def connectTrain (ranges : List (Nat × Nat)) (n : SimNode) : Option SimNode :=
  match ranges[n.train]? with
  | none => none
  | some r => some { n with pred := if n.id ≠ r.1 then some (n.id - 1) else n.pred
                            succ := if n.id ≠ r.2 - 1 then some (n.id + 1) else n.succ }

/-- sim_graph.cc:60-150: all nodes and the ranges; `trains` are the ids of the trains in the timetable -/
def simGraph (trains : List Nat) : Option Build := do
  let b ← trains.foldlM addTrain { nodes := [], ranges := List.replicate trains.length (0, 0) }
  let nodes ← b.nodes.mapM (connectTrain b.ranges)
  some { b with nodes := nodes }

/-- the node with this index, as far as edges are concerned; out of bounds: no edges -/
def outsOf (nodes : List SimNode) (i : Nat) : List Nat := (nodes[i]?.map SimNode.outs).getD []

def insOf (nodes : List SimNode) (i : Nat) : List Nat := (nodes[i]?.map SimNode.ins).getD []

/-- sim_graph.cc:152-168 -/
def pathExists (fuel : Nat) (nodes : List SimNode) (source target : Nat) : Option Bool :=
  Trav.traverse .bfs fuel source (outsOf nodes) (fun _ c _ => (c == target, c == target)) (fun s _ _ => (s, false)) false

section
variable {ρ : Type} (finished : ρ → Nat → Bool) (compute : Nat → ρ → ρ)

/-- sim_graph.cc:26-29 -/
def ready (nodes : List SimNode) (r : ρ) (i : Nat) : Bool := (insOf nodes i).all (finished r)

/-- `std::set::emplace` -/
def emplace (x : Nat) : List Nat → List Nat
  | [] => [x]
  | y :: l => if x < y then x :: y :: l else if x = y then y :: l else y :: emplace x l

/-- sim_graph.cc:203-209 -/
def initialTodo (nodes : List SimNode) (r : ρ) : List Nat :=
  nodes.foldl (fun todo n => if finished r n.id then todo else if ready finished nodes r n.id then emplace n.id todo else todo) []

/-- sim_graph.cc:216-220 -/
def addReady (nodes : List SimNode) (r : ρ) (i : Nat) (todo : List Nat) : List Nat :=
  (outsOf nodes i).foldl (fun todo o => if ready finished nodes r o then emplace o todo else todo) todo

/-- sim_graph.cc:211-221: also returns the nodes in the order in which they were computed; `none`: fuel used up -/
def simLoop (nodes : List SimNode) : Nat → List Nat → ρ → Option (List Nat × ρ)
  | 0, _, _ => none
  | _ + 1, [], r => some ([], r)
  | fuel + 1, next :: todo, r =>
    let r := compute next r
    (simLoop nodes fuel (addReady finished nodes r next todo) r).map (fun q => (next :: q.1, q.2))

/-- sim_graph.cc:197-224 -/
def simulate (fuel : Nat) (nodes : List SimNode) (init : ρ) : Option (List Nat × ρ) :=
  simLoop finished compute nodes fuel (initialTodo finished nodes init) init

end

end Soro.Sim
