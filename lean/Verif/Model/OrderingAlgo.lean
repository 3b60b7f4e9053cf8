import Verif.Model.Traversal

/-
Model of the ordering graph data structure and of the algorithms that run on it:
`include/soro/simulation/ordering/ordering_graph.h`, `src/simulation/ordering/get_cycle.cc`,
`src/simulation/ordering/remove_transitive_edges.cc`, `src/simulation/ordering/check_exclusion_paths.cc`.

Vectors indexed by node id (`depth`, `prev`, `max_depth`, `reachable`) are modelled by functions; the sentinel values
(`INVALID`, `max()`) by `none`. Node ids are natural numbers. `nodes_[i]` with `i` out of range is undefined behaviour in
C++; the graphs in the theorems satisfy `OGraph.Valid` (all listed ids are in range), so it does not occur.
-/

namespace Soro

/-- ordering_graph.h:12-24 -/
structure ONode where
  id : Nat
  ir : Nat
  train : Nat
  ins : List Nat
  outs : List Nat
deriving DecidableEq, Repr

/-- ordering_graph.h:28-44, `nodes_` -/
abbrev OGraph := List ONode

namespace OGraph
open Trav

/-- `og.nodes_[i].out_`, the `get_neighbours` of all traversals (e.g. get_cycle.cc:37-39) -/
def out (g : OGraph) (i : Nat) : List Nat := (g[i]?.map ONode.outs).getD []

/-- `og.nodes_[i].in_` -/
def inn (g : OGraph) (i : Nat) : List Nat := (g[i]?.map ONode.ins).getD []

/-- all ids are in range and node ids are positions -/
def Valid (g : OGraph) : Prop :=
  (∀ i (n : ONode), g[i]? = some n → n.id = i) ∧ (∀ n ∈ g, ∀ j ∈ n.outs, j < g.length) ∧ (∀ n ∈ g, ∀ j ∈ n.ins, j < g.length)

/-- update of a vector entry -/
def upd {β : Type} (f : Nat → β) (i : Nat) (v : β) : Nat → β := fun j => if j = i then v else f j

/-! ### get_cycle.cc -/

/-- get_cycle.cc:13-15 -/
structure CycState where
  depth : Nat → Option Nat
  prev : Nat → Option Nat

/-- get_cycle.cc:19-26 `work_on_node`. (`depth[from]` is always set when it is read; the model reads an unset depth as 0.) -/
def cycNode (s : CycState) (to frm : Nat) : CycState × Bool :=
  if s.depth to = none then
    ({ depth := upd s.depth to (some ((s.depth frm).getD 0 + 1)), prev := upd s.prev to (some frm) }, false)
  else (s, false)

/-- get_cycle.cc:28-35 `work_on_edge` -/
def cycEdge (start : Nat) (s : CycState) (frm to : Nat) : CycState × Bool :=
  if to = start then ({ s with prev := upd s.prev to (some frm) }, true) else (s, false)

/-- get_cycle.cc:50-53: follow `prev` until `start`; `none`: an unset entry is read or the fuel is used up. -/
def back (prev : Nat → Option Nat) (start : Nat) : Nat → Nat → Option (List Nat)
  | 0, _ => none
  | fuel + 1, cur =>
    if cur = start then some []
    else match prev cur with
      | none => none
      | some p => (back prev start fuel p).map (cur :: ·)

/-- get_cycle.cc:9-58 `get_shortest_cycle_from_node`. The outer `none` means non-termination or an invalid access. -/
def shortestCycleFrom (g : OGraph) (start : Nat) : Option (Option (List Nat)) :=
  match traverse .bfs (g.length + 2) start g.out cycNode (cycEdge start)
      { depth := upd (fun _ => none) start (some 0), prev := fun _ => none } with
  | none => none
  | some s =>
    match s.prev start with
    | none => some none
    | some p => (back s.prev start (g.length + 3) p).map fun l => some (start :: l).reverse

/-- get_cycle.cc:60-72 `get_cycles` -/
def getCycles (g : OGraph) : List ONode → Option (List (List Nat))
  | [] => some []
  | n :: ns =>
    match shortestCycleFrom g n.id with
    | none => none
    | some none => getCycles g ns
    | some (some c) => (getCycles g ns).map (c :: ·)

/-- `std::min_element` by size: the first of the shortest lists -/
def minBySize : List (List Nat) → Option (List Nat)
  | [] => none
  | c :: cs =>
    match minBySize cs with
    | none => some c
    | some d => if d.length < c.length then some d else some c

/-- get_cycle.cc:74-83 `get_cycle` -/
def getCycle (g : OGraph) : Option (Option (List Nat)) := (getCycles g g).map minBySize

/-! ### remove_transitive_edges.cc -/

/-- remove_transitive_edges.cc:21-29, both callbacks are the same function up to argument order -/
def deepen (md : Nat → Nat) (frm to : Nat) : Nat → Nat := upd md to (max (md to) (md frm + 1))

/-- remove_transitive_edges.cc:15-43 `get_transitive_edges(og, start)`; `none`: no termination. -/
def transitiveFrom (g : OGraph) (start : ONode) : Option (List (Nat × Nat)) :=
  (traverse .dfs (g.length + 2) start.id g.out
    (fun md to frm => (deepen md frm to, false)) (fun md frm to => (deepen md frm to, false))
    (fun _ => 0)).map fun md =>
      (start.outs.filter fun to => decide (md to > 1)).map fun to => (start.id, to)

/-- remove_transitive_edges.cc:45-53 `get_transitive_edges(og)` -/
def transitiveEdges (g : OGraph) : List ONode → Option (List (Nat × Nat))
  | [] => some []
  | n :: ns => (transitiveFrom g n).bind fun es => (transitiveEdges g ns).map (es ++ ·)

/-- remove_transitive_edges.cc:61 (`utl::erase` removes all equal elements) -/
def eraseOut (g : OGraph) (e : Nat × Nat) : OGraph :=
  g.modify e.1 fun n => { n with outs := n.outs.filter (· != e.2) }

/-- remove_transitive_edges.cc:62 -/
def eraseIn (g : OGraph) (e : Nat × Nat) : OGraph :=
  g.modify e.2 fun n => { n with ins := n.ins.filter (· != e.1) }

/-- remove_transitive_edges.cc:55-64 `remove_transitive_edges` -/
def removeTransitive (g : OGraph) : Option OGraph :=
  (transitiveEdges g g).map fun es => es.foldl (fun g e => eraseIn (eraseOut g e) e) g

/-! ### check_exclusion_paths.cc -/

/-- check_exclusion_paths.cc:10-27 `get_reachable_nodes` -/
def reachableNodes (g : OGraph) (start : Nat) : Option (Nat → Bool) :=
  traverse .bfs (g.length + 2) start g.out (fun r to _ => (upd r to true, false)) (fun r _ _ => (r, false))
    (upd (fun _ => false) start true)

/-- check_exclusion_paths.cc:29-50 `path_exists` -/
def pathExists (g : OGraph) (start target : Nat) : Option Bool :=
  traverse .bfs (g.length + 2) start g.out (fun r to _ => if to = target then (true, true) else (r, false))
    (fun r _ _ => (r, false)) false

/-- check_exclusion_paths.cc:52-63 `get_exclusions`; `members s` are the routes of exclusion set `s`. -/
def exclusions (irToSets : Nat → List Nat) (members : Nat → List Nat) (ir : Nat) : Nat → Bool :=
  ((irToSets ir).flatMap members).foldl (fun e i => upd e i true) (fun _ => false)

/-- `utls::all_of` with a predicate that may fail to terminate -/
def allM (p : ONode → Option Bool) : List ONode → Option Bool
  | [] => some true
  | n :: ns => (p n).bind fun b => if b then allM p ns else some false

/-- check_exclusion_paths.cc:65-95 `has_exclusion_paths(og, start, infra)`. (The id of `routes_[i]` is `i`.) -/
def hasExclusionPathsFrom (g : OGraph) (irToSets members : Nat → List Nat) (start : ONode) : Option Bool :=
  (reachableNodes g start.id).bind fun reachable =>
    allM (fun target =>
      if start.id = target.id then some true
      else if exclusions irToSets members start.ir target.ir then
        if reachable target.id then some true else pathExists g target.id start.id
      else some true) g

/-- check_exclusion_paths.cc:97-102 `has_exclusion_paths(og, infra)` -/
def hasExclusionPaths (g : OGraph) (irToSets members : Nat → List Nat) : Option Bool :=
  allM (hasExclusionPathsFrom g irToSets members) g

end OGraph
end Soro
