import Verif.Spec.Graph
import Verif.Model.SimGraph

/-
What is said about the simulation graph.
-/

namespace Soro.Sim.Spec

/-- the nodes an edge leads to, along the train or by the order of trains -/
def next (nodes : List SimNode) (i : Nat) : List Nat :=
  match nodes[i]? with
  | none => []
  | some n => match n.succ with
    | none => n.orderOut
    | some s => s :: n.orderOut

/-- the nodes a node waits for -/
def waits (nodes : List SimNode) (i : Nat) : List Nat :=
  match nodes[i]? with
  | none => []
  | some n => match n.pred with
    | none => n.orderIn
    | some p => p :: n.orderIn

/-- the nodes are numbered and their edges are kept at both ends -/
structure WellFormed (nodes : List SimNode) : Prop where
  ids : ∀ (i : Nat) (n : SimNode), nodes[i]? = some n → n.id = i
  both : ∀ i j, j ∈ next nodes i ↔ i ∈ waits nodes j
  inside : ∀ i j, j ∈ next nodes i → j < nodes.length

/-- in `order` every node comes behind those it waits for, unless they were finished before -/
def Scheduled (nodes : List SimNode) (before : Nat → Bool) (order : List Nat) : Prop :=
  ∀ pre x post, order = pre ++ x :: post → before x = false ∧ ∀ p ∈ waits nodes x, before p = true ∨ p ∈ pre

/-- the nodes finished at first wait for no others -/
def Closed (nodes : List SimNode) (before : Nat → Bool) : Prop :=
  ∀ i, before i = true → ∀ p ∈ waits nodes i, before p = true

end Soro.Sim.Spec
