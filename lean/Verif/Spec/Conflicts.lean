import Verif.Model.Conflicts
import Verif.Spec.ExclElements
import Verif.Spec.Ordering
import Verif.Spec.Cliques

/-
Vocabulary: routes over the network, conflicts between routes, cliques that cover the exclusion graph.
-/

namespace Soro.Conflicts.Spec
open Infra Infra.Spec

/-- the routes run along sections of the network, `legs` says how; every section driven along has a track element for this
direction; the lookup tables fit -/
structure Sound (x : Input) (legs : Nat → List Leg) : Prop where
  drives : ∀ (u : Nat) r, x.routes[u]? = some r → Drives x.sections x.ids (legs u) r
  visible : ∀ (u : Nat) r, x.routes[u]? = some r → ∀ g ∈ legs u, ∃ e ∈ g.range, Facing g.up e = true
  single : ∀ (u : Nat) r, x.routes[u]? = some r → ∀ g a b, legs u = [g] → g.range.head? = some a → g.range.getLast? = some b →
    a.ty.isTrack = true ∨ b.ty.isTrack = true ∨ g.up = true
  count : ∀ (u : Nat) r, x.routes[u]? = some r → ∀ g ∈ legs u, ∀ e ∈ g.range, e.id < x.elementCount
  starting : ∀ n r, r ∈ x.startingAt n ↔ r < x.routes.length ∧ x.firstNode r = n
  ending : ∀ n r, r ∈ x.endingAt n ↔ r < x.routes.length ∧ x.lastNode r = n
  size : x.routes.length ≤ 2 ^ 32 - 64

/-- both routes drive over the same switch, crossing, signal, halt or end of track, and none starts where the other one ends -/
def Conflict (x : Input) (legs : Nat → List Leg) (u v : Nat) : Prop :=
  u < x.routes.length ∧ v < x.routes.length ∧
  (∃ e : Item, Conflicting e.ty ∧ (∃ g ∈ legs u, e ∈ g.range) ∧ ∃ g ∈ legs v, e ∈ g.range) ∧
  x.firstNode v ≠ x.lastNode u ∧ x.lastNode v ≠ x.firstNode u

/-- any two routes that exclude each other according to the graph are in a clique, and so is every route that excludes itself -/
def Covers (graph : List ES) (cs : List (List Nat)) : Prop :=
  ∀ (u v : Nat) n, graph[u]? = some n → n.idx v = true → ∃ c ∈ cs, u ∈ c ∧ v ∈ c

/-- as `Covers`, but for pairs of different routes, which are the edges of the exported graph -/
def CoversPairs (graph : List ES) (cs : List (List Nat)) : Prop :=
  ∀ (u v : Nat) n, graph[u]? = some n → n.idx v = true → u ≠ v → ∃ c ∈ cs, u ∈ c ∧ v ∈ c

end Soro.Conflicts.Spec
