import Verif.Model.Interlocking
import Verif.Spec.Route
import Verif.Spec.Graph

/-
Specification vocabulary for the generated interlocking routes.
-/

namespace Soro.Interlocking.Spec

open Route Route.Spec

/-- station route `q` follows station route `p`: it belongs to the station behind `p` and starts at the element behind its last node -/
def FollowedBy (w : World) (p q : Nat) : Prop :=
  ∃ sr last st b qr first, w.routes[p]? = some sr ∧ isIn w.kind sr = some false ∧ sr.nodes.getLast? = some last ∧
    w.kind last ≠ .trackEnd ∧ w.toStation p = some st ∧ w.next last = some b ∧ q ∈ w.ofStation st ∧
    w.routes[q]? = some qr ∧ qr.nodes.head? = some first ∧ w.el first = w.el b

/-- index `i` of station route `s` holds a main signal -/
def Signal (infos : List Info) (s i : Nat) : Prop := ∃ x, infos[s]? = some x ∧ i ∈ x.signals

/-- the description of the station routes is consistent -/
structure WellFormed (infra : List SRoute) (infos : List Info) (g : SRG) : Prop where
  sizes : infos.map (·.size) = infra.map (·.nodes.length)
  nonempty : ∀ i ∈ infos, 0 < i.size
  sorted : ∀ i ∈ infos, i.signals.Pairwise (· < ·)
  inside : ∀ i ∈ infos, ∀ s ∈ i.signals, s < i.size
  length : g.succs.length = infos.length
  known : ∀ l ∈ g.succs, ∀ s ∈ l, s < infos.length

/-- A signal to signal route: a chain of station routes, each a successor of the previous one, which
starts at a main signal or at the front of a station route without predecessors,
ends at a main signal or at the end of a station route without successors,
and has no main signal strictly inside. -/
structure SignalRoute (infra : List SRoute) (infos : List Info) (g : SRG) (ir : IR) : Prop where
  chain : ∃ f rest, ir.srs = f :: rest ∧ f < infos.length ∧ Follows g.succ f rest
  start : ∀ f, ir.srs.head? = some f → Signal infos f ir.start ∨ ir.start = 0 ∧ g.pred f = []
  stop : ∀ l, ir.srs.getLast? = some l → ∃ e, ir.stop = e + 1 ∧
    (Signal infos l e ∨ infra[l]?.map (·.nodes.length) = some ir.stop ∧ g.succ l = [])
  forward : ir.srs.length = 1 → ir.start < ir.stop
  clear : ∀ p ∈ (positions infra ir).tail.dropLast, ¬ Signal infos p.1 p.2

/-- no station route of the interlocking route can be used with ETCS only -/
def NoEtcs (infos : List Info) (ir : IR) : Prop := ∀ s ∈ ir.srs, ∀ i, infos[s]? = some i → i.etcs = false

/-- the infrastructure an interlocking is made for is consistent: station routes are numbered, acyclic, predecessors and
successors agree, nodes and stations have ids below their number -/
structure Consistent (p : Plan) : Prop where
  wf : WellFormed p.srs p.infos p.graph
  acyclic : Acyclic p.graph.succ
  preds : ∀ a b, a ∈ p.graph.pred b ↔ b ∈ p.graph.succ a
  nodes : ∀ r ∈ p.srs, ∀ n ∈ r.nodes, n < p.nodeCount
  stations : ∀ s < p.srs.length, p.station s < p.stationCount

/-- the routes `l` are numbered by position, and every index structure of an interlocking finds exactly the routes it is for -/
structure Indexed (p : Plan) (l : List IR) (w : Whole) : Prop where
  ids : ∀ k : Nat, w.routes[k]? = l[k]?.map fun ir => (k, ir)
  starting : ∀ n id : Nat, (∃ b, w.startingAt[n]? = some b ∧ id ∈ b) ↔ ∃ ir, l[id]? = some ir ∧ ir.firstNode p.srs = some n
  ending : ∀ n id : Nat, (∃ b, w.endingAt[n]? = some b ∧ id ∈ b) ↔ ∃ ir, l[id]? = some ir ∧ ir.lastNode p.srs = some n
  uses : ∀ s id : Nat, (∃ b, w.participating[s]? = some b ∧ id ∈ b) ↔ ∃ ir, l[id]? = some ir ∧ s ∈ ir.srs
  visits : ∀ t id : Nat, (∃ b, w.stations[t]? = some b ∧ id ∈ b) ↔ ∃ ir, l[id]? = some ir ∧ ∃ s ∈ ir.srs, p.station s = t
  halts : ∀ n id : Nat, (∃ b, w.haltingAt[n]? = some b ∧ id ∈ b) ↔ ∃ ir, l[id]? = some ir ∧ ∃ (s i : Nat) (r : SRoute), (s, i) ∈ positions p.srs ir ∧
    (p.passenger s = some i ∨ p.freight s = some i) ∧ p.srs[s]? = some r ∧ r.nodes[i]? = some n

end Soro.Interlocking.Spec
