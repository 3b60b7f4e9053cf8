import Verif.Model.StationRoute

/-
Specification vocabulary for station routes and interlocking routes. Uses the data structures of the model only.
-/

namespace Soro.Route.Spec

/-- the positions `a, ..., b - 1` of station route `s` -/
def span (s a b : Nat) : List (Nat × Nat) := (List.range' a (b - a)).map fun i => (s, i)

/-- the positions (station route, index) that an interlocking route runs over -/
def positions (infra : List SRoute) (ir : IR) : List (Nat × Nat) :=
  ir.srs.zipIdx.flatMap fun x =>
    span x.1 (if x.2 = 0 then ir.start else 0)
      (if x.2 + 1 = ir.srs.length then ir.stop else ((infra[x.1]?).map (·.nodes.length)).getD 0)

/-- the node at index `i` of a station route and whether it is listed as omitted -/
def shown (r : SRoute) (i : Nat) : Option (Nat × Bool) := r.nodes[i]?.map fun n => (n, decide (i ∈ r.omitted))

/-- the same for a position -/
def shownAt (infra : List SRoute) (p : Nat × Nat) : Option (Nat × Bool) := infra[p.1]?.bind fun r => shown r p.2

/-- what a yielded value tells about node and omission -/
def told (x : RNode) : Option (Nat × Bool) := some (x.node, x.omitted)

/-- extra speed limit number `k` belongs to the node at index `p` -/
def LimitAt (r : SRoute) (k p : Nat) : Prop := ∃ n, r.spls[k]? = some n ∧ r.nodes[p]? = some n

/-- the extra speed limits are listed in the order of their nodes, no node occurs twice and none that has a limit is
omitted -/
structure LimitsInOrder (r : SRoute) : Prop where
  nodup : r.nodes.Nodup
  exist : ∀ k < r.spls.length, ∃ p, LimitAt r k p
  incr : ∀ k p k' p', LimitAt r k p → LimitAt r k' p' → k < k' → p < p'
  present : ∀ k p, LimitAt r k p → p ∉ r.omitted

/-- the offsets of an interlocking route are positions of its station routes -/
structure Valid (infra : List SRoute) (ir : IR) : Prop where
  known : ∀ s ∈ ir.srs, s < infra.length
  nonempty : ir.srs ≠ []
  start : ∀ s r, ir.srs.head? = some s → infra[s]? = some r → ir.start ≤ r.nodes.length
  stop : ∀ s r, ir.srs.getLast? = some s → infra[s]? = some r → ir.stop ≤ r.nodes.length
  single : ir.srs.length = 1 → ir.start ≤ ir.stop

end Soro.Route.Spec
