import Verif.Model.Transform
import Verif.Spec.Train
import Mathlib.Data.List.Chain

/-
Specification vocabulary for the transformation of station routes to interlocking routes.
-/

namespace Soro.Transform.Spec
open Soro.Route Soro.Train

/-- route `b` starts where route `a` ends -/
def Joins (i : Infra) (k : Ilk) (a b : Nat) : Prop :=
  ∃ ra rb n, k.routes[a]? = some ra ∧ k.routes[b]? = some rb ∧ ra.lastNode i.routes = some n ∧ rb.firstNode i.routes = some n

/-- the station routes of a route -/
def srsAt (k : Ilk) (id : Nat) : List Nat := (k.routes[id]?.map IR.srs).getD []

/-- the station routes a path runs over; a route starts in the station route in which its predecessor ended, which counts
once -/
def merged (k : Ilk) : List Nat → List Nat
  | [] => []
  | id :: ids => srsAt k id ++ ids.flatMap fun b => (srsAt k b).tail

/-- conditions on the routes of the resulting path under which it covers the plan -/
structure Stays (i : Infra) (k : Ilk) (plan path : List Nat) : Prop where
  /-- every route starts in the station route in which its predecessor ended -/
  next : path.IsChain fun a b => ∀ ra rb, k.routes[a]? = some ra → k.routes[b]? = some rb → rb.srs.head? = ra.srs.getLast?
  /-- no later route turns off the plan -/
  later : ∀ b ∈ path.tail, ∀ r, k.routes[b]? = some r → ∀ o, plan[o]? = r.srs.head? → r.srs <+: plan.drop o ∨ plan.drop o <+: r.srs
  /-- no route ends at the very last node of a planned station route other than the last one -/
  ends : ∀ b ∈ path, ∀ r, k.routes[b]? = some r → ∀ o s sr, o + 1 < plan.length → plan[o]? = some s → i.routes[s]? = some sr →
    r.lastNode i.routes ≠ sr.nodes.getLast?

/-- the first route reaches the plan and stays on it -/
def Enters (srs plan : List Nat) : Prop :=
  ∃ j < srs.length, (srs.drop j <+: plan ∨ plan <+: srs.drop j) ∧ ∀ s, plan.head? = some s → s ∉ srs.take j

/-- a sequence point stands on an interlocking route -/
def OnRoute (i : Infra) (freight : Bool) (r : IR) (sp : SPoint) : Prop :=
  ∃ idx, Train.Spec.StandsAt i freight sp idx ∧ (sp.sr, idx) ∈ Route.Spec.positions i.routes r

open Classical in
/-- the planned sequence points on the routes of a path, route by route -/
noncomputable def pointsOn (i : Infra) (k : Ilk) (freight : Bool) (points : List SPoint) (path : List Nat) : List SPoint :=
  path.flatMap fun id => points.filter fun sp => decide (∃ r, k.routes[id]? = some r ∧ OnRoute i freight r sp)

open Classical in
/-- the number of routes of a path on which a point stands -/
noncomputable def visits (i : Infra) (k : Ilk) (freight : Bool) (path : List Nat) (sp : SPoint) : Nat :=
  path.countP fun id => decide (∃ r, k.routes[id]? = some r ∧ OnRoute i freight r sp)

/-- a point is a stop or has a time at which it is passed -/
def Timed (sp : SPoint) : Prop := sp.ty ≠ .transit ∨ sp.hasDeparture = true

end Soro.Transform.Spec
