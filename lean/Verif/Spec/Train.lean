import Verif.Model.Train
import Verif.Spec.Route

/-
Specification vocabulary for the iteration of trains.
-/

namespace Soro.Train.Spec
open Soro.Route Soro.Route.Spec

/-- an interlocking route with at least one node in its first and in its last station route, running over no station route
twice -/
structure Proper (infra : List SRoute) (ir : IR) : Prop where
  known : ∀ s ∈ ir.srs, s < infra.length
  nonempty : ir.srs ≠ []
  nodup : ir.srs.Nodup
  start : ∀ s r, ir.srs.head? = some s → infra[s]? = some r → ir.start < r.nodes.length
  stop : ∀ s r, ir.srs.getLast? = some s → infra[s]? = some r → 0 < ir.stop ∧ ir.stop ≤ r.nodes.length
  single : ir.srs.length = 1 → ir.start < ir.stop

/-- the positions a path of interlocking routes runs over: every route but the first starts at the node where its
predecessor ended, so its first position is left out -/
def joined (infra : List SRoute) : List IR → List (Nat × Nat)
  | [] => []
  | ir :: irs => positions infra ir ++ irs.flatMap fun r => (positions infra r).tail

/-- number of positions before the train starts -/
def before (infra : List SRoute) (breakIn : Bool) (p : Nat × Nat) (first : IR) : Nat :=
  if breakIn then 0 else (positions infra first).idxOf p

/-- number of positions before the train has stopped: all but those of the last route behind the stop at `p` -/
def upTo (infra : List SRoute) (breakOut : Bool) (p : Nat × Nat) (path : List IR) (last : IR) : Nat :=
  if breakOut then (joined infra path).length
  else (joined infra path).length - ((positions infra last).length - ((positions infra last).idxOf p + 1))

/-- a sequence point stands at index `idx` of its station route: a stopping train at the passenger or freight halt, a
passing train with a time at the runtime checkpoint -/
inductive StandsAt (i : Infra) (freight : Bool) (sp : SPoint) (idx : Nat) : Prop where
  | passengerHalt (s : Stops) (hs : i.stops[sp.sr]? = some s) (hh : sp.ty ≠ .transit) (hf : freight = false)
      (h : s.passenger = some idx)
  | freightHalt (s : Stops) (hs : i.stops[sp.sr]? = some s) (hh : sp.ty ≠ .transit) (hf : freight = true)
      (h : s.freight = some idx)
  | checkpoint (s : Stops) (hs : i.stops[sp.sr]? = some s) (hh : sp.ty = .transit) (hd : sp.hasDeparture = true)
      (h : s.checkpoint = some idx)

/-- the node at a position -/
def nodeAt (infra : List SRoute) (p : Nat × Nat) : Option Nat := infra[p.1]?.bind fun r => r.nodes[p.2]?

end Soro.Train.Spec
