import Verif.Model.StationRoute

/-
Model of the iteration of a train in `src/timetable/train.cc` and of `src/timetable/sequence_point.cc`.

The path of a train holds the interlocking routes themselves instead of their ids. A time is only known to be valid or
not. Dereferencing an empty optional and accesses beyond the end of a vector are `none`; in the iteration of the sequence
points this is coarser than some builds, where `utls::optional` hands out a null pointer that compares unequal to every
node.
-/

namespace Soro.Train
open Soro.Route

/-- the optional indices of a station route (include/soro/infrastructure/station/station_route.h:93,101-102) -/
structure Stops where
  checkpoint : Option Nat
  passenger : Option Nat
  freight : Option Nat
  deriving DecidableEq, Repr

/-- the station routes and their stops -/
structure Infra where
  routes : List SRoute
  stops : List Stops

/-- `sequence_point::type` (sequence_point.h:24) -/
inductive SType where
  | transit | operations | passenger | request
  deriving DecidableEq, Repr

/-- `sequence_point` (sequence_point.h:17-56): type, validity of the departure time, station route -/
structure SPoint where
  ty : SType
  hasDeparture : Bool
  sr : Nat
  deriving DecidableEq, Repr

/-- sequence_point.cc:8 -/
def SPoint.isHalt (p : SPoint) : Bool := decide (p.ty ≠ .transit)

/-- sequence_point.cc:20-22 -/
def SPoint.hasTransitTime (p : SPoint) : Bool := decide (p.ty = .transit) && p.hasDeparture

/-- sequence_point.h:33-35 -/
def SPoint.isMeasurable (p : SPoint) : Bool := p.hasTransitTime || p.isHalt

/-- station_route.cc:88-91 -/
def Stops.haltIdx (s : Stops) (freight : Bool) : Option Nat := if freight then s.freight else s.passenger

/-- sequence_point.cc:34-47 -/
def SPoint.nodeIdx (i : Infra) (freight : Bool) (p : SPoint) : Option Nat :=
  i.stops[p.sr]?.bind fun s =>
    if p.hasTransitTime then s.checkpoint else if p.isHalt then s.haltIdx freight else none

/-- sequence_point.cc:49-55 -/
def SPoint.node (i : Infra) (freight : Bool) (p : SPoint) : Option Nat :=
  (p.nodeIdx i freight).bind fun idx => i.routes[p.sr]?.bind fun r => r.nodes[idx]?

/-- `train` (train.h:28-133), as far as its iteration depends on it -/
structure Train where
  breakIn : Bool
  breakOut : Bool
  freight : Bool
  path : List IR
  points : List SPoint

/-- train.cc:172-178 and 200-202: where the train starts in its first interlocking route -/
def startAt (i : Infra) (t : Train) (ir : IR) : Option (Nat × Nat) :=
  if t.breakIn then ir.srs.head?.map fun s => (s, ir.start)
  else t.points.head?.bind fun p => (p.nodeIdx i t.freight).map fun idx => (p.sr, idx)

/-- train.cc:180-186 and 228-230: where the train stops in its last interlocking route, the index is exclusive -/
def stopAt (i : Infra) (t : Train) (ir : IR) : Option (Nat × Nat) :=
  if t.breakOut then ir.srs.getLast?.map fun s => (s, ir.stop)
  else t.points.getLast?.bind fun p => (p.nodeIdx i t.freight).map fun idx => (p.sr, idx + 1)

/-- train.cc:212-217: the interlocking routes between first and last without their first node -/
def middle (i : Infra) : List IR → Option (List RNode)
  | [] => some []
  | ir :: irs => app (ir.srs.head?.bind fun s => ir.from_ i.routes s (ir.start + 1)) (middle i irs)

/-- train.cc:193-210 -/
def firstPart (i : Infra) (t : Train) (ir : IR) : Option (List RNode) :=
  if t.breakIn then ir.iterate i.routes
  else (startAt i t ir).bind fun p => ir.from_ i.routes p.1 p.2

/-- train.cc:219-239 -/
def lastPart (i : Infra) (t : Train) (ir : IR) : Option (List RNode) :=
  ir.srs.head?.bind fun s =>
    if t.breakOut then ir.from_ i.routes s (ir.start + 1)
    else (stopAt i t ir).bind fun p => ir.fromTo i.routes s (ir.start + 1) p.1 p.2

/-- train.cc:168-240 -/
def iterateTrain (i : Infra) (t : Train) : Option (List RNode) :=
  match t.path with
  | [] => none
  | [ir] =>
    (startAt i t ir).bind fun p => (stopAt i t ir).bind fun q => ir.fromTo i.routes p.1 p.2 q.1 q.2
  | ir :: irs =>
    app (firstPart i t ir) (app (middle i irs.dropLast) (irs.getLast?.bind (lastPart i t)))

/-- train.cc:244-255: `k` is `sp_idx`, the list starts with the sequence point at that index. The sequence point of a
yielded node is given by its index. -/
def attach (nodeOf : SPoint → Option Nat) : Nat → List SPoint → List RNode → Option (List (RNode × Option Nat))
  | _, [], rns => some (rns.map fun rn => (rn, none))
  | _, _ :: _, [] => some []
  | k, p :: ps, rn :: rns =>
    (nodeOf p).bind fun n =>
      if n = rn.node then (attach nodeOf (k + 1) ps rns).map fun r => (rn, some k) :: r
      else (attach nodeOf k (p :: ps) rns).map fun r => (rn, none) :: r

/-- train.cc:242-256 -/
def iterate (i : Infra) (t : Train) : Option (List (RNode × Option Nat)) :=
  (iterateTrain i t).bind (attach (SPoint.node i t.freight) 0 t.points)

/-- train.cc:136-142 -/
def startNode (i : Infra) (t : Train) : Option Nat :=
  if t.breakIn then t.path.head?.bind fun ir => ir.firstNode i.routes
  else t.points.head?.bind fun p => p.node i t.freight

end Soro.Train
