import Verif.Model.InterlockingDebug
import Verif.Model.Transform

/-
Model of the iteration of a train in `src/timetable/train.cc` and of
`src/timetable/parsers/station_route_to_interlocking_route.cc` in a build with assertions. The iteration is a generator that
throws when it reaches an assertion; the model describes a caller that runs it to its end.
-/

namespace Soro.Route
open Dbg

/-- interlocking_route.cc:208-213 -/
def IR.fromD (ir : IR) (infra : List SRoute) (sr frm : Nat) : Dbg (List RNode) := do
  let l ← lift ir.srs.getLast?
  ir.fromToD infra sr frm l ir.stop

end Soro.Route

namespace Soro.Train
open Dbg Route

/-- train.cc:212-217 -/
def middleD (i : Infra) : List IR → Dbg (List RNode)
  | [] => return []
  | ir :: irs => do
    let s ← lift ir.srs.head?
    let x ← ir.fromD i.routes s (ir.start + 1)
    let y ← middleD i irs
    return x ++ y

/-- train.cc:193-210 -/
def firstPartD (i : Infra) (t : Train) (ir : IR) : Dbg (List RNode) :=
  if t.breakIn then ir.iterateD i.routes
  else do
    let p ← lift t.points.head?
    check 196 (p.isHalt = true)
    let _ ← lift i.stops[p.sr]?
    check 204 ((p.nodeIdx i t.freight).isSome = true)
    let idx ← lift (p.nodeIdx i t.freight)
    ir.fromD i.routes p.sr idx

/-- train.cc:219-239 -/
def lastPartD (i : Infra) (t : Train) (ir : IR) : Dbg (List RNode) := do
  let s ← lift ir.srs.head?
  if t.breakOut then ir.fromD i.routes s (ir.start + 1)
  else do
    let p ← lift t.points.getLast?
    check 224 (p.isHalt = true)
    let _ ← lift i.stops[p.sr]?
    check 232 ((p.nodeIdx i t.freight).isSome = true)
    let idx ← lift (p.nodeIdx i t.freight)
    ir.fromToD i.routes s (ir.start + 1) p.sr (idx + 1)

/-- train.cc:168-240; a path of one route is not checked (lines 171-191) -/
def iterateTrainD (i : Infra) (t : Train) : Dbg (List RNode) :=
  match t.path with
  | [] => .error .undefined
  | [ir] => do
    let p ← lift (startAt i t ir)
    let q ← lift (stopAt i t ir)
    ir.fromToD i.routes p.1 p.2 q.1 q.2
  | ir :: irs => do
    let x ← firstPartD i t ir
    let y ← middleD i irs.dropLast
    let l ← lift irs.getLast?
    let z ← lastPartD i t l
    return x ++ (y ++ z)

end Soro.Train

namespace Soro.Transform
open Dbg Train

/-- station_route_to_interlocking_route.cc:195-284; lines 276-281 are the assertion -/
def transformD (i : Infra) (k : Ilk) (ss : StopSeq) (freight : Bool) (fuel : Nat) : Dbg Outcome :=
  match transform i k ss freight fuel with
  | .undef => .error .undefined
  | .ok path points => do
    check 280 (ss.points.countP (·.isMeasurable) = points.length)
    return .ok path points
  | o => return o

end Soro.Transform
