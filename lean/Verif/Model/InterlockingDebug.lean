import Verif.Model.Debug
import Verif.Model.Interlocking

/-
Model of `src/infrastructure/station/station_route.cc`, `src/infrastructure/interlocking/interlocking_route.cc` and
`src/infrastructure/interlocking/get_interlocking.cc` in a build with assertions.
-/

namespace Soro.Route
open Dbg

/-- station_route.cc:12-18 -/
def SRoute.sizeD (r : SRoute) : Dbg Nat := do
  check 13 (r.nodes.length < INVALID_IDX)
  return r.size

/-- station_route.cc:148-182 -/
def SRoute.fromToD (r : SRoute) (frm to : Nat) : Dbg (List RNode) := do
  check 150 (frm ≤ to)
  let _ ← r.sizeD
  lift (r.fromTo frm to)

/-- station_route.cc:144-146 -/
def SRoute.iterateD (r : SRoute) : Dbg (List RNode) := do
  let n ← r.sizeD
  r.fromToD 0 n

/-- station_route.cc:184-187 -/
def SRoute.fromD (r : SRoute) (frm : Nat) : Dbg (List RNode) := do
  let n ← r.sizeD
  r.fromToD frm n

/-- station_route.cc:189-191 -/
def SRoute.toD (r : SRoute) (to : Nat) : Dbg (List RNode) := r.fromToD 0 to

/-- interlocking_route.cc:155-157 -/
def iterAllD (infra : List SRoute) : List Nat → Dbg (List RNode)
  | [] => return []
  | s :: ss => do
    let r ← lift infra[s]?
    let x ← r.iterateD
    let y ← iterAllD infra ss
    return x ++ y

/-- interlocking_route.cc:127-160 `detail::from_to`, the iterators as positions -/
def IR.detailFromToD (ir : IR) (infra : List SRoute) (i frm j to : Nat) : Dbg (List RNode) := do
  check 133 (1 < ir.srs.length)
  check 137 (i < ir.srs.length)
  check 141 (j < ir.srs.length)
  check 145 (i ≤ j)
  check 148 (ir.srs[i]? ≠ ir.srs[j]?)
  let f ← lift (ir.srs[i]?.bind fun s => infra[s]?)
  let x ← f.fromD frm
  let y ← iterAllD infra ((ir.srs.take j).drop (i + 1))
  let l ← lift (ir.srs[j]?.bind fun s => infra[s]?)
  let z ← l.toD to
  return x ++ (y ++ z)

/-- interlocking_route.cc:193-197 -/
def IR.betweenD (ir : IR) (infra : List SRoute) (i frm j to : Nat) : Dbg (List RNode) :=
  if ir.srs[i]? = ir.srs[j]? then do
    let r ← lift (ir.srs[i]?.bind fun s => infra[s]?)
    r.fromToD frm to
  else ir.detailFromToD infra i frm j to

/-- interlocking_route.cc:164-199 -/
def IR.fromToD (ir : IR) (infra : List SRoute) (fromSr frm toSr to : Nat) : Dbg (List RNode) :=
  match ir.srs with
  | [s] => do
    check 170 (fromSr = toSr)
    let r ← lift infra[s]?
    r.fromToD frm to
  | srs => do
    check 181 (srs.findIdx (fun x => decide (x = fromSr)) < srs.length)
    check 185 (srs.findIdx (fun x => decide (x = toSr)) < srs.length)
    check 189 (srs.findIdx (fun x => decide (x = fromSr)) ≤ srs.findIdx (fun x => decide (x = toSr)))
    ir.betweenD infra (srs.findIdx (fun x => decide (x = fromSr))) frm (srs.findIdx (fun x => decide (x = toSr))) to

/-- interlocking_route.cc:215-224; the vector of station routes is not empty -/
def IR.iterateD (ir : IR) (infra : List SRoute) : Dbg (List RNode) :=
  match ir.srs with
  | [] => .error .undefined
  | [s] => do
    let r ← lift infra[s]?
    r.fromToD ir.start ir.stop
  | srs => ir.detailFromToD infra 0 ir.start (srs.length - 1) ir.stop

end Soro.Route

namespace Soro.Interlocking
open Dbg Route Algo

/-- get_interlocking.cc:179-226 -/
def routesFromSrD (infos : List Info) (g : SRG) (r : Nat) (i : Info) : Dbg (List IR) := do
  check 181 (canStart g r i = true)
  lift (routesFromSr infos g r i)

/-- get_interlocking.cc:238-243 -/
def startedD (infos : List Info) (g : SRG) (r : Nat) (i : Info) : Dbg (List IR) :=
  if canStart g r i && !i.etcs then routesFromSrD infos g r i else return []

/-- get_interlocking.cc:235-258: the routes added for one station route -/
def routesOfD (infos : List Info) (g : SRG) (r : Nat) : Dbg (List IR) := do
  let i ← lift infos[r]?
  let a ← startedD infos g r i
  return a ++ (if i.signals.length > 1 then internal r i.signals else []) ++
    (match i.signals with
      | [] => []
      | s :: _ => if (g.pred r).isEmpty then [⟨0, s + 1, [r]⟩] else []) ++
    (match i.signals.getLast? with
      | none => []
      | some s => if (g.succ r).isEmpty then [⟨s, i.size, [r]⟩] else [])

/-- get_interlocking.cc:228-258 -/
def getRoutesD (infos : List Info) (g : SRG) : Dbg (List IR) := do
  let l ← (List.range infos.length).mapM (routesOfD infos g)
  return l.flatten

/-- get_interlocking.cc:88-115; the sum of the lengths is compared with the number of routes -/
def startingAtD (infra : List SRoute) (nodeCount : Nat) (irs : List (Nat × IR)) : Dbg (List (List Nat)) := do
  let v ← lift (startingAt infra nodeCount irs)
  check 108 (v.foldl (fun a l => a + l.length) 0 = irs.length)
  return v

/-- get_interlocking.cc:60-86 -/
def endingAtD (infra : List SRoute) (nodeCount : Nat) (irs : List (Nat × IR)) : Dbg (List (List Nat)) := do
  let v ← lift (endingAt infra nodeCount irs)
  check 79 (v.foldl (fun a l => a + l.length) 0 = irs.length)
  return v

/-- `std::is_sorted` -/
def isSorted : List Nat → Bool
  | a :: b :: l => decide (a ≤ b) && isSorted (b :: l)
  | _ => true

/-- get_interlocking.cc:280-304 -/
def stationToIrsD (station : Nat → Nat) (stationCount : Nat) (irs : List (Nat × IR)) : Dbg (List (List Nat)) := do
  let v ← lift (stationToIrs station stationCount irs)
  check 299 (v.all isSorted = true)
  return v

/-- get_interlocking.cc:309-332 -/
def getInterlockingD (p : Plan) : Dbg Whole := do
  let l ← getRoutesD p.infos p.graph
  let irs := assignIds 0 l
  let h ← lift (haltingAt p.srs p.passenger p.freight p.nodeCount irs)
  let s ← startingAtD p.srs p.nodeCount irs
  let e ← endingAtD p.srs p.nodeCount irs
  let q ← lift (participating p.srs.length irs)
  let t ← stationToIrsD p.station p.stationCount irs
  let _ ← lift (averageLength irs)
  return ⟨irs, h, s, e, q, t⟩

end Soro.Interlocking
