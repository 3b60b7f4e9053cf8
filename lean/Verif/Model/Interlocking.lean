import Verif.Model.Algo
import Verif.Model.StationRoute

/-
Model of `src/infrastructure/station/station_route_graph.cc` and `src/infrastructure/interlocking/get_interlocking.cc`.
Station routes are their position in `infrastructure::station_routes_` (which is their id, parse_iss.cc:710-717).
-/

namespace Soro.Interlocking

open Route Algo

/-! ### station route graph -/

/-- what `get_successors` reads from the infrastructure: node types, `next_node_`, the element of a node, the station
routes, `to_station_` of a station route and the routes of a station in the order of the map `station_routes_` -/
structure World where
  kind : Nat → Kind
  next : Nat → Option Nat
  el : Nat → Nat
  routes : List SRoute
  toStation : Nat → Option Nat
  ofStation : Nat → List Nat

/-- parse_iss.cc:843-853: push the route to the entry of its first element, or create the entry -/
def insertRoute (e r : Nat) : List (Nat × List Nat) → List (Nat × List Nat)
  | [] => [(e, [r])]
  | (e', rs) :: m => if e' = e then (e', rs ++ [r]) :: m else (e', rs) :: insertRoute e r m

/-- parse_iss.cc:843-853: `element_to_routes_` of one station; `none`: a route without nodes -/
def elementToRoutes (w : World) : List Nat → List (Nat × List Nat) → Option (List (Nat × List Nat))
  | [], m => some m
  | r :: rs, m =>
    match (w.routes[r]?).bind fun r => r.nodes.head? with
    | none => none
    | some n => elementToRoutes w rs (insertRoute (w.el n) r m)

/-- station_route_graph.cc:9-24 -/
def succThrough (w : World) (r : Nat) : Option (List Nat) :=
  match (w.routes[r]?).bind fun r => r.nodes.getLast? with
  | none => none
  | some last =>
    match w.toStation r with
    | none => some []
    | some st =>
      if w.kind last = .trackEnd then some []
      else
        match w.next last with
        | none => none
        | some b => (elementToRoutes w (w.ofStation st) []).map fun m => (m.lookup (w.el b)).getD []

/-- station_route_graph.cc:26-104: in routes have no successors, all others are treated like through routes -/
def getSuccessors (w : World) (r : Nat) : Option (List Nat) :=
  match w.routes[r]? with
  | none => none
  | some sr =>
    (isThrough w.kind sr).bind fun t =>
      if t then succThrough w r
      else (isIn w.kind sr).bind fun i => if i then some [] else succThrough w r

/-- `station_route_graph` -/
structure SRG where
  succs : List (List Nat)
  preds : List (List Nat)
  deriving DecidableEq, Repr

/-- a sequence of `v[key].emplace_back(value)`; `none`: key out of range -/
def bucket : List (Nat × Nat) → List (List Nat) → Option (List (List Nat))
  | [], acc => some acc
  | (k, v) :: ops, acc => if k < acc.length then bucket ops (acc.modify k (· ++ [v])) else none

/-- station_route_graph.cc:118-123: the pushes to the predecessor lists, in order -/
def predOps (succs : List (List Nat)) : List (Nat × Nat) :=
  succs.zipIdx.flatMap fun x => x.1.map fun s => (s, x.2)

/-- station_route_graph.cc:106-126 for given successor lists -/
def srgOf (succs : List (List Nat)) : Option SRG :=
  (bucket (predOps succs) (List.replicate succs.length [])).map fun p => ⟨succs, p⟩

/-- station_route_graph.cc:106-126 -/
def getSRG (w : World) : Option SRG := ((List.range w.routes.length).mapM (getSuccessors w)).bind srgOf

/-! ### interlocking routes -/

/-- the parts of a station route used here: node count, indices of the main signals, whether `requires_etcs` -/
structure Info where
  size : Nat
  signals : List Nat
  etcs : Bool
  deriving DecidableEq, Repr

/-- successors of a station route -/
def SRG.succ (g : SRG) (r : Nat) : List Nat := (g.succs[r]?).getD []
/-- predecessors of a station route -/
def SRG.pred (g : SRG) (r : Nat) : List Nat := (g.preds[r]?).getD []

/-- station_route.cc:69-72 -/
def canStart (g : SRG) (r : Nat) (i : Info) : Bool := !i.signals.isEmpty || (g.pred r).isEmpty

/-- station_route.cc:74-78 -/
def canEnd (g : SRG) (r : Nat) (i : Info) : Bool := !i.signals.isEmpty || (g.succ r).isEmpty

/-- get_interlocking.cc:148-161 -/
def internal (r : Nat) : List Nat → List IR
  | a :: b :: rest => ⟨a, b + 1, [r]⟩ :: internal r (b :: rest)
  | _ => []

/-- get_interlocking.cc:190-211 `fill_paths`; `none`: unknown station route or more than `fuel` nested calls -/
def fill (infos : List Info) (g : SRG) : Nat → Nat → IR → Option (List IR)
  | 0, _, _ => none
  | fuel + 1, r, ir =>
    match infos[r]? with
    | none => none
    | some i =>
      if i.etcs then some []
      else if canEnd g r i then
        some [⟨ir.start, match i.signals with | [] => i.size | s :: _ => s + 1, ir.srs ++ [r]⟩]
      else ((g.succ r).mapM fun n => fill infos g fuel n ⟨ir.start, ir.stop, ir.srs ++ [r]⟩).map List.flatten

/-- get_interlocking.cc:179-226 -/
def routesFromSr (infos : List Info) (g : SRG) (r : Nat) (i : Info) : Option (List IR) :=
  let initial : IR := ⟨(i.signals.getLast?).getD 0, i.size, [r]⟩
  ((g.succ r).mapM fun n => fill infos g (infos.length + 1) n initial).map List.flatten

/-- get_interlocking.cc:235-258: the routes added for one station route -/
def routesOf (infos : List Info) (g : SRG) (r : Nat) : Option (List IR) :=
  match infos[r]? with
  | none => none
  | some i =>
    (if canStart g r i && !i.etcs then routesFromSr infos g r i else some []).map fun a =>
      a ++ (if i.signals.length > 1 then internal r i.signals else []) ++
      (match i.signals with
        | [] => []
        | s :: _ => if (g.pred r).isEmpty then [⟨0, s + 1, [r]⟩] else []) ++
      (match i.signals.getLast? with
        | none => []
        | some s => if (g.succ r).isEmpty then [⟨s, i.size, [r]⟩] else [])

/-- get_interlocking.cc:228-258 -/
def getRoutes (infos : List Info) (g : SRG) : Option (List IR) :=
  ((List.range infos.length).mapM (routesOf infos g)).map List.flatten

/-- get_interlocking.cc:260-263: number the routes -/
def assignIds : Nat → List IR → List (Nat × IR)
  | _, [] => []
  | id, ir :: irs => (id, ir) :: assignIds (id + 1) irs

/-! ### index structures -/

/-- get_interlocking.cc:88-115 -/
def startingAt (infra : List SRoute) (nodeCount : Nat) (irs : List (Nat × IR)) : Option (List (List Nat)) :=
  (irs.mapM fun (x : Nat × IR) => (x.2.firstNode infra).map fun n => (n, x.1)).bind fun ops =>
    (bucket ops (List.replicate nodeCount [])).map fun v => v.map sortNat

/-- get_interlocking.cc:60-86 -/
def endingAt (infra : List SRoute) (nodeCount : Nat) (irs : List (Nat × IR)) : Option (List (List Nat)) :=
  (irs.mapM fun (x : Nat × IR) => (x.2.lastNode infra).map fun n => (n, x.1)).bind fun ops =>
    (bucket ops (List.replicate nodeCount [])).map fun v => v.map sortNat

/-- get_interlocking.cc:117-138 -/
def participating (srCount : Nat) (irs : List (Nat × IR)) : Option (List (List Nat)) :=
  (bucket (irs.flatMap fun x => x.2.srs.map fun s => (s, x.1)) (List.replicate srCount [])).map fun v => v.map sortNat

/-- get_interlocking.cc:280-304; `station s` is the station of station route `s` -/
def stationToIrs (station : Nat → Nat) (stationCount : Nat) (irs : List (Nat × IR)) : Option (List (List Nat)) :=
  (bucket (irs.flatMap fun x => x.2.srs.map fun s => (station s, x.1)) (List.replicate stationCount [])).map fun v =>
    v.map eraseDup

/-- get_interlocking.cc:32-37: the node pushed for a halt index of a sub path, if the sub path contains it -/
def haltNode (infra : List SRoute) (sp : SubPath) (halt : Option Nat) : Option (List Nat) :=
  match halt with
  | none => some []
  | some h => if sp.contains h then (infra[sp.sr]?.bind fun r => r.nodes[h]?).map fun n => [n] else some []

/-- get_interlocking.cc:30-50: the nodes pushed for one route -/
def haltNodes (infra : List SRoute) (passenger freight : Nat → Option Nat) (ir : IR) : Option (List Nat) :=
  (ir.subPaths infra).bind fun sps =>
    (sps.mapM fun sp => (haltNode infra sp (passenger sp.sr)).bind fun a =>
      (haltNode infra sp (freight sp.sr)).map fun b => a ++ b).map List.flatten

/-- get_interlocking.cc:23-58 -/
def haltingAt (infra : List SRoute) (passenger freight : Nat → Option Nat) (nodeCount : Nat) (irs : List (Nat × IR)) :
    Option (List (List Nat)) :=
  (irs.mapM fun (x : Nat × IR) => (haltNodes infra passenger freight x.2).map fun ns => ns.map fun n => (n, x.1)).bind fun ops =>
    (bucket ops.flatten (List.replicate nodeCount [])).map fun v => v.map sortNat

/-! ### the whole interlocking -/

/-- what `get_interlocking` reads from the infrastructure -/
structure Plan where
  srs : List SRoute
  infos : List Info
  graph : SRG
  passenger : Nat → Option Nat
  freight : Nat → Option Nat
  station : Nat → Nat
  nodeCount : Nat
  stationCount : Nat

/-- `interlocking` -/
structure Whole where
  routes : List (Nat × IR)
  haltingAt : List (List Nat)
  startingAt : List (List Nat)
  endingAt : List (List Nat)
  participating : List (List Nat)
  stations : List (List Nat)
  deriving DecidableEq, Repr

/-- get_interlocking.cc:268-278: the average length logged; `none`: the unsigned division by zero is undefined -/
def averageLength (irs : List (Nat × IR)) : Option Nat :=
  let total := irs.foldl (fun a x => a + x.2.srs.length) 0
  if irs.length = 0 then none else some (total / irs.length)

/-- get_interlocking.cc:309-332; `none`: undefined behaviour in one of the steps -/
def getInterlocking (p : Plan) : Option Whole :=
  (getRoutes p.infos p.graph).bind fun l =>
  let irs := assignIds 0 l
  (haltingAt p.srs p.passenger p.freight p.nodeCount irs).bind fun h =>
  (startingAt p.srs p.nodeCount irs).bind fun s =>
  (endingAt p.srs p.nodeCount irs).bind fun e =>
  (participating p.srs.length irs).bind fun q =>
  (stationToIrs p.station p.stationCount irs).bind fun t =>
  (averageLength irs).map fun _ => ⟨irs, h, s, e, q, t⟩

end Soro.Interlocking
