import Verif.Model.Layout
import Verif.Model.Utls

/-
Model of the requests about an infrastructure: `web/server/src/modules/infrastructure/serve_*.cc`,
`web/server/src/modules/search/*.cc` and `web/server/src/modules/timetable/serve_timetable_names.cc`.

Documents are modelled by the values written. Texts are lists of characters. `none`: undefined behaviour (an index out of
range) or an exception that leaves the handler. The look-up of the infrastructure by name is a parameter. Not modelled:
JSON syntax, the data of an element in its document (serve_element.cc:15-40, 56-64), the guesser: any function from
queries to indices stands for it.
-/

namespace Soro.InfraServer
open Layout Utls

/-- the parts of `station_route` used; `nodes` are the ids of the elements -/
structure SRoute where
  id : Nat
  name : List Char
  station : Nat
  nodes : List Nat
deriving DecidableEq, Repr

/-- the parts of `station` used; `routes` are the values of `station_routes_` in the order of the map -/
structure Station where
  id : Nat
  ds100 : List Char
  elements : List Nat
  routes : List SRoute
deriving DecidableEq, Repr

/-- the parts of the data of an element used -/
inductive Data where
  | other
  | signal (name : List Char)
  | switch (name : List Char)
  | halt (name extern operational : List Char)
deriving DecidableEq, Repr

/-- an element; `type` is `get_type_str` -/
structure Elem where
  id : Nat
  type : List Char
  data : Data
deriving DecidableEq, Repr

/-- an interlocking route, with the ids of the elements on its way -/
structure IRoute where
  id : Nat
  elements : List Nat
deriving DecidableEq, Repr

/-- the parts of `infrastructure_t` used -/
structure Infra where
  stations : List Station
  fullNames : List (List Char)
  elements : List Elem
  stationRoutes : List SRoute
  routes : List IRoute
  stationToIrs : List (List Nat)
  exclusionSets : List (List Nat)
  positions : List Gps

/-- an answer of the server -/
inductive Answer (α : Type) where
  | notFound | badRequest | ok (doc : α)
deriving DecidableEq, Repr

/-- `parse_int` of the path parameter for a 32-bit id (release build) -/
def paramId (param : List Char) : Nat := (parseInt ⟨false, 4⟩ param).toNat

/-- the values at the given positions; `none`: out of range -/
def lookupAll {α : Type} (t : List α) : List Nat → Option (List α)
  | [] => some []
  | i :: is =>
    match t[i]? with
    | none => none
    | some v => (lookupAll t is).map (v :: ·)

/-! ### documents -/

/-- serve_station.cc:15-23: id, name, from, to -/
structure RouteEntry where
  id : Nat
  name : List Char
  frm : Nat
  till : Nat
deriving DecidableEq, Repr

/-- serve_station.cc:15-23; `none`: a route without nodes -/
def routeEntry (r : SRoute) : Option RouteEntry :=
  match r.nodes.head?, r.nodes.getLast? with
  | some a, some b => some ⟨r.id, r.name, a, b⟩
  | _, _ => none

/-- serve_station.cc:25-35 -/
def routeEntries : List SRoute → Option (List RouteEntry)
  | [] => some []
  | r :: rs =>
    match routeEntry r with
    | none => none
    | some e => (routeEntries rs).map (e :: ·)

/-- serve_station.cc:63-67 -/
structure StationDoc where
  id : Nat
  ds100 : List Char
  routes : List RouteEntry
  irs : List Nat
deriving DecidableEq, Repr

/-- serve_station.cc:41-69 -/
def serveStation (infra : Option Infra) (param : List Char) : Option (Answer StationDoc) :=
  match infra with
  | none => some .notFound
  | some I =>
    if paramId param ≥ I.stations.length then some .notFound
    else
      match I.stations[paramId param]?, I.stationToIrs[paramId param]? with
      | some s, some irs => (routeEntries s.routes).map fun rs => .ok ⟨s.id, s.ds100, rs, irs⟩
      | _, _ => none

/-- serve_station_route.cc:33-40 -/
structure PathDoc where
  id : Nat
  name : List Char
  ds100 : List Char
  path : List Gps
deriving DecidableEq, Repr

/-- serve_station_route.cc:14-42 -/
def serveStationRoute (infra : Option Infra) (param : List Char) : Option (Answer PathDoc) :=
  match infra with
  | none => some .notFound
  | some I =>
    if paramId param ≥ I.stationRoutes.length then some .notFound
    else
      match I.stationRoutes[paramId param]? with
      | none => none
      | some r =>
        match I.stations[r.station]? with
        | none => none
        | some s => (lookupAll I.positions r.nodes).map fun ps => .ok ⟨r.id, r.name, s.ds100, ps⟩

/-- serve_interlocking_route.cc:14-43: id and path -/
def serveRoute (infra : Option Infra) (param : List Char) : Option (Answer (Nat × List Gps)) :=
  match infra with
  | none => some .notFound
  | some I =>
    if paramId param ≥ I.routes.length then some .notFound
    else
      match I.routes[paramId param]? with
      | none => none
      | some r => (lookupAll I.positions r.elements).map fun ps => .ok (r.id, ps)

/-- serve_exclusion_set.cc:13-31: id, size, routes. There is no check of the id. -/
def serveExclusionSet (infra : Option Infra) (param : List Char) : Option (Answer (Nat × Nat × List Nat)) :=
  match infra with
  | none => some .notFound
  | some I => (I.exclusionSets[paramId param]?).map fun es => .ok (paramId param, es.length, es)

/-- serve_element.cc:42-66: id and element. There is no check of the id. -/
def serveElement (infra : Option Infra) (param : List Char) : Option (Answer (Nat × Elem)) :=
  match infra with
  | none => some .notFound
  | some I => (I.elements[paramId param]?).map fun e => .ok (paramId param, e)

/-- serve_timetable_names.cc:8-18: `contexts_.at` throws for an unknown name -/
def serveTimetableNames (contexts : List (List Char × List (List Char))) (infra : List Char) :
    Option (Answer (List (List Char))) :=
  (contexts.find? fun c => c.1 == infra).map fun c => .ok c.2

/-! ### search -/

/-- search_module.h:11-16 -/
inductive Kind where
  | station | element | stationRoute | route
deriving DecidableEq, Repr

/-- search_module.h:29-34 -/
structure Result where
  kind : Kind
  name : List Char
  box : Box
  id : Nat
  etype : List Char
deriving DecidableEq, Repr

/-- search_module.cc:14-20 -/
def leftPad (n : Nat) : List Char :=
  List.replicate (3 - min 3 (Nat.toDigits 10 n).length) '0' ++ Nat.toDigits 10 n

/-- search_module.cc:22-49: the box of elements -/
def boxOf (I : Infra) (es : List Nat) : Option Box := (lookupAll I.positions es).map boundingBox

/-- loops that append to the results -/
def collect {α β : Type} (f : α → Option (List β)) : List α → Option (List β)
  | [] => some []
  | a :: as =>
    match f a with
    | none => none
    | some l => (collect f as).map (l ++ ·)

/-- search_module.cc:57-62 -/
def stationResult (I : Infra) (s : Station) : Option (List Result) :=
  (boxOf I s.elements).map fun b => [⟨.station, s.ds100, b, s.id, []⟩]

/-- search_module.cc:65-76 -/
def fullNameResult (I : Infra) (p : List Char × Nat) : Option (List Result) :=
  match I.stations[p.2]? with
  | none => none
  | some s => if s.ds100 = p.1 then some [] else (boxOf I s.elements).map fun b => [⟨.station, p.1, b, p.2, []⟩]

/-- search_module.cc:85-118: names and types of the results of an element -/
def elementNames (e : Elem) : List (List Char × List Char) :=
  (leftPad e.id, e.type) ::
    match e.data with
    | .other => []
    | .signal name => [(name, e.type)]
    | .switch name => [(name, e.type)]
    | .halt name extern operational =>
      (if name ≠ [] then [(name, e.type)] else []) ++
      (if extern ≠ [] then [(operational, [])] else []) ++
      (if operational ≠ [] then [(extern, e.type)] else [])

/-- search_module.cc:79-119 -/
def elementResults (I : Infra) (e : Elem) : Option (List Result) :=
  (boxOf I [e.id]).map fun b => (elementNames e).map fun n => ⟨.element, n.1, b, e.id, n.2⟩

/-- search_module.cc:122-127 -/
def stationRouteResult (I : Infra) (r : SRoute) : Option (List Result) :=
  (boxOf I r.nodes).map fun b => [⟨.stationRoute, r.name, b, r.id, []⟩]

/-- search_module.cc:130-135 -/
def routeResult (I : Infra) (r : IRoute) : Option (List Result) :=
  (boxOf I r.elements).map fun b => [⟨.route, leftPad r.id, b, r.id, []⟩]

/-- search_module.cc:51-145 `get_search_context`: the results -/
def searchResults (I : Infra) : Option (List Result) :=
  match collect (stationResult I) I.stations, collect (fullNameResult I) I.fullNames.zipIdx,
    collect (elementResults I) I.elements, collect (stationRouteResult I) I.stationRoutes,
    collect (routeResult I) I.routes with
  | some a, some b, some c, some d, some e => some (a ++ b ++ c ++ d ++ e)
  | _, _, _, _, _ => none

/-- serve_search.cc:34-66; `results` are those of the infrastructure, if it is known, `guess` are the indices of the matches -/
def serveSearch (results : Option (List Result)) (guess : List Char → List Nat) (query : List Char) :
    Option (Answer (List Result)) :=
  match results with
  | none => some .notFound
  | some rs => if query.length < 3 then some .badRequest else (lookupAll rs (guess query)).map .ok

end Soro.InfraServer
