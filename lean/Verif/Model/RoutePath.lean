import Verif.Model.Network

/-
Model of the paths of station routes: `get_station_route_paths` and parts of `calculate_station_routes`
(`src/infrastructure/parsers/iss/parse_iss.cc:520-853`).

Nodes and links as in `Model/Network.lean`. Station routes are identified by their position in `intermediate_station_routes_` (their
`id_`). The maps from rail plan ids to elements are functions, `none`: `at` throws.
-/

namespace Soro.Infra

/-- result of `get_path`: the nodes, `utl::verify` throws, `course_` is read beyond its end, or not finished -/
inductive PathRes where
  | ok (nodes : List Node)
  | fail
  | ub
  | running
  deriving DecidableEq, Repr

def PathRes.cons (n : Node) : PathRes → PathRes
  | .ok l => .ok (n :: l)
  | r => r

/-- src/infrastructure/graph/element.cc:50-57: a switch, or a cross with an arc -/
def Elem.isSwitch (e : Elem) : Bool := decide (e.ty = .simpleSwitch) || (decide (e.ty = .cross) && (e.arcL || e.arcR))

/-- parse_iss.cc:559-583: `get_path`, at most `fuel` rounds; `course`: `true` is STEM -/
def getPath (L : Links) (el : Nat → Elem) (course : List Bool) (last : Node) : (fuel : Nat) → (next : Option Node) → (idx : Nat) → PathRes
  | 0, _, _ => .running
  | _ + 1, none, _ => .fail
  | fuel + 1, some n, idx =>
    if n = last then .ok [n]
    else
      let idx' := idx + if (el n.1).isSwitch then 1 else 0
      match L.branch n with
      | none => (getPath L el course last fuel (L.next n) idx').cons n
      | some b =>
        match course[idx]? with
        | none => .ub
        | some true => (getPath L el course last fuel (L.next n) idx').cons n
        | some false => (getPath L el course last fuel (some b) idx').cons n

/-- parse_iss.cc:585-604: `get_node` of element `i`; `none`: it throws (or accesses the wrong alternative, for undirected elements) -/
def routeNode (el : Nat → Elem) (i : Nat) (start : Bool) : Option Node :=
  let e := el i
  if e.ty = .border then some (if start then (if e.rising then tb i false else tb i true) else (if e.rising then tb i true else tb i false))
  else if e.ty.isEnd then some (if start then (if e.rising then tb i false else tb i true) else (if e.rising then tb i true else tb i false))
  else if e.ty.isDirected then some (i, 0)
  else none

/-- the fields of `intermediate_station_route` (include/soro/infrastructure/parsers/iss/construction_materials.h) used for the path -/
structure IRoute where
  start : Nat
  fin : Nat
  course : List Bool
  omitted : List (Nat × Ty)
  deriving DecidableEq

/-- parse_iss.cc:520-533 -/
def IRoute.relevant (r : IRoute) : List Nat := (r.omitted.filter fun o => decide (o.2 = .mainSignal)).map (·.1)

/-- equality of `std::set` -/
def sameSet (a b : List Nat) : Bool := a.all (b.contains ·) && b.all (a.contains ·)

/-- parse_iss.cc:535-546 -/
def samePath (a b : IRoute) : Bool :=
  decide (a.start = b.start) && decide (a.fin = b.fin) && decide (a.course = b.course) && sameSet a.relevant b.relevant

/-- parse_iss.cc:606-630: `get_main_signals`; `el`: types of the elements, `rp`: element of a rail plan node -/
def mainSignals (el : Nat → Elem) (rp : Nat → Option Nat) (r : IRoute) (nodes : List Node) : Option (List Nat) :=
  (r.relevant.mapM rp).map fun om =>
    (List.range nodes.length).filter fun i =>
      match nodes[i]? with
      | some n => decide ((el n.1).ty = .mainSignal) && !((om.map fun e => ((e, 0) : Node)).contains n)
      | none => false

/-- parse_iss.cc:632-648: `get_etcs` for one of the two types -/
def nodesOfType (el : Nat → Elem) (ty : Ty) (nodes : List Node) : List Nat :=
  (List.range nodes.length).filter fun i =>
    match nodes[i]? with
    | some n => decide ((el n.1).ty = ty)
    | none => false

/-- `station_route::path` (include/soro/infrastructure/station/station_route.h) -/
structure SPath where
  start : Nat
  fin : Nat
  course : List Bool
  nodes : List Node
  signals : List Nat
  etcsStarts : List Nat
  etcsEnds : List Nat
  deriving DecidableEq

/-- parse_iss.cc:677-692: a new path; `none`: an exception or a read beyond the course; the inner `none`: not finished within `fuel` rounds -/
def newPath (L : Links) (el : Nat → Elem) (rp : Nat → Option Nat) (fuel : Nat) (r : IRoute) : Option (Option SPath) :=
  (rp r.start).bind fun s => (rp r.fin).bind fun e => (routeNode el s true).bind fun sn => (routeNode el e false).bind fun en =>
    match getPath L el r.course en fuel (some sn) 0 with
    | .ok nodes => (mainSignals el rp r nodes).map fun ms =>
        some ⟨s, e, r.course, nodes, ms, nodesOfType el .etcsStart nodes, nodesOfType el .etcsEnd nodes⟩
    | .running => some none
    | _ => none

/-- state of the loop of parse_iss.cc:661-697: `station_route_id_to_path_id_` (positions in `path_store_`), `path_store_`,
`start_elements_to_isr_paths` -/
structure Dedup (α : Type) where
  ids : List Nat
  store : List α
  known : Nat → List (Nat × Nat)

/-- parse_iss.cc:661-697: one round; `make`: a new path -/
def dedupStep {α : Type} (rp : Nat → Option Nat) (make : IRoute → Option α) (rs : List IRoute) (st : Dedup α) (r : IRoute) : Option (Dedup α) :=
  (rp r.start).bind fun s =>
    match (st.known s).find? fun p => (rs[p.1]?).any fun q => samePath q r with
    | some p => some { st with ids := st.ids ++ [p.2] }
    | none => (make r).map fun a =>
        ⟨st.ids ++ [st.store.length], st.store ++ [a], set st.known s (st.known s ++ [(st.ids.length, st.store.length)])⟩

/-- parse_iss.cc:552-700 -/
def dedup {α : Type} (rp : Nat → Option Nat) (make : IRoute → Option α) (rs : List IRoute) : Option (Dedup α) :=
  rs.foldlM (dedupStep rp make rs) ⟨[], [], fun _ => []⟩

/-- parse_iss.cc:743-749: `to_station_`; `st`: `element_to_station_` -/
def toStation (L : Links) (st : Nat → Nat) (own : Nat) (nodes : List Node) : Option Nat :=
  (nodes.getLast?.bind L.next).bind fun n => if st n.1 ≠ own then some (st n.1) else none

/-- parse_iss.cc:751-757: `from_station_` -/
def fromStation (rev : Node → List Node) (st : Nat → Nat) (own : Nat) (nodes : List Node) : Option Nat :=
  (nodes.head?.bind fun n => (rev n).head?).bind fun n => if st n.1 ≠ own then some (st n.1) else none

end Soro.Infra
