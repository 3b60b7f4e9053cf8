/-
Model of the export to OpenStreetMap data: `web/server/src/modules/tiles/osm_export/osm_export.cc`, and of
`get_element_to_station_map` (`src/infrastructure/parsers/iss/parse_iss.cc:982-992`).

Elements and stations are their ids. Ids are natural numbers: that `element_id` (32 bits) may overflow is not modelled.
Coordinates and tags of the nodes are not modelled, they are looked up by the id. The XML document is the list of its
nodes and the list of its ways.
-/

namespace Soro.Osm

/-- the parts of `infrastructure_t` that are used: the number of elements, the id and the elements of every station, and
`element::neighbours()`, `none` for a null pointer -/
structure Infra where
  elements : Nat
  stations : List (Nat × List Nat)
  nbs : Nat → List (Option Nat)

/-- `map[k] = v` -/
def put {β : Type} (m : Nat → β) (k : Nat) (v : β) : Nat → β := fun j => if j = k then v else m j

/-- parse_iss.cc:986-988 -/
def mapStation (s : Nat) : List Nat → (Nat → Option Nat) → (Nat → Option Nat)
  | [], m => m
  | e :: es, m => mapStation s es (put m e (some s))

/-- parse_iss.cc:982-992 `get_element_to_station_map` -/
def mapStations : List (Nat × List Nat) → (Nat → Option Nat) → (Nat → Option Nat)
  | [], m => m
  | (s, es) :: ss, m => mapStations ss (mapStation s es m)

/-- `element_to_station_` -/
def Infra.stationOf (I : Infra) : Nat → Option Nat := mapStations I.stations fun _ => none

/-- osm_export.h:24-49 `osm_information` without the nodes; of an interpolation the two elements -/
structure Info where
  ways : List (Nat × Nat)
  interps : List (Nat × Nat)
  toWay : Nat → List Nat

/-- osm_export.cc:100-123: the loop over the neighbours of `e`, which is in station `s`; `none`: `at` throws -/
def neighbourLoop (I : Infra) (e s : Nat) : List (Option Nat) → Info → Option Info
  | [], i => some i
  | none :: ns, i => neighbourLoop I e s ns i
  | some n :: ns, i =>
    if (i.toWay n).contains e then neighbourLoop I e s ns i
    else
      match I.stationOf n with
      | none => none
      | some t =>
        let m := put i.toWay n (i.toWay n ++ [e])
        let m' := put m e (m e ++ [n])
        if t ≠ s then neighbourLoop I e s ns ⟨i.ways, i.interps ++ [(e, n)], m'⟩
        else neighbourLoop I e s ns ⟨i.ways ++ [(e, n)], i.interps, m'⟩

/-- osm_export.cc:97-124 `create_ways` -/
def createWays (I : Infra) (i : Info) (e : Nat) : Option Info :=
  match I.stationOf e with
  | none => none
  | some s => neighbourLoop I e s (I.nbs e) i

/-- what a node of the document stands for; of an interpolation the number of the interpolation and of the point -/
inductive Kind where
  | station (id : Nat)
  | element (id : Nat)
  | point (interp idx : Nat)
  deriving DecidableEq, Repr

/-- osm_export.cc:170-174 -/
def elementLoop (I : Infra) : List Nat → List (Nat × Kind) × Info → Option (List (Nat × Kind) × Info)
  | [], st => some st
  | e :: es, st =>
    match createWays I st.2 e with
    | none => none
    | some i => elementLoop I es (st.1 ++ [(e, .element e)], i)

/-- osm_export.cc:167-175 -/
def stationLoop (I : Infra) : List (Nat × List Nat) → List (Nat × Kind) × Info → Option (List (Nat × Kind) × Info)
  | [], st => some st
  | (s, es) :: ss, st =>
    match elementLoop I es (st.1 ++ [(s + I.elements, .station s)], st.2) with
    | none => none
    | some st' => stationLoop I ss st'

/-- one step of sorting by id -/
def insertNode (a : Nat × Kind) : List (Nat × Kind) → List (Nat × Kind)
  | [] => [a]
  | b :: bs => if a.1 ≤ b.1 then a :: b :: bs else b :: insertNode a bs

/-- osm_export.cc:178-179: `std::sort` by id -/
def sortNodes : List (Nat × Kind) → List (Nat × Kind)
  | [] => []
  | a :: as => insertNode a (sortNodes as)

/-- osm_export.cc:126-142 `export_osm_nodes`: the nodes at the given positions; `none`: `at` throws -/
def exportNodes (nodes : List (Nat × Kind)) : List Nat → Option (List (Nat × Kind))
  | [] => some []
  | i :: is =>
    match nodes[i]?, exportNodes nodes is with
    | some n, some ns => some (n :: ns)
    | _, _ => none

/-- osm_export.cc:187-198: every thread exports the nodes from `min` to `max`, the results are appended in the order of
the threads -/
def exportThreads (nodes : List (Nat × Kind)) (unit : Nat) : List Nat → Option (List (Nat × Kind))
  | [] => some []
  | t :: ts =>
    let lo := unit * t
    let hi := if unit * (t + 1) > nodes.length then nodes.length else unit * (t + 1)
    match exportNodes nodes (List.range' lo (hi - lo)), exportThreads nodes unit ts with
    | some a, some b => some (a ++ b)
    | _, _ => none

/-- osm_export.cc:182-198; `threads` is `std::thread::hardware_concurrency()`, which may be 0: then the division is
undefined, `none` -/
def exportAll (threads : Nat) (nodes : List (Nat × Kind)) : Option (List (Nat × Kind)) :=
  if threads = 0 then none else exportThreads nodes (nodes.length / threads + 1) (List.range threads)

/-- osm_export.cc:78-88: the loop over the points; the number of points is at least one -/
def pointLoop (k points id : Nat) : List Nat → List (Nat × Kind) × List (Nat × Nat) → List (Nat × Kind) × List (Nat × Nat)
  | [], st => st
  | i :: is, st =>
    pointLoop k points id is
      (st.1 ++ [(id + i, .point k i)], if i < points - 1 then st.2 ++ [(id + i, id + i + 1)] else st.2)

/-- osm_export.cc:72-95 `create_interpolation_osm`: the nodes and ways added for the `k`-th interpolation -/
def createInterpolation (points k id : Nat) (p : Nat × Nat) (st : List (Nat × Kind) × List (Nat × Nat)) :
    List (Nat × Kind) × List (Nat × Nat) :=
  let st' := pointLoop k points id (List.range points) (st.1, st.2 ++ [(p.1, id)])
  (st'.1, st'.2 ++ [(id + points - 1, p.2)])

/-- osm_export.cc:203-206; `points` is the number of points of an interpolation; the result has the next id -/
def interpolationLoop (points : Nat) : List (Nat × Nat) → Nat → Nat → List (Nat × Kind) × List (Nat × Nat) →
    Nat × List (Nat × Kind) × List (Nat × Nat)
  | [], _, id, st => (id, st)
  | p :: ps, k, id, st => interpolationLoop points ps (k + 1) (id + points) (createInterpolation points k id p st)

/-- osm_export.cc:209-211: the ways of the document, with their ids -/
def wayLoop : List (Nat × Nat) → Nat → List (Nat × Nat × Nat)
  | [], _ => []
  | w :: ws, id => (id, w) :: wayLoop ws (id + 1)

/-- the XML document -/
structure Doc where
  nodes : List (Nat × Kind)
  ways : List (Nat × Nat × Nat)

/-- interpolation.cc:117: the values of the counter, and so the points -/
def counters : Nat → Nat → List Nat
  | 0, _ => []
  | fuel + 1, c => if c ≤ 100 then c :: counters fuel (c + 2) else []

/-- osm_export.cc:156-214 `export_to_osm`; `none`: an exception or undefined behaviour (`back()` of no nodes, division by
zero) -/
def exportToOsm (threads : Nat) (I : Infra) : Option Doc :=
  match stationLoop I I.stations ([], ⟨[], [], fun _ => []⟩) with
  | none => none
  | some (ns, info) =>
    let nodes := sortNodes ns
    match exportAll threads nodes, nodes.getLast? with
    | some written, some last =>
      let r := interpolationLoop (counters 101 1).length info.interps 0 (last.1 + 1) (written, info.ways)
      some ⟨r.2.1, wayLoop r.2.2 r.1⟩
    | _, _ => none

end Soro.Osm
