import Verif.Model.StationRoute

/-
Model of the tables built while station routes are constructed: `src/infrastructure/parsers/iss/parse_iss.cc:805-829` (extra
speed limits), 726-741 (routes by name), 840-852 (routes by first element) and 881-893 (which routes are read).

A route of the file is its name, whether it is only published, its path and its extra speed limits. Names are numbers. An
extra speed limit is its element and the position in the file. Maps may be hash maps (soro_types.h), so the order in which
their entries are visited is a parameter.
-/

namespace Soro.RouteTable

/-- a node of a path: its id and the id of its element -/
structure PNode where
  node : Nat
  element : Nat
  deriving DecidableEq, Repr

/-- `speed_limit`, the parts that matter here; `tag` stands for everything else -/
structure Spl where
  element : Nat
  tag : Nat
  node : Nat
  deriving DecidableEq, Repr

/-- a station route of the file -/
structure Raw where
  name : Nat
  publishOnly : Bool
  path : List PNode
  limits : List Spl

/-- `intermediate_station_route` -/
structure Inter where
  id : Nat
  name : Nat
  station : Nat
  path : List PNode
  limits : List Spl

/-! ### reading -/

/-- parse_iss.cc:881-893: the routes of a station -/
def readRoutes (station : Nat) : List Raw → List Inter → List Inter
  | [], acc => acc
  | r :: rs, acc =>
    if r.publishOnly then readRoutes station rs acc
    else readRoutes station rs (acc ++ [⟨acc.length, r.name, station, r.path, r.limits⟩])

/-- the stations one after the other -/
def readStations : Nat → List (List Raw) → List Inter → List Inter
  | _, [], acc => acc
  | s, rs :: rss, acc => readStations (s + 1) rss (readRoutes s rs acc)

/-! ### extra speed limits -/

/-- parse_iss.cc:806-816: the node of every limit; `none`: `*end` is undefined -/
def assignNodes (path : List PNode) : List Spl → Option (List Spl)
  | [] => some []
  | l :: ls =>
    match path.find? (fun n => n.element = l.element), assignNodes path ls with
    | some n, some ls' => some (⟨l.element, l.tag, n.node⟩ :: ls')
    | _, _ => none

/-- the position of the first node with the element of the limit: `std::distance(begin, find_if ...)` -/
def posOf (path : List PNode) (l : Spl) : Nat := path.findIdx (fun n => n.element = l.element)

/-- parse_iss.cc:818-829: what `std::sort` guarantees with the given comparison -/
def SortedBy (path : List PNode) (unsorted sorted : List Spl) : Prop :=
  unsorted.Perm sorted ∧ sorted.Pairwise fun a b => ¬ posOf path b < posOf path a

/-! ### routes by name -/

/-- `map[key] = value` on the entries of a map -/
def assign {β : Type} (k : Nat) (v : β) : List (Nat × β) → List (Nat × β)
  | [] => [(k, v)]
  | p :: ps => if p.1 = k then (k, v) :: ps else p :: assign k v ps

/-- `map.find(key)` -/
def find {β : Type} (k : Nat) : List (Nat × β) → Option β
  | [] => none
  | p :: ps => if p.1 = k then some p.2 else find k ps

/-- parse_iss.cc:741: `station->station_routes_[name] = sr` for all routes; the table of a station is `t s` -/
def nameLoop : List Inter → (Nat → List (Nat × Nat)) → (Nat → List (Nat × Nat))
  | [], t => t
  | r :: rs, t => nameLoop rs fun s => if s = r.station then assign r.name r.id (t s) else t s

/-! ### routes by first element -/

/-- parse_iss.cc:843-851 for one station; `firstOf` is the first element of a route, `none` if it has no nodes: undefined -/
def elementLoop (firstOf : Nat → Option Nat) : List (Nat × Nat) → List (Nat × List Nat) → Option (List (Nat × List Nat))
  | [], m => some m
  | (_, r) :: es, m =>
    match firstOf r with
    | none => none
    | some e =>
      match find e m with
      | some rs => elementLoop firstOf es (assign e (rs ++ [r]) m)
      | none => elementLoop firstOf es (assign e [r] m)

/-- the first element of the route with the given id -/
def firstOf (routes : List Inter) (r : Nat) : Option Nat := (routes[r]?.bind fun i => i.path.head?).map (·.element)

/-- both tables of a station; `order` is the order in which the map is visited -/
def stationTables (order : List (Nat × Nat) → List (Nat × Nat)) (routes : List Inter) (s : Nat) :
    List (Nat × Nat) × Option (List (Nat × List Nat)) :=
  let names := nameLoop routes (fun _ => []) s
  (names, elementLoop (firstOf routes) (order names) [])

end Soro.RouteTable
