import Verif.Model.Debug
import Verif.Model.RouteBuild
import Verif.Model.RouteTable
import Verif.Model.Section

/-
Model of `calculate_station_routes` (src/infrastructure/parsers/iss/parse_iss.cc:697-838) in a build with assertions, next to
the release build put together from `RouteBuild` and `RouteTable`, and of `get_segment` (src/infrastructure/line.cc:7-36) in a
build with assertions.

Not modelled here: the passenger and freight halts and the runtime checkpoint (`StationRoute`), the stations before and after
(`StationRoute`) and the length (`PathLength`). `std::sort` is the parameter `sort`.
-/

namespace Soro.RouteDebug
open Soro.Infra Soro.Route Soro.RouteBuild Soro.RouteTable Dbg

/-- an `intermediate_station_route` together with the nodes of its path -/
structure Src where
  id : Nat
  name : Nat
  station : Nat
  nodes : List Node
  route : IRoute
  limits : List Spl

/-- the omitted positions and the extra speed limits of a `station_route` -/
structure Built where
  omitted : List Nat
  limits : List Spl
  deriving DecidableEq, Repr

/-- the nodes of a path with their elements; `num` is `node::id_` -/
def pathOf (num : Node → Nat) (nodes : List Node) : List PNode := nodes.map fun n => ⟨num n, n.1⟩

/-- what `RouteTable` needs of a route -/
def Src.inter (num : Node → Nat) (s : Src) : Inter := ⟨s.id, s.name, s.station, pathOf num s.nodes, s.limits⟩

/-- the routes built so far and the tables of the stations -/
abbrev State := List Built × (Nat → List (Nat × Nat))

/-- parse_iss.cc:711-837, the body of the loop in the release build -/
def step (el : Nat → Elem) (rp : Nat → Option Nat) (num : Node → Nat) (sort : List PNode → List Spl → List Spl) (st : State)
    (s : Src) : Option State :=
  (omittedNodes el rp s.route).bind fun om => (assignNodes (pathOf num s.nodes) s.limits).map fun ls =>
    (st.1 ++ [⟨omittedAt el om s.nodes, sort (pathOf num s.nodes) ls⟩], nameLoop [s.inter num] st.2)

/-- parse_iss.cc:697-838 in the release build -/
def build (el : Nat → Elem) (rp : Nat → Option Nat) (num : Node → Nat) (sort : List PNode → List Spl → List Spl)
    (rs : List Src) : Option State := rs.foldlM (step el rp num sort) ([], fun _ => [])

/-- parse_iss.cc:806-816 -/
def assignNodesD (path : List PNode) : List Spl → Dbg (List Spl)
  | [] => pure []
  | l :: ls => do
    check 811 ((path.find? fun n => n.element = l.element).isSome = true)
    let n ← lift (path.find? fun n => n.element = l.element)
    let ls' ← assignNodesD path ls
    pure (⟨l.element, l.tag, n.node⟩ :: ls')

/-- parse_iss.cc:711-837, the body of the loop -/
def stepD (el : Nat → Elem) (rp : Nat → Option Nat) (num : Node → Nat) (sort : List PNode → List Spl → List Spl) (st : State)
    (s : Src) : Dbg State := do
  check 713 (st.1.length + 1 = s.id + 1)
  check 728 (find s.name (st.2 s.station) = none)
  let om ← lift (omittedNodes el rp s.route)
  let at' := omittedAt el om s.nodes
  let ls ← assignNodesD (pathOf num s.nodes) s.limits
  let out := sort (pathOf num s.nodes) ls
  check 833 (out.length = s.limits.length)
  check 836 (at'.length = s.route.omitted.length)
  pure (st.1 ++ [⟨at', out⟩], nameLoop [s.inter num] st.2)

/-- parse_iss.cc:697-838 -/
def buildD (el : Nat → Elem) (rp : Nat → Option Nat) (num : Node → Nat) (sort : List PNode → List Spl → List Spl)
    (rs : List Src) : Dbg State := rs.foldlM (stepD el rp num sort) ([], fun _ => [])

/-- line.cc:7-36 -/
def getSegmentD (l : List Segment) (km : Rat) : Dbg Segment := do
  check 8 (l ≠ [])
  match l.head?, l.getLast? with
  | some f, some b =>
    if km < f.frm then pure f
    else if b.to < km then pure b
    else
      let i ← lift (lowerBound (fun s : Segment => decide (s.frm ≤ km)) l l.length 0 l.length)
      let s ← lift (if i = 0 then none else l[i - 1]?)
      check 31 (s.frm ≤ km ∧ km ≤ s.to)
      pure s
  | _, _ => throw .undefined

end Soro.RouteDebug
