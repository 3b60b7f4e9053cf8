import Verif.Model.RoutePath
import Verif.Model.Interlocking
import Verif.Model.Train

/-
Model of `calculate_station_routes` (src/infrastructure/parsers/iss/parse_iss.cc:702-803) put together: from the routes of the
files to what trains read (`station_route::omitted_nodes_`, the nodes) and what the interlocking reads
(`station_route::path::main_signals_`). The paths are those of `RoutePath`, the loop over the nodes that of `StationRoute`.

`num` is `node::id_`. The extra speed limits and `requires_etcs` of the routes are parameters (see `RouteTable`,
`IssElement`).
-/

namespace Soro.RouteBuild
open Soro.Infra Soro.Route

/-- what `node::is` tells about the type of an element, as far as `StationRoute` needs it -/
def kindOf : Ty → Kind
  | .border => .border
  | .trackEnd => .trackEnd
  | .bumper => .bumper
  | .mainSignal => .mainSignal
  | .halt => .halt
  | _ => .other

/-- parse_iss.cc:769-779: the nodes to leave out; `none`: `at` or `utl::verify` throws, or the element is an undirected one and
the wrong alternative of the variant is accessed -/
def omittedNodes (el : Nat → Elem) (rp : Nat → Option Nat) (r : IRoute) : Option (List Node) :=
  r.omitted.mapM fun o => (rp o.1).bind fun e => if (el e).ty.isDirected then some (e, 0) else none

/-- parse_iss.cc:781-803: the positions of the nodes that are left out -/
def omittedAt (el : Nat → Elem) (om nodes : List Node) : List Nat :=
  omittedLoop (fun i => (nodes[i]?).any fun n => (el n.1).ty.isTrack) (fun i => (nodes[i]?).any fun n => om.contains n) 0
    (List.range nodes.length)

/-- the parts of a station route that trains and the interlocking read -/
def buildRoute (el : Nat → Elem) (rp : Nat → Option Nat) (num : Node → Nat) (spls : List Nat) (etcs : Bool) (p : SPath)
    (r : IRoute) : Option (SRoute × Interlocking.Info) :=
  (omittedNodes el rp r).map fun om =>
    (⟨p.nodes.map num, omittedAt el om p.nodes, spls⟩, ⟨p.nodes.length, p.signals, etcs⟩)

/-- the route with index `i`, with its path; `none` also: the search for the path has not ended -/
def buildAt (el : Nat → Elem) (rp : Nat → Option Nat) (num : Node → Nat) (spls : Nat → List Nat) (etcs : Nat → Bool)
    (st : Dedup (Option SPath)) (x : IRoute × Nat) : Option (SRoute × Interlocking.Info) :=
  (st.ids[x.2]?).bind fun k => (st.store[k]?).bind fun p => p.bind fun p => buildRoute el rp num (spls x.2) (etcs x.2) p x.1

/-- parse_iss.cc:702-803: all routes -/
def buildAll (L : Links) (el : Nat → Elem) (rp : Nat → Option Nat) (fuel : Nat) (num : Node → Nat) (spls : Nat → List Nat)
    (etcs : Nat → Bool) (rs : List IRoute) : Option (List (SRoute × Interlocking.Info)) :=
  (dedup rp (newPath L el rp fuel) rs).bind fun st => rs.zipIdx.mapM (buildAt el rp num spls etcs st)

end Soro.RouteBuild
