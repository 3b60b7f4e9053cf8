import Verif.Model.OrderingGraph
import Verif.Model.Utls

/-
Model of `web/server/src/modules/ordering/serve_ordering_graph.cc`: the request for an ordering graph and its answer.

The JSON document is modelled by the values written, in order. `none` is undefined behaviour (a node id out of range).
Departure times are integers: 32-bit wrap-around is left out, as in the model of the ordering graph. Not modelled: the
matching of the path against the expression of the route (soro_server.cc:115-123), JSON syntax, logging.
-/

namespace Soro.OrderingJson
open OrderingGraph Utls

/-- an entry of `nodes` (serve_ordering_graph.cc:61-82) -/
structure JNode where
  key : Nat
  train : Nat
  offset : Nat
  rel : Nat
  route : Nat
deriving DecidableEq, Repr

/-- the values of the document: nodes, edges (source, target), `totalTrains` and `maxTrainLength` -/
structure Doc where
  nodes : List JNode
  edges : List (Nat × Nat)
  totalTrains : Nat
  maxLength : Nat
deriving DecidableEq, Repr

/-- an entry of `trip_to_nodes_`: train id and anchor, first node and the one past the last -/
abbrev Trip := (Nat × Int) × (Nat × Nat)

/-- serve_ordering_graph.cc:58-91: write the nodes with the given ids, and their edges -/
def writeNodes (g : OGraph) (first rel : Nat) : List Nat → Doc → Option Doc
  | [], d => some d
  | i :: is, d =>
    match g[i]? with
    | none => none
    | some n =>
      writeNodes g first rel is
        { d with
          nodes := d.nodes ++ [⟨n.id, n.train, n.id - first, rel, n.ir⟩]
          edges := d.edges ++ n.outs.map fun t => (n.id, t) }

/-- serve_ordering_graph.cc:52-94: the loop over the trips -/
def writeTrips (g : OGraph) : Nat → List Trip → Doc → Option Doc
  | _, [], d => some d
  | rel, e :: es, d =>
    (writeNodes g e.2.1 rel (List.range' e.2.1 (e.2.2 - e.2.1))
      { d with totalTrains := d.totalTrains + 1, maxLength := max d.maxLength (e.2.2 - e.2.1) }).bind
      (writeTrips g (rel + 1) es)

/-- serve_ordering_graph.cc:30-33: what the trips are sorted by; `trains` are the trains of the timetable, looked up by id -/
def departureOf (trains : List OTrain) (e : Trip) : Int :=
  e.1.2 + ((trains[e.1.1]?).map OTrain.firstDeparture).getD 0

/-- serve_ordering_graph.cc:18-115; `srt` is `utls::sort` with the comparison of lines 29-34 -/
def serialize (srt : List Trip → List Trip) (g : OGraph) (trips : List Trip) : Option Doc :=
  writeTrips g 0 (srt trips) ⟨[], [], 0, 0⟩

/-- `uint32_t`, the representation of `absolute_time` and `train::id` -/
def u32 : IntTy := ⟨false, 4⟩

/-- ordering_graph.h:29-32 -/
structure Filter where
  start : Int
  stop : Int
  trains : List Nat
deriving DecidableEq, Repr

/-- try_parse_int of every entry; the first failure ends the loop (serve_ordering_graph.cc:124-130) -/
def parseAll : List (List Char) → Option (List Nat)
  | [] => some []
  | s :: ss =>
    match tryParseInt u32 s with
    | none => none
    | some v => (parseAll ss).map (v.toNat :: ·)

/-- serve_ordering_graph.cc:117-133 `comma_values_to_train_ids`; the loop of `split` ends within `s.length + 1` rounds -/
def trainIds (csv : List Char) : Option (List Nat) := (split (csv.length + 1) csv [',']).bind parseAll

/-- serve_ordering_graph.cc:135-156 `params_to_filter`; `none` is the error -/
def paramsToFilter (frm to ids : List Char) : Option Filter :=
  match tryParseInt u32 frm with
  | none => none
  | some a =>
    match tryParseInt u32 to with
    | none => none
    | some b => if a ≤ b then (trainIds ids).map fun ts => ⟨a, b, ts⟩ else none

/-- the answers of the server -/
inductive Response where
  | notFound | badRequest | ok (d : Doc)
deriving DecidableEq, Repr

/-- what is used of an infrastructure: number of exclusion sets, and the sets of every route -/
structure Infra where
  setCount : Nat
  irsToSets : List (List Nat)

/-- serve_ordering_graph.cc:160-187. `infra` and `timetable` are the results of the lookups by name; a timetable gives the
trains with their departures in an interval. -/
def serve (srtU : Nat → List Usage → List Usage) (srtT : List OTrain → List Trip → List Trip) (infra : Option Infra)
    (timetable : Option (Int → Int → List OTrain)) (frm to ids : List Char) : Option Response :=
  match infra with
  | none => some .notFound
  | some infra =>
    match timetable with
    | none => some .notFound
    | some tt =>
      match paramsToFilter frm to ids with
      | none => some .badRequest
      | some f =>
        let trains := tt f.start f.stop
        (construct srtU infra.setCount infra.irsToSets f.trains trains).bind fun p =>
          (serialize (srtT trains) p.1 p.2).map .ok

end Soro.OrderingJson
