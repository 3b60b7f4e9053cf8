import Verif.Model.OrderingJson
import Verif.Model.Routing

/-
Model of parts of the web client: the selections of the sidebar (`web/client/src/stores/sidebar-store.ts`), the ordering graph
(`web/client/src/components/ordering/ordering-graph.vue`), the field for train ids (`components/base/soro-id-input.vue`), the
search (`components/sidebar/search/extended-search.vue`) and the legend of maps (`components/infrastructure/infrastructure-map.vue`).

The client has one thread: what is triggered by an event, including watchers, ends before the next event. A request that was sent
is answered later, by an event of its own that names the position of the request among the open ones. What the server answers is a
parameter; `none` is an error, or an answer that is no document. Contracts: `import` of graphology adds the nodes of the document
one after the other and throws at a node whose key is there; edges of a document are between its nodes and no edge is there twice.
Not modelled: drawing, and that clearing the selection of a timetable asks for one named `undefined`.
-/

namespace Soro.WebClient
open OrderingJson

variable {ν : Type}

/-! ### selections -/

/-- what the server answers -/
structure Server (ν : Type) where
  timetables : ν → Option (List ν)
  interval : ν → ν → Option (Nat × Nat)
  ordering : ν → ν → Nat × Nat → List Nat → Option Doc

/-- requests of the sidebar -/
inductive Req (ν : Type) where
  | timetables (infra : ν)
  | interval (infra timetable : ν)

/-- sidebar-store.ts:12-31 -/
structure Side (ν : Type) where
  infra : Option ν
  tt : Option ν
  names : List ν
  range : Option (Nat × Nat)
  ids : List Nat
  asked : List (Req ν)

/-- sidebar-store.ts:53-75 -/
def Side.init : Side ν := ⟨none, none, [], none, [], []⟩

/-- what the user does -/
inductive Act (ν : Type) where
  | infra (i : Option ν)
  | timetable (t : Option ν)
  | range (r : Nat × Nat)
  | ids (l : List Nat)

/-- sidebar-store.ts:183-196 -/
def Side.loadInfrastructure (s : Side ν) (i : Option ν) : Side ν :=
  let s := { s with infra := i, tt := none }
  match i with
  | none => s
  | some i => { s with asked := s.asked ++ [.timetables i] }

/-- sidebar-store.ts:198-216 -/
def Side.loadTimetable (s : Side ν) (t : Option ν) : Side ν :=
  match s.infra with
  | none => s
  | some i =>
    match t with
    | none => { s with tt := none }
    | some t => { s with tt := some t, asked := s.asked ++ [.interval i t] }

/-- sidebar-store.ts:194, 207-213: an answer -/
def Side.receive (srv : Server ν) (s : Side ν) : Req ν → Side ν
  | .timetables i =>
    match srv.timetables i with
    | none => s
    | some l => { s with names := l }
  | .interval i t =>
    match srv.interval i t with
    | none => s
    | some r => { s with range := some r }

/-! ### the ordering graph -/

/-- ordering-graph.vue:98-101 -/
structure Query (ν : Type) where
  infra : ν
  tt : ν
  range : Nat × Nat
  ids : List Nat

/-- a graph of graphology -/
structure Graph where
  nodes : List JNode
  edges : List (Nat × Nat)
deriving DecidableEq, Repr

def Graph.empty : Graph := ⟨[], []⟩

/-- ordering-graph.vue:26-35 and its requests -/
structure View (ν : Type) where
  graph : Graph
  asked : List (Query ν)

/-- the nodes of a document are added; `false`: an exception -/
def addNodes : List JNode → List JNode → List JNode × Bool
  | g, [] => (g, true)
  | g, n :: ns => if n.key ∈ g.map JNode.key then (g, false) else addNodes (g ++ [n]) ns

/-- `graph.import` (ordering-graph.vue:105) -/
def Graph.import (g : Graph) (d : Doc) : Graph :=
  let r := addNodes g.nodes d.nodes
  if r.2 then ⟨r.1, g.edges ++ d.edges⟩ else ⟨r.1, g.edges⟩

/-- ordering-graph.vue:84-101 -/
def View.create (s : Side ν) (v : View ν) : View ν :=
  match s.infra, s.tt, s.range with
  | some i, some t, some r => ⟨.empty, v.asked ++ [⟨i, t, r, s.ids⟩]⟩
  | _, _, _ => v

/-- ordering-graph.vue:98-105: an answer; the graph is the one there is now -/
def View.receive (srv : Server ν) (v : View ν) (q : Query ν) : View ν :=
  match srv.ordering q.infra q.tt q.range q.ids with
  | none => v
  | some d => { v with graph := v.graph.import d }

structure State (ν : Type) where
  side : Side ν
  view : View ν

def State.init : State ν := ⟨.init, ⟨.empty, []⟩⟩

/-- what happens: the user does something, the request number `k` of the sidebar or of the graph is answered, the graph is opened -/
inductive Event (ν : Type) where
  | act (a : Act ν)
  | side (k : Nat)
  | view (k : Nat)
  | mount

/-- sidebar-store.ts:183-224, ordering-graph.vue:49-67 -/
def State.act (s : State ν) : Act ν → State ν
  | .infra i => { s with side := s.side.loadInfrastructure i }
  | .timetable t => { s with side := s.side.loadTimetable t }
  | .range r =>
    let side := { s.side with range := some r }
    ⟨side, s.view.create side⟩
  | .ids l =>
    let side := { s.side with ids := l }
    ⟨side, s.view.create side⟩

/-- an answer to the sidebar; if the interval changes, so does the graph (ordering-graph.vue:50-57) -/
def State.answer (srv : Server ν) (s : State ν) (q : Req ν) : State ν :=
  let side := s.side.receive srv q
  match q with
  | .timetables _ => { s with side := side }
  | .interval i t => if (srv.interval i t).isSome then ⟨side, s.view.create side⟩ else s

/-- one event -/
def State.step (srv : Server ν) (s : State ν) : Event ν → State ν
  | .act a => s.act a
  | .side k =>
    match s.side.asked[k]? with
    | none => s
    | some q => ({ s with side := { s.side with asked := s.side.asked.eraseIdx k } } : State ν).answer srv q
  | .view k =>
    match s.view.asked[k]? with
    | none => s
    | some q => { s with view := ({ s.view with asked := s.view.asked.eraseIdx k } : View ν).receive srv q }
  | .mount => { s with view := View.create s.side ⟨.empty, []⟩ }

def run (srv : Server ν) (evs : List (Event ν)) (s : State ν) : State ν := evs.foldl (State.step srv) s

/-! ### train ids -/

/-- `split(',')` -/
def splitComma : List Char → List (List Char)
  | [] => [[]]
  | c :: s =>
    if c = ',' then [] :: splitComma s
    else match splitComma s with
      | [] => [[c]]
      | w :: ws => (c :: w) :: ws

/-- `parseInt` of a text of digits, as an exact number; `none`: NaN -/
def parseId (s : List Char) : Option Nat :=
  if s = [] then none else some (s.foldl (fun n c => 10 * n + (c.toNat - 48)) 0)

/-- soro-id-input.vue:36-57: the ids that are emitted when the text is entered; `none`: nothing happens -/
def enterIds (s : List Char) : Option (List (Option Nat)) :=
  if s = [] ∨ Routing.isIds true s = false then none else some ((splitComma s).map parseId)

/-- a number as text -/
def idText : Option Nat → List Char
  | some n => Routing.dec n
  | none => "NaN".toList

/-- `toString` of an array -/
def idsText : List (Option Nat) → List Char
  | [] => []
  | [n] => idText n
  | n :: m :: ns => idText n ++ ',' :: idsText (m :: ns)

/-- SoroClient.ts:217-241: the path requested for the train ids -/
def orderingPath (infra name : List Char) (start stop : Nat) (ids : List (Option Nat)) : List Char :=
  "/infrastructure/".toList ++ infra ++ "/timetable/".toList ++ name ++ "/ordering?".toList ++ "from=".toList ++
    Routing.dec start ++ "&to=".toList ++ Routing.dec stop ++ "&trainIds=".toList ++ idsText ids

/-! ### search -/

variable {ρ : Type}

/-- extended-search.vue:91-101, sidebar-store.ts:21; the requests with the infrastructure they are for -/
structure Search (ν ρ : Type) where
  infra : ν
  text : List Char
  results : List ρ
  asked : List (ν × List Char)

inductive SearchEvent (ν : Type) where
  | typed (q : List Char)
  | answer (k : Nat)
  | infra (i : ν)

/-- extended-search.vue:112-134; an error leaves the results as they are -/
def Search.step (srv : ν → List Char → Option (List ρ)) (s : Search ν ρ) : SearchEvent ν → Search ν ρ
  | .typed q =>
    if q.length < 3 then { s with text := q, results := [] } else { s with text := q, asked := s.asked ++ [(s.infra, q)] }
  | .answer k =>
    match s.asked[k]? with
    | none => s
    | some q =>
      let s := { s with asked := s.asked.eraseIdx k }
      match srv q.1 q.2 with
      | none => s
      | some l => { s with results := l }
  | .infra i => { s with infra := i }

def searchRun (srv : ν → List Char → Option (List ρ)) (evs : List (SearchEvent ν)) (s : Search ν ρ) : Search ν ρ :=
  evs.foldl (Search.step srv) s

/-! ### highlighted routes -/

/-- sidebar-store.ts:28-29, 148-181; the ids of the routes that are shown, and of those that are asked for -/
structure Routes where
  shown : List Nat
  asked : List Nat

inductive RouteEvent where
  | add (r : Nat)
  | delete (r : Nat)
  | answer (k : Nat)
deriving DecidableEq

/-- sidebar-store.ts:114-133, 148-181; `ok`: whether the server knows the route -/
def Routes.step (ok : Nat → Bool) (s : Routes) : RouteEvent → Routes
  | .add r => { s with asked := s.asked ++ [r] }
  | .delete r => { s with shown := s.shown.filter (· ≠ r) }
  | .answer k =>
    match s.asked[k]? with
    | none => s
    | some r => ⟨if ok r then s.shown ++ [r] else s.shown, s.asked.eraseIdx k⟩

def routesRun (ok : Nat → Bool) (evs : List RouteEvent) (s : Routes) : Routes := evs.foldl (Routes.step ok) s

/-! ### legends -/

variable {κ : Type} [DecidableEq κ]

/-- the array `checkedControls` of a map: an array of its own, or the array `initiallyCheckedControls` itself -/
inductive Controls (κ : Type) where
  | own (l : List κ)
  | constant

/-- the array `initiallyCheckedControls` (infrastructure-map.vue:46-53), and the maps -/
structure Legends (κ : Type) where
  initially : List κ
  maps : Nat → Controls κ

/-- the controls that are checked on a map -/
def Legends.checked (s : Legends κ) (m : Nat) : List κ :=
  match s.maps m with
  | .own l => l
  | .constant => s.initially

inductive LegendEvent (κ : Type) where
  | check (m : Nat) (c : κ)
  | uncheck (m : Nat) (c : κ)
  | reset (m : Nat)

def setMap (f : Nat → Controls κ) (m : Nat) (c : Controls κ) : Nat → Controls κ := fun j => if j = m then c else f j

/-- infrastructure-map.vue:201-208, 225-226; `push` changes the array in place -/
def Legends.step (s : Legends κ) : LegendEvent κ → Legends κ
  | .check m c =>
    match s.maps m with
    | .own l => { s with maps := setMap s.maps m (.own (l ++ [c])) }
    | .constant => { s with initially := s.initially ++ [c] }
  | .uncheck m c => { s with maps := setMap s.maps m (.own ((s.checked m).filter (· ≠ c))) }
  | .reset m => { s with maps := setMap s.maps m .constant }

/-- infrastructure-map.vue:86-95: every map starts with a copy -/
def Legends.init (l : List κ) : Legends κ := ⟨l, fun _ => .own l⟩

def legendRun (evs : List (LegendEvent κ)) (s : Legends κ) : Legends κ := evs.foldl Legends.step s

end Soro.WebClient
