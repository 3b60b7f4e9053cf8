import Verif.Model.Section

/-
Model of the construction of the node graph: `src/infrastructure/graph/graph_creation.cc` and `parse_section_into_network` of
`src/infrastructure/parsers/iss/parse_iss.cc`.

An element is its id (`element::id()`, the position in `graph::elements_`), a node is an element and the position in its
`nodes_`. Elements are one record for all variants, `nb` are the `neighbours_`. Elements at the ends of sections exist before the
sections are read (the code creates them at their first use). Kilometrages are left out; the sorted lists of track elements are
given. `none`: a null pointer is dereferenced or `utl::fail` throws.
-/

namespace Soro.Infra

/-- the points of a section element, named by the XML element (iss_string_literals.h:98-165): `only` for bumpers, track ends and
borders, `start`, `fin` for kilometrage jumps and line switches, `start`, `stem`, `branch` for switches, the rest for crosses -/
inductive Pt where
  | only | start | fin | stem | branch | startLeft | endLeft | startRight | endRight
  deriving DecidableEq, Repr

/-- include/soro/infrastructure/graph/element.h:36-303. `flag` are `end_rising_`, `stem_rising_` and so on, `line` the lines of the
points, `arcL` and `arcR` are `start_left_end_right_arc_` and `start_right_end_left_arc_`. -/
structure Elem where
  ty : Ty
  rising : Bool
  nb : Nat → Option Nat
  flag : Pt → Bool
  line : Pt → Nat
  arcL : Bool
  arcR : Bool

/-- element and position in `nodes_`: top, bot, left, right (element.h:54-55, 136, 260-263) -/
abbrev Node := Nat × Nat

def set {α β : Type} [DecidableEq α] (f : α → β) (i : α) (x : β) : α → β := fun j => if j = i then x else f j

/-! ### get_node -/

/-- graph_creation.cc:270-272 -/
def Elem.joinsLines (e : Elem) : Bool :=
  if e.ty = .simpleSwitch then !(decide (e.line .start = e.line .stem) && decide (e.line .start = e.line .branch))
  else if e.ty = .cross then
    !(decide (e.line .startLeft = e.line .endLeft) && decide (e.line .startLeft = e.line .startRight) &&
      decide (e.line .startRight = e.line .endRight))
  else false

/-- graph_creation.cc:285-303 -/
def Elem.misalignedJoin (e : Elem) : Bool :=
  if e.ty = .simpleSwitch then
    if !e.joinsLines then false
    else
      let c := e.rising.toNat + (e.flag .stem).toNat + (e.flag .branch).toNat
      if e.rising then decide (c ≠ 1) else decide (c ≠ 2)
  else if e.ty = .cross then
    e.joinsLines && (decide (e.rising.toNat + (e.flag .endLeft).toNat + (e.flag .startRight).toNat + (e.flag .endRight).toNat ≠ 2) ||
      e.flag .startRight == e.flag .endRight)
  else false

/-- top if `b`, bot otherwise -/
def tb (i : Nat) (b : Bool) : Node := (i, if b then 0 else 1)
/-- left if `b`, right otherwise -/
def lr (i : Nat) (b : Bool) : Node := (i, if b then 2 else 3)

/-- graph_creation.cc:309-388: the node of element `i` that is reached from the neighbour `neigh` in direction `up` -/
def getNode (el : Nat → Elem) (i : Nat) (up : Bool) (neigh : Nat) : Option Node :=
  let e := el i
  let at' (slot : Nat) : Bool := decide (e.nb slot = some neigh) || decide (e.nb (slot + 1) = some neigh)
  if e.ty.isEnd then some (tb i up)
  else if e.ty.isSimple then
    if e.ty = .lineSwitch ∧ at' 2 then
      let swap := e.rising == e.flag .fin
      some (if swap then tb i (!e.flag .fin) else tb i (e.flag .fin))
    else some (tb i up)
  else if e.ty.isDirected then some (i, 0)
  else if e.ty.isUndirected then some (tb i up)
  else if e.ty = .simpleSwitch then
    let stemMisalign := decide (e.line .stem ≠ e.line .start) && e.rising == e.flag .stem
    let branchMisalign := decide (e.line .branch ≠ e.line .start) && e.rising == e.flag .branch
    let swap := e.joinsLines && e.misalignedJoin && ((at' 2 && stemMisalign) || (at' 4 && branchMisalign))
    some (if swap then tb i (!up) else tb i up)
  else if e.ty = .cross then
    let misJoin := e.joinsLines && e.misalignedJoin
    if at' 0 then some (lr i up)
    else if at' 2 then
      let swap := misJoin && (decide (e.line .endLeft ≠ e.line .startLeft) && e.rising == e.flag .endLeft)
      some (if swap then lr i (!e.flag .endLeft) else lr i (e.flag .endLeft))
    else if at' 4 then some (tb i up)
    else if at' 6 then
      let swap := misJoin && (decide (e.line .endRight ≠ e.line .startRight) && e.flag .startRight == e.flag .endRight)
      some (if swap then tb i (!e.flag .endRight) else tb i (e.flag .endRight))
    else none
  else none

/-! ### connect_nodes -/

/-- the expression `connect` of graph_creation.cc:468-472 and 505-509, also lines 411-414, 425-440: the node behind the point with
neighbours at `slot`, away from element `i`; `r`: the point is the end of its section -/
def away (el : Nat → Elem) (i slot : Nat) (r : Bool) : Option Node :=
  ((el i).nb (slot + if r then 1 else 0)).bind fun j => getNode el j (!r) i

/-- an assignment to `next_node_` or (if `branch`) `branch_node_` of a node -/
structure Assign where
  branch : Bool
  node : Node
  target : Node

/-- evaluates the targets -/
def assigns : List (Bool × Node × Option Node) → Option (List Assign)
  | [] => some []
  | (b, n, t) :: l => t.bind fun t => (assigns l).map fun l => ⟨b, n, t⟩ :: l

/-- graph_creation.cc:406-560: the assignments for element `i` to `next_node_` and (`true`) `branch_node_` of its nodes; no target: a null
pointer is dereferenced -/
def entries (el : Nat → Elem) (i : Nat) : List (Bool × Node × Option Node) :=
  let e := el i
  let r := e.rising
  if e.ty.isEnd then [(false, tb i (!r), away el i 0 r)]
  else if e.ty = .lineSwitch then [(false, tb i r, away el i 2 (e.flag .fin)), (false, tb i (!r), away el i 0 r)]
  else if e.ty.isSimple || e.ty.isUndirected then
    (if e.nb 0 ≠ none then [(false, tb i true, away el i 0 false)] else []) ++
      (if e.nb 3 ≠ none then [(false, tb i false, away el i 2 true)] else [])
  else if e.ty.isDirected then [(false, (i, 0), (e.nb 1).bind fun j => getNode el j r i)]
  else if e.ty = .simpleSwitch then
    [(false, tb i (!r), away el i 0 r), (false, tb i r, away el i 2 (e.flag .stem)),
      (true, tb i r, away el i 4 (e.flag .branch))]
  else if e.ty = .cross then
    let sr := e.flag .startRight
    let sl' := away el i 0 r
    let el' := away el i 2 (e.flag .endLeft)
    let sr' := away el i 4 sr
    let er' := away el i 6 (e.flag .endRight)
    [(false, lr i (!r), sl'), (false, lr i r, el'), (false, tb i (!sr), sr'), (false, tb i sr, er')] ++
      (if e.arcL then [(true, lr i r, er'), (true, tb i (!sr), sl')] else []) ++
      (if e.arcR then [(true, tb i sr, el'), (true, lr i (!r), sr')] else [])
  else []

/-- graph_creation.cc:406-560: the assignments for element `i`, `none`: a null pointer is dereferenced -/
def connectElem (el : Nat → Elem) (i : Nat) : Option (List Assign) := assigns (entries el i)

/-- `next_node_` and `branch_node_` of all nodes -/
structure Links where
  next : Node → Option Node
  branch : Node → Option Node

def Links.apply (l : Links) (a : Assign) : Links :=
  if a.branch then { l with branch := set l.branch a.node (some a.target) } else { l with next := set l.next a.node (some a.target) }

/-- graph_creation.cc:562-566: the loop over the elements, for the first `n` elements -/
def connectAll (el : Nat → Elem) : Nat → Option Links
  | 0 => some ⟨fun _ => none, fun _ => none⟩
  | n + 1 => (connectAll el n).bind fun l => (connectElem el n).map fun as => as.foldl Links.apply l

/-- graph_creation.cc:568-580: `n` becomes a reverse edge of its successor `t` -/
def addReverse (rev : Node → List Node) (n : Node) : Option Node → Node → List Node
  | some t => set rev t (rev t ++ [n])
  | none => rev

/-- graph_creation.cc:568-578: `reverse_edges_` of all nodes after the loop over `nodes_` -/
def reverseEdges (l : Links) (nodes : List Node) : Node → List Node :=
  nodes.foldl (fun rev n => addReverse (addReverse rev n (l.next n)) n (l.branch n)) fun _ => []

/-! ### sections -/

/-- the first of the two slots of a point; graph_creation.cc:158-258 -/
def Elem.slot (e : Elem) (pt : Pt) : Option Nat :=
  if e.ty.isEnd then some 0
  else if e.ty.isSimple then
    match pt with
    | .start => some 0
    | .fin => some 2
    | _ => some (if e.rising then 2 else 0)
  else if e.ty = .simpleSwitch then
    match pt with
    | .start => some 0
    | .stem => some 2
    | .branch => some 4
    | _ => none
  else if e.ty = .cross then
    match pt with
    | .startLeft => some 0
    | .endLeft => some 2
    | .startRight => some 4
    | .endRight => some 6
    | _ => none
  else none

def Elem.setSlot (e : Elem) (k : Nat) (x : Option Nat) : Elem := { e with nb := set e.nb k x }

/-- graph_creation.cc:158-263 -/
def Elem.setNeighbour (e : Elem) (pt : Pt) (x : Nat) (up : Bool) : Elem :=
  if e.ty.isDirected then e.setSlot (if up then 1 else 0) (some x)
  else if e.ty.isUndirected then
    if e.nb 2 = none then e.setSlot 2 (some x)
    else if e.nb 0 = none then e.setSlot 0 (some x)
    else if e.nb 1 = none then e.setSlot 1 (some x)
    else if e.nb 3 = none then e.setSlot 3 (some x)
    else e
  else
    match e.slot pt with
    | some k => e.setSlot (k + if up then 0 else 1) (some x)
    | none => e

/-- the elements of the graph -/
structure Graph where
  el : Nat → Elem
  n : Nat

def Graph.modify (g : Graph) (i : Nat) (f : Elem → Elem) : Graph := { g with el := set g.el i (f (g.el i)) }
def Graph.setNb (g : Graph) (i : Nat) (pt : Pt) (x : Nat) (up : Bool) : Graph := g.modify i fun e => e.setNeighbour pt x up

/-- include/soro/infrastructure/graph/graph_creation.h:9-46 -/
def Graph.create (g : Graph) (ty : Ty) (rising : Bool) : Graph :=
  ⟨set g.el g.n ⟨ty, rising, fun _ => none, fun _ => false, fun _ => 0, false, false⟩, g.n + 1⟩

/-- parse_iss.cc:255-298 and graph_creation.cc:50-156: direction and line of a point -/
def Elem.setPoint (e : Elem) (pt : Pt) (isStart : Bool) (line : Nat) : Elem :=
  let e := { e with line := set e.line pt line }
  match pt with
  | .only | .start | .startLeft => { e with rising := !isStart }
  | .fin => if e.ty = .lineSwitch then { e with flag := set e.flag pt (!isStart) } else e
  | _ => { e with flag := set e.flag pt (!isStart) }

/-- an XML node of a track element; `xid` is its identity -/
structure TNode where
  ty : Ty
  rising : Bool
  xid : Nat
  deriving DecidableEq, Repr

/-- variables of a scan: `prev_element`, `prev_node`, `undirected_track_elements`; `seq`: the elements linked so far -/
structure Scan where
  g : Graph
  prev : Nat
  pt : Pt
  und : List (Nat × Nat)
  seq : List Nat

/-- parse_iss.cc:357-382 -/
def Scan.directed (s : Scan) (dir : Bool) (nd : TNode) : Scan :=
  let i := s.g.n
  let g := s.g.create nd.ty nd.rising
  let g := g.setNb s.prev s.pt i (dir || (g.el s.prev).ty.isTrack)
  let g := g.setNb i .only s.prev false
  { s with g := g, prev := i, pt := .only, seq := s.seq ++ [i] }

/-- parse_iss.cc:384-412 -/
def Scan.undirected (s : Scan) (dir : Bool) (nd : TNode) : Scan :=
  let (g, i, und) := match s.und.lookup nd.xid with
    | some i => (s.g, i, s.und)
    | none => (s.g.create nd.ty false, s.g.n, (nd.xid, s.g.n) :: s.und)
  let g := g.setNb s.prev s.pt i (if (g.el s.prev).ty.isTrack then true else dir)
  let g := g.setNb i .only s.prev (!dir)
  { g := g, prev := i, pt := .only, und := und, seq := s.seq ++ [i] }

/-- parse_iss.cc:427-441 -/
def Scan.step (dir : Bool) (s : Scan) (nd : TNode) : Scan :=
  if nd.ty.isDirected && decide (nd.rising ≠ dir) then s
  else if nd.ty.isDirected then s.directed dir nd
  else s.undirected dir nd

def replaceNb (old new : Nat) (e : Elem) : Elem := { e with nb := fun k => if e.nb k = some old then some new else e.nb k }

/-- parse_iss.cc:332-355 -/
def insertMeta (g : Graph) (a b : Nat) (rising : Bool) : Graph :=
  let i := g.n
  let g := g.create .metaElement rising
  let g := g.modify i fun e => (e.setSlot 1 (some b)).setSlot 0 (some a)
  let g := g.modify a (replaceNb b i)
  g.modify b (replaceNb a i)

/-- a section of the XML file: its ends with the names of the points, its line, and the track elements sorted in both directions -/
structure SecIn where
  start : Nat
  ptS : Pt
  fin : Nat
  ptF : Pt
  line : Nat
  up : List TNode
  down : List TNode

/-- parse_iss.cc:196-518: the graph and the track elements in rising and falling direction -/
def parseSection (x : SecIn) (g : Graph) : Graph × List Nat × List Nat :=
  let g := g.modify x.start fun e => e.setPoint x.ptS true x.line
  let g := g.modify x.fin fun e => e.setPoint x.ptF false x.line
  let r := x.up.foldl (Scan.step true) ⟨g, x.start, x.ptS, [], []⟩
  let g := (r.g.setNb r.prev r.pt x.fin true).setNb x.fin x.ptF r.prev true
  let up := if r.prev = x.start then [g.n] else r.seq
  let g := if r.prev = x.start then insertMeta g x.start x.fin true else g
  let f := x.down.foldl (Scan.step false) ⟨g, x.fin, x.ptF, r.und, []⟩
  let g := f.g.setNb x.start x.ptS f.prev false
  let g := g.setNb f.prev f.pt x.start ((g.el f.prev).ty.isTrack)
  let down := if f.prev = x.fin then [g.n] else f.seq
  let g := if f.prev = x.fin then insertMeta g x.fin x.start false else g
  (g, up, down)

/-- graph_creation.cc:586-596 -/
def connectBorder (g : Graph) (b : Nat) (low : Bool) (to : Nat) : Graph :=
  g.modify b fun e => (e.setSlot (if low then 2 else 0) (some to)).setSlot (if low then 3 else 1) (some to)

/-- a section after it was read: the track elements in rising and falling direction -/
structure SecOut where
  x : SecIn
  up : List Nat
  down : List Nat

/-- parse_iss.cc:870-873, for one station after the other: all sections are read into the same graph -/
def parseAll : List SecIn → Graph → Graph × List SecOut
  | [], g => (g, [])
  | x :: xs, g =>
    let p := parseSection x g
    let r := parseAll xs p.1
    (r.1, ⟨x, p.2.1, p.2.2⟩ :: r.2)

/-- parse_iss.cc:893-980 (`complete_borders`): borders with their partners, `true` for a low border -/
def connectBorders (bs : List (Nat × Bool × Nat)) (g : Graph) : Graph :=
  bs.foldl (fun g b => connectBorder g b.1 b.2.1 b.2.2) g

end Soro.Infra
