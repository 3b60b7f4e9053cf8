import Verif.Model.IssFiles
import Verif.Model.Border

/-
Model of `src/infrastructure/parsers/iss/get_infra_stats.cc` and of the creation of elements from rail plan files
(`parse_iss.cc:192-515, 861-875, 1139-1155`, `graph_creation.h:9-45`, `graph_creation.cc:13-48`).

Of an element only the type is kept. The track nodes of a section are created in the order of the file instead of the order of
their kilometrage. XML nodes and numbers as in `IssElement`; `none`: an exception or undefined behaviour. Counters do not
overflow.
-/

namespace Soro.InfraStats
open TypeNames IssElement IssFiles

/-! ### get_infra_stats.cc -/

/-- infra_stats.h:9-24 -/
structure Stats where
  sections : Nat
  stations : Nat
  number : Ty → Nat

/-- the children of the rail plan of a section -/
def nodes (s : Xml) : List Xml := kids (child (some s) "Spurplanknoten".toList)

/-- parse_iss.cc:869-870 and get_infra_stats.cc:27-28: the sections of a station -/
def sections (s : Xml) : List Xml :=
  (kids (child (some s) "Spurplanabschnitte".toList)).filter fun k => k.name == "Spurplanabschnitt".toList

/-- parse_iss.cc:1146-1148 and get_infra_stats.cc:40-42: the stations of a file -/
def stations (d : Xml) : List Xml :=
  (kids (child (child (some d) "XmlIssDaten".toList) "Spurplanbetriebsstellen".toList)).filter fun k =>
    k.name == "Spurplanbetriebsstelle".toList

/-- get_infra_stats.cc:16-21 -/
def countNode (n : Ty → Nat) (x : Xml) : Ty → Nat :=
  let t := getType x.name
  if t = .invalid then n else fun u => if u = t then n u + 1 else n u

/-- get_infra_stats.cc:13-22 -/
def countSection (is : Stats) (s : Xml) : Stats :=
  { is with sections := is.sections + 1, number := (nodes s).foldl countNode is.number }

/-- get_infra_stats.cc:24-31 -/
def countStation (is : Stats) (s : Xml) : Stats :=
  (sections s).foldl countSection { is with stations := is.stations + 1 }

/-- get_infra_stats.cc:33-45, 50-52; `none` in the list: bad xml -/
def countFiles : List (Option Xml) → Stats → Option Stats
  | [], is => some is
  | none :: _, _ => none
  | some d :: ds, is => countFiles ds ((stations d).foldl countStation is)

/-- get_infra_stats.cc:57-74 -/
def reduce (t : Ty) (n : Nat) : Nat :=
  let n := if isSimpleElement t && t != .border then n / 2 else n
  let n := if t = .simpleSwitch then n / 3 else n
  if t = .cross then n / 4 else n

/-- get_infra_stats.cc:47-78 -/
def getInfraStats (files : List (Option Xml)) : Option Stats :=
  (countFiles files ⟨0, 0, fun _ => 0⟩).map fun is =>
    { is with sections := is.sections + is.number .border / 2, number := fun t => reduce t (is.number t) }

/-! ### elements of the infrastructure -/

/-- parse_helpers.cc:27-29 -/
def rpId (x : Xml) : Option Nat := stoul (childText (some x) "ID".toList)

/-- where a node names its main node -/
inductive MainRef where
  | self | partnerNode | partner | neighbour | mainNode
  deriving DecidableEq

/-- parse_iss.cc:208-252: the names of the cases -/
def mainCases : List (Text × MainRef) :=
  [("Prellbock".toList, .self), ("Betriebsstellengrenze".toList, .self), ("Gleisende".toList, .self),
   ("KmSprungAnfang".toList, .self), ("Weichenanfang".toList, .self), ("KreuzungAnfangLinks".toList, .self),
   ("KreuzungsweicheAnfangLinks".toList, .self), ("Streckenwechsel0".toList, .self),
   ("KmSprungEnde".toList, .partnerNode), ("Streckenwechsel1".toList, .partnerNode),
   ("Weichenstamm".toList, .partner), ("WeichenabzweigLinks".toList, .partner), ("WeichenabzweigRechts".toList, .partner),
   ("KreuzungEndeLinks".toList, .neighbour), ("KreuzungsweicheEndeLinks".toList, .neighbour),
   ("KreuzungAnfangRechts".toList, .mainNode), ("KreuzungEndeRechts".toList, .mainNode),
   ("KreuzungsweicheAnfangRechts".toList, .mainNode), ("KreuzungsweicheEndeRechts".toList, .mainNode)]

/-- parse_iss.cc:208-252 `get_main_rp_node_id` -/
def mainId (x : Xml) : Option Nat :=
  match switchHash x.name mainCases with
  | none => none
  | some .self => rpId x
  | some .partnerNode => stoul (attr (child (some x) "Partnerknoten".toList) "ID".toList)
  | some .partner => stoul (attr (child (some x) "Partner".toList) "ID".toList)
  | some .neighbour => stoul (attr (child (some x) "NachbarGeradeaus".toList) "ID".toList)
  | some .mainNode => stoul (attr (child (some x) "HauptknotenAnfang".toList) "ID".toList)

/-- the elements and `rp_id_to_element_id_` -/
structure Plan where
  types : List Ty
  idOf : Nat → Option Nat

/-- graph_creation.h:9-45 -/
def Plan.create (p : Plan) (t : Ty) (id : Nat) : Plan :=
  ⟨p.types ++ [t], fun i => if i = id then some p.types.length else p.idOf i⟩

/-- what the parser asks for: the end of a section with the id of its node and main node, a track element, an element in an empty
direction -/
inductive Req where
  | fin (t : Ty) (id main : Nat)
  | track (t : Ty) (id : Nat)
  | gap
  deriving DecidableEq

/-- parse_iss.cc:255-266 with graph_creation.cc:38-48; parse_track_element.cc:178; parse_iss.cc:337-339 -/
def Plan.step (p : Plan) : Req → Plan
  | .fin t id main =>
    match p.idOf main with
    | some e => if id = main then p else ⟨p.types, fun i => if i = id then some e else p.idOf i⟩
    | none =>
      let q := p.create t main
      if id = main then q else ⟨q.types, fun i => if i = id then some p.types.length else q.idOf i⟩
  | .track t id => p.create t id
  | .gap => p.create .meta' (2 ^ 64 - 1)

/-- parse_iss.cc:255-260 -/
def finReq (x : Xml) : Option Req :=
  match rpId x, mainId x with
  | some i, some m => some (.fin (getType x.name) i m)
  | _, _ => none

/-- parse_track_element.cc:178-179 -/
def trackReq (x : Xml) : Option Req := (rpId x).map fun i => .track (getType x.name) i

/-- parse_iss.cc:448-456: nodes of track elements -/
def trackNodes (s : Xml) : List Xml :=
  (nodes s).filter fun x => !(getType x.name == .invalid || !isTrackElement (getType x.name))

/-- parse_iss.cc:428-434: the nodes passed in a direction -/
def inDirection (dir : Bool) (xs : List Xml) : List Xml :=
  xs.filter fun x => !(isDirected (getType x.name) && hasRisingName x.name != dir)

/-- parse_iss.cc:192-500: the elements a section asks for -/
def requests (s : Xml) : Option (List Req) :=
  match (nodes s).head?, (nodes s).getLast? with
  | some a, some b => do
    let a ← finReq a
    let b ← finReq b
    let up ← allSome trackReq (inDirection true (trackNodes s))
    let down ← allSome trackReq ((inDirection false (trackNodes s)).filter fun x => isDirected (getType x.name))
    pure (a :: b :: (up ++ (if (inDirection true (trackNodes s)).isEmpty then [.gap] else []) ++
      (down ++ if (inDirection false (trackNodes s)).isEmpty then [.gap] else [])))
  | _, _ => none

/-- the sections of all stations of all files in the order of parsing; `none` in the list: bad xml -/
def allSections : List (Option Xml) → Option (List Xml)
  | [] => some []
  | none :: _ => none
  | some d :: ds => (allSections ds).map fun ss => (stations d).flatMap sections ++ ss

/-- parse_iss.cc:1157-1170: elements of the infrastructure -/
def build (files : List (Option Xml)) : Option Plan :=
  (allSections files).bind fun ss => (allSome requests ss).map fun rs =>
    rs.flatten.foldl Plan.step ⟨[], fun _ => none⟩

/-- parse_iss.cc:198, 962: sections of the infrastructure; `bs`: the borders of the stations -/
def sectionCount (files : List (Option Xml)) (find : Nat → Option Nat) (bs : List Infra.BorderIn) : Option Nat :=
  (allSections files).bind fun ss => (Infra.completeBorders find bs).map fun r => ss.length + r.2.length

end Soro.InfraStats
