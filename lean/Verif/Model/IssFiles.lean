import Verif.Model.IssElement
import Verif.Model.Section

/-
Model of `src/infrastructure/parsers/iss/iss_files.cc`, `src/infrastructure/regulatory_data.cc`, the station names, the version
and the map of stations of `parse_iss.cc:994-1003,1184-1215`, `parse_station_coords.cc` and `station_route::requires_etcs`
(`station_route.cc:58-67`).

A path is the list of its parts, without a separator at the end; the first part of an absolute path is empty. The file system
maps paths to directories and files; the content of a file is the document it parses to (`none`: not well-formed). A document is
a node with the root as child. Only files can be loaded. `none` as result of a function: an exception or undefined behaviour.
A map is a function. Not modelled: warnings, the parser of comma separated values (rows are given).
-/

namespace Soro.IssFiles
open Utls TypeNames ParseFp IssElement

/-! ### files -/

abbrev Path := List Text

inductive Entry where
  | dir
  | file (doc : Option Xml)

abbrev Files := Path → Option Entry

/-- `utls::loaded_file`; `none`: exception -/
def load (fs : Files) (p : Path) : Option (Option Xml) :=
  match fs p with
  | some (.file d) => some d
  | _ => none

/-- parts of a path -/
def splitPath : Text → Path
  | [] => [[]]
  | c :: s =>
    if c = '/' then [] :: splitPath s
    else
      match splitPath s with
      | [] => [[c]]
      | w :: ws => (c :: w) :: ws

/-- `dir / path(name)` -/
def resolve (dir : Path) (name : Text) : Path := if name.head? = some '/' then splitPath name else dir ++ splitPath name

/-- `path.filename()` -/
def filename (p : Path) : Text := p.getLast?.getD []

/-- iss_files.h:11-19; a file with its path -/
structure Sets where
  index : Xml
  railPlan : List (Path × Option Xml)
  core : List (Path × Option Xml)
  regStations : List (Path × Option Xml)
  regLines : List (Path × Option Xml)

/-- iss_files.cc:13-30 -/
def addFile (fs : Files) (s : Sets) (p : Path) : Option Sets :=
  if "Spurplanbetriebsstellen".toList.isPrefixOf (filename p) then
    (load fs p).map fun d => { s with railPlan := s.railPlan ++ [(p, d)] }
  else if "Stammdaten".toList.isPrefixOf (filename p) then
    (load fs p).map fun d => { s with core := s.core ++ [(p, d)] }
  else if "Ordnungsrahmen_ORBtrst".toList.isPrefixOf (filename p) then
    (load fs p).map fun d => { s with regStations := s.regStations ++ [(p, d)] }
  else if "Ordnungsrahmen_ORStr".toList.isPrefixOf (filename p) then
    (load fs p).map fun d => { s with regLines := s.regLines ++ [(p, d)] }
  else some s

/-- iss_files.cc:39-46 -/
def addFiles (fs : Files) (dir : Path) : List Xml → Sets → Option Sets
  | [], s => some s
  | x :: xs, s =>
    if (fs (resolve dir (childText (some x) "Name".toList))).isSome then
      (addFile fs s (resolve dir (childText (some x) "Name".toList))).bind (addFiles fs dir xs)
    else none

/-- iss_files.cc:32-47 -/
def issFiles (fs : Files) (index : Path) : Option Sets :=
  match load fs index with
  | some (some d) =>
    addFiles fs index.dropLast ((kids (child (child (some d) "XmlIssIndex".toList) "Dateien".toList)).filter fun k =>
      k.name == "Datei".toList) ⟨d, [], [], [], []⟩
  | _ => none

/-- `path.extension() == ".iss"` -/
def isArchive (f : Text) : Bool := ".iss".toList.isSuffixOf f && decide (4 < f.length)

/-- iss_files.cc:49-63 -/
def getIssFiles (fs : Files) (p : Path) : Option Sets :=
  match fs p with
  | none => none
  | some e =>
    if isArchive (filename p) then none
    else if filename p = "Index.xml".toList then issFiles fs p.dropLast
    else
      match e with
      | .dir => if (fs (p ++ ["Index.xml".toList])).isSome then issFiles fs (p ++ ["Index.xml".toList]) else none
      | .file _ => none

/-- parse_iss.cc:1197-1215: name and number -/
def parseVersion (index : Xml) : Text × Nat :=
  let v := child (child (some index) "XmlIssIndex".toList) "SpurplandatenVersion".toList
  (childText v "Name".toList, (parseInt ⟨false, 4⟩ (childText v "Nummer".toList)).toNat)

/-! ### stations -/

/-- `map[k] = v` -/
def assign {β : Type} (m : Text → Option β) (k : Text) (v : β) : Text → Option β := fun x => if x = k then some v else m x

/-- regulatory_data.cc:29-36 -/
def addStations (d : Xml) (m : Text → Option Text) : Text → Option Text :=
  (kids (child (child (child (some d) "XmlIssDaten".toList) "Ordnungsrahmen".toList) "Betriebsstellen".toList)).foldl
    (fun m k => assign m (childText (some k) "DS100".toList) (childText (some k) "Name".toList)) m

/-- regulatory_data.cc:16-39 -/
def parseStations : List (Option Xml) → (Text → Option Text) → Option (Text → Option Text)
  | [], m => some m
  | none :: _, _ => none
  | some d :: ds, m => parseStations ds (addStations d m)

/-- parse_iss.cc:1184-1195 -/
def fullNames (stations : List Text) (names : Text → Option Text) : List Text := stations.map fun s => (names s).getD s

/-- parse_iss.cc:994-1003: the id of a station is its position -/
def stationMap : List Text → Nat → (Text → Option Nat) → Text → Option Nat
  | [], _, m => m
  | s :: ss, i, m => stationMap ss (i + 1) (assign m s i)

/-- parse_station_coords.cc:31-35 -/
structure Row where
  ds100 : Text
  lat : Text
  lon : Text

/-- parse_station_coords.cc:47-56: invalid coordinates are -361 -/
def coordinate (s : Text) : Option Rat := if s = [] then some (-361) else parseFp true s

/-- parse_station_coords.cc:37-59: (lon, lat) by station; `none`: written outside of the vector -/
def addRows (m : Text → Option Nat) : List Row → List (Option Rat × Option Rat) → Option (List (Option Rat × Option Rat))
  | [], v => some v
  | r :: rs, v =>
    match m r.ds100 with
    | none => addRows m rs v
    | some i => if i < v.length then addRows m rs (v.set i (coordinate r.lon, coordinate r.lat)) else none

/-- number of keys of the map of stations -/
def keyCount : List Text → Nat
  | [] => 0
  | s :: ss => if s ∈ ss then keyCount ss else keyCount ss + 1

/-- parse_station_coords.cc:18-62; `none` as rows: no such file -/
def stationCoords (stations : List Text) : Option (List Row) → Option (List (Option Rat × Option Rat))
  | none => some []
  | some rows => addRows (stationMap stations 0 fun _ => none) rows
      (List.replicate (keyCount stations) (some (-361), some (-361)))

/-! ### lines -/

/-- line.h:11-17; `none`: the largest number -/
structure Seg where
  frm : Option Rat
  fin : Option Rat
  etcs : Bool
  lzb : Bool
  signalling : Bool
  deriving DecidableEq, Repr

/-- regulatory_data.cc:43-47 -/
def hasSignalling : List (Nat × Bool) :=
  [(1, true), (2, true), (3, false), (6, true), (8, true), (9, true), (12, true), (13, false), (14, false), (15, true),
   (18, true), (20, true), (21, true), (23, true), (24, false)]
/-- regulatory_data.cc:49-53 -/
def hasLzb : List (Nat × Bool) :=
  [(1, false), (2, true), (3, true), (6, false), (8, false), (9, false), (12, false), (13, false), (14, false), (15, false),
   (18, false), (20, false), (21, false), (23, false), (24, false)]
/-- regulatory_data.cc:55-59 -/
def hasEtcs : List (Nat × Bool) :=
  [(1, false), (2, false), (3, false), (6, false), (8, true), (9, true), (12, true), (13, true), (14, false), (15, false),
   (18, true), (20, false), (21, false), (23, true), (24, false)]

/-- regulatory_data.cc:80-101; `none`: exception -/
def parseSegment (x : Xml) : Option Seg :=
  let frm := parseKilometrage (childText (some x) "KilometrierungVon".toList)
  let fin := parseKilometrage (childText (some x) "KilometrierungBis".toList)
  match child (some x) "Art".toList with
  | none => some ⟨frm, fin, false, false, false⟩
  | some t =>
    let key := (parseInt ⟨false, 4⟩ (attr (some t) "Schluessel".toList)).toNat
    match hasSignalling.lookup key, hasLzb.lookup key, hasEtcs.lookup key with
    | some s, some l, some e => some ⟨frm, fin, e, l, s⟩
    | _, _, _ => none

/-- all of them or none -/
def allSome {α β : Type} (f : α → Option β) : List α → Option (List β)
  | [] => some []
  | a :: as =>
    match f a, allSome f as with
    | some b, some bs => some (b :: bs)
    | _, _ => none

/-- regulatory_data.cc:73-104: number and segments -/
def parseLine (x : Xml) : Option (Nat × List Seg) :=
  (allSome parseSegment (kids (child (some x) "Streckenabschnitte".toList))).map fun s =>
    ((parseInt ⟨false, 2⟩ (childText (some x) "Nr".toList)).toNat, s)

/-- regulatory_data.cc:61-108 -/
def parseLinesFromFile (d : Option Xml) : Option (List (Nat × List Seg)) :=
  d.bind fun d => allSome parseLine
    (kids (child (child (child (some d) "XmlIssDaten".toList) "Ordnungsrahmen".toList) "Strecken".toList))

/-- regulatory_data.cc:119-122: `emplace` keeps the first value of a key -/
def emplaceAll {β : Type} : List (Nat × β) → (Nat → Option β) → Nat → Option β
  | [], m => m
  | (n, s) :: ls, m => emplaceAll ls fun x => if x = n ∧ m n = none then some s else m x

/-- regulatory_data.cc:110-125 -/
def parseLines (files : List (Option Xml)) : Option (Nat → Option (List Seg)) :=
  (allSome parseLinesFromFile files).map fun ls => emplaceAll ls.flatten fun _ => none

/-- a segment for `Infra.getSegment`; the tag says whether it has signals. `none`: not a number -/
def toSegment (s : Seg) : Option Infra.Segment :=
  match s.frm, s.fin with
  | some f, some t => some ⟨f, t, if s.signalling then 1 else 0⟩
  | _, _ => none

/-- station_route.cc:58-67 with line.cc:38-40; `start` is line and kilometrage of the last ETCS start of the route. `none`: an
exception, an access beyond the segments or a kilometrage that is no number -/
def requiresEtcs (lines : Nat → Option (List Seg)) (start : Option (Nat × Rat)) : Option Bool :=
  match start with
  | none => some false
  | some (n, km) =>
    ((lines n).bind fun l => (allSome toSegment l).bind fun l => Infra.getSegment l km).map fun s => decide (s.tag ≠ 1)

end Soro.IssFiles
