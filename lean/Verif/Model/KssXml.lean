import Verif.Model.ServiceDays
import Verif.Model.TrainSeries

/-
Model of the KSS timetable parser on the documents of a timetable, `src/timetable/parsers/kss/parse_kss_timetable.cc`; line numbers
without a file refer to it. Trains are read with their numbers, service days, times and vehicles. Put together from the parts in
`Kss`, `ServiceDays`, `TrainSeries`, `Transform` and the XML nodes of `IssElement`.

Stations and their routes are functions of their names. `relative_time` and `duration2` are numbers of seconds below 2^32.
The sequence points of `transform_to_interlocking` carry their times here, otherwise it is the one of `Transform`.
Not modelled: counting of errors, log messages, `sassert` (release build), node handles to text and comments among the children.
-/

namespace Soro.KssXml
open Utls TypeNames ParseFp IssElement IssFiles TrainSeries Train Transform

/-- base/time.h:76: `INVALID<relative_time>` -/
def NEVER : Nat := 4294967295

/-- sequence_point.h:17-56 -/
structure Stop where
  ty : SType
  arrival : Nat
  departure : Nat
  minStop : Nat
  sr : Nat
  deriving DecidableEq, Repr

/-- what `Train` and `Transform` see of a sequence point -/
def Stop.point (s : Stop) : SPoint := ⟨s.ty, decide (s.departure ≠ NEVER), s.sr⟩

/-- lines 143-159, 257-263; without the node the time is `INVALID` (sequence_point.h:51-52). `none`: read beyond the text -/
def timeOf : Option Xml → Option Nat
  | none => some NEVER
  | some x => Kss.parseTimeOffset (childText (some x) "time".toList) (child (some x) "nightLeap".toList).isSome

/-- lines 265-269, sequence_point.h:48,58-61; the first character of the key, zero for an empty text. `none`: exception -/
def modeOf : Option Xml → Option SType
  | none => some .transit
  | some x => Kss.stopType ((attr (some x) "Schluessel".toList).head?.getD '\x00')

/-- lines 271-276 -/
def minStopOf : Option Xml → Kss.Dur
  | none => .ok 0
  | some x => Kss.parseDuration x.text

/-- `ds100_to_station_` and the `station_routes_` of a station -/
abbrev Stations := Text → Option (Text → Option Nat)

/-- lines 239-292, one point -/
def stop (st : Stations) (x : Xml) : Kss.Res Stop :=
  match st (childText (some x) "servicePoint".toList) with
  | none => .err .stationNotFound
  | some routes =>
    match routes (childText (some x) "trackSystem".toList) with
    | none => .err .stationRouteNotFound
    | some sr =>
      match timeOf (child (some x) "arrival".toList), timeOf (child (some x) "departure".toList) with
      | some arr, some dep =>
        match modeOf (child (some x) "stopMode".toList) with
        | none => .throws
        | some ty =>
          match minStopOf (child (some x) "minStopTime".toList) with
          | .ok d => .ok ⟨ty, arr, dep, d, sr⟩
          | _ => .undef
      | _, _ => .undef

/-- stop_sequence.h with full sequence points -/
structure Sequence where
  stops : List Stop
  breakIn : Bool
  breakOut : Bool

/-- what `Transform` sees of it -/
def Sequence.seq (s : Sequence) : StopSeq := ⟨s.stops.map Stop.point, s.breakIn, s.breakOut⟩

/-- lines 234-299 -/
def sequence (st : Stations) (x : Option Xml) : Kss.Res Sequence :=
  match Kss.each (stop st) (kids (child x "sequenceServicePoints".toList)) with
  | .ok ss => .ok ⟨ss, childText x "breakin".toList == "true".toList, childText x "breakout".toList == "true".toList⟩
  | .err e => .err e
  | .throws => .throws
  | .undef => .undef

/-- train_physics.h; `none` is the largest number -/
structure Physics where
  vehicles : List Vehicle
  weight : Option Rat
  length : Option Rat
  maxSpeed : Option Rat
  ctc : Bool
  freight : Bool

/-- a text in the document, which is followed by a zero -/
def view (s : Text) : View := ⟨s ++ ['\x00'], s.length⟩

/-- lines 307-322, one traction unit -/
def vehicle (rs : Text → Option Series) (x : Xml) : Kss.Res Vehicle :=
  let s := child (some x) "tractionUnitDesignSeries".toList
  match getTractionVehicle rs (view (childText s "designSeries".toList)) (view (attr (child s "designSeries".toList) "Nr".toList))
    (parseInt ⟨false, 4⟩ (childText s "variante".toList)).toNat with
  | none => .undef
  | some none => .err .vehicle
  | some (some v) => .ok v

/-- lines 301-341 -/
def characteristic (rs : Text → Option Series) (x : Option Xml) : Kss.Res Physics :=
  match Kss.each (vehicle rs) (kids (child x "tractionUnits".toList)) with
  | .ok vs => .ok
    { vehicles := vs
      weight := fromKm (parseFp false (childText x "totalWeight".toList))
      length := parseFp false (childText x "totalLength".toList)
      maxSpeed := fromKmH (parseFp false (childText x "maxVelocity".toList))
      ctc := childText x "trainProtection".toList == "true".toList
      freight := childText x "relevantStopPositionMode".toList == "G".toList }
  | .err e => .err e
  | .throws => .throws
  | .undef => .undef

/-- lines 82-129, what is read of a `service` element -/
def service (x : Xml) : ServiceDays.Elem :=
  if x.attrs.any fun a => a.1 == "bitMask".toList then
    .mask (attr (some x) "startDate".toList) (attr (some x) "endDate".toList) (attr (some x) "bitMask".toList)
  else .special (attr (child (some x) "special".toList) "date".toList) (attr (child (some x) "special".toList) "type".toList)

/-- lines 63-141 -/
def services (x : Option Xml) : Option Bitfield :=
  ServiceDays.parseElems (((kids x).filter fun k => k.name == "service".toList).map service)

/-- lines 389-398 -/
def trainNumber (x : Option Xml) : Nat × Nat :=
  ((parseInt ⟨false, 4⟩ (childText x "mainNumber".toList)).toNat, (parseInt ⟨false, 2⟩ (childText x "subNumber".toList)).toNat)

/-! ### transform_to_interlocking with full sequence points -/

/-- station_route_to_interlocking_route.cc:173-193 -/
def stopsOn (i : Infra) (freight : Bool) (ir : Route.IR) : List Stop → Option (List Stop)
  | [] => some []
  | s :: ss =>
    match s.point.nodeIdx i freight with
    | none => stopsOn i freight ir ss
    | some idx =>
      (ir.contains s.sr idx).bind fun b =>
        (stopsOn i freight ir ss).map fun r => if b then s :: r else r

/-- station_route_to_interlocking_route.cc:181-182 -/
def stopsRange (ss : List Stop) (a b : Nat) : Option (List Stop) :=
  if b ≤ a then some [] else if b ≤ ss.length then some ((ss.take b).drop a) else none

inductive Outcome where
  | ok (path : List Nat) (stops : List Stop)
  | err (e : Err)
  | undef
  | running
  deriving DecidableEq, Repr

/-- station_route_to_interlocking_route.cc:224-274 -/
def loop (i : Infra) (k : Ilk) (s : Sequence) (freight : Bool) : Nat → Route.IR → Cover → List Nat → List Stop → Outcome
  | 0, _, _, _, _ => .running
  | fuel + 1, cur, c, path, ss =>
    match covers i s.seq freight c with
    | none => .undef
    | some true => .ok path ss
    | some false =>
      match (cur.lastNode i.routes).bind fun n => (candidates i k s.seq freight c (some n)).bind fun cands =>
          longest k.routes (s.seq.plan.drop c.offset) cands with
      | none => .undef
      | some (ids, p) =>
        match ids with
        | [] => .err .noIr
        | [id] =>
          match k.routes[id]? with
          | none => .undef
          | some ir =>
            match (stopsRange s.stops c.offset (c.offset + p)).bind (stopsOn i freight ir) with
            | none => .undef
            | some new =>
              if s.stops.length < c.offset + ir.srs.length then .ok (path ++ [id]) (ss ++ new)
              else
                match advance i s.seq c ir p with
                | none => .undef
                | some c' => loop i k s freight fuel ir c' (path ++ [id]) (ss ++ new)
        | _ => .err .noUniqueIr

/-- station_route_to_interlocking_route.cc:195-284 without the assertion at the end -/
def transform (i : Infra) (k : Ilk) (s : Sequence) (freight : Bool) (fuel : Nat) : Outcome :=
  match firstIr i k s.seq freight with
  | none => .undef
  | some (.inl e) => .err e
  | some (.inr (id, ir, c)) =>
    match (stopsRange s.stops 0 ((c.offset + 1) % SIZE)).bind (stopsOn i freight ir) with
    | none => .undef
    | some ss => loop i k s freight fuel ir c [id] ss

/-! ### trains -/

/-- train.h:121-132; the id is assigned later -/
structure KTrain where
  number : Nat × Nat
  days : Bitfield
  physics : Physics
  breakIn : Bool
  breakOut : Bool
  path : List Nat
  stops : List Stop

/-- what the parser uses of the infrastructure -/
structure Data where
  infra : Infra
  ilk : Ilk
  stations : Stations
  series : Text → Option Series

/-- lines 400-442; at most `fuel` rounds of the loop of `transform` -/
def constructionTrain (d : Data) (fuel : Nat) (x : Xml) : Kss.Res KTrain :=
  match services (child (some x) "services".toList) with
  | none => .undef
  | some days =>
    match sequence d.stations (child (some x) "sequence".toList) with
    | .err e => .err e
    | .throws => .throws
    | .undef => .undef
    | .ok s =>
      match characteristic d.series (child (some x) "characteristic".toList) with
      | .err e => .err e
      | .throws => .throws
      | .undef => .undef
      | .ok p =>
        match Kss.isSupported d.infra p.ctc p.freight s.seq with
        | .err e => .err e
        | .throws => .throws
        | .undef => .undef
        | .ok () =>
          match transform d.infra d.ilk s p.freight fuel with
          | .ok path ss => .ok ⟨trainNumber (child (some x) "trainNumber".toList), days, p, s.breakIn, s.breakOut, path, ss⟩
          | .err e => .err (.transform e)
          | .undef => .undef
          | .running => .undef

/-- lines 444-467: status and construction trains of a `train` element -/
def trainOf (x : Xml) : Bool × List Xml :=
  (attr (some x) "trainStatus".toList == "freig".toList,
    (kids (child (some x) "fineConstruction".toList)).filter fun k => k.name == "constructionTrain".toList)

/-- lines 469-499: the trains of a document and the counted errors -/
def parseDocument (d : Data) (fuel : Nat) (x : Xml) : Kss.Res (List KTrain × List Kss.KErr) :=
  Kss.parseFile (constructionTrain d fuel)
    (((kids (child (child (child (some x) "KSS".toList) "railml".toList) "timetable".toList)).filter fun k =>
      k.name == "train".toList).map trainOf)

/-- train.cc:74-78; in a release build the time is not checked. `none`: undefined behaviour -/
def firstDeparture (t : KTrain) : Option Nat := t.stops.head?.map Stop.departure
/-- train.cc:80-84 -/
def lastArrival (t : KTrain) : Option Nat := t.stops.getLast?.map Stop.arrival
/-- base/time.h:34-37 for the first departure on the day with this midnight -/
def departs (t : KTrain) (midnight : Nat) : Option Nat := (firstDeparture t).map (relToAbs midnight)

/-! ### the directory -/

/-- an entry of the directory: name and content -/
abbrev Dir := List (Text × Entry)

/-- `path.extension() == ".xml"`: the last point is not the first character -/
def hasXmlExtension (n : Text) : Bool := ".xml".toList.isSuffixOf n && decide (4 < n.length)

/-- lines 34-37 -/
def isKssFile (e : Text × Entry) : Bool :=
  (match e.2 with
    | .dir => false
    | .file _ => true) && hasXmlExtension e.1 && "KSS-".toList.isPrefixOf e.1

/-- lines 39-48 -/
def isKssTimetable (d : Dir) : Bool := d.any isKssFile

/-- lines 523-532 -/
def versionOf (x : Xml) : Text × Nat :=
  let v := child (child (child (some x) "KSS".toList) "header".toList) "spurplanVersionDescription".toList
  (childText v "name".toList, (parseInt ⟨false, 4⟩ (childText v "number".toList)).toNat)

/-- lines 507-533: the version of the first entry; `none`: an exception or no entry -/
def requiredVersion : Dir → Option (Text × Nat)
  | (_, .file (some x)) :: _ => some (versionOf x)
  | _ => none

inductive Loaded where
  | ok (trains : List (Nat × KTrain))
  | mismatch
  | notKss
  | throws
  | undef

/-- lines 567-573: the documents that are read -/
def documents (d : Dir) : List (Option Xml) :=
  (d.filter isKssFile).map fun e => match e.2 with
    | .dir => none
    | .file x => x

/-- lines 476-483: a document that is not well-formed is an exception -/
def parseLoaded (d : Data) (fuel : Nat) : Option Xml → Kss.Res (List KTrain × List Kss.KErr)
  | none => .throws
  | some x => parseDocument d fuel x

/-- lines 546-597 and timetable.cc:12-18,49-74. `version` is that of the infrastructure. Exceptions of the threads are passed on. -/
def parseTimetable (d : Data) (version : Text × Nat) (fuel : Nat) (dir : Dir) : Loaded :=
  if isKssTimetable dir then
    match requiredVersion dir with
    | none => .throws
    | some v =>
      if v ≠ version then .mismatch
      else
        match Kss.each (parseLoaded d fuel) (documents dir) with
        | .ok rs => .ok (((rs.map (·.1)).flatten).zipIdx.map fun p => (p.2, p.1))
        | .undef => .undef
        | _ => .throws
  else .notKss

end Soro.KssXml
