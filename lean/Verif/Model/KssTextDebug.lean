import Verif.Model.KssDebug
import Verif.Model.KssXml
import Verif.Model.ParseDebug
import Verif.Model.TrainDebug

/-
Model of the KSS timetable parser (src/timetable/parsers/kss/parse_kss_timetable.cc) in a build with assertions: times,
durations, sequence points and construction trains; line numbers without a file refer to that file. The release build is modelled
in `Verif.Model.Kss` and `Verif.Model.KssXml`. `parse_additional_stop` and with it `parse_boolean` (lines 208-232) are never
called.
-/

namespace Soro.Kss
open Dbg Utls

/-- lines 143-159 `parse_time_offset` -/
def parseTimeOffsetD (s : List Char) (nightLeap : Bool) : Dbg Nat := do
  check 146 (s.length = 11)
  let h ← parseIntD ⟨false, 8⟩ (s.take 2)
  let m ← parseIntD ⟨false, 8⟩ ((s.drop 3).take 2)
  let sec ← parseIntD ⟨false, 8⟩ ((s.drop 6).take 2)
  return (h.toNat * 3600 + m.toNat * 60 + sec.toNat + if nightLeap then 86400 else 0) % 2 ^ 32

/-- lines 185-201: the seconds added for the text before the letter -/
def fieldSecondsD (c : Char) (text : List Char) : Dbg Nat :=
  if c = 'H' then do
    let n ← parseIntD ⟨false, 4⟩ text
    return n.toNat * 3600 % 2 ^ 32
  else if c = 'M' then do
    let n ← parseIntD ⟨false, 4⟩ text
    return n.toNat * 60 % 2 ^ 32
  else if c = 'S' then do
    let q ← ParseFp.parseFpD false text
    lift (q.bind roundTo32)
  else return 0

/-- lines 180-204; behind the last capital letter the text is read beyond its end -/
def durLoopD (s : List Char) (acc : Nat) : Dbg Nat :=
  match s with
  | [] => return acc
  | c :: cs =>
    match _h : (c :: cs).dropWhile (fun c => !isCap c) with
    | [] => .error .undefined
    | cap :: rest => do
      let v ← fieldSecondsD cap ((c :: cs).takeWhile fun c => !isCap c)
      durLoopD rest ((acc + v) % 2 ^ 32)
termination_by s.length
decreasing_by
  have := List.IsSuffix.length_le (List.dropWhile_suffix (l := c :: cs) fun c => !isCap c)
  simp_all
  omega

/-- lines 161-205 `parse_duration`; behind the text there is a zero -/
def parseDurationD (s : List Char) : Dbg Nat := do
  check 162 (s[0]? = some 'P')
  check 163 (s[1]? = some 'T')
  durLoopD (s.drop 2) 0

end Soro.Kss

namespace Soro.KssXml
open Dbg Utls TypeNames ParseFp IssElement IssFiles TrainSeries Train Transform

/-- lines 257-263 -/
def timeOfD : Option Xml → Dbg Nat
  | none => return NEVER
  | some x => Kss.parseTimeOffsetD (childText (some x) "time".toList) (child (some x) "nightLeap".toList).isSome

/-- lines 271-276 -/
def minStopOfD : Option Xml → Dbg Nat
  | none => return 0
  | some x => Kss.parseDurationD x.text

/-- lines 239-292, one point -/
def stopD (d : Data) (x : Xml) : Dbg (Kss.Res Stop) :=
  match d.stations (childText (some x) "servicePoint".toList) with
  | none => return .err .stationNotFound
  | some routes =>
    match routes (childText (some x) "trackSystem".toList) with
    | none => return .err .stationRouteNotFound
    | some sr => do
      let arr ← timeOfD (child (some x) "arrival".toList)
      let dep ← timeOfD (child (some x) "departure".toList)
      match modeOf (child (some x) "stopMode".toList) with
      | none => return .throws
      | some ty =>
        let m ← minStopOfD (child (some x) "minStopTime".toList)
        if ty = .transit ∧ dep ≠ NEVER then do
          let s ← lift d.infra.stops[sr]?
          check 279 (s.checkpoint.isSome = true)
          return .ok ⟨ty, arr, dep, m, sr⟩
        else return .ok ⟨ty, arr, dep, m, sr⟩

/-- `for` loops that leave at the first error, exception or assertion -/
def eachD {α β : Type} (f : α → Dbg (Kss.Res β)) : List α → Dbg (Kss.Res (List β))
  | [] => return .ok []
  | a :: as => do
    match ← f a with
    | .ok b =>
      match ← eachD f as with
      | .ok bs => return .ok (b :: bs)
      | .err e => return .err e
      | .throws => return .throws
      | .undef => return .undef
    | .err e => return .err e
    | .throws => return .throws
    | .undef => return .undef

/-- lines 234-299 -/
def sequenceD (d : Data) (x : Option Xml) : Dbg (Kss.Res Sequence) := do
  match ← eachD (stopD d) (kids (child x "sequenceServicePoints".toList)) with
  | .ok ss => return .ok ⟨ss, childText x "breakin".toList == "true".toList, childText x "breakout".toList == "true".toList⟩
  | .err e => return .err e
  | .throws => return .throws
  | .undef => return .undef

/-- lines 307-322, one traction unit -/
def vehicleD (rs : Text → Option Series) (x : Xml) : Dbg (Kss.Res Vehicle) := do
  let s := child (some x) "tractionUnitDesignSeries".toList
  let variant ← parseIntD ⟨false, 4⟩ (childText s "variante".toList)
  match ← lift (getTractionVehicle rs (view (childText s "designSeries".toList))
      (view (attr (child s "designSeries".toList) "Nr".toList)) variant.toNat) with
  | none => return .err .vehicle
  | some v => return .ok v

/-- lines 301-341 -/
def characteristicD (rs : Text → Option Series) (x : Option Xml) : Dbg (Kss.Res Physics) := do
  match ← eachD (vehicleD rs) (kids (child x "tractionUnits".toList)) with
  | .ok vs =>
    let length ← parseFpD false (childText x "totalLength".toList)
    let weight ← parseFpD false (childText x "totalWeight".toList)
    let speed ← parseFpD false (childText x "maxVelocity".toList)
    return .ok
      { vehicles := vs
        weight := fromKm weight
        length := length
        maxSpeed := fromKmH speed
        ctc := childText x "trainProtection".toList == "true".toList
        freight := childText x "relevantStopPositionMode".toList == "G".toList }
  | .err e => return .err e
  | .throws => return .throws
  | .undef => return .undef

/-- lines 63-141 -/
def servicesD (x : Option Xml) : Dbg Bitfield :=
  Kss.parseElemsD (((kids x).filter fun k => k.name == "service".toList).map service)

/-- lines 389-398 -/
def trainNumberD (x : Option Xml) : Dbg (Nat × Nat) := do
  let main ← parseIntD ⟨false, 4⟩ (childText x "mainNumber".toList)
  let sub ← parseIntD ⟨false, 2⟩ (childText x "subNumber".toList)
  return (main.toNat, sub.toNat)

/-- station_route_to_interlocking_route.cc:195-284; lines 276-281 are the assertion -/
def transformD (i : Infra) (k : Ilk) (s : Sequence) (freight : Bool) (fuel : Nat) : Dbg Outcome :=
  match transform i k s freight fuel with
  | .undef => .error .undefined
  | .ok path ss => do
    check 280 (s.seq.points.countP (·.isMeasurable) = ss.length)
    return .ok path ss
  | o => return o

/-- lines 400-442 -/
def constructionTrainD (d : Data) (fuel : Nat) (x : Xml) : Dbg (Kss.Res KTrain) := do
  let number ← trainNumberD (child (some x) "trainNumber".toList)
  let days ← servicesD (child (some x) "services".toList)
  match ← sequenceD d (child (some x) "sequence".toList) with
  | .err e => return .err e
  | .throws => return .throws
  | .undef => .error .undefined
  | .ok s =>
    match ← characteristicD d.series (child (some x) "characteristic".toList) with
    | .err e => return .err e
    | .throws => return .throws
    | .undef => .error .undefined
    | .ok p =>
      match Kss.isSupported d.infra p.ctc p.freight s.seq with
      | .err e => return .err e
      | .throws => return .throws
      | .undef => .error .undefined
      | .ok () =>
        match ← transformD d.infra d.ilk s p.freight fuel with
        | .ok path ss => return .ok ⟨number, days, p, s.breakIn, s.breakOut, path, ss⟩
        | .err e => return .err (.transform e)
        | .undef => .error .undefined
        | .running => .error .undefined

end Soro.KssXml
