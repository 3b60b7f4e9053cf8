import Verif.Model.Departures
import Verif.Model.Transform
import Verif.Model.ParseFp

/-
Model of the KSS timetable parser, `src/timetable/parsers/kss/parse_kss_timetable.cc`; line numbers without a file refer
to it.

The XML is given as the values the parser reads. Dates are day numbers: `parse_date` (66-80) and the conversion of a
civil date by the date library are not modelled. The checks by `sassert` are absent, as in a release build.
-/

namespace Soro.Kss
open Soro.Train Soro.Transform

/-! ### Service days -/

/-- the attribute `type` of a special service (lines 88-97) -/
inductive Kind where
  | incl | excl | other
  deriving DecidableEq, Repr

/-- a `service` element: with a `bitMask` (lines 104-122) or with a `special` child (lines 123-128) -/
inductive Service where
  | mask (first last : Int) (bits : List Char)
  | special (d : Int) (k : Kind)
  deriving DecidableEq, Repr

/-- `date::sys_days::max()` (bitfield.h:15) -/
def maxDay : Int := 2147483647

/-- a default constructed calendar (bitfield.h:69-71) -/
def fresh : Bitfield := ⟨maxDay, maxDay, 0⟩

/-- bitfield.cc:118-120 -/
def ok (b : Bitfield) : Bool := decide (b.first ≠ maxDay) && decide (b.last ≠ maxDay)

/-- lines 103-129, one iteration -/
def step (b : Bitfield) : Service → Option Bitfield
  | .mask f l m => (Bitfield.make f l m).map fun bf => if ok b then b.union bf else bf
  | .special d .incl => b.set d true
  | .special d .excl => b.set d false
  | .special _ .other => some b

/-- lines 63-141 -/
def services (b : Bitfield) : List Service → Option Bitfield
  | [] => some b
  | s :: ss => (step b s).bind fun b' => services b' ss

/-- lines 63-141 -/
def parseServices (ss : List Service) : Option Bitfield := services fresh ss

/-! ### Numbers, times and durations -/

/-- include/soro/utls/parse_int.h:12-18 for an unsigned type: `from_chars` reads the leading digits; without any or when
the value does not fit it leaves the maximum. What follows the digits is ignored. -/
def parseUInt (bits : Nat) (s : List Char) : Nat :=
  let ds := s.takeWhile Char.isDigit
  if ds = [] then 2 ^ bits - 1
  else if Nat.ofDigitChars 10 ds 0 < 2 ^ bits then Nat.ofDigitChars 10 ds 0 else 2 ^ bits - 1

/-- lines 196-198: `std::round`, halves away from zero, and the conversion to 32 bits; `none`: the value does not fit, which is
undefined -/
def roundTo32 (q : Rat) : Option Nat :=
  let r : Int := if 0 ≤ q then (q + 1 / 2).floor else -(-q + 1 / 2).floor
  if 0 ≤ r ∧ r < 2 ^ 32 then some r.toNat else none

/-- `std::round(parse_fp<double>(..))` cast to 32 bit (lines 196-198); the value is exact instead of the nearest double. `none`: the
value does not fit, as the largest number does for a text without a number. -/
def parseRounded (s : List Char) : Option Nat := (ParseFp.parseFp false s).bind roundTo32

/-- `isalpha(c) && isupper(c)` (lines 181-183) in the C locale -/
def isCap (c : Char) : Bool := decide ('A' ≤ c) && decide (c ≤ 'Z')

/-- lines 185-201: the seconds added for the text before the letter -/
def fieldSeconds (c : Char) (text : List Char) : Option Nat :=
  if c = 'H' then some (parseUInt 32 text * 3600 % 2 ^ 32)
  else if c = 'M' then some (parseUInt 32 text * 60 % 2 ^ 32)
  else if c = 'S' then parseRounded text
  else some 0

/-- `pastEnd`: the string is read behind its terminating zero. `undef`: the value of a field does not fit. -/
inductive Dur where
  | ok (seconds : Nat)
  | pastEnd
  | undef
  deriving DecidableEq, Repr

/-- lines 180-204 -/
def durLoop (s : List Char) (acc : Nat) : Dur :=
  match s with
  | [] => .ok acc
  | c :: cs =>
    match _h : (c :: cs).dropWhile (fun c => !isCap c) with
    | [] => .pastEnd
    | cap :: rest =>
      match fieldSeconds cap ((c :: cs).takeWhile fun c => !isCap c) with
      | none => .undef
      | some v => durLoop rest ((acc + v) % 2 ^ 32)
termination_by s.length
decreasing_by
  have := List.IsSuffix.length_le (List.dropWhile_suffix (l := c :: cs) fun c => !isCap c)
  simp_all
  omega

/-- lines 161-205 -/
def parseDuration : List Char → Dur
  | _ :: _ :: rest => durLoop rest 0
  | _ => .pastEnd

/-- lines 143-159. `none`: the string is shorter than the positions that are read. -/
def parseTimeOffset (s : List Char) (nightLeap : Bool) : Option Nat :=
  if s.length < 8 then none
  else
    let h := parseUInt 64 (s.take 2)
    let m := parseUInt 64 ((s.drop 3).take 2)
    let sec := parseUInt 64 ((s.drop 6).take 2)
    some ((h * 3600 + m * 60 + sec + if nightLeap then 86400 else 0) % 2 ^ 32)

/-! ### Trains -/

/-- include/soro/timetable/parsers/kss/kss_error.h, and the errors of the other stages -/
inductive KErr where
  | stationNotFound | stationRouteNotFound | workedOnTrain | haltWithoutHalt | timeWithoutCheckpoint | ctc | singleStop
  | breakIn | breakOut | firstNoHalt | lastNoHalt | vehicle | transform (e : Transform.Err)
  deriving DecidableEq, Repr

/-- `throws`: an exception leaves the parser. `undef`: undefined behaviour or no end. -/
inductive Res (α : Type) where
  | ok (a : α)
  | err (e : KErr)
  | throws
  | undef
  deriving DecidableEq, Repr

/-- lines 366-384 -/
def checkPoints (i : Infra) (freight : Bool) : List SPoint → Res Unit
  | [] => .ok ()
  | p :: ps =>
    match i.stops[p.sr]? with
    | none => .undef
    | some s =>
      if p.isHalt && (s.haltIdx freight).isNone then .err .haltWithoutHalt
      else if p.hasTransitTime && s.checkpoint.isNone then .err .timeWithoutCheckpoint
      else checkPoints i freight ps

/-- lines 343-387 -/
def isSupported (i : Infra) (ctc freight : Bool) (ss : StopSeq) : Res Unit :=
  if ctc then .err .ctc
  else if ss.points.length < 2 then .err .singleStop
  else if ss.breakIn then .err .breakIn
  else if ss.breakOut then .err .breakOut
  else
    match ss.points.head?, ss.points.getLast? with
    | some a, some b =>
      if !a.isHalt then .err .firstNoHalt
      else if !b.isHalt then .err .lastNoHalt
      else checkPoints i freight ss.points
    | _, _ => .undef

/-- a child of `sequenceServicePoints` (lines 239-292): names, whether there is a departure, and the first character of the
stop mode (`'\0'` if its attribute is missing) -/
structure XPoint where
  ds100 : String
  route : String
  hasDeparture : Bool
  stopMode : Option Char
  deriving DecidableEq, Repr

/-- the stations with their routes (`ds100_to_station_`, `station_routes_`) -/
abbrev Stations := List (String × List (String × Nat))

/-- sequence_point.h:58-61 `KEY_TO_STOP_TYPE.at`; `none` is the exception -/
def stopType (c : Char) : Option SType :=
  if c = '2' then some .operations
  else if c = '3' then some .request
  else if c = '4' then some .passenger
  else none

/-- lines 240-292, one point. The times are only known to be present; durations are left out. -/
def parsePoint (st : Stations) (x : XPoint) : Res SPoint :=
  match st.lookup x.ds100 with
  | none => .err .stationNotFound
  | some routes =>
    match routes.lookup x.route with
    | none => .err .stationRouteNotFound
    | some sr =>
      match x.stopMode with
      | none => .ok ⟨.transit, x.hasDeparture, sr⟩
      | some c =>
        match stopType c with
        | none => .throws
        | some ty => .ok ⟨ty, x.hasDeparture, sr⟩

/-- `for` loops that leave at the first error or exception -/
def each {α β : Type} (f : α → Res β) : List α → Res (List β)
  | [] => .ok []
  | a :: as =>
    match f a with
    | .ok b =>
      match each f as with
      | .ok bs => .ok (b :: bs)
      | .err e => .err e
      | .throws => .throws
      | .undef => .undef
    | .err e => .err e
    | .throws => .throws
    | .undef => .undef

/-- a `constructionTrain` element: sequence, break-in, break-out, and what `parse_characteristic` (302-341) makes of the
rest: an error for an unknown vehicle, or the flags for train protection and freight -/
structure XTrain where
  points : List XPoint
  breakIn : Bool
  breakOut : Bool
  characteristic : Option (Bool × Bool)

/-- a parsed train, without calendar, number and physics (lines 437-439) -/
structure Parsed where
  path : List Nat
  points : List SPoint
  freight : Bool
  deriving DecidableEq, Repr

/-- lines 401-442; `tr` is `transform_to_interlocking` -/
def construct (i : Infra) (st : Stations) (tr : StopSeq → Bool → Transform.Outcome) (x : XTrain) : Res Parsed :=
  match each (parsePoint st) x.points with
  | .err e => .err e
  | .throws => .throws
  | .undef => .undef
  | .ok pts =>
    match x.characteristic with
    | none => .err .vehicle
    | some (ctc, freight) =>
      match isSupported i ctc freight ⟨pts, x.breakIn, x.breakOut⟩ with
      | .err e => .err e
      | .throws => .throws
      | .undef => .undef
      | .ok () =>
        match tr ⟨pts, x.breakIn, x.breakOut⟩ freight with
        | .ok path points => .ok ⟨path, points, freight⟩
        | .err e => .err (.transform e)
        | .undef => .undef
        | .running => .undef

/-- lines 444-467; `released` is `trainStatus == "freig"` -/
def parseTrain {α β : Type} (f : α → Res β) (released : Bool) (xs : List α) : Res (List β) :=
  if released then each f xs else .err .workedOnTrain

/-- lines 483-496: the trains and the counted errors -/
def parseFile {α β : Type} (f : α → Res β) : List (Bool × List α) → Res (List β × List KErr)
  | [] => .ok ([], [])
  | (released, xs) :: rest =>
    match parseTrain f released xs with
    | .throws => .throws
    | .undef => .undef
    | .err e =>
      match parseFile f rest with
      | .ok (ts, es) => .ok (ts, e :: es)
      | r => r
    | .ok ts' =>
      match parseFile f rest with
      | .ok (ts, es) => .ok (ts' ++ ts, es)
      | r => r

/-- lines 572-587: the files in the order of the directory, every train with its id (501-505) -/
def parseTimetable {α β : Type} (f : α → Res β) (files : List (List (Bool × List α))) : Res (List (Nat × β)) :=
  match each (parseFile f) files with
  | .ok rs => .ok (((rs.map (·.1)).flatten).zipIdx.map fun p => (p.2, p.1))
  | .err e => .err e
  | .throws => .throws
  | .undef => .undef

/-! ### The interval -/

/-- train.cc:86-89; `none`: no service day -/
def firstAbs (t : DepTrain) : Option Nat := t.days.firstSetDate.map fun d => relToAbs (secOf d) t.firstDeparture

/-- train.cc:91-93 -/
def lastAbs (t : DepTrain) : Option Nat := t.days.lastSetDate.map fun d => relToAbs (secOf d) t.lastArrival

/-- lines 538-541 -/
def intervalLoop : List DepTrain → TimeInterval → Option TimeInterval
  | [], iv => some iv
  | t :: ts, iv =>
    (firstAbs t).bind fun a => (lastAbs t).bind fun b => intervalLoop ts ⟨min iv.start a, max iv.stop b⟩

/-- lines 535-544 -/
def getInterval (ts : List DepTrain) : Option TimeInterval := intervalLoop ts ⟨2 ^ 32 - 1, 0⟩

end Soro.Kss
