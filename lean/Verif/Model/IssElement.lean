import Verif.Model.TypeNames
import Verif.Model.ParseFp

/-
Model of `src/infrastructure/parsers/iss/parse_track_element.cc` and `parse_station_route.cc`: speed limits, data of elements
and station routes as read from XML documents.

An XML node has a name, attributes, a text and children. A handle to a node that does not exist is `none`; its texts and
children are empty. Numbers as in `ParseFp`: `none` is the largest number. `none` as result of a function: an exception or
undefined behaviour. Not modelled: the creation of the element and its node (graph_creation.cc), warnings.
-/

namespace Soro.IssElement
open Utls TypeNames ParseFp

/-- an XML node -/
inductive Xml where
  | node (name : Text) (attrs : List (Text × Text)) (text : Text) (kids : List Xml)

def Xml.name : Xml → Text | .node n _ _ _ => n
def Xml.attrs : Xml → List (Text × Text) | .node _ a _ _ => a
def Xml.text : Xml → Text | .node _ _ t _ => t
def Xml.kids : Xml → List Xml | .node _ _ _ k => k

/-- `node.child(name)` -/
def child (x : Option Xml) (n : Text) : Option Xml := x.bind fun x => x.kids.find? fun k => k.name == n
/-- `node.child_value()` -/
def text (x : Option Xml) : Text := (x.map Xml.text).getD []
/-- `node.child_value(name)` -/
def childText (x : Option Xml) (n : Text) : Text := text (child x n)
/-- `node.attribute(name).value()` -/
def attr (x : Option Xml) (n : Text) : Text := ((x.bind fun x => x.attrs.find? fun a => a.1 == n).map Prod.snd).getD []
/-- `node.children()` -/
def kids (x : Option Xml) : List Xml := (x.map Xml.kids).getD []
/-- `node.name()` -/
def name (x : Option Xml) : Text := (x.map Xml.name).getD []

/-! ### speed limits -/

/-- element_data.h:55-62 (those used) -/
inductive LimitKind where
  | endSpecial | generalAllowed | invalid
deriving DecidableEq, Repr
/-- element_data.h:65 -/
inductive Poa where
  | here | lastSignal
deriving DecidableEq, Repr
/-- element_data.h:67 -/
inductive Effects where
  | all | conventional | lzbEtcs
deriving DecidableEq, Repr

/-- element_data.h:50-80; the outer option of length and limit: whether it is valid -/
structure Limit where
  kind : LimitKind
  effects : Effects
  calculated : Bool
  limit : Option (Option Rat)
  poa : Poa
  length : Option (Option Rat)
deriving DecidableEq, Repr

/-- parse_track_element.cc:21-36; `none`: exception -/
def parsePoa (s : Text) : Option Poa := switchHash s [("Signal".toList, .here), ("Hier".toList, .lastSignal)]

/-- parse_track_element.cc:38-57; `none`: exception -/
def parseEffects (s : Text) : Option Effects :=
  switchHash s [("Alle".toList, .all), ("Konventionell".toList, .conventional), ("LZB".toList, .lzbEtcs)]

/-- parse_track_element.cc:63-73 -/
def limitKind (s : Text) : LimitKind :=
  if s = "GeschwZulaessigS".toList ∨ s = "GeschwZulaessigF".toList ∨ s = "GeschwBeschraenkung".toList then .generalAllowed
  else if s = "GeschwEndeSpeziellF".toList ∨ s = "GeschwEndeSpeziellS".toList then .endSpecial
  else .invalid

/-- parse_track_element.cc:75-84 -/
def limitLength (x : Option Xml) : Option (Option Rat) :=
  (child x "Laenge".toList).map fun l =>
    if attr (some l) "Einheit".toList = "km".toList then fromKm (parseFp true (childText x "Laenge".toList))
    else parseFp true (childText x "Laenge".toList)

/-- parse_track_element.cc:86-89 -/
def limitSpeed (x : Option Xml) : Option (Option Rat) :=
  (child x "Geschw".toList).map fun _ => fromKmH (parseFp true (childText x "Geschw".toList))

/-- parse_track_element.cc:59-107 -/
def getSpeedLimit (x : Option Xml) : Option Limit :=
  match parsePoa (childText x "Wirkungsort".toList), parseEffects (childText x "Zugbeeinflussung".toList) with
  | some p, some e =>
    some { kind := limitKind (name x)
           effects := e
           calculated := (child x "Berechnet".toList).isSome
           limit := limitSpeed x
           poa := p
           length := limitLength x }
  | _, _ => none

/-! ### data of elements -/

/-- element_data.h:22-36 -/
structure Halt where
  name : Text
  operational : Text
  extern : Text
  passenger : Bool
  left : Bool
  right : Bool
deriving DecidableEq, Repr

/-- `strstr(s, w) != nullptr` -/
def hasInfix (s w : Text) : Bool :=
  w.isPrefixOf s ||
    match s with
    | [] => false
    | _ :: s => hasInfix s w

/-- parse_track_element.cc:124-142 -/
def getHalt (x : Option Xml) : Halt :=
  { name := childText x "Name".toList
    operational := childText x "BezeichnerBetrieb".toList
    extern := childText x "BezeichnerExtern".toList
    passenger := hasInfix (name x) "Rz".toList
    left := hasInfix (name x) "Links".toList
    right := hasInfix (name x) "Rechts".toList }

/-- element_data.h:88-89 (without switches) -/
inductive Data where
  | empty
  | eotd (signal : Bool)
  | slope (rising falling : Option Rat)
  | halt (h : Halt)
  | speedLimit (l : Limit)
  | mainSignal (name : Text)
deriving DecidableEq, Repr

/-- parse_track_element.cc:109-116 -/
def getSlope (x : Option Xml) : Data :=
  .slope (parseFp true (childText x "Steigend".toList)) (parseFp true (childText x "Fallend".toList))

/-- parse_track_element.cc:144-149 -/
def getEotd (x : Option Xml) : Data :=
  .eotd (name x == "SignalZugschlussstelleF".toList || name x == "SignalZugschlussstelleS".toList)

/-- parse_track_element.cc:151-175; the type is that of the name: parse_iss.cc:360, 387, 417 -/
def elementData (x : Option Xml) : Option Data :=
  match getType (name x) with
  | .halt => some (.halt (getHalt x))
  | .slope => some (getSlope x)
  | .eotd => some (getEotd x)
  | .speedLimit => (getSpeedLimit x).map .speedLimit
  | .mainSignal => some (.mainSignal (childText x "Name".toList))
  | _ => some .empty

/-! ### station routes -/

/-- `std::stoul`: white space, a sign, digits; `none`: exception -/
def stoul (s : Text) : Option Nat :=
  let s := s.dropWhile Char.isWhitespace
  let neg := decide (s.head? = some '-')
  let body := if s.head? = some '-' ∨ s.head? = some '+' then s.tail else s
  let ds := body.takeWhile Char.isDigit
  if ds.isEmpty then none
  else if natOf ds ≥ 2 ^ 64 then none
  else some (if neg then (2 ^ 64 - natOf ds) % 2 ^ 64 else natOf ds)

/-- iss_string_literals.h:225-236 -/
def attributeNames : List Text :=
  ["DurchfahrtOhneHaltMoeglich".toList, "Elektrifiziert".toList, "Falschfahrt".toList, "Gleiswechselbetrieb".toList,
   "Stumpfgleis".toList, "AusDurchfahrt40".toList, "HaltImmerMoeglich".toList, "AutomatischErzeugt".toList,
   "UmleitungStreckenwechsel".toList, "HerausDurchgehendesHauptgleis".toList, "HineinDurchgehendesHauptgleis".toList]

/-- iss_string_literals.h:242-253 `attribute_index`: the largest number if the name is unknown -/
def attributeIndex (s : Text) : Nat := (attributeNames.findIdx? (· == s)).getD (2 ^ 64 - 1)

/-- parse_station_route.cc:56-58; `none`: written outside of the array -/
def setAttributes : List Xml → List Bool → Option (List Bool)
  | [], as => some as
  | x :: xs, as =>
    if attributeIndex x.name < as.length then setAttributes xs (as.set (attributeIndex x.name) true) else none

/-- course_decision -/
inductive Course where
  | stem | branch
deriving DecidableEq, Repr

/-- an id of a child that may be missing: the largest number (`INVALID_RP_NODE_ID`); `none`: exception -/
def optionalId (x : Option Xml) : Option Nat :=
  match x with
  | none => some (2 ^ 64 - 1)
  | some x => stoul (attr (some x) "ID".toList)

/-- parse_station_route.cc:67-85: limits with the ids of their elements; `elementOf` is `rp_id_to_element_id_` -/
def routeLimits (elementOf : Nat → Option Nat) : List Xml → Option (List (Limit × Nat))
  | [] => some []
  | x :: xs =>
    if attr (child (some x) "Knoten".toList) "Typ".toList = "Warnfeld".toList then routeLimits elementOf xs
    else
      match (stoul (attr (child (some x) "Knoten".toList) "ID".toList)).bind elementOf, getSpeedLimit (some x) with
      | some e, some l => (routeLimits elementOf xs).map ((l, e) :: ·)
      | _, _ => none

/-- construction_materials.h:20-39 -/
structure Route where
  name : Text
  start : Nat
  fin : Nat
  passengerHalt : Nat
  freightHalt : Nat
  checkpoint : Nat
  omitted : List (Nat × Ty)
  attributes : List Bool
  course : List Course
  limits : List (Limit × Nat)
deriving DecidableEq, Repr

/-- parse_station_route.cc:14-88 -/
def parseRoute (elementOf : Nat → Option Nat) (x : Option Xml) : Option Route := do
  let start ← stoul (attr (child x "Anfang".toList) "ID".toList)
  let fin ← stoul (attr (child x "Ende".toList) "ID".toList)
  let checkpoint ← optionalId (child x "Fahrzeitmesspunkt".toList)
  let passengerHalt ← optionalId (child x "Reisezughalt".toList)
  let freightHalt ← optionalId (child x "Gueterzughalt".toList)
  let attributes ← setAttributes (kids (child x "Attribute".toList)) (List.replicate 11 false)
  let limits ← routeLimits elementOf (kids (child x "GeschwBeschraenkungen".toList))
  pure {
    name := childText x "Name".toList
    start := start
    fin := fin
    passengerHalt := passengerHalt
    freightHalt := freightHalt
    checkpoint := checkpoint
    omitted := ((kids (child x "EntfallendeKnoten".toList)).filter fun k => k.name == "EntfallenderKnoten".toList).map
      fun k => ((parseInt ⟨false, 8⟩ (attr (some k) "ID".toList)).toNat, getType (attr (some k) "Typ".toList))
    attributes := attributes
    course := (kids (child x "Verlauf".toList)).map fun k => if k.name = "Stamm".toList then .stem else .branch
    limits := limits }

end Soro.IssElement
