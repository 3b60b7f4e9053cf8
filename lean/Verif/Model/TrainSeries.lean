import Verif.Model.IssFiles
import Verif.Model.Physics

/-
Model of `src/rolling_stock/parse_train_series.cc`, `rolling_stock.cc` and the core data of `parse_iss.cc:1085-1137`.

XML nodes and numbers as in `IssElement`. Vehicles with a number that is not written as a number (the largest number in release
builds) are not modelled: `none`. `none` as result of a function is otherwise an exception. Warnings are left out.
-/

namespace Soro.TrainSeries
open Utls TypeNames ParseFp IssElement IssFiles

/-- the number written in a child -/
def number (x : Option Xml) (n : Text) : Option Rat := parseFp true (childText x n)

/-- parse_train_series.cc:62-88 with the units of 21-35; factors in descending order of degree -/
def piece (x : Xml) : Option Physics.Piece := do
  let lower ← fromKmH (number (some x) "GeschwindigkeitVon".toList)
  let upper ← fromKmH (number (some x) "GeschwindigkeitBis".toList)
  let f1 ← number (some x) "Faktor1".toList
  let f2 ← number (some x) "Faktor2".toList
  let f3 ← number (some x) "Faktor3".toList
  pure ⟨[f3 * 1000 * (18 / 5) * (18 / 5), f2 * 1000 * (18 / 5), f1 * 1000], lower, upper⟩

/-- piecewise_function.h:37-45: speeds in metres per second -/
def continuous : List Physics.Piece → Bool
  | p :: q :: ps =>
    Utls.equal (if p.upper - q.lower < 0 then -(p.upper - q.lower) else p.upper - q.lower) 0 && continuous (q :: ps)
  | _ => true

/-- parse_train_series.cc:57-98 -/
def tractiveCurve (x : Option Xml) : Option (List Physics.Piece) :=
  (allSome piece ((kids x).filter fun k => k.name == "Zugkraftfaktor".toList)).map fun ps => if continuous ps then ps else []

/-- constants.h:8 -/
def gravity : Rat := 981 / 100

/-- parse_train_series.cc:100-126 with the units of 39-55; the weight in kilograms -/
def resistanceCurve (x : Option Xml) (weight : Rat) : Option (List Rat) := do
  let f1 ← number x "Laufwiderstandsfaktor1".toList
  let f2 ← number x "Laufwiderstandsfaktor2".toList
  let f3 ← number x "Laufwiderstandsfaktor3".toList
  pure [f3 * (18 / 5) ^ 2 * gravity, f2 * (18 / 5) / 1000 * gravity * weight, f1 / 1000 * gravity * weight]

/-- train_series.h:41-51 -/
structure Vehicle where
  name : Text
  weight : Rat
  physics : Physics.Vehicle

/-- parse_train_series.cc:136-167: number of the variant and the vehicle, `none` if it is skipped -/
def variant (x : Xml) : Option (Nat × Option Vehicle) := do
  let id ← stoul (childText (some x) "Variante".toList)
  let tons ← number (some x) "EigenGewicht".toList
  let curve ← tractiveCurve (child (child (child (some x) "Stromartausruestungen".toList) "Stromartausruestung".toList)
    "Zugkraftfaktoren".toList)
  if curve.isEmpty then pure (id % 2 ^ 32, none)
  else do
    let speed ← fromKmH (number (some x) "ZulaessigeGeschwindigkeit".toList)
    let resistance ← resistanceCurve (some x) (tons * 1000)
    pure (id % 2 ^ 32, some ⟨childText (some x) "Bezeichnung".toList, tons * 1000, ⟨speed, -7 / 10, curve, resistance⟩⟩)

/-- the variants that are not skipped -/
def usable : List (Nat × Option Vehicle) → List (Nat × Vehicle)
  | [] => []
  | (_, none) :: vs => usable vs
  | (n, some v) :: vs => (n, v) :: usable vs

/-- train_series.h:53-62; the variants are a map -/
structure Series where
  nr : Text
  company : Text
  variants : Nat → Option Vehicle

/-- train_series.h:54-56 -/
def Series.key (s : Series) : Text := s.nr ++ '-' :: s.company

/-- parse_train_series.cc:128-170, 177-198 -/
def series (x : Xml) : Option Series :=
  (allSome variant ((kids (child (some x) "Triebfahrzeugbaureihenvarianten".toList)).filter fun k =>
    k.name == "Triebfahrzeugbaureihenvariante".toList)).map fun vs =>
      ⟨childText (some x) "Nr".toList, attr (child (some x) "Eisenbahnunternehmen".toList) "Nr".toList,
        emplaceAll (usable vs) fun _ => none⟩

/-- parse_train_series.cc:172-202 -/
def parseTrainSeries (x : Option Xml) : Option (List Series) :=
  allSome series ((kids x).filter fun k => k.name == "Triebfahrzeugbaureihe".toList)

/-- infrastructure_t.h:25-30; `none` is the largest number -/
structure Defaults where
  lineClass : Text
  routeFormTime : Option Rat
  brakePath : Option Rat
  speedLimit : Option Rat

/-- parse_iss.cc:1085-1097: commas of the speed limit are not replaced -/
def parseDefaults (x : Xml) : Defaults :=
  { lineClass := childText (some x) "Streckenklasse".toList
    routeFormTime := parseFp true (childText (some x) "Fahrstrassenbildezeit".toList)
    brakePath := parseFp true (childText (some x) "BremswegArt".toList)
    speedLimit := fromKmH (parseFp false (childText (some x) "ZulaessigeOrtsfesteGeschwindigkeit".toList)) }

/-- parse_iss.cc:1125-1131; `none`: exception -/
def addSeries : List Series → (Text → Option Series) → Option (Text → Option Series)
  | [], m => some m
  | s :: ss, m => if (m s.key).isSome then none else addSeries ss (assign m s.key s)

/-- parse_iss.cc:1106-1134: defaults (`none`: invalid) and train series -/
def coreData : List (Option Xml) → Option Defaults → (Text → Option Series) → Option (Option Defaults × (Text → Option Series))
  | [], dv, m => some (dv, m)
  | none :: _, _, _ => none
  | some d :: ds, dv, m =>
    let core := child (child (some d) "XmlIssDaten".toList) "Stammdaten".toList
    let dv' := match child core "Standardwerte".toList with
      | some x => some (parseDefaults x)
      | none => dv
    match child core "Triebfahrzeugbaureihen".toList with
    | none => coreData ds dv' m
    | some x => ((parseTrainSeries (some x)).bind fun ss => addSeries ss m).bind fun m => coreData ds dv' m

/-- the text at an address: up to the first zero, whatever the size of the view; `none`: read beyond the memory -/
def dataText (v : View) : Option Text := if '\x00' ∈ v.mem then some (v.mem.takeWhile (· != '\x00')) else none

/-- rolling_stock.cc:7-33; the inner `none`: not found, the outer: undefined behaviour -/
def getTractionVehicle (m : Text → Option Series) (nr owner : View) (variant : Nat) : Option (Option Vehicle) :=
  match dataText nr, dataText owner with
  | some n, some o => some ((m (n ++ '-' :: o)).bind fun s => s.variants variant)
  | _, _ => none

end Soro.TrainSeries
