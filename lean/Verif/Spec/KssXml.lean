import Verif.Model.KssXml
import Verif.Spec.TrainSeries
import Verif.Spec.Kss

/-! What the documents of a timetable say about trains. -/

namespace Soro.KssXml
open Utls Utls.Spec TypeNames ParseFp IssElement IssFiles TrainSeries Soro.Train

/-- a time of day in seconds: `HH:MM:SS`, whatever follows -/
def Clock (s : Text) (sec : Nat) : Prop :=
  ∃ (h1 h2 m1 m2 s1 s2 : Fin 10) (rest : Text),
    s = Nat.digitChar h1.val :: Nat.digitChar h2.val :: ':' :: Nat.digitChar m1.val :: Nat.digitChar m2.val :: ':' ::
      Nat.digitChar s1.val :: Nat.digitChar s2.val :: rest ∧
    sec = (10 * h1.val + h2.val) * 3600 + (10 * m1.val + m2.val) * 60 + (10 * s1.val + s2.val)

/-- the time in the child with this name, in seconds after the midnight before the departure of the train, if there is one -/
def SaysTime (x : Xml) (n : Text) : Option Nat → Prop
  | none => Lacks x n
  | some t => ∃ k s sec, First x n k ∧ SaysText k "time".toList s ∧ Clock s sec ∧
      (Lacks k "nightLeap".toList ∧ t = sec ∨ (∃ l, First k "nightLeap".toList l) ∧ t = sec + 86400)

/-- whether and why the train stops -/
def SaysMode (x : Xml) (ty : SType) : Prop :=
  Lacks x "stopMode".toList ∧ ty = .transit ∨
    ∃ k c, First x "stopMode".toList k ∧ HasAttr k "Schluessel".toList [c] ∧
      (c = '2' ∧ ty = .operations ∨ c = '3' ∧ ty = .request ∨ c = '4' ∧ ty = .passenger)

/-- how long it stops at least, in seconds -/
def SaysMinStop (x : Xml) (d : Nat) : Prop :=
  Lacks x "minStopTime".toList ∧ d = 0 ∨
    ∃ (k : Xml) (fs : List Kss.Field), First x "minStopTime".toList k ∧ k.text = 'P' :: 'T' :: (fs.map Kss.Field.text).flatten ∧
      d = (fs.map Kss.Field.seconds).sum ∧ d < 2 ^ 32

/-- a point of the sequence of a train -/
structure SaidStop where
  station : Text
  route : Text
  ty : SType
  arrival : Option Nat
  departure : Option Nat
  minStop : Nat

def SaysStop (x : Xml) (s : SaidStop) : Prop :=
  SaysText x "servicePoint".toList s.station ∧ SaysText x "trackSystem".toList s.route ∧ SaysMode x s.ty ∧
  SaysTime x "arrival".toList s.arrival ∧ SaysTime x "departure".toList s.departure ∧ SaysMinStop x s.minStop

/-- the point is known to the infrastructure as this station route -/
def Known (st : Stations) (s : SaidStop) (sr : Nat) : Prop := ∃ routes, st s.station = some routes ∧ routes s.route = some sr

/-- the time of a sequence point: the one of the document, otherwise none, which is written as 2^32 - 1 -/
def Timed (t : Nat) (o : Option Nat) : Prop := o = some t ∨ o = none ∧ t = 2 ^ 32 - 1

/-- a sequence point is the point of the document -/
structure Is (st : Stations) (d : SaidStop) (s : Stop) : Prop where
  sr : Known st d s.sr
  ty : s.ty = d.ty
  arrival : Timed s.arrival d.arrival
  departure : Timed s.departure d.departure
  minStop : s.minStop = d.minStop

/-- a traction unit -/
structure SaidUnit where
  series : Text
  owner : Text
  variant : Nat

def SaysUnit (x : Xml) (u : SaidUnit) : Prop :=
  ∃ s k ds, First x "tractionUnitDesignSeries".toList s ∧ First s "designSeries".toList k ∧ k.text = u.series ∧
    HasAttr k "Nr".toList u.owner ∧ SaysText s "variante".toList ds ∧ Writes ds u.variant ∧ u.variant < 2 ^ 32 ∧
    '\x00' ∉ u.series ∧ '\x00' ∉ u.owner

/-- the vehicle of a traction unit in the core data -/
def Found (m : Text → Option Series) (u : SaidUnit) (v : Vehicle) : Prop :=
  ∃ s, m (u.series ++ '-' :: u.owner) = some s ∧ s.variants u.variant = some v

/-- a service -/
def SaysService (x : Xml) : ServiceDays.Elem → Prop
  | .mask s e m => HasAttr x "startDate".toList s ∧ HasAttr x "endDate".toList e ∧ HasAttr x "bitMask".toList m
  | .special d ty => (∀ a ∈ x.attrs, a.1 ≠ "bitMask".toList) ∧
      ∃ k, First x "special".toList k ∧ HasAttr k "date".toList d ∧ HasAttr k "type".toList ty

/-- the child has the word as text or not -/
def SaysWord (x : Xml) (n w : Text) (b : Bool) : Prop := ∃ s, SaysText x n s ∧ (b = true ↔ s = w)

/-- a natural number below a bound in the child -/
def SaysNat (x : Xml) (n : Text) (v bound : Nat) : Prop := ∃ s, SaysText x n s ∧ Writes s v ∧ v < bound

/-- a decimal number with a point in the child -/
def SaysDecimal (x : Xml) (n : Text) (q : Rat) : Prop := ∃ k, First x n k ∧ Decimal ['.'] k.text q

/-- a train: numbers, services, points, vehicles, weight in tons, length in metres, speed in kilometres per hour -/
structure SaidTrain where
  main : Nat
  sub : Nat
  services : List ServiceDays.Elem
  stops : List SaidStop
  breakIn : Bool
  breakOut : Bool
  units : List SaidUnit
  tons : Rat
  metres : Rat
  kmh : Rat
  ctc : Bool
  freight : Bool

def SaysTrain (x : Xml) (t : SaidTrain) : Prop :=
  (∃ k, First x "trainNumber".toList k ∧ SaysNat k "mainNumber".toList t.main (2 ^ 32) ∧ SaysNat k "subNumber".toList t.sub (2 ^ 16)) ∧
  (∃ ks, Members x "services".toList ks ∧ List.Forall₂ SaysService (ks.filter fun k => k.name = "service".toList) t.services) ∧
  (∃ s ks, First x "sequence".toList s ∧ Members s "sequenceServicePoints".toList ks ∧ List.Forall₂ SaysStop ks t.stops ∧
    SaysWord s "breakin".toList "true".toList t.breakIn ∧ SaysWord s "breakout".toList "true".toList t.breakOut) ∧
  (∃ c ks, First x "characteristic".toList c ∧ Members c "tractionUnits".toList ks ∧ List.Forall₂ SaysUnit ks t.units ∧
    SaysDecimal c "totalWeight".toList t.tons ∧ SaysDecimal c "totalLength".toList t.metres ∧ SaysDecimal c "maxVelocity".toList t.kmh ∧
    SaysWord c "trainProtection".toList "true".toList t.ctc ∧ SaysWord c "relevantStopPositionMode".toList "G".toList t.freight)

/-- the infrastructure version a document was made for -/
def SaysVersion (x : Xml) (v : Text × Nat) : Prop :=
  ∃ a b c, First x "KSS".toList a ∧ First a "header".toList b ∧ First b "spurplanVersionDescription".toList c ∧
    SaysText c "name".toList v.1 ∧ SaysNat c "number".toList v.2 (2 ^ 32)

/-- the construction train is part of a released train of the document -/
def ReleasedIn (x y : Xml) : Prop :=
  ∃ ks t cs, MembersAt x ["KSS".toList, "railml".toList, "timetable".toList] ks ∧ t ∈ ks ∧ t.name = "train".toList ∧
    HasAttr t "trainStatus".toList "freig".toList ∧ Members t "fineConstruction".toList cs ∧ y ∈ cs ∧ y.name = "constructionTrain".toList

/-- a train of a document: whether it is released, and its construction trains -/
def SaysEntry (k : Xml) (e : Bool × List Xml) : Prop :=
  (e.1 = true ↔ HasAttr k "trainStatus".toList "freig".toList) ∧
    ∃ cs, Members k "fineConstruction".toList cs ∧ e.2 = cs.filter fun c => c.name = "constructionTrain".toList

end Soro.KssXml
