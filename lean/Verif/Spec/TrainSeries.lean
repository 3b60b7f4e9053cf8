import Verif.Model.TrainSeries
import Verif.Spec.IssFiles

/-! What core data files say about vehicles and default values. -/

namespace Soro.TrainSeries
open Utls Utls.Spec TypeNames ParseFp IssElement IssFiles

/-- the number written in the first child with this name -/
def SaysNumber (x : Xml) (n : Text) (q : Rat) : Prop := ∃ k, First x n k ∧ Decimal [',', '.'] k.text q

/-- tractive force in kilonewtons between two speeds in kilometres per hour: `f1 + f2 v + f3 v²` -/
structure Force where
  lower : Rat
  upper : Rat
  f1 : Rat
  f2 : Rat
  f3 : Rat

def SaysForce (x : Xml) (f : Force) : Prop :=
  SaysNumber x "GeschwindigkeitVon".toList f.lower ∧ SaysNumber x "GeschwindigkeitBis".toList f.upper ∧
  SaysNumber x "Faktor1".toList f.f1 ∧ SaysNumber x "Faktor2".toList f.f2 ∧ SaysNumber x "Faktor3".toList f.f3

/-- the force in newtons at a speed in kilometres per hour -/
def Force.at (f : Force) (v : Rat) : Rat := 1000 * (f.f1 + f.f2 * v + f.f3 * v * v)

/-- each begins where the one before ends, up to 0.036 km/h -/
def Consecutive : List Force → Prop
  | [] => True
  | f :: fs => (∀ g ∈ fs.head?, g.lower - f.upper < 9 / 250 ∧ f.upper - g.lower < 9 / 250) ∧ Consecutive fs

/-- the piece for a speed: the first that ends above it -/
def ForceAt (fs : List Force) (v : Rat) (f : Force) : Prop :=
  ∃ pre post, fs = pre ++ f :: post ∧ v < f.upper ∧ ∀ g ∈ pre, g.upper ≤ v

/-- what a node says about a variant: number, weight in tons, top speed in kilometres per hour, running resistance, forces -/
structure Described where
  id : Nat
  name : Text
  tons : Rat
  top : Rat
  r1 : Rat
  r2 : Rat
  r3 : Rat
  forces : List Force

def SaysVariant (x : Xml) (d : Described) : Prop :=
  (∃ ds, SaysText x "Variante".toList ds ∧ Writes ds d.id) ∧ d.id < 2 ^ 32 ∧ SaysText x "Bezeichnung".toList d.name ∧
  SaysNumber x "EigenGewicht".toList d.tons ∧ SaysNumber x "ZulaessigeGeschwindigkeit".toList d.top ∧
  SaysNumber x "Laufwiderstandsfaktor1".toList d.r1 ∧ SaysNumber x "Laufwiderstandsfaktor2".toList d.r2 ∧
  SaysNumber x "Laufwiderstandsfaktor3".toList d.r3 ∧
  ∃ ks, MembersAt x ["Stromartausruestungen".toList, "Stromartausruestung".toList, "Zugkraftfaktoren".toList] ks ∧
    List.Forall₂ SaysForce (ks.filter fun k => k.name = "Zugkraftfaktor".toList) d.forces

/-- a usable variant has forces, and they are consecutive -/
def Described.Usable (d : Described) : Prop := d.forces ≠ [] ∧ Consecutive d.forces

/-- the vehicle has the forces (in newtons, at speeds in metres per second) and the other data of the description -/
def Matches (d : Described) (v : Vehicle) : Prop :=
  v.name = d.name ∧ v.weight = 1000 * d.tons ∧ v.physics.maxSpeed = d.top / (18 / 5) ∧
  ∀ s : Rat,
    (∀ f, ForceAt d.forces s f → Physics.evalPieces v.physics.tractive (s / (18 / 5)) = some (f.at s)) ∧
    ((∀ f ∈ d.forces, f.upper ≤ s) → Physics.evalPieces v.physics.tractive (s / (18 / 5)) = none) ∧
    Physics.evalPoly v.physics.resistance (s / (18 / 5)) =
      some (981 / 100 * (d.tons * (d.r1 + d.r2 * s) + d.r3 * s * s))

/-- a train series: number, company and variants -/
structure DescribedSeries where
  nr : Text
  company : Text
  variants : List Described

def SaysSeries (x : Xml) (d : DescribedSeries) : Prop :=
  SaysText x "Nr".toList d.nr ∧ (∃ e, First x "Eisenbahnunternehmen".toList e ∧ HasAttr e "Nr".toList d.company) ∧
  ∃ ks, Members x "Triebfahrzeugbaureihenvarianten".toList ks ∧
    List.Forall₂ SaysVariant (ks.filter fun k => k.name = "Triebfahrzeugbaureihenvariante".toList) d.variants

/-- the first usable variant with this number -/
def FirstUsable (ds : List Described) (n : Nat) (d : Described) : Prop :=
  ∃ pre post, ds = pre ++ d :: post ∧ d.id = n ∧ d.Usable ∧ ∀ p ∈ pre, p.id ≠ n ∨ ¬ p.Usable

/-- all train series of the documents -/
def SaysAllSeries (docs : List Xml) (ss : List DescribedSeries) : Prop :=
  ∃ ks, Listed docs ["XmlIssDaten".toList, "Stammdaten".toList, "Triebfahrzeugbaureihen".toList] ks ∧
    List.Forall₂ SaysSeries (ks.filter fun k => k.name = "Triebfahrzeugbaureihe".toList) ss

/-- the view shows the text and is followed by a zero -/
def Shows (v : View) (s : Text) : Prop := (∃ rest, v.mem = s ++ '\x00' :: rest) ∧ '\x00' ∉ s ∧ v.size = s.length

/-- the defaults of a document -/
def SaysDefaults (d : Xml) (x : Xml) : Prop :=
  ∃ a b, First d "XmlIssDaten".toList a ∧ First a "Stammdaten".toList b ∧ First b "Standardwerte".toList x
/-- a document without defaults -/
def LacksDefaults (d : Xml) : Prop :=
  Lacks d "XmlIssDaten".toList ∨ ∃ a, First d "XmlIssDaten".toList a ∧
    (Lacks a "Stammdaten".toList ∨ ∃ b, First a "Stammdaten".toList b ∧ Lacks b "Standardwerte".toList)

end Soro.TrainSeries
