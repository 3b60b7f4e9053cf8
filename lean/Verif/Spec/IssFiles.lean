import Mathlib.Data.List.Forall2
import Verif.Model.IssFiles
import Verif.Spec.IssElement
import Verif.Spec.Section

/-! What the files of an infrastructure say. -/

namespace Soro.IssFiles
open Utls Utls.Spec TypeNames ParseFp IssElement

/-- the children of the node at the end of a path of first children; none if it does not exist -/
def MembersAt (x : Xml) : List Text → List Xml → Prop
  | [], ks => ks = x.kids
  | n :: ns, ks => (∃ k, First x n k ∧ MembersAt k ns ks) ∨ Lacks x n ∧ ks = []

/-- the nodes at this path in all documents, in order -/
def Listed (docs : List Xml) (path : List Text) (ks : List Xml) : Prop :=
  ∃ kss, List.Forall₂ (fun d ks => MembersAt d path ks) docs kss ∧ ks = kss.flatten

/-- how the name of a file of a category begins -/
inductive Category where
  | railPlan | core | regStations | regLines
  deriving DecidableEq, Repr

def Category.begins : Category → Text
  | .railPlan => "Spurplanbetriebsstellen".toList
  | .core => "Stammdaten".toList
  | .regStations => "Ordnungsrahmen_ORBtrst".toList
  | .regLines => "Ordnungsrahmen_ORStr".toList

/-- a plain file name -/
def Plain (n : Text) : Prop := '/' ∉ n

/-- the files of a category -/
def Category.files : Category → Sets → List (Path × Option Xml)
  | .railPlan => Sets.railPlan
  | .core => Sets.core
  | .regStations => Sets.regStations
  | .regLines => Sets.regLines

/-- the index lists these file names -/
def Lists (index : Xml) (names : List Text) : Prop :=
  ∃ ks, MembersAt index ["XmlIssIndex".toList, "Dateien".toList] ks ∧
    List.Forall₂ (fun k n => SaysText k "Name".toList n) (ks.filter fun k => k.name = "Datei".toList) names

/-- `v` is what the last entry for the key says -/
def LastEntry {α β : Type} (es : List (α × β)) (k : α) (v : β) : Prop :=
  ∃ pre post, es = pre ++ (k, v) :: post ∧ ∀ p ∈ post, p.1 ≠ k

/-- `v` is what the first entry for the key says -/
def FirstEntry {α β : Type} (es : List (α × β)) (k : α) (v : β) : Prop :=
  ∃ pre post, es = pre ++ (k, v) :: post ∧ ∀ p ∈ pre, p.1 ≠ k

/-- an entry of a regulatory file: short and full name -/
def SaysStation (k : Xml) (e : Text × Text) : Prop := SaysText k "DS100".toList e.1 ∧ SaysText k "Name".toList e.2

/-- a natural number -/
def Writes (s : Text) (n : Nat) : Prop := s ≠ [] ∧ AllDigits s ∧ value s = n

/-- a coordinate, -361 if it is missing -/
def SaysCoordinate (s : Text) (q : Rat) : Prop := Decimal [',', '.'] s q ∨ s = [] ∧ q = -361

/-- a kilometrage in metres -/
def Kilometrage (s : Text) (m : Rat) : Prop :=
  (∃ x, Decimal [',', '.'] s x ∧ m = 1000 * x) ∨
    ∃ a b x y, s = a ++ '+' :: b ∧ Decimal [',', '.'] a x ∧ Decimal [',', '.'] b y ∧ m = 1000 * (x + y)

/-- kinds of segments: key, signals, LZB, ETCS -/
def equipment : List (Nat × Bool × Bool × Bool) :=
  [(1, true, false, false), (2, true, true, false), (3, false, true, false), (6, true, false, false), (8, true, false, true),
   (9, true, false, true), (12, true, false, true), (13, false, false, true), (14, false, false, false),
   (15, true, false, false), (18, true, false, true), (20, true, false, false), (21, true, false, false),
   (23, true, false, true), (24, false, false, false)]

/-- the key of a segment -/
def SaysKey (k : Xml) (key : Nat) : Prop :=
  ∃ a ds, First k "Art".toList a ∧ HasAttr a "Schluessel".toList ds ∧ Writes ds key

/-- a segment of a line -/
def SaysSegment (k : Xml) (s : Seg) : Prop :=
  (∃ a x, SaysText k "KilometrierungVon".toList a ∧ Kilometrage a x ∧ s.frm = some x) ∧
  (∃ b y, SaysText k "KilometrierungBis".toList b ∧ Kilometrage b y ∧ s.fin = some y) ∧
  (Lacks k "Art".toList ∧ s.signalling = false ∧ s.lzb = false ∧ s.etcs = false ∨
    ∃ key, SaysKey k key ∧ (key, s.signalling, s.lzb, s.etcs) ∈ equipment)

/-- a line: number and segments -/
def SaysLine (k : Xml) (l : Nat × List Seg) : Prop :=
  (∃ ds, SaysText k "Nr".toList ds ∧ Writes ds l.1) ∧
  ∃ ks, Members k "Streckenabschnitte".toList ks ∧ List.Forall₂ SaysSegment ks l.2

/-- the segments begin where the one before ends -/
def Joined : List Seg → Prop
  | [] => True
  | s :: ss => (∃ f t, s.frm = some f ∧ s.fin = some t ∧ f ≤ t) ∧ (∀ t ∈ ss.head?, t.frm = s.fin) ∧ Joined ss

/-- the position lies on the segment -/
def On (s : Seg) (km : Rat) : Prop := ∃ f t, s.frm = some f ∧ s.fin = some t ∧ f ≤ km ∧ km ≤ t

end Soro.IssFiles
