import Verif.Model.InfraStats
import Verif.Spec.Border
import Verif.Spec.IssElement
import Mathlib.Data.List.Forall2

/-
Vocabulary for rail plans: what a well-formed rail plan is.
-/

namespace Soro.InfraStats.Spec
open TypeNames IssElement Utls.Spec ParseFp

/-- in how many ends of sections an element of this type is -/
def ends : Ty → Nat
  | .kmJump | .lineSwitch => 2
  | .simpleSwitch => 3
  | .cross => 4
  | _ => 1

/-- the nodes of a section: its ends are section elements, in between are only track elements and unknown nodes -/
def SectionFit (s : Xml) : Prop :=
  ∃ a mid b, nodes s = a :: mid ++ [b] ∧
    (∀ x, x = a ∨ x = b → getType x.name ≠ .invalid ∧ isTrackElement (getType x.name) = false) ∧
    ∀ x ∈ mid, getType x.name = .invalid ∨ isTrackElement (getType x.name) = true

/-- the ends of a section -/
def endNodes (s : Xml) : List Xml := (nodes s).head?.toList ++ (nodes s).getLast?.toList

/-- all nodes of a section that stand for elements -/
def known (s : Xml) : List Xml := (nodes s).filter fun x => getType x.name != .invalid

/-- a rail plan: all nodes have different ids, every end names its main node, which is an end of the same type that names itself,
and every main node is named as often as its type says -/
structure PlanFit (ss : List Xml) : Prop where
  sec : ∀ s ∈ ss, SectionFit s
  id : ∀ x ∈ ss.flatMap known, ∃ i, rpId x = some i ∧ i < 2 ^ 64 - 1
  uniq : ((ss.flatMap known).map rpId).Nodup
  main : ∀ x ∈ ss.flatMap endNodes, ∃ y ∈ ss.flatMap endNodes, mainId x = rpId y ∧ mainId y = rpId y ∧
    getType y.name = getType x.name
  share : ∀ x ∈ ss.flatMap endNodes, ((ss.flatMap endNodes).filter fun y => mainId y = mainId x).length = ends (getType x.name)

/-! ### documents -/

/-- the children named `Spurplanbetriebsstelle` are the stations of a file -/
def HasStations (d : Xml) (sts : List Xml) : Prop :=
  ∃ iss ks, First d "XmlIssDaten".toList iss ∧ Members iss "Spurplanbetriebsstellen".toList ks ∧
    sts = ks.filter fun k => decide (k.name = "Spurplanbetriebsstelle".toList)

/-- the children named `Spurplanabschnitt` are the sections of a station -/
def HasSections (st : Xml) (ss : List Xml) : Prop :=
  ∃ ks, Members st "Spurplanabschnitte".toList ks ∧ ss = ks.filter fun k => decide (k.name = "Spurplanabschnitt".toList)

/-- all sections of a file, in order -/
def FileHas (d : Xml) (ss : List Xml) : Prop :=
  ∃ sts secs, HasStations d sts ∧ List.Forall₂ HasSections sts secs ∧ ss = secs.flatten

/-- the node has this number -/
def HasId (x : Xml) (n : Nat) : Prop :=
  ∃ k, First x "ID".toList k ∧ k.text ≠ [] ∧ AllDigits k.text ∧ Utls.Spec.value k.text = n ∧ n < 2 ^ 64

/-- the number of the main node of the element that a node belongs to: the node itself, or the node that it names -/
def HasMain (x : Xml) (n : Nat) : Prop :=
  (x.name ∈ ["Prellbock".toList, "Betriebsstellengrenze".toList, "Gleisende".toList, "KmSprungAnfang".toList,
      "Weichenanfang".toList, "KreuzungAnfangLinks".toList, "KreuzungsweicheAnfangLinks".toList, "Streckenwechsel0".toList] ∧
    HasId x n) ∨
  (x.name ∈ ["KmSprungEnde".toList, "Streckenwechsel1".toList] ∧ SaysNode x "Partnerknoten".toList n) ∨
  (x.name ∈ ["Weichenstamm".toList, "WeichenabzweigLinks".toList, "WeichenabzweigRechts".toList] ∧
    SaysNode x "Partner".toList n) ∨
  (x.name ∈ ["KreuzungEndeLinks".toList, "KreuzungsweicheEndeLinks".toList] ∧ SaysNode x "NachbarGeradeaus".toList n) ∨
  (x.name ∈ ["KreuzungAnfangRechts".toList, "KreuzungEndeRechts".toList, "KreuzungsweicheAnfangRechts".toList,
      "KreuzungsweicheEndeRechts".toList] ∧ SaysNode x "HauptknotenAnfang".toList n)

end Soro.InfraStats.Spec
