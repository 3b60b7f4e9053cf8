import Verif.Model.IssElement
import Verif.Spec.ParseFp
import Verif.Spec.TypeNames

/-! What XML nodes of the input files say about speed limits, elements and station routes. -/

namespace Soro.IssElement
open Utls Utls.Spec TypeNames ParseFp

/-- `k` is the first child of `x` with this name -/
def First (x : Xml) (n : Text) (k : Xml) : Prop :=
  ∃ pre post, x.kids = pre ++ k :: post ∧ k.name = n ∧ ∀ p ∈ pre, p.name ≠ n
/-- `x` has no child with this name -/
def Lacks (x : Xml) (n : Text) : Prop := ∀ k ∈ x.kids, k.name ≠ n
/-- the attribute has this value -/
def HasAttr (x : Xml) (n v : Text) : Prop := ∃ pre post, x.attrs = pre ++ (n, v) :: post ∧ ∀ p ∈ pre, p.1 ≠ n

/-- the node says at which speed (in km/h), if it does -/
def SaysSpeed (x : Xml) (v : Option Rat) : Prop :=
  match v with
  | none => Lacks x "Geschw".toList
  | some v => ∃ k, First x "Geschw".toList k ∧ Decimal [',', '.'] k.text v

/-- the node says for which length (in metres), if it does -/
def SaysLength (x : Xml) (l : Option Rat) : Prop :=
  match l with
  | none => Lacks x "Laenge".toList
  | some l => ∃ k q, First x "Laenge".toList k ∧ Decimal [',', '.'] k.text q ∧
      (HasAttr k "Einheit".toList "km".toList ∧ l = 1000 * q ∨ HasAttr k "Einheit".toList "m".toList ∧ l = q)

/-- where the limit begins to act -/
def SaysPoa (x : Xml) (p : Poa) : Prop :=
  ∃ k, First x "Wirkungsort".toList k ∧
    k.text = match p with
      | .here => "Hier".toList
      | .lastSignal => "Signal".toList

/-- for which trains -/
def SaysEffects (x : Xml) (e : Effects) : Prop :=
  ∃ k, First x "Zugbeeinflussung".toList k ∧
    k.text = match e with
      | .all => "Alle".toList
      | .conventional => "Konventionell".toList
      | .lzbEtcs => "LZB".toList

/-- what kind of limit -/
def SaysKind (x : Xml) (k : LimitKind) : Prop :=
  match k with
  | .generalAllowed => x.name ∈ ["GeschwZulaessigS".toList, "GeschwZulaessigF".toList, "GeschwBeschraenkung".toList]
  | .endSpecial => x.name ∈ ["GeschwEndeSpeziellS".toList, "GeschwEndeSpeziellF".toList]
  | .invalid => False

/-- the text has the hash of a word although it is a different one -/
def Collides (s : Text) (words : List String) : Prop := ∃ w ∈ words, strHash w.toList = strHash s ∧ w.toList ≠ s

/-- for whom a halt is and on which sides its platforms are, by the name without direction -/
def haltNames : List (String × Bool × Bool × Bool) :=
  [("HalteplatzGz", false, false, false), ("HalteplatzRzLinks", true, true, false), ("HalteplatzRzRechts", true, false, true),
   ("HalteplatzRzRechtsLinks", true, true, true), ("HalteplatzRzBeide", true, true, true)]

/-- text of a child, empty if there is none -/
def SaysText (x : Xml) (n s : Text) : Prop := (∃ k, First x n k ∧ k.text = s) ∨ Lacks x n ∧ s = []

/-- the child names a node by its number -/
def SaysNode (x : Xml) (n : Text) (id : Nat) : Prop :=
  ∃ k ds, First x n k ∧ HasAttr k "ID".toList ds ∧ ds ≠ [] ∧ AllDigits ds ∧ value ds = id ∧ id < 2 ^ 64

/-- the children of the first child with this name; none if there is none -/
def Members (x : Xml) (n : Text) (ks : List Xml) : Prop := (∃ k, First x n k ∧ ks = k.kids) ∨ Lacks x n ∧ ks = []

end Soro.IssElement
