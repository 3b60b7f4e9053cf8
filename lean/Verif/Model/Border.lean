/-!
Borders of neighbouring stations, src/infrastructure/parsers/iss/parse_iss.cc:892-981 (`complete_borders`).

The borders of all stations are one list, station by station; `st` is the station of a border. `ds100_to_station_` is the function `find`.
-/

namespace Soro.Infra

/-- a border as read from the input; station.h:40-68 -/
structure BorderIn where
  st : Nat
  name : Nat
  elem : Nat
  line : Nat
  sign : Int
  low : Bool

/-- a border with its neighbour station -/
structure Border where
  st : Nat
  nb : Nat
  elem : Nat
  line : Nat
  sign : Int
  low : Bool
  deriving DecidableEq, Repr

/-- parse_iss.cc:898-915: borders to unknown stations are removed -/
def resolveBorders (find : Nat → Option Nat) (l : List BorderIn) : List Border :=
  l.filterMap fun b => (find b.name).map fun nb => ⟨b.st, nb, b.elem, b.line, b.sign, b.low⟩

/-- parse_iss.cc:921-926: the borders of the neighbour that pass the check -/
def matching (all : List Border) (f : Border) : List Border :=
  (all.filter fun t => t.st = f.nb).filter fun t => !(t.nb ≠ f.st || f.sign ≠ t.sign || f.line ≠ t.line)

/-- parse_iss.cc:928: `neighbour_element_` after the loop, `none`: still null -/
def Border.partner (all : List Border) (f : Border) : Option Nat := ((matching all f).map (·.elem)).getLast?

/-- parse_iss.cc:919-943: the calls of `connect_border` -/
def borderLinks (all : List Border) : List (Nat × Bool × Nat) :=
  all.flatMap fun f => (matching all f).map fun t => (f.elem, f.low, t.elem)

/-- station.h:48-52 -/
def Border.idTuple (f : Border) : Nat × Nat × Nat × Int := (min f.st f.nb, max f.st f.nb, f.line, f.sign)

structure BorderSec where
  line : Nat
  rising : List Nat
  falling : List Nat
  deriving DecidableEq, Repr

/-- parse_iss.cc:948-979: the sections between borders; `none`: a null pointer is dereferenced -/
def borderSecs (all : List Border) : List Border → List (Nat × Nat × Nat × Int) → Option (List BorderSec)
  | [], _ => some []
  | f :: l, done =>
    if f.idTuple ∈ done then borderSecs all l done
    else (f.partner all).bind fun p =>
      let s := if f.low then ⟨f.line, [p, f.elem], [f.elem, p]⟩ else ⟨f.line, [f.elem, p], [p, f.elem]⟩
      (borderSecs all l (f.idTuple :: done)).map (s :: ·)

/-- parse_iss.cc:892-981 -/
def completeBorders (find : Nat → Option Nat) (l : List BorderIn) : Option (List (Nat × Bool × Nat) × List BorderSec) :=
  let all := resolveBorders find l
  (borderSecs all all []).map fun s => (borderLinks all, s)

end Soro.Infra
