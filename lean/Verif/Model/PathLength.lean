import Verif.Model.Network

/-
Model of kilometrages and lengths of paths: `get_km`, `element::get_distance` (`src/infrastructure/graph/element.cc`),
`include/soro/infrastructure/path/length.h`, `get_section_length` (`src/infrastructure/parsers/iss/parse_iss.cc:48-56`).

Kilometrages and lengths are rational numbers. The kilometrages of an element are one function: of the point for section elements (the
fields `start_km_`, `stem_km_` and so on, graph_creation.cc:50-156; both fields of a border hold that of `only`), the value at `only` for
track elements.
-/

namespace Soro.Infra

/-- kilometrages of the elements -/
abbrev Kms := Nat → Pt → Rat

/-- element.cc:63-119 -/
def getKm (el : Nat → Elem) (km : Kms) (i neigh : Nat) : Rat :=
  let e := el i
  let at' (slot : Nat) : Bool := decide (e.nb slot = some neigh) || decide (e.nb (slot + 1) = some neigh)
  if e.ty.isEnd then km i .only
  else if e.ty = .border then km i .only
  else if e.ty.isSimple then if at' 0 then km i .start else km i .fin
  else if e.ty = .simpleSwitch then
    if at' 0 then km i .start else if at' 2 then km i .stem else km i .branch
  else if e.ty = .cross then
    if at' 0 then km i .startLeft else if at' 2 then km i .endLeft else if at' 4 then km i .startRight else km i .endRight
  else km i .only

/-- `abs` -/
def absR (x : Rat) : Rat := if x < 0 then -x else x

/-- element.cc:179-187 -/
def getDistance (el : Nat → Elem) (km : Kms) (i neigh : Nat) : Rat :=
  if i = neigh then 0 else absR (getKm el km i neigh - getKm el km neigh i)

/-- length.h:25-32: the loop, `last` is `last_element`, `d` the distance so far -/
def lengthLoop (el : Nat → Elem) (km : Kms) (last : Nat) (d : Rat) : List Nat → Rat
  | [] => d
  | x :: l => lengthLoop el km x (d + absR (getKm el km last x - getKm el km x last)) l

/-- length.h:17-35: `none` if there are no elements (the end is dereferenced) -/
def lengthFromElements (el : Nat → Elem) (km : Kms) : List Nat → Option Rat
  | [] => none
  | x :: l => some (lengthLoop el km x 0 l)

/-- interval.cc:190-192: the distance at each node of a path, from `prev_element` on -/
def distances (el : Nat → Elem) (km : Kms) (prev : Nat) (d : Rat) : List Nat → List Rat
  | [] => []
  | x :: l => let d := d + getDistance el km x prev; d :: distances el km x d l

/-- length.h:60-65: the inner loop; `rest`: the elements from `iter` on; `past`: what dereferencing the end yields, `none`: undefined. The
result: `rest`, `next_section`, `prev_to_next_section`. -/
def sectionLoop (el : Nat → Elem) (past : Option Nat) : (rest : List Nat) → (next prev : Nat) → Option (List Nat × Nat × Nat)
  | [], next, prev => some ([], next, prev)
  | x :: l, next, prev =>
    if (el x).ty.isTrack then (l.head?.or past).bind fun y => sectionLoop el past l y next
    else some (x :: l, next, prev)

/-- length.h:59-81: the outer loop, at most `fuel` rounds; the inner `none`: not finished -/
def sectionsLoop (el : Nat → Elem) (km : Kms) (past : Option Nat) : (fuel : Nat) → (rest : List Nat) →
    (last nextToLast next prev : Nat) → (d : Rat) → Option (Option Rat)
  | 0, _, _, _, _, _, _ => some none
  | _ + 1, [], _, _, _, _, d => some (some d)
  | fuel + 1, x :: rest, last, nextToLast, next, prev, d =>
    (sectionLoop el past (x :: rest) next prev).bind fun r =>
      let d := d + absR (getKm el km last nextToLast - getKm el km r.2.1 r.2.2)
      match r.1 with
      | [] => some (some d)
      | _ :: rest => (rest.head?.or past).bind fun y => sectionsLoop el km past fuel rest r.2.1 y y r.2.1 d

/-- length.h:46-84, at most `fuel` rounds of the loop; `none`: an undefined value is read -/
def lengthFromSections (el : Nat → Elem) (km : Kms) (past : Option Nat) (fuel : Nat) : List Nat → Option (Option Rat)
  | [] => none
  | x :: l => (l.head?.or past).bind fun y => sectionsLoop el km past fuel l x y y x 0

/-- parse_iss.cc:48-56 -/
def sectionLength (km : Kms) (x : SecIn) : Rat := absR (km x.start x.ptS - km x.fin x.ptF)

end Soro.Infra
