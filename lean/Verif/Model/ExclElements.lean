import Verif.Model.Section
import Verif.Model.Algo

/-
Model of `src/infrastructure/exclusion/exclusion_elements.cc`: the exclusion elements of an interlocking route.
A route is the list of the elements of its nodes, in order. `none`: undefined behaviour.
-/

namespace Soro.Infra

/-- interlocking_route.cc:23-26 -/
def Ty.isValidEnd (t : Ty) : Bool := [Ty.mainSignal, .halt, .border, .bumper, .trackEnd].contains t

/-- exclusion_elements.cc:16-19, element.cc:59-61 -/
def Ty.isExclusion (t : Ty) : Bool := t == .simpleSwitch || t == .cross || t.isValidEnd

/-- exclusion_elements.cc:21-26 -/
def collect (l : List Item) : List Nat := (l.filter (fun e => e.ty.isExclusion)).map Item.id

/-- exclusion_elements.cc:52-67, one node; `ids` is `element_id_to_section_ids_` -/
def useSection (ids : Nat → List Nat) (used : List Nat) (e : Item) : Option (List Nat) :=
  if !e.ty.isTrack then some used
  else
    match (ids e.id).head? with
    | none => none
    | some s => if used.getLast? = some s then some used else some (used ++ [s])

/-- exclusion_elements.cc:49-70 -/
def usedSections (ids : Nat → List Nat) (route : List Item) : Option (List Nat) := route.foldlM (useSection ids) []

/-- exclusion_elements.cc:80-86 -/
def routeDirection (first last : Item) : Bool :=
  if first.ty.isTrack then first.rising else if last.ty.isTrack then last.rising else true

/-- exclusion_elements.cc:72-94 -/
def exclusionOne (s : Section) (first last : Item) : Option (List Nat) :=
  (s.fromTo first last (routeDirection first last)).map (fun l => Algo.eraseDup (collect l))

/-- exclusion_elements.cc:115-124 -/
def exclusionFirst (s : Section) (first : Item) : List Nat :=
  if first.ty.isTrack then collect (s.since first first.rising) else collect s.rising

/-- exclusion_elements.cc:126-130 -/
def exclusionMiddle (sections : List Section) : List Nat → Option (List Nat)
  | [] => some []
  | i :: l => (sections[i]?).bind fun s => (exclusionMiddle sections l).map (collect s.rising ++ ·)

/-- exclusion_elements.cc:132-143 -/
def exclusionLast (s : Section) (last : Item) : Option (List Nat) :=
  if last.ty.isTrack then (s.to last last.rising).map collect else some (collect s.rising)

/-- exclusion_elements.cc:96-148 -/
def exclusionElements (sections : List Section) (ids : Nat → List Nat) (route : List Item) : Option (List Nat) :=
  (usedSections ids route).bind fun used =>
  route.head?.bind fun first =>
  route.getLast?.bind fun last =>
  (used.head?.bind (sections[·]?)).bind fun fs =>
  (used.getLast?.bind (sections[·]?)).bind fun ls =>
  if used.length = 1 then exclusionOne fs first last
  else
    (exclusionMiddle sections used.tail.dropLast).bind fun m =>
    (exclusionLast ls last).map fun z => Algo.eraseDup (exclusionFirst fs first ++ m ++ z)

end Soro.Infra
