import Verif.Model.PathLength

/-!
Model of `include/soro/infrastructure/path/is_path.h:11-40` (`neighbours`, `is_path`), of `element::neighbours`
(`include/soro/infrastructure/graph/element.h:344-354`) and of the assertions of `element::get_distance` and `get_km`
(`src/infrastructure/graph/element.cc:63-113, 177-187`) in the debug build.

Elements are given by their ids; the slots of an element are those of `Model/Network.lean`, in the order of `neighbours_`.
-/

namespace Soro.Infra

/-- element.h:67, 108, 145, 186, 231, 289: the size of `neighbours_` -/
def Ty.width (t : Ty) : Nat :=
  if t.isEnd then 2
  else if t.isSimple then 4
  else if t.isDirected then 2
  else if t.isUndirected then 4
  else if t = .simpleSwitch then 6
  else if t = .cross then 8
  else 0

/-- element.h:344-348; `none`: a null pointer -/
def neighbourSlots (el : Nat → Elem) (i : Nat) : List (Option Nat) := (List.range (el i).ty.width).map (el i).nb

/-- is_path.h:12-13: `any_of`; `none`: a null pointer is dereferenced -/
def anyNeighbour (y : Nat) : List (Option Nat) → Option Bool
  | [] => some false
  | none :: _ => none
  | some a :: l => if a = y then some true else anyNeighbour y l

/-- is_path.h:11-14 -/
def isNeighbour (el : Nat → Elem) (i y : Nat) : Option Bool := anyNeighbour y (neighbourSlots el i)

/-- is_path.h:24-32: the loop, `last` is `last_element` -/
def isPathLoop (el : Nat → Elem) (last : Nat) : List Nat → Option Bool
  | [] => some true
  | y :: l => (isNeighbour el last y).bind fun b => if !b then some false else isPathLoop el y l

/-- is_path.h:16-33; `none`: the end or a null pointer is dereferenced -/
def isPath (el : Nat → Elem) : List Nat → Option Bool
  | [] => none
  | x :: l => isPathLoop el x l

/-- is_path.h:35-40 -/
def isNodePath (el : Nat → Elem) (nodes : List Node) : Option Bool := isPath el (nodes.map (·.1))

/-! ### distances, debug build -/

/-- the checks of element.cc:66-68, 79-81, 101-103; `none`: an exception -/
def getKmDebug (el : Nat → Elem) (km : Kms) (i neigh : Nat) : Option Rat :=
  let t := (el i).ty
  if (t.isSimple || decide (t = .simpleSwitch) || decide (t = .cross)) && !(neighbourSlots el i).contains (some neigh) then none
  else some (getKm el km i neigh)

/-- element.cc:179-187; `none`: an assertion fails -/
def getDistanceDebug (el : Nat → Elem) (km : Kms) (i neigh : Nat) : Option Rat :=
  if i = neigh then some 0
  else if !(neighbourSlots el i).contains (some neigh) then none
  else (getKmDebug el km i neigh).bind fun a => (getKmDebug el km neigh i).map fun b => absR (a - b)

/-- interval.cc:190-192: the distance at each node of a path, from `prev_element` on -/
def distancesDebug (el : Nat → Elem) (km : Kms) (prev : Nat) (d : Rat) : List Nat → Option (List Rat)
  | [] => some []
  | x :: l => (getDistanceDebug el km x prev).bind fun c => (distancesDebug el km x (d + c) l).map fun r => (d + c) :: r

end Soro.Infra
