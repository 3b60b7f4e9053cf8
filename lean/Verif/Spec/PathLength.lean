import Verif.Spec.Network
import Verif.Model.PathLength
import Mathlib.Data.Rat.Lemmas
import Mathlib.Algebra.Order.Ring.Rat
import Mathlib.Algebra.Order.Group.Abs
import Mathlib.Tactic.Linarith
import Mathlib.Tactic.Ring

/-!
Kilometrages along sections and the lengths of paths.
-/

namespace Soro.Infra

/-- the kilometrages met when section `o` is left at the end `b`: of the point it is entered at, of the track elements, of the point it
is left at -/
def SecOut.kms (o : SecOut) (km : Kms) (b : Bool) : List Rat :=
  [km (o.x.elem (!b)) (o.x.pt (!b))] ++ (o.towards b).map (fun i => km i .only) ++ [km (o.x.elem b) (o.x.pt b)]

/-- the kilometrages of a section rise or fall along it -/
def Monotone (l : List Rat) : Prop := l.Pairwise (· ≤ ·) ∨ l.Pairwise (· ≥ ·)

/-- consecutive sections, each with the end it is left at: each starts at the element where the one before ended, or at another border of
the same kilometrage -/
def Connected (el : Nat → Elem) (km : Kms) : List (SecOut × Bool) → Prop
  | (o, b) :: (o', b') :: l => (o.x.elem b = o'.x.elem (!b') ∨ (el (o.x.elem b)).ty = .border ∧ (el (o'.x.elem (!b'))).ty = .border ∧
      km (o.x.elem b) .only = km (o'.x.elem (!b')) .only) ∧ Connected el km ((o', b') :: l)
  | _ => True

/-- the elements of the path over the sections; both elements if a section ends at a border and the next one starts at its partner -/
def pathElems : List (SecOut × Bool) → List Nat
  | [] => []
  | [(o, b)] => o.x.elem (!b) :: (o.towards b ++ [o.x.elem b])
  | (o, b) :: (o', b') :: l => o.x.elem (!b) :: (o.towards b ++ ((if o.x.elem b = o'.x.elem (!b') then [] else [o.x.elem b]) ++ pathElems ((o', b') :: l)))

/-- the length of a section by its ends -/
def SecOut.len (o : SecOut) (km : Kms) : Rat := |km (o.x.elem true) (o.x.pt true) - km (o.x.elem false) (o.x.pt false)|

end Soro.Infra
