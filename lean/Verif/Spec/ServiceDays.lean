import Verif.Model.ServiceDays
import Verif.Spec.Dates
import Verif.Spec.Kss

/-
Vocabulary: the dates of the calendar that the services of a file name.
-/

namespace Soro.ServiceDays.Spec
open Dates Dates.Spec

/-- the mask has a one for the date: at position `i` for the date `i` days after the start -/
def Regular (z : Ymd) : Elem → Prop
  | .mask s _ m => ∃ x i, SaysDate s x ∧ z = later i x ∧ m[i]? = some '1'
  | .special _ _ => False

/-- a special service for this date that includes (`true`) or excludes (`false`) it -/
def Special (z : Ymd) (v : Bool) : Elem → Prop
  | .mask _ _ _ => False
  | .special d ty => SaysDate d z ∧ ((ty = "include".toList ∧ v = true) ∨ (ty = "exclude".toList ∧ v = false))

/-- the last special service for the date includes it, or there is none and it is a regular one -/
def Served (es : List Elem) (z : Ymd) : Prop :=
  (∃ pre e post, es = pre ++ e :: post ∧ Special z true e ∧ ∀ t ∈ post, ∀ w, ¬ Special z w t) ∨
  ((∀ e ∈ es, ∀ w, ¬ Special z w e) ∧ ∃ e ∈ es, Regular z e)

/-- texts of dates within 512 days from `w` on; masks with one character, `0` or `1`, for each day -/
def Proper (w : Ymd) : Elem → Prop
  | .mask s e m => ∃ i n, SaysDate s (later i w) ∧ SaysDate e (later (i + n) w) ∧ m.length = n + 1 ∧ i + n < 512 ∧
      ∀ c ∈ m, c = '0' ∨ c = '1'
  | .special d _ => ∃ i < 512, SaysDate d (later i w)

/-- a regular service -/
def isMask : Elem → Bool
  | .mask _ _ _ => true
  | .special _ _ => false

/-- the run of the date is under way at some moment of the interval -/
def Meets (first last : Nat) (iv : TimeInterval) (z : Ymd) : Prop :=
  ∃ t : Int, toDays z * 86400 + first ≤ t ∧ t ≤ toDays z * 86400 + last ∧ (iv.start : Int) ≤ t ∧ t ≤ iv.stop

end Soro.ServiceDays.Spec
