import Verif.Model.Dates
import Verif.Spec.ParseFp

/-
Vocabulary: the Gregorian calendar, as a day after another.
-/

namespace Soro.Dates.Spec
open Utls Utls.Spec

/-- a leap year -/
def Leap (y : Int) : Prop := 4 ∣ y ∧ (¬ 100 ∣ y ∨ 400 ∣ y)

instance (y : Int) : Decidable (Leap y) := inferInstanceAs (Decidable (_ ∧ _))

/-- days of a month -/
def monthDays (y : Int) : Nat → Nat
  | 2 => if Leap y then 29 else 28
  | 4 | 6 | 9 | 11 => 30
  | _ => 31

/-- a date of the calendar -/
def Valid (x : Ymd) : Prop := 1 ≤ x.m ∧ x.m ≤ 12 ∧ 1 ≤ x.d ∧ x.d ≤ monthDays x.y x.m

instance (x : Ymd) : Decidable (Valid x) := inferInstanceAs (Decidable (_ ∧ _ ∧ _ ∧ _))

/-- the next day -/
def next (x : Ymd) : Ymd :=
  if x.d < monthDays x.y x.m then ⟨x.y, x.m, x.d + 1⟩ else if x.m < 12 then ⟨x.y, x.m + 1, 1⟩ else ⟨x.y + 1, 1, 1⟩

/-- some days later -/
def later : Nat → Ymd → Ymd
  | 0, x => x
  | n + 1, x => next (later n x)

/-- the first day of 1970 -/
def epoch : Ymd := ⟨1970, 1, 1⟩

/-- before in the calendar -/
def Before (a b : Ymd) : Prop := a.y < b.y ∨ a.y = b.y ∧ (a.m < b.m ∨ a.m = b.m ∧ a.d < b.d)

/-- a text in the form 2022-11-19 -/
def SaysDate (s : List Char) (x : Ymd) : Prop :=
  ∃ ys ms ds, s = ys ++ '-' :: ms ++ '-' :: ds ∧ ys.length = 4 ∧ ms.length = 2 ∧ ds.length = 2 ∧
    (∀ c ∈ ys ++ ms ++ ds, c.isDigit = true) ∧ x.y = value ys ∧ x.m = value ms ∧ x.d = value ds

/-- a text of four characters for a year, which may be negative, and two digits each for month and day, with one character of any
kind between them -/
def NumbersOf (s : List Char) (x : Ymd) : Prop :=
  ∃ ys a ms b ds, s = ys ++ a :: ms ++ b :: ds ∧ ys.length = 4 ∧ ms.length = 2 ∧ ds.length = 2 ∧
    (∀ c ∈ ms ++ ds, c.isDigit = true) ∧ Numeral ⟨true, 4⟩ ys x.y ∧ x.m = value ms ∧ x.d = value ds

end Soro.Dates.Spec
