import Verif.Model.Utls
import Verif.Model.Departures

/-
Model of the dates of timetables: `parse_date` (`src/timetable/parsers/kss/parse_kss_timetable.cc:66-80`), the conversion of civil
dates to days and back as in Howard Hinnant's `date` library (`year_month_day::to_days`, `from_days`, not part of /repo, written
here from its published source), and points in time (`include/soro/base/time.h`, `src/timetable/sequence_point.cc:24-32`).
Time types have 32 bits.
-/

namespace Soro.Dates
open Utls

/-- `date::year_month_day`: a 16 bit year, 8 bit month and day; not necessarily a date of the calendar -/
structure Ymd where
  y : Int
  m : Nat
  d : Nat
  deriving DecidableEq, Repr

/-- `year_month_day::to_days` -/
def toDays (x : Ymd) : Int :=
  let y := if x.m ≤ 2 then x.y - 1 else x.y
  let era := (if y ≥ 0 then y else y - 399).tdiv 400
  let yoe := y - era * 400
  let doy : Int := (153 * (if x.m > 2 then (x.m : Int) - 3 else x.m + 9) + 2) / 5 + x.d - 1
  let doe := yoe * 365 + yoe / 4 - yoe / 100 + doy
  era * 146097 + doe - 719468

/-- `year_month_day::from_days` -/
def ofDays (n : Int) : Ymd :=
  let z := n + 719468
  let era := (if z ≥ 0 then z else z - 146096).tdiv 146097
  let doe := z - era * 146097
  let yoe := (doe - doe / 1460 + doe / 36524 - doe / 146096) / 365
  let y := yoe + era * 400
  let doy := doe - (365 * yoe + yoe / 4 - yoe / 100)
  let mp := (5 * doy + 2) / 153
  let d := doy - (153 * mp + 2) / 5 + 1
  let m := if mp < 10 then mp + 3 else mp - 9
  ⟨if m ≤ 2 then y + 1 else y, m.toNat, d.toNat⟩

/-- parse_kss_timetable.cc:66-80 in a release build; the text ends with a zero, `none`: read beyond it -/
def parseDate (s : List Char) : Option Ymd :=
  if s.length < 8 then none
  else some
    ⟨cast ⟨true, 2⟩ (parseInt ⟨true, 4⟩ (s.take 4)),
     (cast ⟨false, 1⟩ (parseInt ⟨false, 4⟩ ((s.drop 5).take 2))).toNat,
     (cast ⟨false, 1⟩ (parseInt ⟨false, 4⟩ ((s.drop 8).take 2))).toNat⟩

/-- time.h:39-42 -/
def absToRel (anchor t : Nat) : Nat := (2 ^ 32 + t - anchor) % 2 ^ 32

/-- time.h:44-46 -/
def midnight (t : Nat) : Nat := t / 86400 * 86400

/-- time.h:48-51 -/
def ymdToAbs (x : Ymd) : Nat := secOf (toDays x)

/-- sequence_point.cc:24-32: arrival or departure of a run -/
def absoluteTime (x : Ymd) (rel : Nat) : Nat := relToAbs (secOf (toDays x)) rel

end Soro.Dates
