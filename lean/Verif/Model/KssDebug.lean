import Verif.Model.CalendarDebug
import Verif.Model.ServiceDays
import Verif.Model.ParseDebug

/-
Model of `parse_services` (src/timetable/parsers/kss/parse_kss_timetable.cc:63-141) in a build with assertions; line numbers
without a file refer to that file. The assertions that the dates given to `distance` exist (lines 52, 53) repeat those of
`parse_date` and are left out.
-/

namespace Soro.Kss
open Dbg Dates ServiceDays Utls

/-- `date::year_month_day::ok` for the years a text can name, as in the published source of the date library -/
def dateOk (x : Ymd) : Bool :=
  decide (1 ≤ x.m ∧ x.m ≤ 12 ∧ 1 ≤ x.d) &&
    decide (x.d ≤ if x.m = 2 then (if x.y % 4 = 0 ∧ (x.y % 100 ≠ 0 ∨ x.y % 400 = 0) then 29 else 28)
      else if x.m = 4 ∨ x.m = 6 ∨ x.m = 9 ∨ x.m = 11 then 30 else 31)

/-- lines 66-80 `parse_date` -/
def parseDateD (s : List Char) : Dbg Ymd := do
  check 67 (s.length = 10)
  let y ← parseIntD ⟨true, 4⟩ (s.take 4)
  let m ← parseIntD ⟨false, 4⟩ ((s.drop 5).take 2)
  let d ← parseIntD ⟨false, 4⟩ ((s.drop 8).take 2)
  let x : Ymd := ⟨cast ⟨true, 2⟩ y, (cast ⟨false, 1⟩ m).toNat, (cast ⟨false, 1⟩ d).toNat⟩
  check 76 (dateOk x = true)
  return x

/-- the calendar so far, and the count of service days (64 bit, wraps around) -/
structure Acc where
  bf : Bitfield
  total : Nat

/-- lines 124-125 -/
def joinD (b bf : Bitfield) : Dbg Bitfield := if ok b then b.unionD bf else return bf

/-- lines 111-125: a regular service -/
def maskD (a : Acc) (f l : Int) (m : List Char) : Dbg Acc := do
  check 54 (f ≤ l)
  check 115 (m.length = Bitfield.dist f l + 1)
  let bf ← Bitfield.makeD f l m
  let b ← joinD a.bf bf
  return ⟨b, (a.total + m.count '1') % 2 ^ 64⟩

/-- lines 88-97: a special service -/
def specialD (a : Acc) (d : Int) : Kind → Dbg Acc
  | .incl => do
    let b ← a.bf.setD d true
    return ⟨b, (a.total + 1) % 2 ^ 64⟩
  | .excl => do
    let b ← a.bf.setD d false
    return ⟨b, (a.total + (2 ^ 64 - 1)) % 2 ^ 64⟩
  | .other => return a

/-- lines 103-132, one iteration -/
def stepD (a : Acc) : Service → Dbg Acc
  | .mask f l m => maskD a f l m
  | .special d k => do
    check 128 (ok a.bf = true)
    specialD a d k

/-- lines 103-132 -/
def loopD (a : Acc) : List Service → Dbg Acc
  | [] => return a
  | s :: ss => do
    let a' ← stepD a s
    loopD a' ss

/-- bitfield.cc:228-230 `count` -/
def count (b : Bitfield) : Nat := ((List.range Bitfield.BITSIZE).filter b.test).length

/-- lines 135-140 -/
def finishD (a : Acc) : Dbg Bitfield := do
  check 135 (ok a.bf = true)
  check 136 (a.total = count a.bf)
  return a.bf

/-- lines 63-141 with the dates given as days -/
def parseServicesD (ss : List Service) : Dbg Bitfield := do
  check 101 (ok fresh = false)
  let a ← loopD ⟨fresh, 0⟩ ss
  finishD a

/-- lines 103-132, one iteration with the texts of the file -/
def elemD (a : Acc) : Elem → Dbg Acc
  | .mask s e m => do
    let x ← parseDateD s
    let y ← parseDateD e
    maskD a (toDays x) (toDays y) m
  | .special d ty => do
    check 128 (ok a.bf = true)
    let x ← parseDateD d
    specialD a (toDays x) (kindOf ty)

/-- lines 103-132 with the texts of the file -/
def elemsD (a : Acc) : List Elem → Dbg Acc
  | [] => return a
  | e :: es => do
    let a' ← elemD a e
    elemsD a' es

/-- lines 63-141 with the texts of the file -/
def parseElemsD (es : List Elem) : Dbg Bitfield := do
  check 101 (ok fresh = false)
  let a ← elemsD ⟨fresh, 0⟩ es
  finishD a

end Soro.Kss
