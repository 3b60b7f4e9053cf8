import Verif.Model.Kss
import Verif.Model.Dates

/-
Model of `parse_services` on the texts of a file (src/timetable/parsers/kss/parse_kss_timetable.cc:63-141), and of the departures
of the train that gets the service days (`parse_construction_train`, parse_kss_timetable.cc:404-409; src/timetable/train.cc:24-61).
Put together from the parts in `Dates`, `Kss` and `Departures`.
-/

namespace Soro.ServiceDays
open Dates Kss

/-- a `service` element: the attributes `startDate`, `endDate` and `bitMask`, or the attributes `date` and `type` of its child -/
inductive Elem where
  | mask (start stop bits : List Char)
  | special (date type : List Char)

/-- parse_kss_timetable.cc:88-97 -/
def kindOf (type : List Char) : Kind :=
  if type = ['i', 'n', 'c', 'l', 'u', 'd', 'e'] then .incl
  else if type = ['e', 'x', 'c', 'l', 'u', 'd', 'e'] then .excl
  else .other

/-- parse_kss_timetable.cc:86, 104-109; `none`: read beyond a text -/
def readElem : Elem → Option Service
  | .mask s e m => (parseDate s).bind fun a => (parseDate e).map fun b => .mask (toDays a) (toDays b) m
  | .special d ty => (parseDate d).map fun x => .special (toDays x) (kindOf ty)

/-- parse_kss_timetable.cc:63-141 -/
def parseElems (es : List Elem) : Option Bitfield := (es.mapM readElem).bind parseServices

/-- the departures within an interval of a train with these services -/
def departuresOf (id : Nat) (es : List Elem) (first last : Nat) (iv : TimeInterval) : Option (List Nat) :=
  (parseElems es).bind fun b => (DepTrain.mk id b first last).departures iv

end Soro.ServiceDays
