import Verif.Model.ErrorStats

/-! What the error report of the timetable parser is to say, without the counting. -/

namespace Soro.ErrorStats
open Soro.Kss

/-- The reason for which a `train` element (released or not, with its construction trains) is skipped: it is not released,
or else the error of the first construction train that has one. -/
def reason {α β : Type} (f : α → Res β) (x : Bool × List α) : Option KErr :=
  if x.1 then x.2.findSome? fun a => match f a with | .err e => some e | _ => none else some .workedOnTrain

/-- the number of elements skipped for `e` -/
def skipped {α β : Type} (f : α → Res β) (xs : List (Bool × List α)) (e : KErr) : Nat :=
  (xs.filter fun x => decide (reason f x = some e)).length

/-- the elements that are read -/
def kept {α β : Type} (f : α → Res β) (xs : List (Bool × List α)) : List (Bool × List α) :=
  xs.filter fun x => decide (reason f x = none)

/-- all errors for which an element can be skipped -/
def allErrs : List KErr :=
  [.stationNotFound, .stationRouteNotFound, .workedOnTrain, .haltWithoutHalt, .timeWithoutCheckpoint, .ctc, .singleStop,
    .breakIn, .breakOut, .firstNoHalt, .lastNoHalt, .vehicle, .transform .noFirstIr, .transform .noUniqueFirstIr,
    .transform .noUniqueIr, .transform .noIr]

/-- all work items have counted their errors -/
def St.Finished (s : St) : Prop := ∀ t ∈ s.threads, t = ⟨[], .out⟩

/-- no work item can make a step -/
def St.Stuck (s : St) : Prop := ∀ i, step s i = none

end Soro.ErrorStats
