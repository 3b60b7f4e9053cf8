import Verif.Spec.Calendar
import Verif.Model.Kss

/-! Specification vocabulary for the KSS parser: what services say about a day, texts of durations, conditions for support. -/

namespace Soro.Kss
open Soro.Train Soro.Transform

/-- a regular service whose mask has a one for the day -/
def RegularOn (d : Int) : Service → Prop
  | .mask f _ m => f ≤ d ∧ m[(d - f).toNat]? = some '1'
  | .special _ _ => False

/-- a special service that includes (`true`) or excludes (`false`) the day -/
def SpecialOn (d : Int) (v : Bool) : Service → Prop
  | .mask _ _ _ => False
  | .special e .incl => e = d ∧ v = true
  | .special e .excl => e = d ∧ v = false
  | .special _ .other => False

/-- a service that says something about the day -/
def Says (d : Int) (v : Bool) (s : Service) : Prop := SpecialOn d v s ∨ (RegularOn d s ∧ v = true)

/-- the last service for which `P` says anything says `v` -/
def Last (P : Bool → Service → Prop) (ss : List Service) (v : Bool) : Prop :=
  ∃ pre s post, ss = pre ++ s :: post ∧ P v s ∧ ∀ t ∈ post, ∀ w, ¬ P w t

/-- a regular service -/
def Service.isMask : Service → Bool
  | .mask _ _ _ => true
  | .special _ _ => false

/-- all dates lie in the window and masks have one character, `0` or `1`, per day -/
def Service.Fits (lo hi : Int) : Service → Prop
  | .mask f l m => lo ≤ f ∧ l ≤ hi ∧ f ≤ l ∧ (m.length : Int) = l - f + 1 ∧ ∀ c ∈ m, c = '0' ∨ c = '1'
  | .special d _ => lo ≤ d ∧ d ≤ hi

/-- a field of a duration text: a number with leading zeros, for seconds with a fraction -/
inductive Field where
  | hours (lead n : Nat)
  | minutes (lead n : Nat)
  | secs (lead n : Nat) (frac : List (Fin 10))

/-- the number with leading zeros -/
def number (lead n : Nat) : List Char := List.replicate lead '0' ++ Nat.toDigits 10 n

/-- the fraction, if there are digits -/
def fraction : List (Fin 10) → List Char
  | [] => []
  | ds => '.' :: ds.map fun d => Nat.digitChar d.val

def Field.text : Field → List Char
  | .hours lead n => number lead n ++ ['H']
  | .minutes lead n => number lead n ++ ['M']
  | .secs lead n fr => number lead n ++ fraction fr ++ ['S']

/-- the seconds a field stands for, a half second or more is rounded up -/
def Field.seconds : Field → Nat
  | .hours _ n => 3600 * n
  | .minutes _ n => 60 * n
  | .secs _ n [] => n
  | .secs _ n (d :: _) => if 5 ≤ d.val then n + 1 else n

/-- the conditions of the support check, in the order of their report; point errors for the point at an index -/
inductive Defect (i : Infra) (ctc freight : Bool) (ss : StopSeq) : KErr → Nat → Prop
  | ctc : ctc = true → Defect i ctc freight ss .ctc 0
  | singleStop : ss.points.length ≤ 1 → Defect i ctc freight ss .singleStop 1
  | breakIn : ss.breakIn = true → Defect i ctc freight ss .breakIn 2
  | breakOut : ss.breakOut = true → Defect i ctc freight ss .breakOut 3
  | firstNoHalt (p : SPoint) : ss.points[0]? = some p → p.ty = .transit → Defect i ctc freight ss .firstNoHalt 4
  | lastNoHalt (p : SPoint) : ss.points[ss.points.length - 1]? = some p → p.ty = .transit →
      Defect i ctc freight ss .lastNoHalt 5
  | halt (k : Nat) (p : SPoint) (s : Stops) : ss.points[k]? = some p → i.stops[p.sr]? = some s → p.ty ≠ .transit →
      (if freight then s.freight else s.passenger) = none → Defect i ctc freight ss .haltWithoutHalt (6 + k)
  | checkpoint (k : Nat) (p : SPoint) (s : Stops) : ss.points[k]? = some p → i.stops[p.sr]? = some s → p.ty = .transit →
      p.hasDeparture = true → s.checkpoint = none → Defect i ctc freight ss .timeWithoutCheckpoint (6 + k)

end Soro.Kss

namespace Soro.Kss

/-- a train whose construction trains are all fine, with their results -/
def Accepts {α β : Type} (f : α → Res β) (x : Bool × List α) (bs : List β) : Prop :=
  x.1 = true ∧ x.2.map f = bs.map .ok

/-- a train that is not released, or the first construction train of it that is not fine has an error -/
def Rejects {α β : Type} (f : α → Res β) (x : Bool × List α) (e : KErr) : Prop :=
  (x.1 = false ∧ e = .workedOnTrain) ∨
  (x.1 = true ∧ ∃ (pre : List α) (a : α) (post : List α) (bs : List β), x.2 = pre ++ a :: post ∧
    pre.map f = bs.map .ok ∧ f a = .err e)

end Soro.Kss

namespace Soro.Kss
open Soro.Train Soro.Transform

/-- the type of a sequence point for the key in the file -/
inductive Mode : Option Char → SType → Prop
  | transit : Mode none .transit
  | operations : Mode (some '2') .operations
  | request : Mode (some '3') .request
  | passenger : Mode (some '4') .passenger

/-- the point of the file names a known station and one of its routes, which is that of the sequence point -/
def Reads (st : Stations) (x : XPoint) (p : SPoint) : Prop :=
  (∃ routes, st.lookup x.ds100 = some routes ∧ routes.lookup x.route = some p.sr) ∧
  p.hasDeparture = x.hasDeparture ∧ Mode x.stopMode p.ty

/-- the first point whose station is unknown, or whose route is unknown in its station -/
def Unknown (st : Stations) (x : XPoint) (e : KErr) : Prop :=
  (st.lookup x.ds100 = none ∧ e = .stationNotFound) ∨
  (∃ routes, st.lookup x.ds100 = some routes ∧ routes.lookup x.route = none ∧ e = .stationRouteNotFound)

end Soro.Kss
