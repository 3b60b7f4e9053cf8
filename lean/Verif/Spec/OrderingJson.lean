import Verif.Model.OrderingJson
import Verif.Spec.Ordering
import Verif.Spec.Utls

/-! Specification vocabulary for the request for an ordering graph and its answer. -/

namespace Soro.OrderingJson
open OrderingGraph Utls Utls.Spec

/-- what is known about sorting the trips by departure -/
def SortsTrips (srt : List OTrain → List Trip → List Trip) : Prop :=
  ∀ trains l, (srt trains l).Perm l ∧ (srt trains l).Pairwise fun a b => departureOf trains a ≤ departureOf trains b

/-- ids of trains are positions in the timetable, and a train does not depart twice at the same time -/
def TimetableOk (trains : List OTrain) : Prop :=
  (∀ (i : Nat) (tr : OTrain), trains[i]? = some tr → tr.id = i) ∧ ∀ tr ∈ trains, tr.anchors.Nodup

/-- a decimal numeral for a 32-bit number -/
def IsNumber (s : List Char) (n : Nat) : Prop :=
  s ≠ [] ∧ (∀ c ∈ s, c.isDigit = true) ∧ value s = n ∧ n < 2 ^ 32

/-- `csv` lists the numbers `ns`, separated by commas; the empty text lists no numbers -/
inductive Lists : List Char → List Nat → Prop
  | none : Lists [] []
  | one (s : List Char) (n : Nat) : IsNumber s n → Lists s [n]
  | more (s : List Char) (n : Nat) (rest : List Char) (ns : List Nat) :
      IsNumber s n → rest ≠ [] → Lists rest ns → Lists (s ++ ',' :: rest) (n :: ns)

/-- when a trip departs at its first halt -/
def departs (t : OTrain × Int) : Int := t.2 + t.1.firstDeparture

end Soro.OrderingJson
