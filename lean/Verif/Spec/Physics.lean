import Verif.Model.Physics

/-
What driving a train by steps has to satisfy, in terms of the results only.
-/

namespace Soro.Physics.Spec

open Soro.Physics

/-- the call returns l, however much fuel beyond some bound it gets -/
def Returns {α : Type} (call : Nat → Outcome α) (a : α) : Prop :=
  ∃ bound : Nat, ∀ fuel, bound < fuel → call fuel = .done a

/-- the call never ends -/
def NeverEnds {α : Type} (call : Nat → Outcome α) : Prop :=
  ∀ fuel, call fuel = .running

/-- the time grows from result to result -/
def TimeGrows (l : List Result) : Prop :=
  l.Pairwise (fun a b => a.time < b.time)

/-- the distance never decreases -/
def DistanceNeverDecreases (l : List Result) : Prop :=
  l.Pairwise (fun a b => a.dist ≤ b.dist)

/-- the speed never decreases -/
def SpeedNeverDecreases (l : List Result) : Prop :=
  l.Pairwise (fun a b => a.speed ≤ b.speed)

/-- the speed never increases -/
def SpeedNeverIncreases (l : List Result) : Prop :=
  l.Pairwise (fun a b => b.speed ≤ a.speed)

/-- from one result to the next one no more distance is covered than the greater of the two speeds allows -/
def NoFasterThanSpeed (l : List Result) : Prop :=
  ∀ (i : Nat) (a b : Result), l[i]? = some a → l[i + 1]? = some b →
    b.dist - a.dist ≤ max a.speed b.speed * (b.time - a.time)

/-- the value of a polynomial, highest degree first -/
def polyValue (x : Rat) : List Rat → Rat
  | [] => 0
  | f :: fs => f * x ^ fs.length + polyValue x fs

/-- the pieces of a function follow each other without a gap, none is empty -/
def Contiguous : List Piece → Prop
  | [] => True
  | [p] => p.lower < p.upper
  | p :: q :: l => p.lower < p.upper ∧ p.upper = q.lower ∧ Contiguous (q :: l)

end Soro.Physics.Spec
