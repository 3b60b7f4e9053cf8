import Verif.Model.Runtime
import Verif.Spec.Interval

/-
What the timestamps of a train have to satisfy.
-/

namespace Soro.Runtime.Spec

open Soro.Runtime

/-- the second node is reached no earlier than the first one is left, or both are reached and left together -/
def Before (a b : Stamp) : Prop :=
  a.departure ≤ b.arrival ∨ (a.arrival = b.arrival ∧ a.departure = b.departure)

/-- timestamps in order of time; no node is left before it is reached -/
def InOrder (stamps : List Stamp) : Prop :=
  stamps.Pairwise Before ∧ ∀ s ∈ stamps, s.arrival ≤ s.departure

/-- the stop time and the planned departure of a halt are respected -/
def Respected (h : Halt) (s : Stamp) : Prop :=
  h.departure ≤ s.departure ∧ s.arrival + h.minStop ≤ s.departure

end Soro.Runtime.Spec
