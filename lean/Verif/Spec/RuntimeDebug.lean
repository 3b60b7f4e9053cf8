import Verif.Model.RuntimeDebug
import Verif.Spec.Interval

/-! Specification vocabulary for the running time calculation in a build with assertions. -/

namespace Soro.Runtime.Spec
open Soro.Runtime Soro.Physics

/-- no assertion fails and the result is that of the release build -/
def Same {α : Type} (debug : Chk α) (release : Outcome α) : Prop := ∃ a, release = .done a ∧ debug = .done (.ok a)

/-- the calculation is stopped by an assertion -/
def Stopped {α : Type} (debug : Chk α) : Prop := ∃ line, debug = .done (.error line)

/-- a border at which the train stops -/
def Stopping (n : TNode) : Prop := Border n ∧ n.stop.isSome = true

/-- every stop is at least a centimetre beyond all stops before it -/
def StopsApart (nodes : List TNode) : Prop :=
  ∀ (i j : Nat) (a b : TNode), i < j → nodes[i]? = some a → nodes[j]? = some b → Stopping a → Stopping b →
    pos nodes i + 1 / 100 ≤ pos nodes j

/-- the train begins at a stop -/
def StartsAtStop (nodes : List TNode) : Prop := ∃ n, nodes[0]? = some n ∧ Stopping n

/-- 2^32 - 1 seconds stand for an unknown time. -/
def Known (t : Nat) : Prop := t ≠ 2 ^ 32 - 1

/-- all timestamps but the first have a known arrival, and no node is left before it is reached -/
def Sensible (stamps : List Stamp) : Prop :=
  (∀ s ∈ stamps.tail, Known s.arrival) ∧ ∀ s ∈ stamps, s.arrival ≤ s.departure

end Soro.Runtime.Spec
