import Verif.Model.ExclusionSet

/-! Specification vocabulary for exclusion sets: membership by `operator[]`, histories of API calls. -/

namespace Soro

/-- `x` is a member of `s`, as observed by `operator[]` -/
def ES.Mem (s : ES) (x : Nat) : Prop := s.idx x = true

/-- ids an exclusion set can hold without hitting the `INVALID_OFFSET` sentinel -/
def ValidIds (ids : List Nat) : Prop := ids.Pairwise (· ≤ ·) ∧ ∀ i ∈ ids, i < 2 ^ 32 - 64

/-- All sets that can be obtained by any history of calls of the public API.
`set` is called on non-empty sets only (see `C15`). -/
inductive ES.Reachable : ES → Prop
  | make {id ids s} : ValidIds ids → ES.make id ids = some s → Reachable s
  | union {a o s} : Reachable a → Reachable o → a.union o = some s → Reachable s
  | diff {a o s} : Reachable a → Reachable o → a.diff o = some s → Reachable s
  | clear {a} : Reachable a → Reachable a.clear
  | set {a i s} : Reachable a → a.isEmpty = false → i < 2 ^ 32 - 64 → a.set i = some s → Reachable s

/-- inclusion of the members -/
def ES.Sub (a b : ES) : Prop := ∀ x, a.Mem x → b.Mem x

end Soro
