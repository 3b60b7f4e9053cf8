import Verif.Model.Generator

/-
Vocabulary for C58, C79, C80.
-/

namespace Soro.Gen.Spec
variable {α : Type}

/-- the nested sequences flattened in order, for bodies that do not throw -/
def flatten : Body α → List α
  | .ret => []
  | .throw => []
  | .yield v k => v :: flatten k
  | .nested c k => flatten c ++ flatten k
  | .null k => flatten k

/-- nothing throws -/
def NoThrow : Body α → Prop
  | .ret => True
  | .throw => False
  | .yield _ k => NoThrow k
  | .nested c k => NoThrow c ∧ NoThrow k
  | .null k => NoThrow k

/-- what a user expects: an exception ends the whole sequence and reaches the consumer -/
def ideal : Body α → List α × Bool
  | .ret => ([], false)
  | .throw => ([], true)
  | .yield v k => (v :: (ideal k).1, (ideal k).2)
  | .nested c k => if (ideal c).2 then ((ideal c).1, true) else ((ideal c).1 ++ (ideal k).1, (ideal k).2)
  | .null k => ideal k

/-- what happens: an exception of a nested generator that has not yielded a value yet is dropped -/
def actual : Body α → List α × Bool
  | .ret => ([], false)
  | .throw => ([], true)
  | .yield v k => (v :: (actual k).1, (actual k).2)
  | .nested c k =>
    if (actual c).2 = true ∧ (actual c).1 ≠ [] then ((actual c).1, true) else ((actual c).1 ++ (actual k).1, (actual k).2)
  | .null k => actual k

/-- no nested generator throws before its first value -/
def LateThrow : Body α → Prop
  | .ret => True
  | .throw => True
  | .yield _ k => LateThrow k
  | .nested c k => LateThrow c ∧ ((ideal c).2 = true → (ideal c).1 ≠ []) ∧ LateThrow k
  | .null k => LateThrow k

/-- values of a plain body up to its end or exception -/
def values : Plain α → List α
  | .ret => []
  | .throw => []
  | .yield v k => v :: values k

def throws : Plain α → Bool
  | .ret => false
  | .throw => true
  | .yield _ k => throws k

end Soro.Gen.Spec
