import Verif.Model.Units

/-
Vocabulary for C63, C73, C78.
-/

namespace Soro.Units.Spec

/-- exponent of a base unit -/
def exponent (q : Quantity) (t : Tag) : Int := (q.num.count t : Int) - q.den.count t

/-- no base unit in numerator and denominator -/
def Reduced (q : Quantity) : Prop := ∀ t, t ∈ q.num → t ∉ q.den

/-- no base unit occurs ten times or more -/
def Small (q : Quantity) : Prop := ∀ t, q.num.count t < 10 ∧ q.den.count t < 10

end Soro.Units.Spec
