import Verif.Model.Utls

/-
Specification vocabulary for the utilities.
-/

namespace Soro.Utls.Spec

/-- `v` is a value of the type -/
def Fits (t : IntTy) (v : Int) : Prop := t.min ≤ v ∧ v ≤ t.max

/-- value of a digit string, most significant digit first: each digit weighs a power of ten -/
def value : List Char → Nat
  | [] => 0
  | c :: cs => digit c * 10 ^ cs.length + value cs

/-- `s` is a decimal numeral for `v`: a nonempty string of digits, for signed types optionally with a minus in front -/
def Numeral (t : IntTy) (s : List Char) (v : Int) : Prop :=
  (s ≠ [] ∧ (∀ c ∈ s, c.isDigit = true) ∧ v = value s) ∨
  (t.signed = true ∧ ∃ ds, s = '-' :: ds ∧ ds ≠ [] ∧ (∀ c ∈ ds, c.isDigit = true) ∧ v = -(value ds : Int))

/-- the usual decimal representation -/
def print (v : Int) : List Char := if v < 0 then '-' :: Nat.toDigits 10 v.natAbs else Nat.toDigits 10 v.natAbs

/-- the text of a view -/
def text (v : View) : List Char := v.mem.take v.size

/-- what an optional with sentinel stands for -/
def view {α : Type} [DecidableEq α] {inv : α} (o : Opt α inv) : Option α := if o.val = inv then none else some o.val

/-- sum of coefficients times powers, coefficients in descending order of degree -/
def polyValue (x : Rat) : List Rat → Rat
  | [] => 0
  | f :: fs => f * x ^ fs.length + polyValue x fs

/-- pieces without gap and overlap, each of positive length -/
def Adjoining : List Piece → Prop
  | [] => True
  | [p] => p.frm < p.to
  | p :: q :: ps => p.frm < p.to ∧ p.to = q.frm ∧ Adjoining (q :: ps)

end Soro.Utls.Spec
