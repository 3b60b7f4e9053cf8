import Mathlib.Algebra.Order.Ring.Rat

/-
Vocabulary for C66, C74, C75, C76. A distribution is seen through its entries (point, probability): the expectation of a function
is the sum over the entries. Total mass, the mass at a point and the mass up to a point are expectations of special functions.
-/

namespace Soro.Dpd.Spec

/-- the weighted sum of `f` over the entries -/
def expect {α : Type} (es : List (α × Rat)) (f : α → Rat) : Rat := (es.map fun e => f e.1 * e.2).sum

/-- probability of exactly `t` -/
def massAt {α : Type} [DecidableEq α] (es : List (α × Rat)) (t : α) : Rat := expect es fun x => if x = t then 1 else 0

/-- total probability -/
def total {α : Type} (es : List (α × Rat)) : Rat := expect es fun _ => 1

/-- probability of at most `t` -/
def upTo (es : List (Int × Rat)) (t : Int) : Rat := expect es fun x => if x ≤ t then 1 else 0

/-- `m` is a multiple of `g` nearest to `n` -/
def Nearest (g n m : Int) : Prop := g ∣ m ∧ ∀ m', g ∣ m' → |n - m| ≤ |n - m'|

end Soro.Dpd.Spec
