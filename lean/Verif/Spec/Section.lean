import Verif.Model.Section

/-
Vocabulary for C44, C45, C46.
-/

namespace Soro.Infra.Spec

/-- two items have the same kilometrage or are at least the tolerance apart -/
def Separated (a b : Item) : Prop := a.km = b.km ∨ a.km + 1 / 100 ≤ b.km ∨ b.km + 1 / 100 ≤ a.km

/-- a strict total order on the members of a list -/
structure StrictTotal {α : Type} (lt : α → α → Bool) (l : List α) : Prop where
  irrefl : ∀ a ∈ l, lt a a = false
  trans : ∀ a ∈ l, ∀ b ∈ l, ∀ c ∈ l, lt a b = true → lt b c = true → lt a c = true
  total : ∀ a ∈ l, ∀ b ∈ l, a ≠ b → lt a b = true ∨ lt b a = true

/-- adjoining segments -/
def Adjoining : List Segment → Prop
  | [] => True
  | [s] => s.frm ≤ s.to
  | s :: t :: l => s.frm ≤ s.to ∧ s.to = t.frm ∧ Adjoining (t :: l)

end Soro.Infra.Spec
