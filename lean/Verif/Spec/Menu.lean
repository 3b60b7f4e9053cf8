import Verif.Model.Menu

/-! What the fields of the menu should show. -/

namespace Soro.Menu
open WebClient

variable {ν : Type}

/-- the range of the store, in milliseconds -/
def storedRange (s : Side ν) : Option (Nat × Nat) := s.range.map fun r => (r.1 * 1000, r.2 * 1000)

/-- a field shows a value, or nothing -/
def ShowsOrEmpty {α : Type} (field value : Option α) : Prop := field = none ∨ field = value

end Soro.Menu
