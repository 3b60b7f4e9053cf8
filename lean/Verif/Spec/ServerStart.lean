import Verif.Model.ServerStart

/-! Specification vocabulary for the start of the server. -/

namespace Soro.ServerStart

variable {C V I : Type}

/-- the history overwrites no file in place -/
def NoOverwrite (es : List (Event C)) : Prop := ∀ name content, Event.overwrite name content ∉ es

/-- `m` serves, for every directory among the entries, the value of its present content, and nothing else -/
def Current (parse : Nat → C → V) (entries : List (Entry C)) (m : List (Nat × V)) : Prop :=
  (m.map Prod.fst).Nodup ∧
  ∀ (n : Nat) (v : V), (n, v) ∈ m ↔ ∃ e ∈ entries, e.isDir = true ∧ e.name = n ∧ parse e.name e.content = v

end Soro.ServerStart
