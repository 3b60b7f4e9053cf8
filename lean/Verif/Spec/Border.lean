import Verif.Model.Border

/-! Which borders belong together. -/

namespace Soro.Infra

/-- two borders that are the two sides of the same track -/
structure Border.Counterpart (f t : Border) : Prop where
  there : f.nb = t.st
  back : t.nb = f.st
  line : f.line = t.line
  sign : f.sign = t.sign

/-- the borders of neighbouring stations fit together: every border has a counterpart, no two borders of a station lead to the same
track, no station is its own neighbour, every border has its own element -/
structure BordersFit (all : List Border) : Prop where
  other : ∀ f ∈ all, ∃ t ∈ all, f.Counterpart t
  one : ∀ f ∈ all, ∀ t ∈ all, f.st = t.st → f.nb = t.nb → f.line = t.line → f.sign = t.sign → f = t
  ne : ∀ f ∈ all, f.nb ≠ f.st
  elem : (all.map (·.elem)).Nodup

/-- two borders of the input that name each other's stations, at the same track -/
structure BorderIn.Opposite (find : Nat → Option Nat) (b c : BorderIn) : Prop where
  there : find b.name = some c.st
  back : find c.name = some b.st
  line : b.line = c.line
  sign : b.sign = c.sign

/-- the input fits together: every border to a known station has an opposite one, no two borders of a station lead to the same track,
no station is its own neighbour, every border has its own element -/
structure InputFits (find : Nat → Option Nat) (l : List BorderIn) : Prop where
  other : ∀ b ∈ l, ∀ n, find b.name = some n → ∃ c ∈ l, b.Opposite find c
  one : ∀ b ∈ l, ∀ c ∈ l, ∀ n, find b.name = some n → find c.name = some n → b.st = c.st → b.line = c.line → b.sign = c.sign → b = c
  ne : ∀ b ∈ l, find b.name ≠ some b.st
  elem : (l.map (·.elem)).Nodup

end Soro.Infra
