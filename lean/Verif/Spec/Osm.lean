import Verif.Model.Osm

/-! What the exported OpenStreetMap data should look like. -/

namespace Soro.Osm

/-- all elements of all stations -/
def Infra.all (I : Infra) : List Nat := I.stations.flatMap (·.2)

/-- every station has its own id, every element is in one station only, and the elements next to each other are known -/
structure Infra.Valid (I : Infra) : Prop where
  some : I.stations ≠ []
  ids : (I.stations.map (·.1)).Nodup
  once : I.all.Nodup
  range : ∀ e ∈ I.all, e < I.elements
  closed : ∀ e ∈ I.all, ∀ n, Option.some n ∈ I.nbs e → n ∈ I.all

/-- two elements are next to each other -/
def Infra.Adjacent (I : Infra) (a b : Nat) : Prop :=
  (a ∈ I.all ∧ Option.some b ∈ I.nbs a) ∨ (b ∈ I.all ∧ Option.some a ∈ I.nbs b)

/-- two elements belong to the same station -/
def Infra.SameStation (I : Infra) (a b : Nat) : Prop := ∃ s ∈ I.stations, a ∈ s.2 ∧ b ∈ s.2

/-- how many of the pairs connect `a` and `b`, in whatever order -/
def between (l : List (Nat × Nat)) (a b : Nat) : Nat := l.countP fun p => decide (p = (a, b) ∨ p = (b, a))

/-- the pairs of consecutive members of a path -/
def steps (path : List Nat) : List (Nat × Nat) := path.zip path.tail

end Soro.Osm
