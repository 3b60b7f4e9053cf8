import Mathlib.Data.List.Chain
import Verif.Model.Section

/-
What it means that a route runs along sections.
-/

namespace Soro.Infra.Spec

/-- switches, crossings, and the places where routes may end -/
def Conflicting (t : Ty) : Prop :=
  t = .simpleSwitch ∨ t = .cross ∨ t = .mainSignal ∨ t = .halt ∨ t = .border ∨ t = .bumper ∨ t = .trackEnd

/-- a part of a route: a section, the direction in which it is driven along, and the elements driven over, including
those for the other direction -/
structure Leg where
  sec : Nat
  up : Bool
  range : List Item

/-- a section: two section elements, track elements between them, each element once, the same elements in both orders -/
structure Proper (s : Section) : Prop where
  shape : ∀ up, ∃ a mid z, s.order up = a :: mid ++ [z] ∧ a.ty.isTrack = false ∧ z.ty.isTrack = false ∧ ∀ e ∈ mid, e.ty.isTrack = true
  nodup : ∀ up, (s.order up).Nodup
  same : ∀ e, e ∈ s.rising ↔ e ∈ s.falling

/-- a track element has a node in this direction -/
def Facing (up : Bool) (e : Item) : Bool := e.ty.isTrack && !(e.ty.isDirected && decide (e.rising ≠ up))

/-- the route runs along the legs -/
structure Drives (sections : List Section) (ids : Nat → List Nat) (legs : List Leg) (route : List Item) : Prop where
  /-- a leg is a part of its section; legs start at the start of their section, except for the first one, and end at its end,
  except for the last one -/
  parts : ∀ (k : Nat) (g : Leg), legs[k]? = some g → ∃ s pre post, sections[g.sec]? = some s ∧ Proper s ∧
    s.order g.up = pre ++ g.range ++ post ∧ (0 < k → pre = []) ∧ (k + 1 < legs.length → post = [])
  /-- sections of track elements -/
  ids : ∀ g ∈ legs, ∀ e ∈ g.range, e.ty.isTrack = true → ids e.id = [g.sec]
  /-- the track elements of the route are those on the legs with a node in this direction -/
  tracks : route.filter (fun e => e.ty.isTrack) = legs.flatMap (fun g => g.range.filter (Facing g.up))
  /-- from one section to another one -/
  apart : List.IsChain (fun g h : Leg => g.sec ≠ h.sec) legs
  first : ∃ g e, legs.head? = some g ∧ g.range.head? = some e ∧ route.head? = some e ∧ (e.ty.isTrack = true → e.rising = g.up)
  last : ∃ g e, legs.getLast? = some g ∧ g.range.getLast? = some e ∧ route.getLast? = some e ∧
    (e.ty.isTrack = true → e.rising = g.up)

end Soro.Infra.Spec
