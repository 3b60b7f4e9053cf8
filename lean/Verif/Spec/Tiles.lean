import Verif.Model.Tiles
import Verif.Spec.ServerStart

/-! Histories of the server with its tiles, in terms of starts and changes of the sources. -/

namespace Soro.Tiles
open TypeNames ServerStart

variable {C V : Type}

/-- what there is after a history: the world of the infrastructures, the files of the tiles and the opened databases -/
structure State (C V : Type) where
  world : World C V
  files : Files V
  opened : List (Text × Text)

/-- one event: a start also creates the tiles, for the served infrastructures in any order -/
inductive Step (parse : Nat → C → V) (source : V → Nat) (ser : Bool) (written : Nat → Text) : State C V → Event C → State C V → Prop
  | start {s : State C V} {r : Bool} {w : World C V} {order : List (Nat × V)} {f : Files V} {m : List (Text × Text)} :
    ServerStart.step parse source ser s.world (.start r) = some w → order.Perm w.served →
    startTiles r s.world.clock (order.map fun e => (written e.1, e.2)) s.files [] = some (f, m) →
    Step parse source ser written s (.start r) ⟨w, f, m⟩
  | other {s : State C V} {e : Event C} {w : World C V} : (∀ r, e ≠ .start r) → ServerStart.step parse source ser s.world e = some w →
    Step parse source ser written s e ⟨w, s.files, s.opened⟩

/-- a history -/
inductive Run (parse : Nat → C → V) (source : V → Nat) (ser : Bool) (written : Nat → Text) : State C V → List (Event C) → State C V → Prop
  | nil {s : State C V} : Run parse source ser written s [] s
  | cons {s t u : State C V} {e : Event C} {es : List (Event C)} : Step parse source ser written s e t →
    Run parse source ser written t es u → Run parse source ser written s (e :: es) u

def State.init : State C V := ⟨World.init, ⟨fun _ => none, fun _ => none⟩, []⟩

/-- the infrastructures never change: each is only created, always with the same content -/
def Constant (content : Nat → C) (es : List (Event C)) : Prop :=
  (∀ n d c, Event.create n d c ∈ es → c = content n) ∧ (∀ n c, Event.change n c ∉ es) ∧ NoOverwrite es

/-- names without a point -/
def Plain (written : Nat → Text) : Prop := (∀ n, '.' ∉ written n) ∧ ∀ a b, written a = written b → a = b

/-- the tiles served for each served infrastructure are those of the infrastructure -/
def UpToDate (written : Nat → Text) (s : State C V) : Prop :=
  ∀ n v, (n, v) ∈ s.world.served → tilesOf s.files s.opened (written n) = some v

end Soro.Tiles
