import Verif.Model.Serializable

/-
Vocabulary: what objects should show. An object is a value; moving gives the value to the target; files hold values.
-/

namespace Soro.Serializable.Spec

/-- where the value of an object comes from -/
inductive Kind where
  | made | wrapped | loaded
  deriving DecidableEq

/-- the values of the objects (`none`: no object, or moved away) and of the files and data elsewhere -/
structure Ideal (V : Type) where
  shows : Nat → Option (Kind × V)
  files : Nat → Option V
  ext : Nat → Option V

def Ideal.init {V : Type} : Ideal V := ⟨fun _ => none, fun _ => none, fun _ => none⟩

/-- what an operation should do; loaded objects are not saved -/
def Ideal.step {V : Type} (t : Ideal V) : Op V → Ideal V
  | .make a v => { t with shows := fun i => if i = a then some (.made, v) else t.shows i }
  | .wrap a e => { t with shows := fun i => if i = a then (t.ext e).map fun v => (.wrapped, v) else t.shows i }
  | .load a p => { t with shows := fun i => if i = a then (t.files p).map fun v => (.loaded, v) else t.shows i }
  | .moveNew a b | .moveTo a b => { t with shows := fun i => if i = a then t.shows b else if i = b then none else t.shows i }
  | .destroy a => { t with shows := fun i => if i = a then none else t.shows i }
  | .save a p => match t.shows a with
    | some (.made, v) | some (.wrapped, v) => { t with files := fun i => if i = p then some v else t.files i }
    | _ => t
  | .remove p => { t with files := fun i => if i = p then none else t.files i }
  | .outside e v => { t with ext := fun i => if i = e then v else t.ext i }

/-- an object wraps this data -/
def Wraps {V : Type} (s : State V) (e : Nat) : Prop := ∃ a o, s.objs a = some o ∧ o.access = .ext e

/-- wrapping objects are neither moved nor saved and wrapped data does not change, no object that was moved away is saved, and no
file is overwritten while it is mapped -/
def Careful {V : Type} (s : State V) (t : Ideal V) : Op V → Prop
  | .moveNew _ b | .moveTo _ b => ∀ v, t.shows b ≠ some (.wrapped, v)
  | .save a p => t.shows a ≠ none ∧ (∀ v, t.shows a ≠ some (.wrapped, v)) ∧ ∀ i, s.dir p = some i → ∀ k, s.mapped k ≠ some i
  | .outside e _ => ¬ Wraps s e
  | _ => True

/-- a program whose operations are all careful -/
def CarefulRun {V : Type} (dflt : V) (husk : V → V) (s : State V) (t : Ideal V) : List (Op V) → Prop
  | [] => True
  | op :: ops => Careful s t op ∧ ∀ s', step dflt husk s op = some s' → CarefulRun dflt husk s' (t.step op) ops

end Soro.Serializable.Spec
