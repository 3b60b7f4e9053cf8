/-
Model of `include/soro/utls/serializable.h`, `src/infrastructure/infrastructure.cc` and the constructors of
`src/timetable/timetable.cc:20-46`, built with `SERIALIZE`.

Objects live at addresses (`Nat`), `V` are the values of the wrapped type. Contracts of cista: `deserialize` of a serialized value
shows the value in the mapped file; a mapping is shared with the file; a `cista::mmap` is unmapped by its destructor or when
something else is assigned (if the library keeps it, more is defined than here); a moved `cista::mmap` keeps nothing; a
`cista::variant` keeps its alternative when it is moved. Moving an object into itself is not modelled.
-/

namespace Soro.Serializable

variable {V : Type}

/-- serializable.h:79 `mem_`; `gone`: a mapping that was moved away -/
inductive Mem (V : Type) where
  | own (v : V)
  | map (k : Nat)
  | gone

/-- serializable.h:80 `access_`: into the storage of an object, a mapping or data elsewhere -/
inductive Ptr where
  | own (a : Nat)
  | map (k : Nat)
  | ext (e : Nat)

structure Obj (V : Type) where
  mem : Mem V
  access : Ptr

/-- objects, mappings with their file, directory, content of the files, data elsewhere -/
structure State (V : Type) where
  objs : Nat → Option (Obj V)
  mapped : Nat → Option Nat
  dir : Nat → Option Nat
  content : Nat → Option V
  ext : Nat → Option V
  next : Nat

/-- nothing exists -/
def State.init : State V := ⟨fun _ => none, fun _ => none, fun _ => none, fun _ => none, fun _ => none, 0⟩

def set {A : Type} (f : Nat → A) (k : Nat) (x : A) : Nat → A := fun i => if i = k then x else f i

/-- what a program does: construct from values, wrap, load, move-construct, move-assign, destroy, save; a file is removed; data
elsewhere changes -/
inductive Op (V : Type) where
  | make (a : Nat) (v : V)
  | wrap (a e : Nat)
  | load (a p : Nat)
  | moveNew (a b : Nat)
  | moveTo (a b : Nat)
  | destroy (a : Nat)
  | save (a p : Nat)
  | remove (p : Nat)
  | outside (e : Nat) (v : Option V)

/-- the memory of an object is destroyed or assigned -/
def release (s : State V) : Mem V → State V
  | .map k => { s with mapped := set s.mapped k none }
  | _ => s

/-- what remains of the memory: `husk` is what is left of a value that was moved away -/
def left (husk : V → V) : Mem V → Mem V
  | .own v => .own (husk v)
  | _ => .gone

/-- serializable.h:59-65 -/
def moveInto (husk : V → V) (s : State V) (a b : Nat) (o : Obj V) : State V :=
  let access := match o.mem with
    | .own _ => .own a
    | _ => o.access
  { s with objs := set (set s.objs b (some ⟨left husk o.mem, o.access⟩)) a (some ⟨o.mem, access⟩) }

/-- serializable.h:20-77, infrastructure.cc:7-14, timetable.cc:20-46; `none`: not a program, objects are constructed in the place of
others or used before they are constructed. Operations that throw change nothing. -/
def step (dflt : V) (husk : V → V) (s : State V) : Op V → Option (State V)
  | .make a v => if (s.objs a).isSome then none else some { s with objs := set s.objs a (some ⟨.own v, .own a⟩) }
  | .wrap a e => if (s.objs a).isSome then none else some { s with objs := set s.objs a (some ⟨.own dflt, .ext e⟩) }
  | .load a p =>
    if (s.objs a).isSome then none
    else match s.dir p with
      | none => some s
      | some i => some { s with objs := set s.objs a (some ⟨.map s.next, .map s.next⟩)
                                mapped := set s.mapped s.next (some i)
                                next := s.next + 1 }
  | .moveNew a b =>
    if (s.objs a).isSome then none else (s.objs b).map fun o => moveInto husk s a b o
  | .moveTo a b =>
    if a = b then none
    else match s.objs a, s.objs b with
      | some t, some o => some (moveInto husk (release s t.mem) a b o)
      | _, _ => none
  | .destroy a => (s.objs a).map fun o => { release s o.mem with objs := set s.objs a none }
  | .save a p =>
    match s.objs a with
    | none => none
    | some o =>
      match o.mem with
      | .own v =>
        match s.dir p with
        | some i => some { s with content := set s.content i (some v) }
        | none => some { s with dir := set s.dir p (some s.next), content := set s.content s.next (some v), next := s.next + 1 }
      | _ => some s
  | .remove p => some { s with dir := set s.dir p none }
  | .outside e v => some { s with ext := set s.ext e v }

/-- `*object` (serializable.h:75-76); `none`: dangling -/
def deref (s : State V) (a : Nat) : Option V :=
  (s.objs a).bind fun o => match o.access with
    | .own c => (s.objs c).bind fun o' => match o'.mem with
      | .own v => some v
      | _ => none
    | .map k => (s.mapped k).bind s.content
    | .ext e => s.ext e

/-- a program -/
def run (dflt : V) (husk : V → V) (s : State V) : List (Op V) → Option (State V)
  | [] => some s
  | op :: ops => (step dflt husk s op).bind fun s' => run dflt husk s' ops

end Soro.Serializable
