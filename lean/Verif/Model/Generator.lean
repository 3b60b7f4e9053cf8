/-
Model of `include/soro/utls/coroutine/recursive_generator.h` and `generator.h`.

The body of a coroutine is a finite tree: what it does up to the next suspension and how it goes on. Bodies do not catch
exceptions and do not depend on the consumer. A promise is a number, memory is a function from numbers to promises. Nested
generators are temporaries (`co_yield f()`): they are created when the expression is evaluated and destroyed at its end.
`none`: a destroyed promise is accessed, or a finished coroutine is resumed.
-/

namespace Soro.Gen

/-- the body of a generator -/
inductive Body (α : Type) where
  | ret
  | throw
  | yield (v : α) (k : Body α)
  /-- `co_yield` of a nested generator with body `c` -/
  | nested (c : Body α) (k : Body α)
  /-- `co_yield` of a default constructed generator (`m_promise == nullptr`) -/
  | null (k : Body α)

/-- state of a coroutine and the fields `m_value`, `m_exception` (recursive_generator.h:139-140) of its promise -/
structure Prom (α : Type) where
  code : Body α
  done : Bool
  exc : Bool
  value : Option α
  /-- suspended in `co_yield` of this nested generator: `m_childPromise` (recursive_generator.h:77-78) -/
  await : Option Nat
  alive : Bool

/-- memory; `root` and `pol` are the fields `m_root` and `m_parentOrLeaf` (recursive_generator.h:142-147) -/
structure St (α : Type) where
  prom : Nat → Prom α
  root : Nat → Nat
  pol : Nat → Nat
  next : Nat

variable {α β : Type}

def upd (f : Nat → β) (i : Nat) (x : β) : Nat → β := fun j => if j = i then x else f j

def St.setProm (s : St α) (p : Nat) (x : Prom α) : St α := { s with prom := upd s.prom p x }
def St.setPol (s : St α) (p q : Nat) : St α := { s with pol := upd s.pol p q }
def St.setRoot (s : St α) (p q : Nat) : St α := { s with root := upd s.root p q }
/-- recursive_generator.h:162-166, 102-104 -/
def St.destroy (s : St α) (q : Nat) : St α := s.setProm q { s.prom q with alive := false }

/-- recursive_generator.h:28-32, 37, 39: creating a generator; it is suspended at its start -/
def St.create (s : St α) (c : Body α) : St α :=
  { prom := upd s.prom s.next ⟨c, false, false, none, none, true⟩, root := upd s.root s.next s.next, pol := upd s.pol s.next s.next,
    next := s.next + 1 }

/-- executes the coroutine `p` with the given rest of its body up to its next suspension.
recursive_generator.h:40, 42-46 (end and exception), 48-51 (`yield_value` of a value), 58-95 (of a generator) -/
def run : Body α → Nat → St α → Option (St α)
  | .ret, p, s => some (s.setProm p { s.prom p with code := .ret, done := true })
  | .throw, p, s => some (s.setProm p { s.prom p with code := .ret, done := true, exc := true })
  | .yield v k, p, s => some (s.setProm p { s.prom p with code := k, value := some v })
  | .null k, p, s => run k p s
  | .nested c k, p, s =>
    let q := s.next
    let s := s.create c
    if !(s.prom (s.root p)).alive then none
    else
      let s := s.setPol (s.root p) q
      let s := s.setRoot q (s.root p)
      let s := s.setPol q p
      match run c q s with
      | none => none
      | some s =>
        if !(s.prom q).alive then none
        else if !(s.prom q).done then some (s.setProm p { s.prom p with code := k, await := some q })
        else if !(s.prom (s.root p)).alive then none
        else run k p ((s.setPol (s.root p) p).destroy q)

/-- recursive_generator.h:135-137 with `await_resume`, lines 71-75 -/
def resume (p : Nat) (s : St α) : Option (St α) :=
  if !(s.prom p).alive || (s.prom p).done then none
  else
    match (s.prom p).await with
    | none => run (s.prom p).code p s
    | some q =>
      if !(s.prom q).alive then none
      else
        let exc := (s.prom q).exc
        let s := s.destroy q
        if exc then some (s.setProm p { s.prom p with await := none, code := .ret, done := true, exc := true })
        else run (s.prom p).code p (s.setProm p { s.prom p with await := none })

/-- the loop of `pull`, recursive_generator.h:128-131 -/
def pullLoop : Nat → Nat → St α → Option (St α)
  | 0, _, _ => none
  | fuel + 1, r, s =>
    let l := s.pol r
    if !(s.prom l).alive then none
    else if l ≠ r ∧ (s.prom l).done = true then
      let s := s.setPol r (s.pol l)
      match resume (s.pol r) s with
      | none => none
      | some s => pullLoop fuel r s
    else some s

/-- recursive_generator.h:122-132; the loop goes to older promises only, their number suffices -/
def pull (r : Nat) (s : St α) : Option (St α) :=
  match resume (s.pol r) s with
  | none => none
  | some s => pullLoop (s.next + 1) r s

/-- what the consumer sees of one step of the iteration -/
inductive Event (α : Type) where
  | value (v : α)
  | ended
  | threw

/-- `begin` (recursive_generator.h:230-241) and `operator++` (203-215), followed by a dereference (116-120, 219-222) -/
def step (r : Nat) (s : St α) : Option (Event α × St α) :=
  match pull r s with
  | none => none
  | some s =>
    if (s.prom r).done then some (if (s.prom r).exc then .threw else .ended, s)
    else if !(s.prom (s.pol r)).alive then none
    else match (s.prom (s.pol r)).value with
      | none => none
      | some v => some (.value v, s)

/-- a loop over a generator: the values and whether an exception reached the consumer -/
def consume : Nat → Nat → St α → Option (List α × Bool)
  | 0, _, _ => none
  | fuel + 1, r, s =>
    match step r s with
    | none => none
    | some (.ended, _) => some ([], false)
    | some (.threw, _) => some ([], true)
    | some (.value v, s) => (consume fuel r s).map fun x => (v :: x.1, x.2)

/-- memory after the call of the outermost generator function; its promise is 0 -/
def start (g : Body α) : St α :=
  St.create { prom := fun _ => ⟨.ret, true, false, none, none, false⟩, root := id, pol := id, next := 0 } g

/-! ### generator.h -/

/-- the body of a plain generator -/
inductive Plain (α : Type) where
  | ret
  | throw
  | yield (v : α) (k : Plain α)

/-- a plain generator: rest of the body, `value_`, `done()` -/
structure PlainSt (α : Type) where
  code : Plain α
  value : Option α
  done : Bool

/-- runs to the next suspension; generator.h:46-57 (yield), 44 (end), 60 (`unhandled_exception` does nothing; the coroutine then
is at its final suspension) -/
def Plain.exec (value : Option α) : Plain α → PlainSt α
  | .ret => ⟨.ret, value, true⟩
  | .throw => ⟨.ret, value, true⟩
  | .yield v k => ⟨k, some v, false⟩

/-- calling the generator function runs to the first suspension (generator.h:36-43) -/
def Plain.call (b : Plain α) : PlainSt α := b.exec none

/-- `begin() != end()` (generator.h:102-107, 150): whether there is a current element. `begin` does not change the state. -/
def PlainSt.current (s : PlainSt α) : Option (Option α) := if s.done then none else some s.value

/-- `operator++` (generator.h:114-117) -/
def PlainSt.next (s : PlainSt α) : PlainSt α := s.code.exec s.value

/-- a loop over a plain generator; `none`: a null pointer is dereferenced or the loop has not ended after `fuel` rounds -/
def PlainSt.consume : Nat → PlainSt α → Option (List α)
  | 0, _ => none
  | fuel + 1, s =>
    match s.current with
    | none => some []
    | some none => none
    | some (some v) => (PlainSt.consume fuel s.next).map (v :: ·)

end Soro.Gen
