/-
Model of the assertions of `include/soro/utls/sassert.h`: `sassert`, `expect` and `ensure` (lines 93-113) throw
`std::runtime_error` in a build without `NDEBUG` (lines 46-82) and do nothing in a release build (lines 86-87).
All other models describe the release build. A function of the debug build has a result of type `Dbg`.
-/

namespace Soro

/-- how a function of the debug build can fail -/
inductive Fault where
  /-- the assertion at this line of the modelled file throws (sassert.h:78) -/
  | assertion (line : Nat)
  /-- what the release model calls undefined behaviour or a thrown exception -/
  | undefined
deriving DecidableEq, Repr

/-- result of a function of the debug build -/
abbrev Dbg (α : Type) := Except Fault α

namespace Dbg

/-- `utls::sassert` / `expect` / `ensure` at the given line (sassert.h:93-113) -/
def check (line : Nat) (c : Prop) [Decidable c] : Dbg Unit :=
  if c then .ok () else .error (.assertion line)

/-- a step of the release build -/
def lift {α : Type} : Option α → Dbg α
  | some a => .ok a
  | none => .error .undefined

end Dbg
end Soro
