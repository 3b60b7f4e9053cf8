/-! Specification vocabulary for directed graphs given by successor lists. -/

namespace Soro

/-- there is a walk along `n` edges from `a` to `b` -/
inductive Walk {α : Type} (out : α → List α) : Nat → α → α → Prop
  | nil (a : α) : Walk out 0 a a
  | snoc {n : Nat} {a b c : α} : Walk out n a b → c ∈ out b → Walk out (n + 1) a c

/-- there is a path with at least one edge -/
def ReachPlus {α : Type} (out : α → List α) (a b : α) : Prop := ∃ n, Walk out (n + 1) a b

/-- there is a path, possibly empty -/
def Reach {α : Type} (out : α → List α) (a b : α) : Prop := ∃ n, Walk out n a b

/-- `n` is the length of a shortest non-empty walk from `a` to `b` -/
def Shortest {α : Type} (out : α → List α) (n : Nat) (a b : α) : Prop :=
  1 ≤ n ∧ Walk out n a b ∧ ∀ m, 1 ≤ m → Walk out m a b → n ≤ m

/-- the graph has no cycle -/
def Acyclic {α : Type} (out : α → List α) : Prop := ∀ a, ¬ ReachPlus out a a

/-- `U` contains `start` and all nodes reachable from it: the graph seen from `start` is finite -/
def FiniteFrom {α : Type} (out : α → List α) (start : α) (U : List α) : Prop :=
  start ∈ U ∧ ∀ x ∈ U, ∀ y ∈ out x, y ∈ U

/-- what the callbacks of a traversal get to see -/
inductive Ev (α : Type) where
  | node (c p : α)
  | edge (a b : α)
deriving DecidableEq, Repr

/-- the nodes handed to `work_on_node`, in order -/
def nodesOf {α : Type} (es : List (Ev α)) : List α :=
  es.filterMap fun e => match e with | .node c _ => some c | .edge _ _ => none

/-- calling the callbacks on a list of events until one returns true -/
def runEvents {α σ : Type} (workOnNode workOnEdge : σ → α → α → σ × Bool) : List (Ev α) → σ → σ
  | [], s => s
  | .node c p :: es, s => let r := workOnNode s c p; if r.2 then r.1 else runEvents workOnNode workOnEdge es r.1
  | .edge a b :: es, s => let r := workOnEdge s a b; if r.2 then r.1 else runEvents workOnNode workOnEdge es r.1

end Soro

namespace Soro

/-- `l` is the sequence of nodes visited after `a` on a walk -/
def Follows {α : Type} (out : α → List α) : α → List α → Prop
  | _, [] => True
  | a, b :: l => b ∈ out a ∧ Follows out b l

/-- `c` is a closed walk from `s` to `s`: the nodes visited after leaving `s`, the last one being `s` -/
def ClosedWalk {α : Type} (out : α → List α) (s : α) (c : List α) : Prop :=
  Follows out s c ∧ c.getLast? = some s

end Soro
