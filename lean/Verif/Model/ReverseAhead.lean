import Verif.Model.Network

/-
Model of `node::reverse_ahead` (`src/infrastructure/graph/node.cc`) and `element::reverse_ahead`
(`src/infrastructure/graph/element.cc`): the node behind a node on the way straight back.

Nodes and links as in `Model/Network.lean`; `rev` are the `reverse_edges_`.
-/

namespace Soro.Infra

/-- result of `reverse_ahead`: a null pointer, a node, or `utl::fail` throws -/
inductive Rev where
  | null
  | node (n : Node)
  | fail
  deriving DecidableEq, Repr

/-- element.cc:121-129 -/
def defaultReverseAhead (L : Links) (rev : List Node) (n : Node) : Rev :=
  match rev.find? fun r => decide (L.next r = some n) with
  | some r => .node r
  | none => .fail

/-- element.cc:141-142: `is_branch` -/
def atBranch (el : Nat → Elem) (n r : Node) : Bool :=
  decide ((el n.1).nb 4 = some r.1) || decide ((el n.1).nb 5 = some r.1)

/-- element.cc:139-160 -/
def switchReverseAhead (el : Nat → Elem) (L : Links) (rev : List Node) (n : Node) : Rev :=
  match rev.find? fun r => !atBranch el n r && (decide ((el r.1).ty = .simpleSwitch) || decide (L.next r = some n)) with
  | some r => .node r
  | none =>
    match rev with
    | [a, b] => if a = b then .node a else .fail
    | _ => .fail

/-- element.cc:131-177: by the type of the element -/
def elementReverseAhead (el : Nat → Elem) (L : Links) (rev : List Node) (n : Node) : Rev :=
  if (el n.1).ty = .simpleSwitch then switchReverseAhead el L rev n else defaultReverseAhead L rev n

/-- node.cc:10-17 -/
def reverseAhead (el : Nat → Elem) (L : Links) (rev : Node → List Node) (n : Node) : Rev :=
  match rev n with
  | [] => .null
  | [r] => .node r
  | l => elementReverseAhead el L l n

/-- src/runtime/interval.cc:32-42 without the speed limits: `k` steps back -/
def goBack (el : Nat → Elem) (L : Links) (rev : Node → List Node) : Nat → Node → Rev
  | 0, n => .node n
  | k + 1, n =>
    match reverseAhead el L rev n with
    | .node r => goBack el L rev k r
    | r => r

end Soro.Infra
