import Verif.Spec.PathLength

/-! Paths in terms of the links of the nodes, and the partners of borders; independent of neighbours. -/

namespace Soro.Infra

/-- each node leads to the next one, over `next_node_` or `branch_node_` -/
def Runs (L : Links) (nodes : List Node) : Prop :=
  nodes.IsChain fun u v => L.next u = some v ∨ L.branch u = some v

/-- a border without partner at which its section ends -/
def Loose (g0 : Graph) (xs : List SecIn) (bs : List (Nat × Bool × Nat)) (i : Nat) : Prop :=
  (g0.el i).ty = .border ∧ (∃ x ∈ xs, x.fin = i) ∧ ∀ t ∈ bs, t.1 ≠ i

/-- no border has two partners, and each is the partner of its partner -/
def Paired (bs : List (Nat × Bool × Nat)) : Prop :=
  (∀ t ∈ bs, ∀ t' ∈ bs, t.1 = t'.1 → t.2.2 = t'.2.2) ∧ ∀ t ∈ bs, ∃ low, (t.2.2, low, t.1) ∈ bs

/-- the elements of a section from one end to the other one, towards the end `b` -/
def SecOut.whole (o : SecOut) (b : Bool) : List Nat := o.x.elem (!b) :: (o.towards b ++ [o.x.elem b])

/-- two elements that follow each other in a section, in either order -/
def Adjacent (out : List SecOut) (i j : Nat) : Prop :=
  ∃ o ∈ out, ∃ b t, (o.whole b)[t]? = some i ∧ (o.whole b)[t + 1]? = some j ∨ (o.whole b)[t]? = some j ∧ (o.whole b)[t + 1]? = some i

end Soro.Infra
