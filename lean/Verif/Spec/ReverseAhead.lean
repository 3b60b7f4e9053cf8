import Verif.Spec.Network
import Verif.Model.ReverseAhead

/-!
The way straight back, in terms of sections and points.
-/

namespace Soro.Infra

/-- trains running straight on from point `p` of an element get to point `q`; to the branch of a switch all trains come from its start -/
def Straight (ty : Ty) (p q : Pt) : Prop :=
  (exits ty false false p).1 = some q ∨ ty = .simpleSwitch ∧ p = .start ∧ q = .branch

/-- `u` is a predecessor of `v` -/
def Links.Pred (L : Links) (u v : Node) : Prop := L.next u = some v ∨ L.branch u = some v

/-- the nodes of the graph: every one once, in some order, at least those that lead somewhere -/
structure AllNodes (L : Links) (nodes : List Node) : Prop where
  once : nodes.Nodup
  all : ∀ u v, L.Pred u v → u ∈ nodes

/-- a network laid out so that trains pass all elements (`Oriented`, see C82) and borders (see C83): a low and a high border are
partners, nobody has two partners -/
structure WellLaid (g0 : Graph) (xs : List SecIn) (bs : List (Nat × Bool × Nat)) : Prop where
  oriented : ∀ i, i < g0.n → Oriented xs i (g0.el i).ty
  pair : ∀ t ∈ bs, ∀ x ∈ xs, ∀ y ∈ xs, ∀ b c, x.elem b = t.1 → y.elem c = t.2.2 → c = !b
  one : ∀ t ∈ bs, ∀ t' ∈ bs, t.1 = t'.1 ↔ t.2.2 = t'.2.2

end Soro.Infra
