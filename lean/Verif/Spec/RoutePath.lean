import Verif.Spec.PathLength
import Verif.Spec.ReverseAhead
import Verif.Model.RoutePath

/-!
Paths of station routes: what it means to follow a course.
-/

namespace Soro.Infra

/-- an element at which a course has a decision: a switch, or a cross on which a train can change from one track to the other -/
def Decides (e : Elem) : Prop := e.ty = .simpleSwitch ∨ e.ty = .cross ∧ (e.arcL = true ∨ e.arcR = true)

instance (e : Elem) : Decidable (Decides e) := inferInstanceAs (Decidable (_ ∨ _))

/-- switches and crosses with arcs passed -/
def passed (el : Nat → Elem) (l : List Node) : Nat := l.countP fun n => decide (Decides (el n.1))

/-- a train goes from node `n` to `m`: the only way, or the one the `k`-th decision of the course takes -/
def Step (L : Links) (course : List Bool) (k : Nat) (n m : Node) : Prop :=
  (L.branch n = none ∧ L.next n = some m) ∨
  (∃ b, L.branch n = some b ∧ (course[k]? = some true ∧ L.next n = some m ∨ course[k]? = some false ∧ m = b))

/-- `nodes` is the way from `s` to the first occurrence of `last`, if there is one decision for each switch and cross with arcs passed -/
structure Follows (L : Links) (el : Nat → Elem) (course : List Bool) (s last : Node) (nodes : List Node) : Prop where
  first : nodes.head? = some s
  reached : nodes.getLast? = some last
  fresh : last ∉ nodes.dropLast
  step : ∀ (i : Nat) n m, nodes[i]? = some n → nodes[i + 1]? = some m → Step L course (passed el (nodes.take i)) n m

/-- following the course from `s`, without meeting `last`, one gets to the node `n`, where it is decided for the `k`-th time -/
def Gets (L : Links) (el : Nat → Elem) (course : List Bool) (s last n : Node) (k : Nat) : Prop :=
  ∃ nodes : List Node, nodes.head? = some s ∧ nodes.getLast? = some n ∧ last ∉ nodes ∧ k = passed el nodes.dropLast ∧
    ∀ (i : Nat) u v, nodes[i]? = some u → nodes[i + 1]? = some v → Step L course (passed el (nodes.take i)) u v

/-- a train runs over sections, each given with the end it is left at, following the course from decision `k` on: at every element
between two sections it comes in at the point of the first and goes out at the point of the second one, the only way out or the one the
course takes -/
def Turns (el : Nat → Elem) (course : List Bool) : Nat → List (SecOut × Bool) → Prop
  | k, (o, b) :: (o', b') :: l =>
    o.x.elem b = o'.x.elem (!b') ∧ (el (o.x.elem b)).ty ≠ .border ∧
    ((exits (el (o.x.elem b)).ty (el (o.x.elem b)).arcL (el (o.x.elem b)).arcR (o.x.pt b)).2 = none ∧
        (exits (el (o.x.elem b)).ty (el (o.x.elem b)).arcL (el (o.x.elem b)).arcR (o.x.pt b)).1 = some (o'.x.pt (!b')) ∨
      (exits (el (o.x.elem b)).ty (el (o.x.elem b)).arcL (el (o.x.elem b)).arcR (o.x.pt b)).2 ≠ none ∧
        (course[k]? = some true ∧ (exits (el (o.x.elem b)).ty (el (o.x.elem b)).arcL (el (o.x.elem b)).arcR (o.x.pt b)).1 = some (o'.x.pt (!b')) ∨
          course[k]? = some false ∧ (exits (el (o.x.elem b)).ty (el (o.x.elem b)).arcL (el (o.x.elem b)).arcR (o.x.pt b)).2 = some (o'.x.pt (!b')))) ∧
    Turns el course (k + if Decides (el (o.x.elem b)) then 1 else 0) ((o', b') :: l)
  | _, _ => True

/-- borders, bumpers, ends of track -/
def Terminal (t : Ty) : Prop := t = .border ∨ t = .bumper ∨ t = .trackEnd

/-- two routes take the same path: ends, course and left out main signals are the same -/
def SamePath (a b : IRoute) : Prop :=
  a.start = b.start ∧ a.fin = b.fin ∧ a.course = b.course ∧ ∀ x, (x, Ty.mainSignal) ∈ a.omitted ↔ (x, Ty.mainSignal) ∈ b.omitted

end Soro.Infra
