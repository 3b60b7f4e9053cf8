import Verif.Spec.Interval
import Mathlib.Algebra.Order.Ring.Rat
import Mathlib.Algebra.Order.Group.Abs

/-
Which speed limit is in force where, if some limits hold from the last signal on: the one with the last point of activation.
-/

namespace Soro.Runtime.Spec

open Soro.Runtime

/-- the value of a limit that holds from the last signal on -/
def signalValue : Option Limit → Option Rat
  | some l => if l.effective && !l.here then some l.limit else none
  | none => none

/-- the limit for the last signal a node brings: the one added by the route before its own one -/
def announcedLimit (n : TNode) : Option Rat :=
  match signalValue n.extra with
  | some v => some v
  | none => signalValue n.spl

/-- a main signal the train heeds -/
def isSignal (n : TNode) : Bool := !n.omitted && n.mainSignal

/-- a node at which an interval ends -/
def isBorder (n : TNode) : Bool := !n.omitted && (n.mainSignal || n.halt || (broughtLimit n).isSome)

/-- where a limit for the last signal becomes active, if the nodes before it are `pre`: at the last main signal; at the first
border if there is no main signal; at the node itself if there is no border -/
def activation (pre : List TNode) : Nat :=
  match ((pre.zipIdx.filter fun p => isSignal p.1).getLast?).map (·.2) with
  | some m => m
  | none => pre.findIdx isBorder

/-- a limit and the index of the node where it becomes active -/
structure Setting where
  act : Nat
  value : Rat

/-- the limits of a node behind the nodes `pre` -/
def settingsAt (pre : List TNode) (n : TNode) : List Setting :=
  if n.omitted then []
  else (announcedLimit n).toList.map (fun v => ⟨activation pre, v⟩) ++ (broughtLimit n).toList.map fun v => ⟨pre.length, v⟩

/-- all limits in the order of the path -/
def settings (nodes : List TNode) : List Setting := nodes.zipIdx.flatMap fun p => settingsAt (nodes.take p.2) p.1

/-- the better of two limits for a place: active there, and activated no earlier than the other -/
def pick (i : Nat) (best s : Setting) : Setting := if s.act ≤ i ∧ best.act ≤ s.act then s else best

/-- of the limits active behind the node with index `i` the one activated last, of several the last one of the path -/
def bestAt (initial : Rat) (l : List Setting) (i : Nat) : Setting := l.foldl (pick i) ⟨0, initial⟩

/-- the limit in force behind the node with index `i` -/
def inForce (initial : Rat) (nodes : List TNode) (i : Nat) : Rat := (bestAt initial (settings nodes) i).value

/-- the borders with their indices -/
def bordersIdx (nodes : List TNode) : List (TNode × Nat) := nodes.zipIdx.filter fun p => isBorder p.1

/-- distance, halt and limit in force behind every border -/
def limitsOf (initial : Rat) (nodes : List TNode) : List (Rat × Option Halt × Rat) :=
  (bordersIdx nodes).map fun p => (pos nodes p.2, p.1.stop, inForce initial nodes p.2)

/-- no limit between a limit for the last signal and the place where it becomes active repeats the limit in force at that place
(up to a hundredth) -/
def NoRepeat (initial : Rat) (nodes : List TNode) : Prop :=
  ∀ (j k : Nat) (m n : TNode) (v h : Rat), nodes[k]? = some n → n.omitted = false → announcedLimit n = some v →
    nodes[j]? = some m → m.omitted = false → broughtLimit m = some h → activation (nodes.take k) < j → j < k →
      1 / 100 ≤ |h - inForce initial (nodes.take k) (activation (nodes.take k))|

end Soro.Runtime.Spec
