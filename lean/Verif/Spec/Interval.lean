import Verif.Model.Interval

/-
What a list of intervals has to satisfy, in terms of the nodes of the train's path.
-/

namespace Soro.Runtime.Spec

open Soro.Runtime

/-- where the node at an index is: the sum of the distances up to it -/
def pos (nodes : List TNode) (k : Nat) : Rat :=
  ((nodes.take (k + 1)).map TNode.gap).sum

/-- a limit that affects the train: generally allowed, not (about) zero, for all trains or for those with conventional
signalling -/
def Affects (l : Limit) : Prop :=
  l.general = true ∧ (1 / 100 ≤ l.limit ∨ l.limit ≤ -(1 / 100)) ∧ (l.effects = .all ∨ l.effects = .conventional)

/-- an effective speed limit that holds from the node on -/
def HereLimit (n : TNode) : Prop :=
  ∃ l : Limit, (n.spl = some l ∨ n.extra = some l) ∧ l.effective = true ∧ l.here = true

/-- an effective speed limit that holds from the last signal on -/
def SignalLimit (n : TNode) : Prop :=
  ∃ l : Limit, (n.spl = some l ∨ n.extra = some l) ∧ l.effective = true ∧ l.here = false

/-- a node at which an interval ends -/
def Border (n : TNode) : Prop :=
  n.omitted = false ∧ (n.mainSignal = true ∨ n.halt = true ∨ HereLimit n)

/-- no distance is negative -/
def Forward (nodes : List TNode) : Prop :=
  ∀ n ∈ nodes, 0 ≤ n.gap

/-- every main signal is at least a centimetre beyond all borders before it -/
def SignalsApart (nodes : List TNode) : Prop :=
  ∀ (i j : Nat) (a b : TNode), i < j → nodes[i]? = some a → nodes[j]? = some b → Border a → b.omitted = false →
    b.mainSignal = true → pos nodes i + 1 / 100 ≤ pos nodes j

/-- every border is at least a centimetre beyond all borders before it -/
def BordersApart (nodes : List TNode) : Prop :=
  ∀ (i j : Nat) (a b : TNode), i < j → nodes[i]? = some a → nodes[j]? = some b → Border a → Border b →
    pos nodes i + 1 / 100 ≤ pos nodes j

/-- the left limit of every interval is the right limit of the one before -/
def Chained (l : List Interval) : Prop :=
  ∀ (k : Nat) (a b : Interval), l[k]? = some a → l[k + 1]? = some b → b.left = some a.right

/-- every interval ends at least a centimetre beyond the one before -/
def Increasing (l : List Interval) : Prop :=
  ∀ (j k : Nat) (a b : Interval), j < k → l[j]? = some a → l[k]? = some b → a.dist + 1 / 100 ≤ b.dist

/-- every event is between the border of the interval before and the own border, up to slack -/
def EventsInside (slack : Rat) (l : List Interval) : Prop :=
  ∀ (k : Nat) (b : Interval) (e : Event), l[k]? = some b → e ∈ b.events →
    e.dist ≤ b.dist + slack ∧ ∀ (j : Nat) (a : Interval), j < k → l[j]? = some a → a.dist ≤ e.dist

/-- the value of a limit that holds from its node on -/
def hereValue : Option Limit → Option Rat
  | some l => if l.effective && l.here then some l.limit else none
  | none => none

/-- the limit a node brings: the one added by the route before its own one -/
def broughtLimit (n : TNode) : Option Rat :=
  match hereValue n.extra with
  | some v => some v
  | none => hereValue n.spl

/-- all events of the path with their distances; `d` is the distance covered before -/
def eventsOf (d : Rat) : List TNode → List Event
  | [] => []
  | n :: l =>
    (if n.omitted = false ∧ n.isEvent = true then [{ node := n.id, dist := d + n.gap }] else []) ++ eventsOf (d + n.gap) l

/-- distance, halt and limit behind every border; `cur` is the limit before the nodes -/
def bordersOf (d cur : Rat) : List TNode → List (Rat × Option Halt × Rat)
  | [] => []
  | n :: l =>
    if n.omitted then bordersOf (d + n.gap) cur l
    else
      (if n.mainSignal || n.halt || (broughtLimit n).isSome then [(d + n.gap, n.stop, (broughtLimit n).getD cur)] else [])
        ++ bordersOf (d + n.gap) ((broughtLimit n).getD cur) l

end Soro.Runtime.Spec
