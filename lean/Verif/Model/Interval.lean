import Verif.Model.Physics
import Verif.Model.Units

/-
Model of `src/runtime/interval.cc` and `include/soro/runtime/interval.h`: the list of intervals between the borders of a
train's path, each with the speed limits on its left and right.
A train node carries what the code looks up about it: the distance of its element to the one before, its type, its speed
limits, the halt it is part of. Speeds and distances are rationals, compared as in `Units` (`==` up to a hundredth); the
invalid speed (not a number) is `none`.
-/

namespace Soro.Runtime

open Soro.Physics

/-- element_data.h:66 -/
inductive Effects where
  | all | conventional | lzb | invalid
  deriving DecidableEq, Repr

/-- element_data.h:50-79, reduced to what train.cc:127-134 and interval.cc read -/
structure Limit where
  /-- the type is GENERAL_ALLOWED -/
  general : Bool
  effects : Effects
  limit : Rat
  /-- the point of activation: here or at the last signal -/
  here : Bool
  deriving DecidableEq, Repr

/-- train.cc:127-134 -/
def Limit.effective (l : Limit) : Bool :=
  l.general && !(Units.eqVal l.limit 0) && (decide (l.effects = .all) || decide (l.effects = .conventional))

/-- a sequence point where the train halts, times in seconds -/
structure Halt where
  minStop : Nat
  departure : Nat
  deriving DecidableEq, Repr

/-- a node of the train's path as `train.iterate` yields it -/
structure TNode where
  id : Nat
  /-- distance to the element before -/
  gap : Rat
  omitted : Bool
  mainSignal : Bool
  halt : Bool
  /-- its type is one of the asked event types -/
  isEvent : Bool
  /-- the speed limit if the node is one -/
  spl : Option Limit
  /-- the speed limit added by the route -/
  extra : Option Limit
  /-- the sequence point if it is a halt -/
  stop : Option Halt
  deriving DecidableEq, Repr

/-- interval.h:10-19 -/
structure Event where
  node : Nat
  dist : Rat
  deriving DecidableEq, Repr

/-- interval.h:21-71 -/
structure Interval where
  dist : Rat
  left : Option Rat
  right : Rat
  halt : Option Halt
  events : List Event
  deriving DecidableEq, Repr

namespace Interval

/-- interval.h:31-42 -/
def append (i o : Interval) : Interval :=
  { i with right := o.right, events := i.events ++ o.events, halt := if o.halt.isSome then o.halt else i.halt }

/-- interval.h:56-62 -/
def targetSpeed (i : Interval) (top : Rat) : Rat :=
  min (if i.halt.isSome then 0 else i.right) top

end Interval

/-- interval.cc:118-121 -/
structure Duo where
  here : Option Rat
  lastSignal : Option Rat
  deriving DecidableEq, Repr

/-- interval.cc:127-135 -/
def Duo.handle (d : Duo) (l : Limit) : Duo :=
  if l.effective then
    if l.here then { d with here := some l.limit } else { d with lastSignal := some l.limit }
  else d

/-- interval.cc:123-149 -/
def getSpeedLimit (n : TNode) : Duo :=
  let d : Duo := { here := none, lastSignal := none }
  let d := match n.spl with
    | some l => d.handle l
    | none => d
  match n.extra with
  | some l => d.handle l
  | none => d

/-- interval.cc:160-168: the loop from the interval of the last signal on. `next` says that the interval before was changed.
Returns the intervals and how many right limits were replaced. -/
def rewriteLimits (new replaced : Rat) : (next : Bool) → List Interval → List Interval × Nat
  | _, [] => ([], 0)
  | next, i :: l =>
    let left := if next then some new else i.left
    if Units.eqVal i.right replaced then
      let r := rewriteLimits new replaced true l
      ({ i with left := left, right := new } :: r.1, r.2 + 1)
    else ({ i with left := left } :: l, 0)

/-- interval.cc:151-171: the list and the index returned -/
def insertLastSignal (new : Rat) (list : List Interval) (lastMs : Nat) : List Interval × Nat :=
  match list[lastMs]? with
  | none => (list, list.length)
  | some i =>
    let r := rewriteLimits new i.right false (list.drop lastMs)
    (list.take lastMs ++ r.1, lastMs + r.2)

/-- the variables of interval.cc:177-188 -/
structure State where
  list : List Interval
  dist : Rat
  lastMs : Nat
  prev : Option Rat
  cur : Rat
  events : List Event
  deriving DecidableEq, Repr

/-- interval.cc:200-207 -/
def applyLastSignal (s : State) (d : Duo) : State :=
  match d.lastSignal with
  | none => s
  | some v =>
    let r := insertLastSignal v s.list s.lastMs
    if r.2 = r.1.length then { s with list := r.1, prev := some v, cur := v } else { s with list := r.1 }

/-- interval.cc:209-212 -/
def applyHere (s : State) (d : Duo) : State :=
  match d.here with
  | none => s
  | some v => { s with prev := some s.cur, cur := v }

/-- interval.cc:214-220 -/
def noteNode (s : State) (n : TNode) : State :=
  { s with
    lastMs := if n.mainSignal then s.list.length else s.lastMs
    events := if n.isEvent then s.events ++ [{ node := n.id, dist := s.dist }] else s.events }

/-- `list.back().append(…)` or `push_back`, interval.cc:231-235 -/
def pushInterval (list : List Interval) (i : Interval) : List Interval :=
  match list.getLast? with
  | some b => if Units.eqVal b.dist i.dist then list.dropLast ++ [b.append i] else list ++ [i]
  | none => [i]

/-- interval.cc:222-239 -/
def closeInterval (s : State) (n : TNode) (d : Duo) : State :=
  if n.mainSignal || n.halt || d.here.isSome then
    { s with
      list := pushInterval s.list { dist := s.dist, left := s.prev, right := s.cur, halt := n.stop, events := s.events }
      prev := some s.cur
      events := [] }
  else s

/-- interval.cc:190-240, one round -/
def nodeStep (s : State) (n : TNode) : State :=
  let s := { s with dist := s.dist + n.gap }
  if n.omitted then s
  else
    let d := getSpeedLimit n
    closeInterval (noteNode (applyHere (applyLastSignal s d) d) n) n d

/-- interval.cc:173-240: the list before the limits are adjusted -/
def rawIntervals (initial : Rat) (nodes : List TNode) : State :=
  nodes.foldl nodeStep { list := [], dist := 0, lastMs := 0, prev := none, cur := initial, events := [] }

/-- distance of the last result of brake -/
def brakeDistance (fuel : Nat) (tp : Train) (v w : Rat) : Outcome Rat :=
  match brake fuel tp v w with
  | .done l => match l.getLast? with
    | some r => .done r.dist
    | none => .bad
  | .bad => .bad
  | .running => .running

/-- interval.cc:73-78: lowering the speed by 1 m/s until the train can brake -/
def lowerSpeed (fuel : Nat) (tp : Train) (target length : Rat) : Nat → Rat → Outcome Rat
  | 0, _ => .running
  | n + 1, v =>
    if v > target then
      match brakeDistance fuel tp v target with
      | .done d => if d ≥ length then lowerSpeed fuel tp target length n (v - 1) else .done v
      | .bad => .bad
      | .running => .running
    else .done v

/-- interval.cc:80-86: not below the target, lower than before, positive -/
def checkSpeed (initial target v : Rat) : Outcome (Option Rat) :=
  let v := if v ≤ target then target else v
  if v < initial then if v > 0 then .done (some v) else .bad else .bad

/-- interval.cc:56-86, the new limit of one interval -/
def adjustOne (fuel : Nat) (tp : Train) (top : Rat) (prevDist : Rat) (i : Interval) : Outcome (Option Rat) :=
  match i.left with
  | none => .bad
  | some left =>
    let initial := min left top
    if i.right ≥ initial && !i.halt.isSome then .done none
    else
      let target := i.targetSpeed top
      match brakeDistance fuel tp initial target with
      | .bad => .bad
      | .running => .running
      | .done d =>
        if i.dist - prevDist ≥ d then .done none
        else
          match lowerSpeed fuel tp target (i.dist - prevDist) fuel (initial - 1) with
          | .bad => .bad
          | .running => .running
          | .done v => checkSpeed initial target v

/-- interval.cc:52-92 from one interval on: whether something changed and the new list -/
def adjustFrom (fuel : Nat) (tp : Train) (top : Rat) (prev : Interval) : List Interval → Outcome (Bool × List Interval)
  | [] => .done (false, [prev])
  | i :: l =>
    match adjustOne fuel tp top prev.dist i with
    | .bad => .bad
    | .running => .running
    | .done none => (adjustFrom fuel tp top i l).map (fun r => (r.1, prev :: r.2))
    | .done (some v) =>
      (adjustFrom fuel tp top { i with left := some v } l).map (fun r => (true, { prev with right := v } :: r.2))

/-- interval.cc:48-93 -/
def adjust (fuel : Nat) (tp : Train) (list : List Interval) : Outcome (Bool × List Interval) :=
  match list with
  | [] => .done (false, [])
  | i :: l =>
    match tp.topSpeed with
    | none => if l = [] then .done (false, [i]) else .bad
    | some top => adjustFrom fuel tp top i l

/-- interval.cc:242-243 -/
def adjustAll (fuel : Nat) (tp : Train) : Nat → List Interval → Outcome (List Interval)
  | 0, _ => .running
  | n + 1, list =>
    match adjust fuel tp list with
    | .bad => .bad
    | .running => .running
    | .done (true, l) => adjustAll fuel tp n l
    | .done (false, l) => .done l

/-- interval.cc:173-246 -/
def getIntervalList (fuel : Nat) (tp : Train) (initial : Rat) (nodes : List TNode) : Outcome (List Interval) :=
  adjustAll fuel tp fuel (rawIntervals initial nodes).list

/-- interval.cc:23-29, 34-40: the limit of a node if it is an effective speed limit -/
def limitOf : Option Limit → Option Rat
  | some l => if l.effective then some l.limit else none
  | none => none

/-- interval.cc:14-46: looking for the limit in force at the start. `inRoute` are the nodes of the first station route from
the start back to, and without, its first node; `behind` are the first node and those behind it as `reverse_ahead` yields
them. The last of these has no `reverse_ahead` and is not looked at. -/
def initialLimit (inRoute behind : List (Option Limit)) (default : Rat) : Rat :=
  match (inRoute ++ behind.dropLast).findSome? limitOf with
  | some v => v
  | none => default

end Soro.Runtime
