import Verif.Model.Interval

/-
Model of `src/runtime/runtime.cc`: the running time of a train along its intervals.
Points in time are counts of seconds. They are unsigned with 32 bits in the code: `limit` is 2^32 there; without a limit the
same calculation is done in natural numbers. Converting a floating point number beyond the limit is undefined behaviour
(`bad`).
`sequence_points_.front().departure_` and `first_departure()` are the same value, `start`.
-/

namespace Soro.Physics.Outcome

def bind {α β : Type} (o : Outcome α) (f : α → Outcome β) : Outcome β :=
  match o with
  | .done a => f a
  | .bad => .bad
  | .running => .running

end Soro.Physics.Outcome

namespace Soro.Runtime

open Soro.Physics

/-- the default of runtime_physics.h:14, 19-21 -/
def zeroResult : Result := { time := 0, dist := 0, speed := 0 }

/-- runtime.cc:19-32 -/
structure Phases where
  accel : Result
  accels : List Result
  coast : Result
  coasts : List Result
  deaccel : Result
  deaccels : List Result
  deriving DecidableEq, Repr

/-- runtime.cc:44-62: going back through the results of the acceleration, given in reverse order without the last one -/
def adjustAccel (fuel : Nat) (tp : Train) (length next : Rat) : List Result → Outcome (Result × List Result)
  | [] => .bad
  | r :: l =>
    if r.speed ≤ next then .done (r, [])
    else
      (brake fuel tp r.speed next).bind fun b =>
        match b.getLast? with
        | none => .bad
        | some e => if e.dist + r.dist ≤ length then .done (r, b) else adjustAccel fuel tp length next l

/-- runtime.cc:75-88: the result the acceleration ends with and all its results -/
def accelPhase (fuel : Nat) (tp : Train) (speed max length : Rat) : Outcome (Result × List Result) :=
  if speed < max then
    (accelerate fuel tp speed max length).bind fun l =>
      match l.getLast? with
      | none => .bad
      | some r =>
        if r.speed > max then if 0 ≤ max * (1 / 100) then .done ({ r with speed := max }, l) else .bad
        else .done (r, l)
  else .done (zeroResult, [])

/-- runtime.cc:92-100 -/
def brakePhase (fuel : Nat) (tp : Train) (speed target length : Rat) : Outcome (Result × List Result) :=
  if speed > target then
    (brake fuel tp speed target).bind fun l =>
      match l.getLast? with
      | none => .bad
      | some r => if r.time > 0 ∧ r.dist ≤ length then .done (r, l) else .bad
  else .done (zeroResult, [])

/-- runtime.cc:104-111: if there is not enough room for both. Returns the end of the acceleration, the speed then, the end
and the results of braking. -/
def joinPhases (fuel : Nat) (tp : Train) (length target speed : Rat) (a b : Result × List Result) :
    Outcome (Result × Rat × Result × List Result) :=
  if a.1.dist + b.1.dist ≥ length ∧ a.2 ≠ [] ∧ b.2 ≠ [] then
    (adjustAccel fuel tp length target a.2.reverse.tail).bind fun r =>
      .done (r.1, r.1.speed, r.2.getLast?.getD zeroResult, r.2)
  else .done (a.1, speed, b.1, b.2)

/-- runtime.cc:118-125 -/
def coastPhase (fuel : Nat) (speed distance : Rat) : Outcome (Result × List Result) :=
  if distance > 0 then
    (Physics.coast fuel speed distance).bind fun l =>
      match l.getLast? with
      | none => .bad
      | some r => .done (r, l)
  else .done (zeroResult, [])

/-- runtime.cc:65-132 -/
def getPhases (fuel : Nat) (tp : Train) (speed prevDist : Rat) (i : Interval) : Outcome Phases :=
  match i.left, tp.topSpeed with
  | some left, some top =>
    let length := i.dist - prevDist
    (accelPhase fuel tp speed (min left top) length).bind fun a =>
    (brakePhase fuel tp (if a.2 = [] then speed else a.1.speed) (i.targetSpeed top) length).bind fun b =>
    (joinPhases fuel tp length (i.targetSpeed top) (if a.2 = [] then speed else a.1.speed) a b).bind fun j =>
    if j.1.dist + j.2.2.1.dist ≤ length ∨ a.2 = [] ∨ j.2.2.2 = [] then
      (coastPhase fuel j.2.1 (length - j.1.dist - j.2.2.1.dist)).bind fun c =>
      if a.2 ≠ [] ∨ c.2 ≠ [] ∨ j.2.2.2 ≠ [] then
        .done { accel := j.1, accels := a.2, coast := c.1, coasts := c.2, deaccel := j.2.2.1, deaccels := j.2.2.2 }
      else .bad
    else .bad
  | _, _ => .bad

/-- arithmetic on points in time: modulo the limit if there is one -/
def wrap (limit : Option Nat) (t : Nat) : Nat :=
  match limit with
  | none => t
  | some m => t % m

/-- difference of two points in time -/
def minus (limit : Option Nat) (a b : Nat) : Nat :=
  match limit with
  | none => a - b
  | some m => if b ≤ a then a - b else a + m - b

/-- runtime.cc:134-137 -/
def toRelative (limit : Option Nat) (t : Rat) : Outcome Nat :=
  match limit with
  | none => .done t.floor.toNat
  | some m => if t.floor.toNat < m then .done t.floor.toNat else .bad

/-- runtime.cc:152-179; `none`: not found -/
def eventTime (p : Phases) (delta : Rat) : Option Rat :=
  if p.accels ≠ [] ∧ delta ≤ p.accel.dist then
    (p.accels.find? (fun r => decide (r.dist ≥ delta))).map (fun r => r.time)
  else if p.coasts ≠ [] ∧ delta ≤ p.accel.dist + p.coast.dist then
    (p.coasts.find? (fun r => decide (p.accel.dist + r.dist ≥ delta))).map (fun r => p.accel.time + r.time)
  else if p.deaccels ≠ [] ∧ delta ≤ p.accel.dist + p.coast.dist + p.deaccel.dist then
    (p.deaccels.find? (fun r => decide (p.accel.dist + p.coast.dist + r.dist ≥ delta))).map
      (fun r => p.accel.time + p.coast.time + r.time)
  else none

/-- runtime.h:13-21 -/
structure Stamp where
  arrival : Nat
  departure : Nat
  node : Nat
  deriving DecidableEq, Repr

/-- runtime.cc:181-193 -/
def eventStamps (limit : Option Nat) (prevDist dist : Rat) (startDep endArr endDep : Nat) (p : Phases) :
    List Event → Outcome (List Stamp)
  | [] => .done []
  | e :: es =>
    if Units.eqVal e.dist dist then
      (eventStamps limit prevDist dist startDep endArr endDep p es).map
        (fun l => { arrival := endArr, departure := endDep, node := e.node } :: l)
    else
      match eventTime p (e.dist - prevDist) with
      | none => .bad
      | some t =>
        (toRelative limit t).bind fun r =>
          (eventStamps limit prevDist dist startDep endArr endDep p es).map
            (fun l => { arrival := wrap limit (startDep + r), departure := wrap limit (startDep + r), node := e.node } :: l)

/-- runtime.cc:226-228 -/
def endSpeed (p : Phases) : Rat :=
  if p.deaccels ≠ [] then p.deaccel.speed else if p.coasts ≠ [] then p.coast.speed else p.accel.speed

/-- runtime.cc:235-246: the departure at the end of an interval -/
def endDeparture (limit : Option Nat) (halt : Option Halt) (arrival : Nat) : Nat :=
  match halt with
  | none => arrival
  | some h => max h.departure (wrap limit (arrival + h.minStop))

/-- runtime.cc:213-254, one interval: speed and time afterwards, and the timestamps -/
def runInterval (fuel : Nat) (tp : Train) (limit : Option Nat) (start : Nat) (speed time : Rat) (prevDist : Rat)
    (i : Interval) : Outcome ((Rat × Rat) × List Stamp) :=
  (getPhases fuel tp speed prevDist i).bind fun p =>
  (toRelative limit time).bind fun before =>
  let time' := time + (p.accel.time + p.coast.time + p.deaccel.time)
  (toRelative limit time').bind fun after =>
  let arrival := wrap limit (start + after)
  let departure := endDeparture limit i.halt arrival
  (eventStamps limit prevDist i.dist (wrap limit (start + before)) arrival departure p i.events).bind fun stamps =>
  if endSpeed p ≤ i.right then .done ((endSpeed p, time' + (minus limit departure arrival : Nat)), stamps)
  else .bad

/-- runtime.cc:213-255, all intervals behind the first one: the time `current` ends with, and the timestamps -/
def runFrom (fuel : Nat) (tp : Train) (limit : Option Nat) (start : Nat) (speed time : Rat) (prevDist : Rat) :
    List Interval → Outcome (Rat × List Stamp)
  | [] => .done (time, [])
  | i :: l =>
    (runInterval fuel tp limit start speed time prevDist i).bind fun r =>
      (runFrom fuel tp limit start r.1.1 r.1.2 i.dist l).map (fun q => (q.1, r.2 ++ q.2))

/-- runtime.cc:204-255 -/
def runIntervals (fuel : Nat) (tp : Train) (limit : Option Nat) (start : Nat) : List Interval → Outcome (Rat × List Stamp)
  | [] => .bad
  | i :: l =>
    (runFrom fuel tp limit start 0 0 i.dist l).map
      (fun q => (q.1, i.events.map (fun e => { arrival := start, departure := start, node := e.node }) ++ q.2))

/-- the number of values of a point in time -/
def bits32 : Nat := 2 ^ 32

/-- runtime.cc:197-255 -/
def runtime (fuel : Nat) (tp : Train) (start : Nat) (initial : Rat) (nodes : List TNode) : Outcome (List Stamp) :=
  (getIntervalList fuel tp initial nodes).bind fun l => (runIntervals fuel tp (some bits32) start l).map (fun q => q.2)

/-- runtime.cc:273-277: the indices of the halts -/
def haltIndices (isHalt : Nat → Bool) (stamps : List Stamp) : List Nat :=
  (stamps.foldl (fun acc s => (if isHalt s.node then acc.1 ++ [acc.2] else acc.1, acc.2 + 1)) ([], 0)).1

end Soro.Runtime
