import Verif.Model.Runtime

/-
The running time calculation (`src/runtime/runtime.cc`, `src/runtime/interval.cc`, `include/soro/runtime/interval.h`) in a build
with assertions. A calculation of the debug build ends like one of the release build (`Physics.Outcome`), or is stopped by an
assertion; `error line` names its line in the file cited at the check.

Not modelled: assertions that the iteration of the train makes (train.cc:196-235), that the start node exists
(interval.cc:18) and that speed limits are numbers (interval.cc:26, 37); `min_stop_time` and `departure` assert that they are
called at a halt (interval.h:47, 52), and they are called at halts only (runtime.cc:237).
-/

namespace Soro.Runtime

open Soro.Physics

/-- the result of a calculation of the debug build -/
abbrev Chk (α : Type) := Outcome (Except Nat α)

namespace Chk

/-- go on unless stopped -/
def bind {α β : Type} (x : Chk α) (f : α → Chk β) : Chk β :=
  Outcome.bind x fun r => match r with
    | .ok a => f a
    | .error n => .done (.error n)

/-- `sassert` (sassert.h:93-113) -/
def check (line : Nat) (c : Prop) [Decidable c] : Chk Unit :=
  .done (if c then .ok () else .error line)

/-- a step of the release build -/
def lift {α : Type} (o : Outcome α) : Chk α := o.map .ok

end Chk

/-- time.h:75-81: the greatest value is the invalid one -/
def INVALID : Nat := 2 ^ 32 - 1

/-- interval.h:31-42, interval.cc:231-235: appending an interval asserts that not both are halts (interval.h:35) -/
def pushIntervalD (list : List Interval) (i : Interval) : Except Nat (List Interval) :=
  match list.getLast? with
  | some b =>
    if Units.eqVal b.dist i.dist then
      if b.halt.isSome && i.halt.isSome then .error 35 else .ok (list.dropLast ++ [b.append i])
    else .ok (list ++ [i])
  | none => .ok [i]

/-- interval.cc:222-239 -/
def closeIntervalD (s : State) (n : TNode) (d : Duo) : Except Nat State :=
  if n.mainSignal || n.halt || d.here.isSome then
    (pushIntervalD s.list { dist := s.dist, left := s.prev, right := s.cur, halt := n.stop, events := s.events }).map fun l =>
      { s with list := l, prev := some s.cur, events := [] }
  else .ok s

/-- interval.cc:190-240, one round -/
def nodeStepD (s : State) (n : TNode) : Except Nat State :=
  let s := { s with dist := s.dist + n.gap }
  if n.omitted then .ok s
  else
    let d := getSpeedLimit n
    closeIntervalD (noteNode (applyHere (applyLastSignal s d) d) n) n d

/-- interval.cc:173-240 -/
def rawIntervalsD (initial : Rat) (nodes : List TNode) : Except Nat State :=
  nodes.foldlM nodeStepD { list := [], dist := 0, lastMs := 0, prev := none, cur := initial, events := [] }

/-- interval.cc:173-246; `through`: the train breaks in or out -/
def getIntervalListD (fuel : Nat) (tp : Train) (initial : Rat) (nodes : List TNode) (through : Bool) : Chk (List Interval) :=
  (Chk.check 175 (through = false)).bind fun _ =>
  Chk.bind (.done (rawIntervalsD initial nodes)) fun s => Chk.lift (adjustAll fuel tp fuel s.list)

/-- runtime.cc:261-278: what is asserted of a timestamp; `first`: there are none before -/
def reachedD (first : Bool) (s : Stamp) : Chk Unit :=
  (Chk.check 264 (first = true ∨ s.arrival ≠ INVALID)).bind fun _ => Chk.check 266 (s.departure ≥ s.arrival)

/-- runtime.cc:181-193 -/
def eventStampsD (limit : Option Nat) (prevDist dist : Rat) (startDep endArr endDep : Nat) (p : Phases) :
    (first : Bool) → List Event → Chk (List Stamp)
  | _, [] => .done (.ok [])
  | first, e :: es =>
    if Units.eqVal e.dist dist then
      let s : Stamp := { arrival := endArr, departure := endDep, node := e.node }
      (reachedD first s).bind fun _ =>
        (eventStampsD limit prevDist dist startDep endArr endDep p false es).bind fun l => .done (.ok (s :: l))
    else
      match eventTime p (e.dist - prevDist) with
      | none => .bad
      | some t =>
        (Chk.lift (toRelative limit t)).bind fun r =>
          let s : Stamp := { arrival := wrap limit (startDep + r), departure := wrap limit (startDep + r), node := e.node }
          (reachedD first s).bind fun _ =>
            (eventStampsD limit prevDist dist startDep endArr endDep p false es).bind fun l => .done (.ok (s :: l))

/-- runtime.cc:213-254, one interval -/
def runIntervalD (fuel : Nat) (tp : Train) (limit : Option Nat) (start : Nat) (first : Bool) (speed time : Rat) (prevDist : Rat)
    (i : Interval) : Chk ((Rat × Rat) × List Stamp) :=
  (Chk.check 218 (Units.eqVal (i.dist - prevDist) 0 = false)).bind fun _ =>
  (Chk.lift (getPhases fuel tp speed prevDist i)).bind fun p =>
  (Chk.lift (toRelative limit time)).bind fun before =>
  let time' := time + (p.accel.time + p.coast.time + p.deaccel.time)
  (Chk.lift (toRelative limit time')).bind fun after =>
  let arrival := wrap limit (start + after)
  let departure := endDeparture limit i.halt arrival
  (eventStampsD limit prevDist i.dist (wrap limit (start + before)) arrival departure p first i.events).bind fun stamps =>
  if endSpeed p ≤ i.right then .done (.ok ((endSpeed p, time' + (minus limit departure arrival : Nat)), stamps))
  else .bad

/-- runtime.cc:213-255 -/
def runFromD (fuel : Nat) (tp : Train) (limit : Option Nat) (start : Nat) (first : Bool) (speed time : Rat) (prevDist : Rat) :
    List Interval → Chk (Rat × List Stamp)
  | [] => .done (.ok (time, []))
  | i :: l =>
    (runIntervalD fuel tp limit start first speed time prevDist i).bind fun r =>
      (runFromD fuel tp limit start (first && r.2.isEmpty) r.1.1 r.1.2 i.dist l).bind fun q => .done (.ok (q.1, r.2 ++ q.2))

/-- runtime.cc:205-210: the events of the first interval -/
def firstStampsD (start : Nat) (halt : Bool) : (first : Bool) → List Event → Chk (List Stamp)
  | _, [] => .done (.ok [])
  | first, e :: es =>
    let s : Stamp := { arrival := start, departure := start, node := e.node }
    (Chk.check 206 (halt = true)).bind fun _ =>
      (reachedD first s).bind fun _ => (firstStampsD start halt false es).bind fun l => .done (.ok (s :: l))

/-- runtime.cc:204-255; `first_departure` asserts that the time is valid (train.cc:76) -/
def runIntervalsD (fuel : Nat) (tp : Train) (limit : Option Nat) (start : Nat) : List Interval → Chk (Rat × List Stamp)
  | [] => (Chk.check 76 (start ≠ INVALID)).bind fun _ => .bad
  | i :: l =>
    (Chk.check 76 (start ≠ INVALID)).bind fun _ =>
    (firstStampsD start i.halt.isSome true i.events).bind fun s1 =>
      (runFromD fuel tp limit start s1.isEmpty 0 0 i.dist l).bind fun q => .done (.ok (q.1, s1 ++ q.2))

/-- runtime.cc:196-255, 257-283 -/
def runtimeD (fuel : Nat) (tp : Train) (start : Nat) (initial : Rat) (nodes : List TNode) (through : Bool) : Chk (List Stamp) :=
  (Chk.check 200 (through = false)).bind fun _ =>
  (getIntervalListD fuel tp initial nodes through).bind fun l =>
  (runIntervalsD fuel tp (some bits32) start l).bind fun q => .done (.ok q.2)

end Soro.Runtime
