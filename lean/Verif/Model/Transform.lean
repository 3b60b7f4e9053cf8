import Verif.Model.Interlocking
import Verif.Model.Train

/-
Model of `src/timetable/parsers/station_route_to_interlocking_route.cc`: choosing the interlocking routes for the planned
station routes of a train.

Interlocking routes are given by their id, which is their position in `interlocking::routes_`. `undef` is an access beyond
the end of a vector or an empty optional. The loop has no bound in the code, the model runs at most `fuel` rounds of it and
says `running` if that was not enough. `std::size_t` has 64 bits.
-/

namespace Soro.Transform
open Soro.Route Soro.Train Soro.Algo

/-- the parts of `interlocking` used here (include/soro/infrastructure/interlocking/interlocking.h) -/
structure Ilk where
  routes : List IR
  participating : List (List Nat)
  startingAt : List (List Nat)
  haltingAt : List (List Nat)

/-- get_interlocking.cc:322-349: the tables for the given routes -/
def Ilk.build (i : Infra) (nodeCount : Nat) (routes : List IR) : Option Ilk :=
  (Interlocking.participating i.routes.length (Interlocking.assignIds 0 routes)).bind fun p =>
  (Interlocking.startingAt i.routes nodeCount (Interlocking.assignIds 0 routes)).bind fun s =>
  (Interlocking.haltingAt i.routes (fun r => i.stops[r]?.bind Stops.passenger) (fun r => i.stops[r]?.bind Stops.freight)
    nodeCount (Interlocking.assignIds 0 routes)).map fun h => ⟨routes, p, s, h⟩

/-- `stop_sequence` (include/soro/timetable/stop_sequence.h) -/
structure StopSeq where
  points : List SPoint
  breakIn : Bool
  breakOut : Bool

/-- the planned station routes -/
def StopSeq.plan (ss : StopSeq) : List Nat := ss.points.map (·.sr)

/-- include/soro/timetable/parsers/route_transform_error.h -/
inductive Err where
  | noFirstIr | noUniqueFirstIr | noUniqueIr | noIr
  deriving DecidableEq, Repr

inductive Outcome where
  | ok (path : List Nat) (points : List SPoint)
  | err (e : Err)
  | undef
  | running
  deriving DecidableEq, Repr

/-- `struct cover` (lines 65-88) -/
structure Cover where
  offset : Nat
  nodeIdx : Nat
  deriving DecidableEq, Repr

/-- lines 19-36; the second list are the planned station routes from `sr_offset` on -/
def prefixLen : List Nat → List Nat → Nat
  | a :: as, b :: bs => if a = b then prefixLen as bs + 1 else 0
  | _, _ => 0

/-- lines 46-59, the loop -/
def longestLoop (routes : List IR) (plan : List Nat) : List Nat → List Nat → Nat → Option (List Nat × Nat)
  | [], best, n => some (best, n)
  | c :: cs, best, n =>
    match routes[c]? with
    | none => none
    | some r =>
      let p := prefixLen r.srs plan
      if n < p then longestLoop routes plan cs [c] p
      else if n ≤ p then longestLoop routes plan cs (best ++ [c]) n
      else longestLoop routes plan cs best n

/-- lines 38-62 -/
def longest (routes : List IR) (plan candidates : List Nat) : Option (List Nat × Nat) := longestLoop routes plan candidates [] 0

/-- lines 66-84; without a halt or a break-out at the end the limit is `node::INVALID_IDX` -/
def covers (i : Infra) (ss : StopSeq) (freight : Bool) (c : Cover) : Option Bool :=
  match ss.points.getLast? with
  | none => none
  | some last =>
    if c.offset < ss.points.length - 1 then some false
    else
      (if last.isHalt then i.stops[last.sr]?.bind fun s => s.haltIdx freight
        else if ss.breakOut then i.routes[last.sr]?.map fun r => r.size - 1
        else some INVALID_IDX).map fun n => decide (n < c.nodeIdx)

/-- lines 92-120 -/
def candidates (i : Infra) (k : Ilk) (ss : StopSeq) (freight : Bool) (c : Cover) (lastNode : Option Nat) : Option (List Nat) :=
  ss.points[c.offset]?.bind fun sp =>
  k.participating[sp.sr]?.bind fun part =>
  (match lastNode with
    | none => some part
    | some n => k.startingAt[n]?.map fun st => intersect part st).bind fun cands =>
  if cands.length = 1 then some cands
  else if sp.isHalt then
    (sp.nodeIdx i freight).bind fun idx =>
      if c.nodeIdx ≤ idx then
        (sp.node i freight).bind fun n => k.haltingAt[n]?.map fun h => intersect cands h
      else some cands
  else some cands

/-- 2^64 -/
def SIZE : Nat := 18446744073709551616

/-- lines 173-193 for the sequence points `from, ..., to - 1` -/
def seqPoints (i : Infra) (freight : Bool) (ir : IR) : List SPoint → Option (List SPoint)
  | [] => some []
  | sp :: sps =>
    match sp.nodeIdx i freight with
    | none => seqPoints i freight ir sps
    | some idx =>
      (ir.contains sp.sr idx).bind fun b =>
        (seqPoints i freight ir sps).map fun r => if b then sp :: r else r

/-- lines 181-182: the sequence points with the given indices, `none` when reading behind the end -/
def pointsRange (ss : StopSeq) (a b : Nat) : Option (List SPoint) :=
  if b ≤ a then some [] else if b ≤ ss.points.length then some ((ss.points.take b).drop a) else none

/-- lines 127-171; `.inl` is an error -/
def firstIr (i : Infra) (k : Ilk) (ss : StopSeq) (freight : Bool) : Option (Err ⊕ (Nat × IR × Cover)) :=
  match ss.points with
  | [] => none
  | sp :: _ =>
    (if ss.breakIn then (i.routes[sp.sr]?.bind fun r => r.nodes.head?).map some else some none).bind fun firstNode =>
    (candidates i k ss freight ⟨0, 0⟩ firstNode).bind fun cands =>
    (longest k.routes ss.plan cands).bind fun lp =>
      match lp.1 with
      | [] => some (.inl .noFirstIr)
      | [id] =>
        k.routes[id]?.map fun ir =>
          .inr (id, ir, ⟨if lp.2 = 0 then (ir.srs.length + SIZE - ir.srs.idxOf sp.sr - 1) % SIZE else lp.2 - 1, ir.stop⟩)
      | _ => some (.inl .noUniqueFirstIr)

/-- lines 261-273: the cover behind the chosen route `ir` with common prefix `p` -/
def advance (i : Infra) (ss : StopSeq) (c : Cover) (ir : IR) (p : Nat) : Option Cover :=
  (ir.lastNode i.routes).bind fun n =>
  ss.points[c.offset]?.bind fun sp =>
  i.routes[sp.sr]?.bind fun r =>
  r.nodes.getLast?.map fun e =>
    ⟨(if n = e then c.offset + p else c.offset + (p + SIZE - 1) % SIZE) % SIZE, ir.stop⟩

/-- lines 224-274 -/
def loop (i : Infra) (k : Ilk) (ss : StopSeq) (freight : Bool) : Nat → IR → Cover → List Nat → List SPoint → Outcome
  | 0, _, _, _, _ => .running
  | fuel + 1, cur, c, path, pts =>
    match covers i ss freight c with
    | none => .undef
    | some true => .ok path pts
    | some false =>
      match (cur.lastNode i.routes).bind fun n => (candidates i k ss freight c (some n)).bind fun cands =>
          longest k.routes (ss.plan.drop c.offset) cands with
      | none => .undef
      | some (ids, p) =>
        match ids with
        | [] => .err .noIr
        | [id] =>
          match k.routes[id]? with
          | none => .undef
          | some ir =>
            match (pointsRange ss c.offset (c.offset + p)).bind (seqPoints i freight ir) with
            | none => .undef
            | some new =>
              if ss.points.length < c.offset + ir.srs.length then .ok (path ++ [id]) (pts ++ new)
              else
                match advance i ss c ir p with
                | none => .undef
                | some c' => loop i k ss freight fuel ir c' (path ++ [id]) (pts ++ new)
        | _ => .err .noUniqueIr

/-- lines 195-284 without the assertion at the end -/
def transform (i : Infra) (k : Ilk) (ss : StopSeq) (freight : Bool) (fuel : Nat) : Outcome :=
  match firstIr i k ss freight with
  | none => .undef
  | some (.inl e) => .err e
  | some (.inr (id, ir, c)) =>
    match (pointsRange ss 0 ((c.offset + 1) % SIZE)).bind (seqPoints i freight ir) with
    | none => .undef
    | some pts => loop i k ss freight fuel ir c [id] pts

end Soro.Transform
