/-
Model of `src/runtime/runtime_physics.cc`, `src/rolling_stock/train_physics.cc`, `include/soro/utls/math/polynomial.h` and
`piecewise_function.h`: driving a train by steps of half a second.
Quantities are rationals in SI units instead of floating point numbers. The sizes given to `reserve` are not modelled (for
speed zero `coast` converts an infinite number to an integer there).
The loops are run with fuel: `running` means that the loop has not ended after so many tests of its condition.
-/

namespace Soro.Physics

/-- how a call ends -/
inductive Outcome (α : Type) where
  /-- it returns -/
  | done (a : α)
  /-- an exception, or a division by zero -/
  | bad
  /-- the fuel is used up -/
  | running
  deriving DecidableEq, Repr

namespace Outcome

def map {α β : Type} (f : α → β) : Outcome α → Outcome β
  | .done a => .done (f a)
  | .bad => .bad
  | .running => .running

end Outcome

/-- runtime_physics.h:13-22 -/
structure Result where
  time : Rat
  dist : Rat
  speed : Rat
  deriving DecidableEq, Repr

/-- runtime_physics.h:11 -/
def deltaT : Rat := 1 / 2

/-- constants.h:9 -/
def massFactor : Rat := 53 / 50

/-- polynomial.h:86-98: factors in descending order of degree -/
def evalPoly (factors : List Rat) (x : Rat) : Option Rat :=
  match factors with
  | [] => none
  | f :: fs => some (fs.foldl (fun result g => g + result * x) f)

/-- piecewise_function.h:20-29 -/
structure Piece where
  poly : List Rat
  lower : Rat
  upper : Rat
  deriving DecidableEq, Repr

/-- piecewise_function.h:52-69: the first piece ending above x, `none`: the verify of line 62 throws -/
def evalPieces (pieces : List Piece) (x : Rat) : Option Rat :=
  match pieces.find? (fun p => decide (x < p.upper)) with
  | none => none
  | some p => evalPoly p.poly x

/-- train_series.h:41-51 -/
structure Vehicle where
  maxSpeed : Rat
  deceleration : Rat
  tractive : List Piece
  resistance : List Rat
  deriving DecidableEq, Repr

/-- train_physics.h:36-47 -/
structure Train where
  vehicles : List Vehicle
  carriageWeight : Rat
  maxSpeed : Rat
  deriving DecidableEq, Repr

namespace Train

/-- train_physics.cc:25: the weight of the vehicles is not part of it -/
def weight (tp : Train) : Rat :=
  tp.carriageWeight

/-- train_physics.cc:27-33; `none`: no vehicle, the end iterator is dereferenced -/
def topSpeed (tp : Train) : Option Rat :=
  match tp.vehicles with
  | [] => none
  | v :: vs => some (min (vs.foldl (fun acc w => if w.maxSpeed < acc then w.maxSpeed else acc) v.maxSpeed) tp.maxSpeed)

/-- the sums of train_physics.cc:35-45 -/
def sumForces (f : Vehicle → Option Rat) : List Vehicle → Option Rat
  | [] => some 0
  | v :: vs =>
    match f v, sumForces f vs with
    | some a, some b => some (a + b)
    | _, _ => none

/-- train_physics.cc:35-39 -/
def tractiveForce (tp : Train) (v : Rat) : Option Rat :=
  sumForces (fun vh => evalPieces vh.tractive v) tp.vehicles

/-- train_physics.cc:41-45 -/
def resistiveForce (tp : Train) (v : Rat) : Option Rat :=
  sumForces (fun vh => evalPoly vh.resistance v) tp.vehicles

/-- train_physics.cc:47-49: of the first vehicle, a negative number; `none`: no vehicle -/
def deceleration (tp : Train) : Option Rat :=
  match tp.vehicles with
  | [] => none
  | v :: _ => some v.deceleration

/-- runtime_physics.cc:89-93; `none`: no piece of the curve fits or a division by zero -/
def acceleration (tp : Train) (v : Rat) : Option Rat :=
  match tp.tractiveForce v, tp.resistiveForce v with
  | some t, some r => if tp.weight = 0 then none else some ((t - r) / (tp.weight * massFactor))
  | _, _ => none

end Train

/-- a `while` loop that changes its state and appends the new state to the results; returns what it appended -/
def loop {S : Type} (cond : S → Bool) (step : S → Option S) : Nat → S → Outcome (List S)
  | 0, _ => .running
  | n + 1, s =>
    if cond s then
      match step s with
      | none => .bad
      | some s' => (loop cond step n s').map (fun l => s' :: l)
    else .done []

/-- `back().… = …` -/
def changeLast {S : Type} (f : S → S) : List S → List S
  | [] => []
  | [a] => [f a]
  | a :: b :: l => a :: changeLast f (b :: l)

/-- `if (size() > 1) back().… = …` -/
def changeLastIf {S : Type} (f : S → S) (l : List S) : List S :=
  if l.length > 1 then changeLast f l else l

/-- one step of coasting, runtime_physics.cc:25-28 -/
def coastStep (v : Rat) (r : Result) : Result :=
  { time := r.time + deltaT, dist := r.dist + v * deltaT, speed := v }

/-- runtime_physics.cc:13-36 -/
def coast (fuel : Nat) (v distance : Rat) : Outcome (List Result) :=
  let start : Result := { time := 0, dist := 0, speed := v }
  (loop (fun r => decide (r.dist < distance)) (fun r => some (coastStep v r)) fuel start).map
    (fun l => changeLastIf (fun r => { r with dist := distance }) (start :: l))

/-- one step of braking, runtime_physics.cc:60-64 -/
def brakeStep (a : Rat) (r : Result) : Result :=
  { time := r.time + deltaT, dist := r.dist + r.speed * deltaT, speed := r.speed + a * deltaT }

/-- runtime_physics.cc:38-73 -/
def brake (fuel : Nat) (tp : Train) (initial target : Rat) : Outcome (List Result) :=
  if initial > target then
    match tp.deceleration with
    | none => .bad
    | some a =>
      if a = 0 then .bad
      else
        let time := -(initial - target) / a
        let distance := 1 / 2 * a * (time * time) + initial * time
        let start : Result := { time := 0, dist := 0, speed := initial }
        (loop (fun r => decide (r.time < time)) (fun r => some (brakeStep a r)) fuel start).map
          (fun l => changeLastIf (fun r => { r with dist := distance, speed := target }) (start :: l))
  else .bad

/-- one step of accelerating, runtime_physics.cc:89-100 -/
def accelStep (tp : Train) (r : Result) : Option Result :=
  match tp.acceleration r.speed with
  | none => none
  | some a =>
    some { time := r.time + deltaT
           dist := r.dist + (r.speed + (r.speed + a * deltaT)) * (1 / 2) * deltaT
           speed := r.speed + a * deltaT }

/-- runtime_physics.cc:103-109 -/
def cutToDistance (maxDistance : Rat) (l : List Result) : List Result :=
  match l.getLast? with
  | none => l
  | some r => if r.dist > maxDistance then changeLastIf (fun r => { r with dist := maxDistance }) l.dropLast else l

/-- runtime_physics.cc:75-112 -/
def accelerate (fuel : Nat) (tp : Train) (initial target maxDistance : Rat) : Outcome (List Result) :=
  match tp.topSpeed with
  | none => .bad
  | some top =>
    let start : Result := { time := 0, dist := 0, speed := initial }
    (loop (fun r => decide (r.speed < top) && decide (r.speed < target) && decide (r.dist < maxDistance))
      (accelStep tp) fuel start).map
      (fun l => cutToDistance maxDistance (start :: l))

end Soro.Physics
