import Verif.Model.Dpd

/-
Model of `include/soro/simulation/disruption.h`: the distributions of halts and of travel times. Probabilities are rationals.
`none`: undefined behaviour, an infinite probability, or a loop that has not ended after `fuel` rounds.
-/

namespace Soro.Dpd

/-- disruption.h:14, 18-22 and 46-48: `std::pow(1 - p, delay - 1) * p` for `p = 0.75` -/
def delayProb (delay : Nat) : Rat := (1 / 4 : Rat) ^ ((delay : Int) - 1) * (3 / 4)

/-- disruption.h:9-28 -/
def haltDistribution : Option TimeDist :=
  (List.range 300).foldlM (fun (d : TimeDist) delay => d.insert (delay : Nat) (delayProb delay)) TimeDist.init

/-- disruption.h:37-38: `std::min(speed, kilometer_per_hour{5})` -/
def speedVariance (speed : Nat) : Nat := min speed 5

/-- disruption.h:43-52: the inner loop for one speed -/
def delays (arrival : Int) (variance speed : Nat) (d : TimeSpeedDist) : Option TimeSpeedDist :=
  (List.range 300).foldlM (fun (d : TimeSpeedDist) delay => d.insert (arrival + (delay : Nat)) speed (delayProb delay / variance * 2)) d

/-- disruption.h:42-53: the loop over the speeds; `++` and the comparison are those of 16 bit numbers -/
def speedLoop (arrival : Int) (variance stop : Nat) : Nat → Nat → TimeSpeedDist → Option TimeSpeedDist
  | 0, _, _ => none
  | fuel + 1, cur, d =>
    if cur ≤ stop then (delays arrival variance cur d).bind fun d' => speedLoop arrival variance stop fuel ((cur + 1) % 65536) d'
    else some d

/-- disruption.h:30-56 -/
def runtimeDistribution (fuel : Nat) (arrival : Int) (speed : Nat) : Option TimeSpeedDist :=
  let v := speedVariance speed
  if v = 0 then none
  else speedLoop arrival v ((speed + v) % 65536) fuel ((speed + 65536 - v) % 65536) TimeSpeedDist.init

end Soro.Dpd
