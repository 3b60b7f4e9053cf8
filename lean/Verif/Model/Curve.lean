import Verif.Model.Gps
import Verif.Model.Osm

/-
Model of the curves between stations in the OSM export: `web/server/src/modules/tiles/osm_export/interpolation.cc`.

Doubles are real numbers, as in `Verif.Model.Gps`.
-/

namespace Soro.Globe

/-- interpolation.cc:24-34: the formula used for `x`, `y` and `z` -/
noncomputable def bezierCoord (t c1 c2 c3 c4 : ℝ) : ℝ :=
  (1 - t) ^ 3 * c1 + 3 * (1 - t) ^ 2 * t * c2 + 3 * (1 - t) ^ 1 * t ^ 2 * c3 + t ^ 3 * c4

/-- interpolation.cc:15-37 `get_bezier_curve` -/
noncomputable def bezierCurve (p1 p2 p3 p4 : Point) (t : ℝ) : Point :=
  let t1 := p1.toCartesian
  let t2 := p2.toCartesian
  let t3 := p3.toCartesian
  let t4 := p4.toCartesian
  Vec.toGps ⟨bezierCoord t t1.x t2.x t3.x t4.x, bezierCoord t t1.y t2.y t3.y t4.y, bezierCoord t t1.z t2.z t3.z t4.z⟩

/-- interpolation.cc:42-49: the last neighbour of `e1` that is not `e2`; `none` in the list is a null pointer -/
def auxNeighbour (e2 : Nat) : List (Option Nat) → Option Nat → Option Nat
  | [], n => n
  | none :: ns, n => auxNeighbour e2 ns n
  | some x :: ns, n => if x = e2 then auxNeighbour e2 ns n else auxNeighbour e2 ns (some x)

/-- interpolation.cc:58-64: `units` -/
noncomputable def auxUnits (p1 p2 : Point) : ℝ :=
  let dist := Real.sin (toRad p1.lat) * Real.sin (toRad p2.lat) +
    Real.cos (toRad p1.lat) * Real.cos (toRad p2.lat) * Real.cos (toRad (p1.lon - p2.lon))
  let dist := Real.arccos dist
  let dist := (earthRadius / 1000 * PI * dist) / 180
  0.2 * dist

open Classical in
/-- interpolation.cc:76-92: the number by which `units` is divided -/
noncomputable def auxDivisor (gradient : ℝ) : ℝ :=
  if -1 < gradient ∧ gradient < 1 then 1
  else if -10 < gradient ∧ gradient < 10 then 10
  else if -100 < gradient ∧ gradient < 100 then 100
  else if -1000 < gradient ∧ gradient < 1000 then 1000
  else if -10000 < gradient ∧ gradient < 10000 then 10000
  else if -100000 < gradient ∧ gradient < 100000 then 100000
  else if -1000000 < gradient ∧ gradient < 1000000 then 1000000
  else 100000000

open Classical in
/-- interpolation.cc:51-106: the auxiliary point for `p1`, with the position of the neighbour that was found; `equal`
(fp_precision.h:14-18) has a tolerance -/
noncomputable def auxPosition (p1 p2 : Point) : Option Point → Point
  | none => p1
  | some n =>
    let units := auxUnits p1 p2
    if |p1.lon - n.lon - 0| < 0.01 then
      let units := units / 1000000
      if p1.lat - n.lat > 0 then ⟨p1.lon, p1.lat + units⟩ else ⟨p1.lon, p1.lat - units⟩
    else
      let gradient := (p1.lat - n.lat) / (p1.lon - n.lon)
      let units := units / auxDivisor gradient
      if p1.lon - n.lon < 0 then ⟨p1.lon - units, p1.lat - gradient * units⟩
      else if p1.lon - n.lon > 0 then ⟨p1.lon + units, p1.lat + gradient * units⟩
      else p1

/-- interpolation.cc:39-107 `get_auxiliary_point`; `nbs` is `neighbours()` -/
noncomputable def auxPoint (nbs : Nat → List (Option Nat)) (coords : Nat → Point) (e1 e2 : Nat) : Point :=
  auxPosition (coords e1) (coords e2) ((auxNeighbour e2 (nbs e1) none).map coords)

/-- interpolation.cc:109-133 `compute_interpolation`: the points -/
noncomputable def computeInterpolation (nbs : Nat → List (Option Nat)) (coords : Nat → Point) (e1 e2 : Nat) : List Point :=
  let a1 := auxPoint nbs coords e1 e2
  let a2 := auxPoint nbs coords e2 e1
  (Osm.counters 101 1).map fun (counter : Nat) => bezierCurve (coords e1) a1 a2 (coords e2) ((counter : ℝ) / 100)

end Soro.Globe
