import Verif.Model.Layout
import Mathlib.Analysis.SpecialFunctions.Complex.Arg
import Mathlib.Analysis.SpecialFunctions.Trigonometric.Inverse

/-
Model of coordinates on the globe: `src/utls/coordinates/gps.cc`, `src/utls/coordinates/cartesian.cc`,
`include/soro/utls/coordinates/polar.h`, `angle.h`, `coordinates.h` and the second half of
`src/infrastructure/layout/layout_to_gps.cc`.

Doubles are real numbers, and `sin`, `cos`, `asin`, `atan2` and `sqrt` are the real functions.
-/

namespace Soro.Globe

/-- coordinates.h:7: the constant the code uses, not the number π -/
noncomputable def PI : ℝ := 3.1415

/-- coordinates.h:8 -/
def earthRadius : ℝ := 6378137

/-- angle.h:9-11 -/
noncomputable def toRad (deg : ℝ) : ℝ := deg * PI / 180

/-- angle.h:13-15 -/
noncomputable def toDeg (rad : ℝ) : ℝ := rad * 180 / PI

/-- `std::atan2` -/
noncomputable def atan2 (y x : ℝ) : ℝ := Complex.arg ⟨x, y⟩

/-- gps.h:13-27 -/
structure Point where
  lon : ℝ
  lat : ℝ

/-- cartesian.h:9-17 -/
structure Vec where
  x : ℝ
  y : ℝ
  z : ℝ

/-- gps.cc:31-35 `to_cartesian` -/
noncomputable def Point.toCartesian (p : Point) : Vec :=
  ⟨earthRadius * Real.cos (toRad p.lat) * Real.cos (toRad p.lon),
    earthRadius * Real.cos (toRad p.lat) * Real.sin (toRad p.lon), earthRadius * Real.sin (toRad p.lat)⟩

/-- cartesian.cc:8-13 `to_gps` -/
noncomputable def Vec.toGps (v : Vec) : Point :=
  ⟨toDeg (atan2 v.y v.x), toDeg (Real.arcsin (v.z / earthRadius))⟩

/-- gps.cc:37-49 `distance` -/
noncomputable def Point.distance (p q : Point) : ℝ :=
  let dLon := toRad (q.lon - p.lon)
  let dLat := toRad (q.lat - p.lat)
  let a := Real.sin (dLat / 2) ^ 2 + Real.sin (dLon / 2) ^ 2 * Real.cos (toRad p.lat) * Real.cos (toRad q.lat)
  let c := 2 * atan2 (Real.sqrt a) (Real.sqrt (1 - a))
  earthRadius * c

/-- gps.cc:51-62 `bearing` -/
noncomputable def Point.bearing (p q : Point) : ℝ :=
  let lat1 := toRad p.lat
  let lat2 := toRad q.lat
  let dLon := toRad (q.lon - p.lon)
  let y := Real.sin dLon * Real.cos lat2
  let x := Real.cos lat1 * Real.sin lat2 - Real.sin lat1 * Real.cos lat2 * Real.cos dLon
  toDeg (atan2 y x)

/-- gps.cc:64-83 `move` -/
noncomputable def Point.move (p : Point) (distance bearing : ℝ) : Point :=
  let radsX := toRad p.lon
  let radsY := toRad p.lat
  let b := toRad bearing
  let cosR := Real.cos (distance / earthRadius)
  let sinR := Real.sin (distance / earthRadius)
  let lat := Real.arcsin (Real.sin radsY * cosR + Real.cos radsY * sinR * Real.cos b)
  let lon := radsX + atan2 (Real.sin b * Real.sin (distance / earthRadius) * Real.cos radsY)
    (cosR - Real.sin radsY * Real.sin lat)
  ⟨toDeg lon, toDeg lat⟩

/-- polar.h:11-17: `dist_` -/
noncomputable def polarDist (x y : ℝ) : ℝ := Real.sqrt (x ^ 2 + y ^ 2)

open Classical in
/-- polar.h:11-17: `bearing_` -/
noncomputable def polarBearing (x y : ℝ) : ℝ :=
  let b := toDeg (atan2 y (-x))
  if b ≤ 0 then |b| else 360 - b

/-! ### layout_to_gps.cc -/

/-- layout_to_gps.cc:142-149 `rotate_point_around_by` -/
noncomputable def rotateAround (point anchor : Point) (by_ : ℝ) : Point :=
  anchor.move (anchor.distance point) (anchor.bearing point + by_)

/-- a border of a station: the ids of its element, of the neighbouring station and of the element there
(station.h:41-65) -/
structure Border where
  element : Nat
  neighbour : Nat
  neighbourElement : Nat

/-- a station: its elements and borders -/
structure Station where
  elements : List Nat
  borders : List Border

/-- layout_to_gps.cc:282-288: where an element is put that has the coordinates `(x, y)` in the layout of a station
with the centre `(cx, cy)` -/
noncomputable def placeElement (station : Point) (x y cx cy : ℝ) : Point :=
  station.move (polarDist ((x - cx) * 10) ((y - cy) * 10)) (polarBearing ((x - cx) * 10) ((y - cy) * 10))

/-- layout_to_gps.cc:276-289: the elements of a station -/
noncomputable def placeStation (station : Point) (l : Nat → Layout.Pos) (c : Layout.Pos) :
    List Nat → (Nat → Point) → (Nat → Point)
  | [], g => g
  | e :: es, g => placeStation station l c es (Layout.put g e (placeElement station (l e).x (l e).y c.x c.y))

/-- layout_to_gps.cc:254-293 `get_element_gps_coords`; the list holds the id of every station and its elements -/
noncomputable def placeAll (coords : Nat → Point) (l : Nat → Layout.Pos) :
    List (Nat × Station) → (Nat → Point) → (Nat → Point)
  | [], g => g
  | (i, s) :: ss, g =>
    placeAll coords l ss (placeStation (coords i) l (Layout.stationCenter l s.elements) s.elements g)

/-- layout_to_gps.cc:182-194: `rotation_score` -/
noncomputable def rotationScore (coords elCoords : Nat → Point) (rotations : Nat → ℝ) (i : Nat) (s : Station)
    (degree : ℝ) : ℝ :=
  s.borders.foldl (fun score b =>
    score + (rotateAround (elCoords b.element) (coords i) degree).distance
      (rotateAround (elCoords b.neighbourElement) (coords b.neighbour) (rotations b.neighbour))) 0

open Classical in
/-- layout_to_gps.cc:179-200: the loop over the degrees; the state is `best_rotation` and `best_rotation_score` -/
noncomputable def bestLoop (score : ℝ → ℝ) : List Nat → ℝ × ℝ → ℝ × ℝ
  | [], st => st
  | d :: ds, st => bestLoop score ds (if score d < st.2 then ((d : ℝ), score d) else st)

/-- layout_to_gps.cc:172-203 `get_best_rotation`; `M` is `std::numeric_limits<double>::max()` -/
noncomputable def bestRotation (M : ℝ) (coords elCoords : Nat → Point) (rotations : Nat → ℝ) (i : Nat) (s : Station) : ℝ :=
  (bestLoop (rotationScore coords elCoords rotations i s) ((List.range 72).map (5 * ·)) (M, M)).1

/-- layout_to_gps.cc:216-221: the passes; in every pass all stations look at the rotations of the pass before -/
noncomputable def bestPasses (M : ℝ) (coords elCoords : Nat → Point) (st : Nat → Station) : Nat → (Nat → ℝ) → (Nat → ℝ)
  | 0, r => r
  | n + 1, r => bestPasses M coords elCoords st n (fun i => bestRotation M coords elCoords r i (st i))

/-- layout_to_gps.cc:163-166: the elements of a station -/
noncomputable def rotateStation (center : Point) (rotation : ℝ) (elCoords : Nat → Point) :
    List Nat → (Nat → Point) → (Nat → Point)
  | [], g => g
  | e :: es, g => rotateStation center rotation elCoords es (Layout.put g e (rotateAround (elCoords e) center rotation))

/-- layout_to_gps.cc:151-170 `rotate_elements` -/
noncomputable def rotateAll (coords : Nat → Point) (rotations : Nat → ℝ) (elCoords : Nat → Point) :
    List (Nat × Station) → (Nat → Point) → (Nat → Point)
  | [], g => g
  | (i, s) :: ss, g =>
    rotateAll coords rotations elCoords ss (rotateStation (coords i) (rotations i) elCoords s.elements g)

/-- layout_to_gps.cc:205-224 `get_best_rotations` and 295-315 `layout_to_gps` after the station coordinates have been
interpolated (`interpolateAll`): the positions of the elements; `nowhere` is the default gps of new vectors. -/
noncomputable def layoutToGps (M : ℝ) (nowhere : Point) (coords : Nat → Point) (st : Nat → Station) (count : Nat)
    (l : Nat → Layout.Pos) : Nat → Point :=
  let stations := (List.range count).map fun i => (i, st i)
  let placed := placeAll coords l stations (fun _ => nowhere)
  let rotations := bestPasses M coords placed st 3 (fun _ => 0)
  rotateAll coords rotations placed stations placed

end Soro.Globe
