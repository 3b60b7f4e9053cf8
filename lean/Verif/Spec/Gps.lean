import Verif.Model.Gps

/-! The geometry of the sphere, stated with vectors in space instead of formulas for longitudes and latitudes. -/

namespace Soro.Globe

/-- the unit vector that points from the centre of the earth to a point -/
noncomputable def Point.unit (p : Point) : Vec :=
  ⟨Real.cos (toRad p.lat) * Real.cos (toRad p.lon), Real.cos (toRad p.lat) * Real.sin (toRad p.lon),
    Real.sin (toRad p.lat)⟩

/-- the direction to the north at a point -/
noncomputable def Point.north (p : Point) : Vec :=
  ⟨-(Real.sin (toRad p.lat) * Real.cos (toRad p.lon)), -(Real.sin (toRad p.lat) * Real.sin (toRad p.lon)),
    Real.cos (toRad p.lat)⟩

/-- the direction to the east at a point -/
noncomputable def Point.east (p : Point) : Vec := ⟨-Real.sin (toRad p.lon), Real.cos (toRad p.lon), 0⟩

def Vec.dot (u v : Vec) : ℝ := u.x * v.x + u.y * v.y + u.z * v.z

/-- `a u + b v + c w` -/
def Vec.comb (a b c : ℝ) (u v w : Vec) : Vec :=
  ⟨a * u.x + b * v.x + c * w.x, a * u.y + b * v.y + c * w.y, a * u.z + b * v.z + c * w.z⟩

/-- a latitude on the globe -/
def Point.OnGlobe (p : Point) : Prop := |p.lat| ≤ 90

/-- how far the borders of station `i`, turned by `d`, are from the borders of their neighbours, which are turned by `r`,
all in all -/
noncomputable def gaps (coords el : Nat → Point) (r : Nat → ℝ) (i : Nat) (s : Station) (d : ℝ) : ℝ :=
  (s.borders.map fun b => (rotateAround (el b.element) (coords i) d).distance
    (rotateAround (el b.neighbourElement) (coords b.neighbour) (r b.neighbour))).sum

end Soro.Globe
