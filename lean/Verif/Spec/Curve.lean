import Verif.Model.Curve
import Verif.Spec.Gps

/-! Boxes of coordinates, and straight lines on the map. -/

namespace Soro.Globe

/-- longitudes from `w` to `e`, latitudes from `s` to `n` -/
structure Box where
  w : ℝ
  e : ℝ
  s : ℝ
  n : ℝ

/-- a box that neither leaves the globe nor crosses the date line, and is at most half of the globe wide -/
structure Box.OnGlobe (b : Box) : Prop where
  west : -180 ≤ b.w
  east : b.e ≤ 180
  south : -90 ≤ b.s
  north : b.n ≤ 90
  wide : b.e - b.w ≤ 180

def Box.Has (b : Box) (p : Point) : Prop := b.w ≤ p.lon ∧ p.lon ≤ b.e ∧ b.s ≤ p.lat ∧ p.lat ≤ b.n

/-- the smallest box with both points, enlarged by `u` on all sides -/
def boxAround (p q : Point) (u : ℝ) : Box :=
  ⟨min p.lon q.lon - u, max p.lon q.lon + u, min p.lat q.lat - u, max p.lat q.lat + u⟩

/-- `a` lies on the line through `n` and `p` on the map, on the side of `p` away from `n`, or is `p` -/
def Ahead (n p a : Point) : Prop := ∃ k, 0 ≤ k ∧ a.lon - p.lon = k * (p.lon - n.lon) ∧ a.lat - p.lat = k * (p.lat - n.lat)

end Soro.Globe
