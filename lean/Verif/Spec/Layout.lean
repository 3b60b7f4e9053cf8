import Verif.Model.Layout

/-! What the layout of the infrastructure is expected to be, stated without the loops that compute it. -/

namespace Soro.Layout

/-- the point that divides the way from `a` to `b` in the ratio `q : 1 - q` -/
def between (a b : Pos) (q : Rat) : Pos := ⟨a.x + (b.x - a.x) * q, a.y + (b.y - a.y) * q⟩

/-- the sections have elements, begin and end with an element that is no track element, and every track element belongs
to one place in one section -/
structure Sections (isTrack : Nat → Bool) (sections : List (List Nat)) : Prop where
  ends : ∀ sec ∈ sections, ∃ a b, sec.head? = some a ∧ sec.getLast? = some b ∧ isTrack a = false ∧ isTrack b = false
  once : (sections.flatten.filter isTrack).Nodup

/-- `t` can be reached from `s` over `d` borders, and the stations on the way have no coordinates -/
inductive Via (borders : Nat → List Nat) (known : Nat → Prop) (s : Nat) : Nat → Nat → Prop
  | one {t : Nat} : t ∈ borders s → Via borders known s 1 t
  | more {d u t : Nat} : Via borders known s d u → ¬ known u → t ∈ borders u → Via borders known s (d + 1) t

/-- `t` is a station with coordinates next to `s`, `d` borders away; only stations without coordinates are in between -/
def Nearest (borders : Nat → List Nat) (known : Nat → Prop) (s t d : Nat) : Prop :=
  t ≠ s ∧ known t ∧ Via borders known s d t ∧ ∀ d', Via borders known s d' t → d ≤ d'

/-- a station has coordinates -/
def Known (given : Nat → Gps) (s : Nat) : Prop :=
  -360 ≤ (given s).lon ∧ (given s).lon ≤ 360 ∧ -360 ≤ (given s).lat ∧ (given s).lat ≤ 360

/-- the list of all stations with coordinates next to `s` and how far away they are -/
structure Around (N : Net) (given : Nat → Gps) (s : Nat) (nds : List (Nat × Nat)) : Prop where
  once : (nds.map Prod.fst).Nodup
  all : ∀ t d, (t, d) ∈ nds ↔ Nearest N.borders (Known given) s t d

/-- how much a station counts that is `d` borders away and shares `b` borders, if the farthest one is `D` borders away -/
def share (D d b : Nat) : Rat := ((D + 1 : Rat) - d) * if d = 1 ∧ 4 < b then 2 else 1

/-- `g` is the weighted mean of the coordinates of the stations around `s`: nearer stations count more -/
def Mean (N : Net) (given : Nat → Gps) (s : Nat) (nds : List (Nat × Nat)) (g : Gps) : Prop :=
  ∃ D, (∀ nd ∈ nds, nd.2 ≤ D) ∧ (∃ nd ∈ nds, nd.2 = D) ∧
    let w : Nat × Nat → Rat := fun nd => share D nd.2 ((N.borders s).count nd.1)
    0 < (nds.map w).sum ∧
    g.lon * (nds.map w).sum = (nds.map fun nd => (given nd.1).lon * w nd).sum ∧
    g.lat * (nds.map w).sum = (nds.map fun nd => (given nd.1).lat * w nd).sum

/-- borders lead to stations that exist -/
def Net.Closed (N : Net) : Prop := ∀ s, s < N.count → ∀ t ∈ N.borders s, t < N.count

/-- a point is in a box -/
def Box.Has (b : Box) (p : Gps) : Prop :=
  b.sw.lon ≤ p.lon ∧ p.lon ≤ b.ne.lon ∧ b.sw.lat ≤ p.lat ∧ p.lat ≤ b.ne.lat

end Soro.Layout
