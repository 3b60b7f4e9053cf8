import Verif.Model.Traversal

/-
Model of the layout of the infrastructure: `src/infrastructure/layout/layout.cc`, the station coordinates of
`src/infrastructure/layout/layout_to_gps.cc` and `get_bounding_box` (`include/soro/utls/coordinates/gps.h`).

Doubles are rationals. Elements and stations are their ids; a vector that is indexed by ids is a function of the id.
-/

namespace Soro.Layout
open Soro.Trav

/-- `layout::coordinates` (include/soro/infrastructure/layout/layout.h:12-19) -/
structure Pos where
  x : Rat
  y : Rat
  deriving DecidableEq, Repr

/-- `v[i] = a` -/
def put {β : Type} (v : Nat → β) (i : Nat) (a : β) : Nat → β := fun j => if j = i then a else v j

/-- `std::abs` -/
def absR (q : Rat) : Rat := if q < 0 then -q else q

/-! ### layout.cc -/

/-- layout.cc:44-60: the loop over the elements of a section. `start_coords` is a reference into the layout, so it is
read again for every element; `x_total`, `y_total`, `left_to_right` and `sloped_upward` are values. -/
def spread (isTrack : Nat → Bool) (first : Nat) (up left : Bool) (xTotal yTotal total : Rat) :
    List Nat → Nat → (Nat → Pos) → (Nat → Pos)
  | [], _, l => l
  | e :: es, idx, l =>
    if !isTrack e then spread isTrack first up left xTotal yTotal total es idx l
    else
      let xDist := xTotal * ((idx : Rat) / (total + 1))
      let yDist := yTotal * ((idx : Rat) / (total + 1))
      let l' := put l e { l e with x := (l first).x + if left then xDist else -xDist }
      let l'' := put l' e { l' e with y := (l' first).y + if up then -yDist else yDist }
      spread isTrack first up left xTotal yTotal total es (idx + 1) l''

/-- layout.cc:31-61: the body of the loop over the sections. An empty section (`front()` of an empty vector) is
undefined behaviour: `none`. -/
def spreadSection (isTrack : Nat → Bool) (l : Nat → Pos) (sec : List Nat) : Option (Nat → Pos) :=
  match sec.head?, sec.getLast? with
  | some a, some b =>
    some (spread isTrack a (decide ((l a).y > (l b).y)) (decide ((l a).x < (l b).x)) (absR ((l a).x - (l b).x))
      (absR ((l a).y - (l b).y)) (sec.length : Rat) sec 0 l)
  | _, _ => none

/-- layout.cc:27-62 `calculate_track_element_coords` -/
def trackCoords (isTrack : Nat → Bool) : List (List Nat) → (Nat → Pos) → Option (Nat → Pos)
  | [], l => some l
  | sec :: secs, l =>
    match spreadSection isTrack l sec with
    | none => none
    | some l' => trackCoords isTrack secs l'

/-- layout.cc:133-139: the least x and y coordinate of the elements of a station; `M` is
`std::numeric_limits<double>::max()` -/
def minCoords (M : Rat) (l : Nat → Pos) (els : List Nat) : Pos :=
  els.foldl (fun m e => ⟨min m.x (l e).x, min m.y (l e).y⟩) ⟨M, M⟩

/-- layout.cc:142-145 -/
def shift (m : Pos) : List Nat → (Nat → Pos) → (Nat → Pos)
  | [], l => l
  | e :: es, l => shift m es (put l e ⟨(l e).x - m.x, (l e).y - m.y⟩)

/-- layout.cc:121-147 `adjust_coordinates`; a station is the list of its elements -/
def adjust (M : Rat) : List (List Nat) → (Nat → Pos) → (Nat → Pos)
  | [], l => l
  | els :: stations, l => adjust M stations (shift (minCoords M l els) els l)

/-- layout.cc:191-194: the end of `get_layout`, after the coordinates of the rail plan have been read -/
def finishLayout (M : Rat) (isTrack : Nat → Bool) (sections stations : List (List Nat)) (l : Nat → Pos) :
    Option (Nat → Pos) :=
  (trackCoords isTrack sections l).map (adjust M stations)

/-- layout_to_gps.cc:259-271 `get_station_center` -/
def stationCenter (l : Nat → Pos) (els : List Nat) : Pos :=
  let r := els.foldl (fun m e => (⟨max m.x (l e).x, max m.y (l e).y⟩ : Pos)) ⟨0, 0⟩
  ⟨r.x / 2, r.y / 2⟩

/-! ### station coordinates -/

/-- gps.h:13-27 -/
structure Gps where
  lon : Rat
  lat : Rat
  deriving DecidableEq, Repr

/-- gps.h:16,25-26: a default constructed gps -/
def Gps.invalid : Gps := ⟨-361, -361⟩

/-- gps.cc:10-12 -/
def Gps.valid (g : Gps) : Bool := decide (absR g.lat ≤ 360) && decide (absR g.lon ≤ 360)

/-- the stations: how many there are, the neighbour of every border of a station
(include/soro/infrastructure/station/station.h:41-65) and the addresses of the stations -/
structure Net where
  count : Nat
  borders : Nat → List Nat
  addr : Nat → Nat

/-- one step of sorting by address -/
def Net.insert (N : Net) (a : Nat) : List Nat → List Nat
  | [] => [a]
  | b :: bs => if N.addr a ≤ N.addr b then a :: b :: bs else b :: N.insert a bs

/-- `ranges::actions::sort` -/
def Net.sort (N : Net) : List Nat → List Nat
  | [] => []
  | a :: as => N.insert a (N.sort as)

/-- station.cc:10-15 `station::neighbours`: sorted by address, without duplicates -/
def Net.neighbours (N : Net) (s : Nat) : List Nat := (N.sort (N.borders s)).eraseDups

/-- layout_to_gps.cc:42-46: the lambda `get_neighbours` -/
def Net.out (N : Net) (given : Nat → Gps) (s : Nat) : List Nat :=
  if (given s).valid then [] else N.neighbours s

/-- layout_to_gps.cc:30-40: the lambda `handle_node`; the state is `neighbours_with_coords` and `dists`, whose missing
entries are 0 -/
def handleNode (given : Nat → Gps) (station : Nat) (st : List (Nat × Nat) × (Nat → Nat)) (s prev : Nat) :
    (List (Nat × Nat) × (Nat → Nat)) × Bool :=
  let dists := put st.2 s (if s = station then 0 else st.2 prev + 1)
  (if (given s).valid then (st.1 ++ [(s, dists s)], dists) else (st.1, dists), false)

/-- traversal.h:116: `bfs` without a callback for edges -/
def ignoreEdge (st : List (Nat × Nat) × (Nat → Nat)) (_ _ : Nat) : (List (Nat × Nat) × (Nat → Nat)) × Bool :=
  (st, false)

/-- layout_to_gps.cc:24-51 `get_neighbours_with_coords`; `none` if the fuel of the traversal is used up -/
def neighboursWithCoords (N : Net) (given : Nat → Gps) (station : Nat) : Option (List (Nat × Nat)) :=
  (traverse .bfs (N.count + 2) station (N.out given) (handleNode given station) ignoreEdge ([], fun _ => 0)).map
    Prod.fst

/-- layout_to_gps.cc:74-86: `d0`; unsigned arithmetic, `maxDist` is above all distances -/
def weight (N : Net) (station maxDist : Nat) (nd : Nat × Nat) : Nat :=
  let d0 := maxDist - nd.2
  if nd.2 = 1 ∧ (N.borders station).count nd.1 > 4 then d0 * 2 else d0

/-- layout_to_gps.cc:64-97: `interpolated` and `total_dist` -/
def weightedSums (N : Net) (given : Nat → Gps) (station maxDist : Nat) : List (Nat × Nat) → Gps → Rat → Gps × Rat
  | [], g, t => (g, t)
  | nd :: nds, g, t =>
    let d0 : Rat := weight N station maxDist nd
    weightedSums N given station maxDist nds ⟨g.lon + (given nd.1).lon * d0, g.lat + (given nd.1).lat * d0⟩ (t + d0)

/-- layout_to_gps.cc:53-98 `interpolate_coordinates` of a station -/
def interpolate (N : Net) (given : Nat → Gps) (station : Nat) : Option Gps :=
  match neighboursWithCoords N given station with
  | none => none
  | some nds =>
    if nds.length < 2 then some .invalid
    else
      let maxDist := nds.foldl (fun m nd => max m nd.2) 0 + 1
      let r := weightedSums N given station maxDist nds ⟨0, 0⟩ 0
      some ⟨r.1.lon / r.2, r.1.lat / r.2⟩

/-- layout_to_gps.cc:109-117: one pass over the stations; the flag is `work_to_do` -/
def pass (N : Net) (given : Nat → Gps) : List Nat → (Nat → Gps) → Bool → Option ((Nat → Gps) × Bool)
  | [], c, w => some (c, w)
  | s :: ss, c, w =>
    if (c s).valid then pass N given ss c w
    else
      match interpolate N given s with
      | none => none
      | some g => pass N given ss (put c s g) g.valid

/-- layout_to_gps.cc:106-118: passes until one leaves `work_to_do` false; `none` if `fuel` passes do not suffice -/
def passes (N : Net) (given : Nat → Gps) : Nat → (Nat → Gps) → Option (Nat → Gps)
  | 0, _ => none
  | fuel + 1, c =>
    match pass N given (List.range N.count) c false with
    | none => none
    | some (c', false) => some c'
    | some (c', true) => passes N given fuel c'

/-- layout_to_gps.cc:123-137: the stations with less than two neighbours -/
def fill (N : Net) (given : Nat → Gps) : List Nat → (Nat → Gps) → Option (Nat → Gps)
  | [], c => some c
  | s :: ss, c =>
    if (c s).valid then fill N given ss c
    else
      match neighboursWithCoords N given s with
      | none => none
      | some [] => fill N given ss (put c s ⟨8, 47⟩)
      | some [(n, depth)] => fill N given ss (put c s ⟨(given n).lon - depth * (1 / 10), (given n).lat⟩)
      | some (_ :: _ :: _) => fill N given ss c

/-- layout_to_gps.cc:100-140 `interpolate_coordinates` of all stations -/
def interpolateAll (N : Net) (fuel : Nat) (given : Nat → Gps) : Option (Nat → Gps) :=
  match passes N given fuel given with
  | none => none
  | some c => fill N given (List.range N.count) c

/-! ### bounding boxes -/

/-- gps.h:29-32 -/
structure Box where
  sw : Gps
  ne : Gps
  deriving DecidableEq, Repr

/-- gps.h:39-44: the body of the loop -/
def Box.grow (b : Box) (p : Gps) : Box :=
  ⟨⟨min b.sw.lon p.lon, min b.sw.lat p.lat⟩, ⟨max b.ne.lon p.lon, max b.ne.lat p.lat⟩⟩

/-- gps.h:34-47 `get_bounding_box` -/
def boundingBox (ps : List Gps) : Box := ps.foldl Box.grow ⟨⟨361, 361⟩, ⟨-361, -361⟩⟩

end Soro.Layout
