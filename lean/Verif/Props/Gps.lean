import Verif.Proof.Gps
import Mathlib.Geometry.Euclidean.Angle.Unoriented.TriangleInequality
import Mathlib.Analysis.InnerProductSpace.PiL2

/-! Properties C116 to C120: distances, bearings, moves and rotations on the globe, and the positions of all elements. -/

namespace Soro
open Globe Real

/-- Darmstadt and Frankfurt -/
noncomputable def C116_da : Point := ⟨8.65, 49.87⟩
noncomputable def C116_ffm : Point := ⟨8.68, 50.11⟩

theorem C116_da_on : C116_da.OnGlobe := by unfold Point.OnGlobe C116_da; rw [abs_le]; constructor <;> norm_num
theorem C116_ffm_on : C116_ffm.OnGlobe := by unfold Point.OnGlobe C116_ffm; rw [abs_le]; constructor <;> norm_num

/-! ### C116: distance -/

/-- the vector of a point in Euclidean space -/
noncomputable def C116_vec (p : Point) : EuclideanSpace ℝ (Fin 3) := !₂[p.unit.x, p.unit.y, p.unit.z]

theorem C116_inner (p q : Point) : inner ℝ (C116_vec p) (C116_vec q) = p.unit.dot q.unit := by
  unfold C116_vec Vec.dot
  rw [PiLp.inner_apply, Fin.sum_univ_three]
  simp
  ring

theorem C116_norm (p : Point) : ‖C116_vec p‖ = 1 := by
  have h := real_inner_self_eq_norm_sq (C116_vec p)
  rw [C116_inner, unit_sq] at h
  have h0 := norm_nonneg (C116_vec p)
  nlinarith [h, h0]

/-- C116. The distance between two points is the length of the arc between them: the earth's radius times the angle
between the directions to the two points, as seen from the centre of the earth. -/
theorem C116_arc (p q : Point) :
    p.distance q = earthRadius * InnerProductGeometry.angle (C116_vec p) (C116_vec q) := by
  rw [distance_eq, InnerProductGeometry.angle, C116_inner, C116_norm, C116_norm]
  simp [up]

/-- C116. The distance is symmetric, never negative, at most half the circumference of the earth, and it satisfies the
triangle inequality. -/
theorem C116_metric (p q r : Point) :
    p.distance q = q.distance p ∧ 0 ≤ p.distance q ∧ p.distance q ≤ π * earthRadius ∧
      p.distance r ≤ p.distance q + q.distance r := by
  refine ⟨?_, distance_nonneg p q, distance_le p q, ?_⟩
  · rw [C116_arc, C116_arc, InnerProductGeometry.angle_comm]
  · rw [C116_arc, C116_arc, C116_arc, ← mul_add]
    exact mul_le_mul_of_nonneg_left (InnerProductGeometry.angle_le_angle_add_angle _ _ _) earthRadius_pos.le

/-- C116. Two points with latitudes on the globe and longitudes less than a full turn apart have the distance zero only
if they are the same point. -/
theorem C116_zero (p q : Point) (hp : p.OnGlobe) (hq : q.OnGlobe) (hl : |p.lon - q.lon| ≤ 360) :
    p.distance q = 0 ↔ p = q := by
  constructor
  · intro h
    rw [distance_eq] at h
    have h1 : arccos (up p q) = 0 := by
      rcases mul_eq_zero.1 h with h | h
      · exact absurd h earthRadius_pos.ne'
      · exact h
    have h2 : 1 ≤ up p q := Real.arccos_eq_zero.1 h1
    obtain ⟨_, h3⟩ := up_bound p q
    have h4 := comp_sq p q
    have hup : up p q = 1 := le_antisymm h3 h2
    rw [hup] at h4
    have hno : no p q = 0 := by nlinarith [sq_nonneg (no p q), sq_nonneg (ea p q)]
    have hea : ea p q = 0 := by nlinarith [sq_nonneg (no p q), sq_nonneg (ea p q)]
    have hu := unit_comb p q
    rw [hup, hno, hea, ← unit_as_comb] at hu
    have hlt := abs_lt.1 (lat_lt p hp)
    refine unit_inj p q hq hlt.1.le hlt.2.le ?_ hu.symm
    rw [← toRad_sub]
    unfold toRad
    have h5 := PI_pos
    have h6 := PI_lt_pi
    rw [abs_div, abs_mul, abs_of_pos h5, abs_of_pos (by norm_num : (0 : ℝ) < 180)]
    have : |p.lon - q.lon| * PI ≤ 360 * PI := mul_le_mul_of_nonneg_right hl h5.le
    linarith
  · rintro rfl
    rw [distance_eq]
    have : up p p = 1 := unit_sq p
    rw [this, Real.arccos_one, mul_zero]

example : C116_da.OnGlobe ∧ C116_ffm.OnGlobe ∧ |C116_da.lon - C116_ffm.lon| ≤ 360 := by
  refine ⟨C116_da_on, C116_ffm_on, ?_⟩
  unfold C116_da C116_ffm
  rw [abs_le]; constructor <;> norm_num

/-! ### C117: move and bearing -/

/-- C117. Moving from a point by a distance `d` with a bearing leads along the great circle that starts in the direction
of the bearing, measured clockwise from the north, to the point at the angle `d / radius`. -/
theorem C117_great_circle (p : Point) (hp : p.OnGlobe) (d b : ℝ) :
    (p.move d b).unit = Vec.comb (cos (d / earthRadius)) (sin (d / earthRadius) * cos (toRad b))
      (sin (d / earthRadius) * sin (toRad b)) p.unit p.north p.east := (unit_move p hp d b).1

/-- C117. The point reached by moving is as far away as was moved. -/
theorem C117_distance (p : Point) (hp : p.OnGlobe) (d b : ℝ) (h0 : 0 ≤ d) (h1 : d ≤ π * earthRadius) :
    p.distance (p.move d b) = d := distance_move p hp d b h0 h1

example : C116_da.OnGlobe ∧ (0 : ℝ) ≤ 400 ∧ 400 ≤ π * earthRadius := by
  refine ⟨C116_da_on, by norm_num, ?_⟩
  have := Real.pi_gt_three
  unfold earthRadius
  nlinarith

/-- C117. Moving by the distance and with the bearing of a point leads to this very point. -/
theorem C117_inverse (p q : Point) (hp : p.OnGlobe) (hq : q.OnGlobe) (hl : |q.lon - p.lon| ≤ 180) :
    p.move (p.distance q) (p.bearing q) = q := by
  have := rotate_zero p q hp hq hl
  unfold rotateAround at this
  rwa [add_zero] at this

example : |C116_ffm.lon - C116_da.lon| ≤ 180 := by
  unfold C116_da C116_ffm
  rw [abs_le]; constructor <;> norm_num

/-! ### C118: rotation -/

/-- C118. Rotating a point around an anchor keeps its distance from the anchor, and rotating two points by the same angle
keeps their distance from each other; rotating by zero changes nothing. -/
theorem C118_rigid (anchor p q : Point) (ha : anchor.OnGlobe) (w : ℝ) :
    anchor.distance (rotateAround p anchor w) = anchor.distance p ∧
      (rotateAround p anchor w).distance (rotateAround q anchor w) = p.distance q ∧
      (p.OnGlobe → |p.lon - anchor.lon| ≤ 180 → rotateAround p anchor 0 = p) := by
  refine ⟨?_, ?_, fun hp hl => rotate_zero anchor p ha hp hl⟩
  · rw [distance_eq, distance_eq, up_of_comb _ _ _ _ _ (unit_rotate anchor p ha w)]
  · apply distance_of_unit
    rw [unit_rotate anchor p ha w, unit_rotate anchor q ha w, dot_comb]
    have h : p.unit.dot q.unit = up anchor p * up anchor q + no anchor p * no anchor q + ea anchor p * ea anchor q := by
      conv_lhs => rw [unit_comb anchor p, unit_comb anchor q]
      rw [dot_comb]
    rw [h]
    have := Real.sin_sq_add_cos_sq (toRad w)
    linear_combination (no anchor p * no anchor q + ea anchor p * ea anchor q) * this

example : C116_da.OnGlobe := C116_da_on

/-- C118. Rotations around the same anchor add up: the second one turns the result of the first. -/
theorem C118_add (anchor p : Point) (ha : anchor.OnGlobe) (v w : ℝ) :
    (rotateAround (rotateAround p anchor v) anchor w).unit = (rotateAround p anchor (v + w)).unit := by
  have h := unit_rotate anchor p ha v
  rw [unit_rotate anchor _ ha w, unit_rotate anchor p ha (v + w), up_of_comb _ _ _ _ _ h, no_of_comb _ _ _ _ _ h,
    ea_of_comb _ _ _ _ _ h, toRad_add, Real.cos_add, Real.sin_add]
  congr 1 <;> ring

/-- C118 fails for full turns: because the constant `PI` is 3.1415, a rotation by 360 degrees moves every point but the
anchor and the point opposite to it. -/
theorem C118_full_turn_negation (anchor p : Point) (ha : anchor.OnGlobe) (h0 : anchor.distance p ≠ 0)
    (h1 : anchor.distance p ≠ π * earthRadius) : rotateAround p anchor 360 ≠ p := by
  intro heq
  have hu := unit_rotate anchor p ha 360
  rw [heq] at hu
  have hn := no_of_comb _ _ _ _ _ hu
  have he := ea_of_comb _ _ _ _ _ hu
  have hne : no anchor p ^ 2 + ea anchor p ^ 2 ≠ 0 := by
    intro hz
    have hc := comp_sq anchor p
    have hup : up anchor p ^ 2 = 1 := by linarith
    rcases sq_eq_one_iff_of_side hup with h | h
    · apply h0; rw [distance_eq, h, Real.arccos_one, mul_zero]
    · apply h1; rw [distance_eq, h, Real.arccos_neg_one, mul_comm]
  have hcos : (no anchor p ^ 2 + ea anchor p ^ 2) * cos (toRad 360) = no anchor p ^ 2 + ea anchor p ^ 2 := by
    linear_combination -no anchor p * hn - ea anchor p * he
  have hc1 : cos (toRad 360) = 1 := by
    have := mul_left_cancel₀ hne (hcos.trans (mul_one _).symm)
    exact this
  have h360 : toRad 360 = 2 * PI := by unfold toRad; ring
  rw [h360] at hc1
  have hp := PI_pos
  have hpi := PI_lt_pi
  have := (Real.cos_eq_one_iff_of_lt_of_lt (by linarith [Real.pi_pos]) (by linarith)).1 hc1
  linarith
where
  sq_eq_one_iff_of_side {x : ℝ} (h : x ^ 2 = 1) : x = 1 ∨ x = -1 := sq_eq_one_iff_of_ne_zero' h
  sq_eq_one_iff_of_ne_zero' {x : ℝ} (h : x ^ 2 = 1) : x = 1 ∨ x = -1 := by
    have : (x - 1) * (x + 1) = 0 := by linear_combination h
    rcases mul_eq_zero.1 this with h | h
    · left; linarith
    · right; linarith

example : (⟨0, 0⟩ : Point).OnGlobe ∧ (⟨0, 0⟩ : Point).distance ((⟨0, 0⟩ : Point).move 1000 0) ≠ 0 ∧
    (⟨0, 0⟩ : Point).distance ((⟨0, 0⟩ : Point).move 1000 0) ≠ π * earthRadius := by
  have h : (⟨0, 0⟩ : Point).OnGlobe := by unfold Point.OnGlobe; simp
  have hp := Real.pi_gt_three
  have hr : earthRadius = 6378137 := rfl
  have hd : (⟨0, 0⟩ : Point).distance ((⟨0, 0⟩ : Point).move 1000 0) = 1000 :=
    C117_distance _ h _ _ (by norm_num) (by rw [hr]; nlinarith)
  rw [hd]
  refine ⟨h, by norm_num, ?_⟩
  rw [hr]
  intro h
  nlinarith

/-- C118. The rotation that is chosen for a station is a multiple of five degrees below a full turn, and with none of
these the borders are closer to the borders of the neighbouring stations (`M` is the largest double). -/
theorem C118_best (M : ℝ) (coords el : Nat → Point) (r : Nat → ℝ) (i : Nat) (s : Station)
    (hM : s.borders.length * (π * earthRadius) < M) :
    (∃ k < 72, bestRotation M coords el r i s = (5 * k : Nat)) ∧
      ∀ k < 72, gaps coords el r i s (bestRotation M coords el r i s) ≤ gaps coords el r i s (5 * k : Nat) := by
  simp only [← score_eq]
  exact bestLoop_range _ M ((score_le coords el r i s _).trans_lt hM)

example : (([⟨1, 1, 2⟩] : List Globe.Border).length : ℝ) * (π * earthRadius) < 10 ^ 30 := by
  have := Real.pi_lt_four
  unfold earthRadius
  simp only [List.length_cons, List.length_nil]
  norm_num
  linarith [show (4 : ℝ) * 6378137 < 10 ^ 30 by norm_num]

/-- C118. In the end every element of a station is turned around the station by one and the same multiple of five degrees
below a full turn. No other such multiple brings the borders closer to the borders of the neighbouring stations, as those
were turned after two of the three passes, by multiples of five degrees as well. -/
theorem C118_final (M : ℝ) (nowhere : Point) (coords : Nat → Point) (st : Nat → Station) (count : Nat)
    (l : Nat → Layout.Pos) (hn : (((List.range count).map fun i => (i, st i)).map fun s => s.2.elements).flatten.Nodup)
    (hM : ∀ i, (st i).borders.length * (π * earthRadius) < M) :
    let placed := placeAll coords l ((List.range count).map fun i => (i, st i)) (fun _ => nowhere)
    ∃ before after : Nat → Nat, (∀ i, before i < 72 ∧ after i < 72) ∧
      (∀ i < count, ∀ e ∈ (st i).elements,
        layoutToGps M nowhere coords st count l e = rotateAround (placed e) (coords i) (5 * after i : Nat)) ∧
      ∀ i, ∀ k < 72, gaps coords placed (fun j => (5 * before j : Nat)) i (st i) (5 * after i : Nat) ≤
        gaps coords placed (fun j => (5 * before j : Nat)) i (st i) (5 * k : Nat) := by
  intro placed
  let r1 : Nat → ℝ := fun i => bestRotation M coords placed (fun _ => 0) i (st i)
  let r2 : Nat → ℝ := fun i => bestRotation M coords placed r1 i (st i)
  let r3 : Nat → ℝ := fun i => bestRotation M coords placed r2 i (st i)
  have h2 := fun i => (C118_best M coords placed r1 i (st i) (hM i)).1
  choose before hb hbe using h2
  have hr2 : r2 = fun j => ((5 * before j : Nat) : ℝ) := funext hbe
  have h3 := fun i => (C118_best M coords placed r2 i (st i) (hM i)).1
  choose after ha hae using h3
  refine ⟨before, after, fun i => ⟨hb i, ha i⟩, ?_, ?_⟩
  · intro i hi e he
    have hmem : (i, st i) ∈ (List.range count).map fun i => (i, st i) := List.mem_map.2 ⟨i, List.mem_range.2 hi, rfl⟩
    have := rotateAll_at coords r3 placed _ hn placed i (st i) hmem e he
    rw [show r3 i = _ from hae i] at this
    exact this
  · intro i k hk
    have := (C118_best M coords placed r2 i (st i) (hM i)).2 k hk
    rw [hae i, hr2] at this
    exact this

/-- two neighbouring stations with two elements each -/
def C118_st : Nat → Station := fun i =>
  if i < 2 then ⟨[2 * i, 2 * i + 1], [⟨2 * i, 1 - i, 2 * (1 - i)⟩]⟩ else ⟨[], []⟩

example : ((((List.range 2).map fun i => (i, C118_st i)).map fun s => s.2.elements).flatten.Nodup) ∧
    ∀ i, ((C118_st i).borders.length : ℝ) * (π * earthRadius) < 10 ^ 30 := by
  refine ⟨by decide, fun i => ?_⟩
  have := Real.pi_lt_four
  unfold earthRadius C118_st
  split
  · norm_num
    linarith [show (4 : ℝ) * 6378137 < 10 ^ 30 by norm_num]
  · norm_num

/-! ### C119: positions of elements -/

/-- the distance of an element from the centre of its station in the layout -/
noncomputable def C119_offset (l : Nat → Layout.Pos) (els : List Nat) (e : Nat) : ℝ :=
  sqrt ((((l e).x : ℝ) - (Layout.stationCenter l els).x) ^ 2 + (((l e).y : ℝ) - (Layout.stationCenter l els).y) ^ 2)

theorem C119_polarDist (x y cx cy : ℝ) :
    polarDist ((x - cx) * 10) ((y - cy) * 10) = 10 * sqrt ((x - cx) ^ 2 + (y - cy) ^ 2) := by
  unfold polarDist
  rw [show ((x - cx) * 10) ^ 2 + ((y - cy) * 10) ^ 2 = 10 ^ 2 * ((x - cx) ^ 2 + (y - cy) ^ 2) by ring,
    Real.sqrt_mul (by positivity), Real.sqrt_sq (by norm_num)]

/-- C119. In the end every element is ten metres per unit of the layout away from the coordinates of its station, as the
element is from the centre of the station in the layout, whatever rotations are chosen; and any two elements of a station
are as far apart as they were before the station was rotated. -/
theorem C119_distances (M : ℝ) (nowhere : Point) (coords : Nat → Point) (st : Nat → Station) (count : Nat)
    (l : Nat → Layout.Pos) (hn : (((List.range count).map fun i => (i, st i)).map fun s => s.2.elements).flatten.Nodup)
    (i : Nat) (hi : i < count) (hon : (coords i).OnGlobe) (e : Nat) (he : e ∈ (st i).elements)
    (hsmall : 10 * C119_offset l (st i).elements e ≤ π * earthRadius) :
    (coords i).distance (layoutToGps M nowhere coords st count l e) = 10 * C119_offset l (st i).elements e ∧
      ∀ f ∈ (st i).elements,
        let placed := placeAll coords l ((List.range count).map fun i => (i, st i)) (fun _ => nowhere)
        (layoutToGps M nowhere coords st count l e).distance (layoutToGps M nowhere coords st count l f) =
          (placed e).distance (placed f) := by
  have hmem : (i, st i) ∈ (List.range count).map fun i => (i, st i) := List.mem_map.2 ⟨i, List.mem_range.2 hi, rfl⟩
  unfold layoutToGps
  simp only
  rw [rotateAll_at coords _ _ _ hn _ i (st i) hmem e he]
  constructor
  · rw [(C118_rigid (coords i) _ ⟨0, 0⟩ hon _).1, placeAll_at coords l _ hn _ i (st i) hmem e he]
    unfold placeElement
    rw [C119_polarDist]
    unfold C119_offset at hsmall ⊢
    exact distance_move _ hon _ _ (by positivity) hsmall
  · intro f hf
    rw [rotateAll_at coords _ _ _ hn _ i (st i) hmem f hf]
    exact (C118_rigid (coords i) _ _ hon _).2.1

/-- two elements side by side -/
def C119_l : Nat → Layout.Pos := fun e => ⟨e, 0⟩

theorem C119_l_center : Layout.stationCenter C119_l [0, 1] = ⟨1 / 2, 0⟩ := by decide +kernel

example : ((((List.range 2).map fun i => (i, (⟨[2 * i, 2 * i + 1], []⟩ : Station))).map fun s => s.2.elements).flatten.Nodup)
    ∧ C116_da.OnGlobe ∧ 1 ∈ [2 * 0, 2 * 0 + 1] ∧ 10 * C119_offset C119_l [2 * 0, 2 * 0 + 1] 1 ≤ π * earthRadius := by
  refine ⟨by decide, C116_da_on, by decide, ?_⟩
  unfold C119_offset
  simp only [Nat.mul_zero, Nat.zero_add]
  rw [C119_l_center]
  have h : √((((C119_l 1).x : ℝ) - ((1 / 2 : ℚ) : ℝ)) ^ 2 + (((C119_l 1).y : ℝ) - ((0 : ℚ) : ℝ)) ^ 2) = 1 / 2 := by
    have : (((C119_l 1).x : ℝ) - ((1 / 2 : ℚ) : ℝ)) ^ 2 + (((C119_l 1).y : ℝ) - ((0 : ℚ) : ℝ)) ^ 2 = (1 / 2) ^ 2 := by
      unfold C119_l
      push_cast
      norm_num
    rw [this, Real.sqrt_sq (by norm_num)]
  rw [h]
  have := Real.pi_gt_three
  unfold earthRadius
  linarith

/-- C119. Before its station is rotated, an element that lies above the centre in the layout (`dy < 0`) is put in exactly
the direction of its offset: `dx` leads to the south and `dy` to the west. -/
theorem C119_direction_partial (station : Point) (hon : station.OnGlobe) (x y cx cy : ℝ) (hy : y < cy) :
    let q := placeElement station x y cx cy
    let r := polarDist ((x - cx) * 10) ((y - cy) * 10)
    r * station.north.dot q.unit = -((x - cx) * 10) * sin (r / earthRadius) ∧
      r * station.east.dot q.unit = -((y - cy) * 10) * sin (r / earthRadius) := by
  simp only
  have hu := unit_move station hon (polarDist ((x - cx) * 10) ((y - cy) * 10)) (polarBearing ((x - cx) * 10) ((y - cy) * 10))
  have hn := no_of_comb _ _ _ _ _ hu.1
  have he := ea_of_comb _ _ _ _ _ hu.1
  unfold no at hn
  unfold ea at he
  unfold placeElement
  rw [hn, he]
  have hneg : atan2 ((y - cy) * 10) (-((x - cx) * 10)) < 0 := by
    unfold atan2
    rw [Complex.arg_neg_iff]
    simp only
    linarith
  have hb : toRad (polarBearing ((x - cx) * 10) ((y - cy) * 10)) = -atan2 ((y - cy) * 10) (-((x - cx) * 10)) := by
    unfold polarBearing
    simp only
    have h : toDeg (atan2 ((y - cy) * 10) (-((x - cx) * 10))) ≤ 0 := by
      unfold toDeg
      have := PI_pos
      apply div_nonpos_of_nonpos_of_nonneg
      · linarith
      · exact this.le
    rw [if_pos h, abs_of_nonpos h]
    have : toRad (-toDeg (atan2 ((y - cy) * 10) (-((x - cx) * 10)))) =
        -toRad (toDeg (atan2 ((y - cy) * 10) (-((x - cx) * 10)))) := by unfold toRad; ring
    rw [this, toRad_toDeg]
  rw [hb, Real.cos_neg, Real.sin_neg]
  have e1 := cos_atan2 (-((x - cx) * 10)) ((y - cy) * 10)
  have e2 := sin_atan2 (-((x - cx) * 10)) ((y - cy) * 10)
  unfold polarDist
  rw [neg_sq] at e1 e2
  constructor
  · linear_combination sin (sqrt (((x - cx) * 10) ^ 2 + ((y - cy) * 10) ^ 2) / earthRadius) * e1
  · linear_combination -sin (sqrt (((x - cx) * 10) ^ 2 + ((y - cy) * 10) ^ 2) / earthRadius) * e2

example : C116_da.OnGlobe ∧ (3 : ℝ) < 5 := ⟨C116_da_on, by norm_num⟩

/-- C119 fails for the elements below the centre: their bearing is computed as `360 - bearing`, and a full turn of 360
degrees is `2 * 3.1415` for the code. An element exactly below the centre should be exactly in the west of the station,
but never is. -/
theorem C119_direction_negation (station : Point) (hon : station.OnGlobe) (cx cy dy : ℝ) (hy : 0 < dy)
    (hd : dy * 10 < earthRadius) :
    station.north.dot (placeElement station cx (cy + dy) cx cy).unit ≠ 0 := by
  have hu := unit_move station hon (polarDist ((cx - cx) * 10) ((cy + dy - cy) * 10))
    (polarBearing ((cx - cx) * 10) ((cy + dy - cy) * 10))
  have hn := no_of_comb _ _ _ _ _ hu.1
  unfold no at hn
  unfold placeElement
  rw [hn, sub_self, zero_mul, show (cy + dy - cy) * 10 = dy * 10 by ring]
  have hpi := PI_pos
  have hlt := PI_lt_pi
  have hat : atan2 (dy * 10) (-0) = π / 2 := by
    unfold atan2
    rw [Complex.arg_eq_pi_div_two_iff]
    simp only [neg_zero, true_and]
    positivity
  have hb : toRad (polarBearing 0 (dy * 10)) = 2 * PI - π / 2 := by
    unfold polarBearing
    simp only
    rw [hat]
    have : ¬ toDeg (π / 2) ≤ 0 := by
      unfold toDeg
      rw [not_le]
      have := Real.pi_pos
      positivity
    rw [if_neg this]
    have h2 : toRad (360 - toDeg (π / 2)) = toRad 360 - toRad (toDeg (π / 2)) := toRad_sub _ _
    rw [h2, toRad_toDeg]
    unfold toRad; ring
  have hdist : polarDist 0 (dy * 10) = dy * 10 := by
    unfold polarDist
    rw [show (0 : ℝ) ^ 2 + (dy * 10) ^ 2 = (dy * 10) ^ 2 by ring, Real.sqrt_sq (by positivity)]
  rw [hb, hdist]
  have hr := earthRadius_pos
  have hs : 0 < sin (dy * 10 / earthRadius) := by
    apply Real.sin_pos_of_pos_of_lt_pi (by positivity)
    have : dy * 10 / earthRadius < 1 := by rw [div_lt_one hr]; exact hd
    linarith [Real.pi_gt_three]
  have hc : cos (2 * PI - π / 2) < 0 := by
    rw [Real.cos_sub_pi_div_two, ← Real.sin_sub_two_pi]
    have : sin (2 * PI - 2 * π) = -sin (2 * π - 2 * PI) := by rw [← Real.sin_neg]; congr 1; ring
    rw [this]
    have : 0 < sin (2 * π - 2 * PI) := by
      apply Real.sin_pos_of_pos_of_lt_pi (by linarith)
      have h4 := Real.pi_lt_four
      unfold PI
      linarith
    linarith
  exact (mul_neg_of_pos_of_neg hs hc).ne

example : C116_da.OnGlobe ∧ (0 : ℝ) < 5 ∧ (5 : ℝ) * 10 < earthRadius := by
  refine ⟨C116_da_on, by norm_num, ?_⟩
  unfold earthRadius; norm_num

/-! ### C120: cartesian coordinates -/

/-- C120. A point on the globe is recovered from its cartesian coordinates, which lie on the sphere. -/
theorem C120_roundtrip (p : Point) (hp : p.OnGlobe) (hl : |p.lon| ≤ 180) :
    p.toCartesian.toGps = p ∧
      p.toCartesian.x ^ 2 + p.toCartesian.y ^ 2 + p.toCartesian.z ^ 2 = earthRadius ^ 2 := by
  have hr := earthRadius_pos
  have hc := cos_lat_pos p hp
  have hlt := abs_lt.1 (lat_lt p hp)
  have hlon : |toRad p.lon| < π := by
    unfold toRad
    have h5 := PI_pos
    have h6 := PI_lt_pi
    rw [abs_div, abs_mul, abs_of_pos h5, abs_of_pos (by norm_num : (0 : ℝ) < 180)]
    have : |p.lon| * PI ≤ 180 * PI := mul_le_mul_of_nonneg_right hl h5.le
    linarith
  have hlon' := abs_lt.1 hlon
  constructor
  · unfold Point.toCartesian Vec.toGps
    simp only
    rw [atan2_polar _ _ (by positivity) hlon'.1 hlon'.2.le, mul_div_cancel_left₀ _ hr.ne',
      Real.arcsin_sin hlt.1.le hlt.2.le, toDeg_toRad, toDeg_toRad]
  · unfold Point.toCartesian
    simp only
    have h1 := Real.sin_sq_add_cos_sq (toRad p.lat)
    have h2 := Real.sin_sq_add_cos_sq (toRad p.lon)
    linear_combination earthRadius ^ 2 * h1 + earthRadius ^ 2 * cos (toRad p.lat) ^ 2 * h2

example : C116_da.OnGlobe ∧ |C116_da.lon| ≤ 180 := by
  refine ⟨C116_da_on, ?_⟩
  unfold C116_da
  rw [abs_le]; constructor <;> norm_num

/-- C120. Conversely every vector on the sphere is recovered from its longitude and latitude. -/
theorem C120_inverse (v : Vec) (hv : v.x ^ 2 + v.y ^ 2 + v.z ^ 2 = earthRadius ^ 2) : v.toGps.toCartesian = v := by
  have hr := earthRadius_pos
  unfold Vec.toGps Point.toCartesian
  simp only [toRad_toDeg]
  have hz : (v.z / earthRadius) ^ 2 ≤ 1 := by
    rw [div_pow, div_le_one (by positivity)]
    nlinarith [sq_nonneg v.x, sq_nonneg v.y]
  have hab := abs_le.1 ((sq_le_one_iff_abs_le_one _).1 hz)
  have hcos : earthRadius * cos (arcsin (v.z / earthRadius)) = sqrt (v.x ^ 2 + v.y ^ 2) := by
    rw [Real.cos_arcsin, ← Real.sqrt_sq hr.le, ← Real.sqrt_mul (by positivity), Real.sqrt_sq hr.le]
    congr 1
    field_simp
    linarith
  rw [hcos, cos_atan2, sin_atan2, Real.sin_arcsin hab.1 hab.2, mul_div_cancel₀ _ hr.ne']

example : (⟨earthRadius, 0, 0⟩ : Vec).x ^ 2 + (⟨earthRadius, 0, 0⟩ : Vec).y ^ 2 + (⟨earthRadius, 0, 0⟩ : Vec).z ^ 2 =
    earthRadius ^ 2 := by simp

end Soro
