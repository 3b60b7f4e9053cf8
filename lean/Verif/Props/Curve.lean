import Verif.Proof.Curve
import Verif.Props.Gps

/-! Properties C124 to C126: the curves between stations in the OSM export. -/

namespace Soro
open Globe Real

/-! ### C124: the curves stay near the elements they connect -/

/-- C124. The curve starts at its first and ends at its last point. -/
theorem C124_ends (p1 p2 p3 p4 : Point) (h1 : p1.OnGlobe) (h4 : p4.OnGlobe) (l1 : |p1.lon| ≤ 180) (l4 : |p4.lon| ≤ 180) :
    bezierCurve p1 p2 p3 p4 0 = p1 ∧ bezierCurve p1 p2 p3 p4 1 = p4 := by
  have e0 : ∀ a b c d : ℝ, bezierCoord 0 a b c d = a := by intros; unfold bezierCoord; ring
  have e1 : ∀ a b c d : ℝ, bezierCoord 1 a b c d = d := by intros; unfold bezierCoord; ring
  constructor
  · unfold bezierCurve
    simp only [e0]
    exact (C120_roundtrip p1 h1 l1).1
  · unfold bezierCurve
    simp only [e1]
    exact (C120_roundtrip p4 h4 l4).1

/-- C124. The curve stays in every box that has its four points. -/
theorem C124_box (b : Box) (hb : b.OnGlobe) (p1 p2 p3 p4 : Point) (t : ℝ) (h0 : 0 ≤ t) (h1 : t ≤ 1)
    (g1 : b.Has p1) (g2 : b.Has p2) (g3 : b.Has p3) (g4 : b.Has p4) : b.Has (bezierCurve p1 p2 p3 p4 t) :=
  bezier_box hb h0 h1 g1 g2 g3 g4

/-- C124. All points of an interpolation are in the box around the two elements, enlarged by 0.2 π / 180 degrees for every
kilometre between the elements. -/
theorem C124_near (nbs : Nat → List (Option Nat)) (coords : Nat → Point) (e1 e2 : Nat) (hc : ∀ e, (coords e).OnGlobe)
    (hb : (boxAround (coords e1) (coords e2) (0.2 * ((coords e1).distance (coords e2) / 1000) * PI / 180)).OnGlobe) :
    ∀ p ∈ computeInterpolation nbs coords e1 e2,
      (boxAround (coords e1) (coords e2) (0.2 * ((coords e1).distance (coords e2) / 1000) * PI / 180)).Has p := by
  have hu : 0.2 * ((coords e1).distance (coords e2) / 1000) * PI / 180 = auxUnits (coords e1) (coords e2) := by
    rw [auxUnits_eq]; ring
  rw [hu] at hb ⊢
  have hn := auxUnits_nonneg (coords e1) (coords e2)
  have hopt : ∀ (o : Option Nat) n, o.map coords = some n → n.OnGlobe := by
    intro o n h
    cases o with
    | none => simp at h
    | some x => simp only [Option.map_some, Option.some.injEq] at h; rw [← h]; exact hc x
  have near : ∀ (q : Point) (r : Point), (r = coords e1 ∨ r = coords e2) →
      |q.lon - r.lon| ≤ auxUnits (coords e1) (coords e2) → |q.lat - r.lat| ≤ auxUnits (coords e1) (coords e2) →
      (boxAround (coords e1) (coords e2) (auxUnits (coords e1) (coords e2))).Has q := by
    intro q r hr ha hb
    rw [abs_le] at ha hb
    unfold boxAround Box.Has
    dsimp only
    rcases hr with rfl | rfl
    · have := min_le_left (coords e1).lon (coords e2).lon
      have := le_max_left (coords e1).lon (coords e2).lon
      have := min_le_left (coords e1).lat (coords e2).lat
      have := le_max_left (coords e1).lat (coords e2).lat
      refine ⟨?_, ?_, ?_, ?_⟩ <;> linarith
    · have := min_le_right (coords e1).lon (coords e2).lon
      have := le_max_right (coords e1).lon (coords e2).lon
      have := min_le_right (coords e1).lat (coords e2).lat
      have := le_max_right (coords e1).lat (coords e2).lat
      refine ⟨?_, ?_, ?_, ?_⟩ <;> linarith
  have a1 := aux_close (coords e1) (coords e2) ((auxNeighbour e2 (nbs e1) none).map coords) (hc e1) (hopt _)
  have a2 := aux_close (coords e2) (coords e1) ((auxNeighbour e1 (nbs e2) none).map coords) (hc e2) (hopt _)
  rw [auxUnits_comm (coords e2)] at a2
  intro p hp
  unfold computeInterpolation at hp
  rw [counters_eq] at hp
  simp only [List.map_map, List.mem_map, List.mem_range, Function.comp_apply] at hp
  obtain ⟨i, hi, rfl⟩ := hp
  have hcast : ((2 * i + 1 : Nat) : ℝ) ≤ 100 := by exact_mod_cast (by omega : 2 * i + 1 ≤ 100)
  refine bezier_box hb (by positivity) (by linarith) (near _ _ (.inl rfl) ?_ ?_) (near _ _ (.inl rfl) a1.1 a1.2)
    (near _ _ (.inr rfl) a2.1 a2.2) (near _ _ (.inr rfl) ?_ ?_)
  all_goals simpa using hn

/-- two elements, each with a neighbour -/
noncomputable def C124_coords : Nat → Point
  | 0 => ⟨0, 0⟩ | 1 => ⟨0.5, 0⟩ | 2 => ⟨1, 0.5⟩ | _ => ⟨1.25, 0.75⟩

def C124_nbs : Nat → List (Option Nat)
  | 0 => [some 1] | 1 => [none, some 2, some 0] | 2 => [some 1, some 3] | _ => [some 2]

theorem C124_on (e : Nat) : (C124_coords e).OnGlobe := by
  unfold Point.OnGlobe C124_coords
  split <;> norm_num [abs_le]

example : (∀ e, (C124_coords e).OnGlobe) ∧
    (boxAround (C124_coords 1) (C124_coords 2)
      (0.2 * ((C124_coords 1).distance (C124_coords 2) / 1000) * PI / 180)).OnGlobe ∧
    (computeInterpolation C124_nbs C124_coords 1 2).length = 50 := by
  have hd := distance_le (C124_coords 1) (C124_coords 2)
  have hd0 := distance_nonneg (C124_coords 1) (C124_coords 2)
  have hpi := Real.pi_lt_d2
  have hu : 0.2 * ((C124_coords 1).distance (C124_coords 2) / 1000) * PI / 180 ≤ 71 := by
    unfold earthRadius at hd
    unfold PI
    linarith
  refine ⟨C124_on, ?_, by rw [computeInterpolation, List.length_map]; decide⟩
  generalize 0.2 * ((C124_coords 1).distance (C124_coords 2) / 1000) * PI / 180 = u at hu
  constructor <;> simp only [boxAround, C124_coords] <;> norm_num <;> linarith

/-! ### C125: both directions -/

/-- C125. The curve from the second element to the first has the same points in reverse order. -/
theorem C125_reverse (nbs : Nat → List (Option Nat)) (coords : Nat → Point) (e1 e2 : Nat) :
    computeInterpolation nbs coords e2 e1 = (computeInterpolation nbs coords e1 e2).reverse := by
  unfold computeInterpolation
  dsimp only
  rw [counters_eq, ← List.map_reverse, ← List.map_reverse]
  apply List.ext_getElem
  · simp
  · intro i h1 h2
    simp only [List.length_map, List.length_range] at h1
    simp only [List.getElem_map, List.getElem_range, List.getElem_reverse, List.length_range]
    rw [← bezier_reverse]
    congr 1
    have : ((2 * (50 - 1 - i) + 1 : Nat) : ℝ) = 100 - ((2 * i + 1 : Nat) : ℝ) := by
      rw [eq_sub_iff_add_eq]
      exact_mod_cast (by omega : 2 * (50 - 1 - i) + 1 + (2 * i + 1) = 100)
    rw [this]
    ring

/-! ### C126: the direction in which curves leave an element -/

/-- C126. If the neighbour of the element is at least a hundredth of a degree further west or east, the curve leaves the element
straight away from that neighbour. Missing: neighbours that are closer, see `C126_direction_negation`. -/
theorem C126_direction_partial (p1 p2 n : Point) (h : 0.01 ≤ |p1.lon - n.lon|) (hd : 0 < p1.distance p2) :
    Ahead n p1 (auxPosition p1 p2 (some n)) ∧ (auxPosition p1 p2 (some n)).lon ≠ p1.lon := by
  have hu : 0 < auxUnits p1 p2 := by
    rw [auxUnits_eq]
    have := PI_pos
    positivity
  unfold auxPosition
  dsimp only
  rw [sub_zero, if_neg (not_lt.2 h)]
  have hq := auxDivisor_ge ((p1.lat - n.lat) / (p1.lon - n.lon))
  have hpos : 0 < auxUnits p1 p2 / auxDivisor ((p1.lat - n.lat) / (p1.lon - n.lon)) := by positivity
  generalize auxUnits p1 p2 / auxDivisor ((p1.lat - n.lat) / (p1.lon - n.lon)) = u at hpos
  have hne : p1.lon - n.lon ≠ 0 := by
    intro h0
    rw [h0, abs_zero] at h
    norm_num at h
  split_ifs with g1 g2
  · refine ⟨⟨u / -(p1.lon - n.lon), by apply div_nonneg hpos.le; linarith, ?_, ?_⟩, ?_⟩
    · dsimp only; field_simp; ring
    · dsimp only; field_simp; ring
    · dsimp only; linarith
  · refine ⟨⟨u / (p1.lon - n.lon), div_nonneg hpos.le g2.le, ?_, ?_⟩, ?_⟩
    · dsimp only; field_simp; ring
    · dsimp only; field_simp; ring
    · dsimp only; linarith
  · exact absurd (lt_or_gt_of_ne hne) (by tauto)

theorem C126_apart : 0 < (C124_coords 1).distance (C124_coords 2) := by
  refine lt_of_le_of_ne (distance_nonneg _ _) fun h => ?_
  have := (C116_zero (C124_coords 1) (C124_coords 2) (C124_on 1) (C124_on 2)
    (by simp only [C124_coords]; norm_num [abs_le])).1 h.symm
  have := congrArg Point.lon this
  simp only [C124_coords] at this
  norm_num at this

example : (0.01 : ℝ) ≤ |(C124_coords 1).lon - (C124_coords 0).lon| ∧ 0 < (C124_coords 1).distance (C124_coords 2) := by
  refine ⟨?_, C126_apart⟩
  simp only [C124_coords]
  rw [abs_of_pos (by norm_num)]
  norm_num

/-- C126 fails for closer neighbours, for instance for one 550 metres straight to the west: the curve leaves the element to the
south. `equal` has a tolerance of a hundredth, here of a degree. -/
theorem C126_direction_negation : ∃ n p1 p2 : Point, p1.OnGlobe ∧ n.OnGlobe ∧ n.lat = p1.lat ∧ n.lon < p1.lon ∧
    0 < p1.distance p2 ∧ (auxPosition p1 p2 (some n)).lon = p1.lon ∧ (auxPosition p1 p2 (some n)).lat < p1.lat ∧
    ¬ Ahead n p1 (auxPosition p1 p2 (some n)) := by
  have hd := C126_apart
  have hu : 0 < auxUnits (C124_coords 1) (C124_coords 2) := by
    rw [auxUnits_eq]
    have := PI_pos
    positivity
  have ha : auxPosition (C124_coords 1) (C124_coords 2) (some ⟨0.495, 0⟩) =
      ⟨0.5, 0 - auxUnits (C124_coords 1) (C124_coords 2) / 1000000⟩ := by
    unfold auxPosition
    dsimp only
    rw [if_pos, if_neg]
    · rfl
    · simp only [C124_coords]; norm_num
    · simp only [C124_coords]
      rw [abs_of_pos (by norm_num)]
      norm_num
  refine ⟨⟨0.495, 0⟩, C124_coords 1, C124_coords 2, C124_on 1, ?_, rfl, ?_, hd, ?_⟩
  · unfold Point.OnGlobe; norm_num
  · simp only [C124_coords]; norm_num
  · rw [ha]
    refine ⟨rfl, ?_, ?_⟩
    · simp only [C124_coords] at hu ⊢
      linarith
    · rintro ⟨k, _, _, h3⟩
      simp only [C124_coords] at hu h3
      rw [sub_zero, sub_self, mul_zero] at h3
      linarith

theorem auxNeighbour_none (e2 : Nat) (ns : List (Option Nat)) (h : ∀ n, some n ∈ ns → n = e2) (o : Option Nat) :
    auxNeighbour e2 ns o = o := by
  induction ns with
  | nil => rfl
  | cons x xs ih =>
    have ih' := ih fun n hn => h n (List.mem_cons_of_mem _ hn)
    cases x with
    | none => exact ih'
    | some y =>
      rw [auxNeighbour, if_pos (h y (List.mem_cons_self ..))]
      exact ih'

/-- C126. An element without another neighbour is its own auxiliary point. -/
theorem C126_none (nbs : Nat → List (Option Nat)) (coords : Nat → Point) (e1 e2 : Nat)
    (h : ∀ n, some n ∈ nbs e1 → n = e2) : auxPoint nbs coords e1 e2 = coords e1 := by
  unfold auxPoint
  rw [auxNeighbour_none e2 _ h]
  rfl

example : ∀ n, some n ∈ C124_nbs 0 → n = 1 := by
  intro n h
  simpa [C124_nbs] using h

/-- C126. The neighbour is one of the neighbours of the element, and not the other element. -/
theorem C126_neighbour (nbs : Nat → List (Option Nat)) (coords : Nat → Point) (e1 e2 : Nat)
    (h : ∃ n, some n ∈ nbs e1 ∧ n ≠ e2) :
    ∃ n, some n ∈ nbs e1 ∧ n ≠ e2 ∧ auxPoint nbs coords e1 e2 = auxPosition (coords e1) (coords e2) (some (coords n)) := by
  have key : ∀ (ns : List (Option Nat)) (o : Option Nat), (∃ n, some n ∈ ns ∧ n ≠ e2) →
      ∃ n, some n ∈ ns ∧ n ≠ e2 ∧ auxNeighbour e2 ns o = some n := by
    intro ns
    induction ns with
    | nil => rintro o ⟨n, hn, _⟩; cases hn
    | cons x xs ih =>
      intro o hx
      by_cases hxs : ∃ n, some n ∈ xs ∧ n ≠ e2
      · cases x with
        | none =>
          obtain ⟨n, h1, h2, h3⟩ := ih o hxs
          exact ⟨n, List.mem_cons_of_mem _ h1, h2, h3⟩
        | some y =>
          rw [auxNeighbour]
          split
          · obtain ⟨n, h1, h2, h3⟩ := ih o hxs
            exact ⟨n, List.mem_cons_of_mem _ h1, h2, h3⟩
          · obtain ⟨n, h1, h2, h3⟩ := ih (some y) hxs
            exact ⟨n, List.mem_cons_of_mem _ h1, h2, h3⟩
      · obtain ⟨n, h1, h2⟩ := hx
        rcases List.mem_cons.1 h1 with h1 | h1
        · subst h1
          refine ⟨n, List.mem_cons_self .., h2, ?_⟩
          rw [auxNeighbour, if_neg h2]
          refine auxNeighbour_none e2 xs (fun m hm => ?_) _
          by_contra hne
          exact hxs ⟨m, hm, hne⟩
        · exact absurd ⟨n, h1, h2⟩ hxs
  obtain ⟨n, h1, h2, h3⟩ := key (nbs e1) none h
  refine ⟨n, h1, h2, ?_⟩
  unfold auxPoint
  rw [h3]
  rfl

example : ∃ n, some n ∈ C124_nbs 1 ∧ n ≠ 2 := ⟨0, by simp [C124_nbs], by decide⟩

end Soro
