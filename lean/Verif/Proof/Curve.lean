import Verif.Spec.Curve
import Verif.Proof.Gps

namespace Soro.Globe
open Real

/-! ### the weights of the curve -/

theorem weight_nonneg {t : ℝ} (h0 : 0 ≤ t) (h1 : t ≤ 1) :
    0 ≤ (1 - t) ^ 3 ∧ 0 ≤ 3 * (1 - t) ^ 2 * t ∧ 0 ≤ 3 * (1 - t) ^ 1 * t ^ 2 ∧ 0 ≤ t ^ 3 := by
  have : 0 ≤ 1 - t := by linarith
  exact ⟨by positivity, by positivity, by positivity, by positivity⟩

theorem bezierCoord_const (t c : ℝ) : bezierCoord t c c c c = c := by
  unfold bezierCoord; ring

theorem bezierCoord_mono {t : ℝ} (h0 : 0 ≤ t) (h1 : t ≤ 1) {a1 a2 a3 a4 b1 b2 b3 b4 : ℝ} (g1 : a1 ≤ b1) (g2 : a2 ≤ b2)
    (g3 : a3 ≤ b3) (g4 : a4 ≤ b4) : bezierCoord t a1 a2 a3 a4 ≤ bezierCoord t b1 b2 b3 b4 := by
  obtain ⟨w1, w2, w3, w4⟩ := weight_nonneg h0 h1
  unfold bezierCoord
  have := mul_le_mul_of_nonneg_left g1 w1
  have := mul_le_mul_of_nonneg_left g2 w2
  have := mul_le_mul_of_nonneg_left g3 w3
  have := mul_le_mul_of_nonneg_left g4 w4
  linarith

theorem bezierCoord_nonneg {t : ℝ} (h0 : 0 ≤ t) (h1 : t ≤ 1) {a1 a2 a3 a4 : ℝ} (g1 : 0 ≤ a1) (g2 : 0 ≤ a2)
    (g3 : 0 ≤ a3) (g4 : 0 ≤ a4) : 0 ≤ bezierCoord t a1 a2 a3 a4 := by
  have := bezierCoord_mono h0 h1 g1 g2 g3 g4
  rwa [bezierCoord_const] at this

theorem bezierCoord_pos {t : ℝ} (h0 : 0 ≤ t) (h1 : t ≤ 1) {a1 a2 a3 a4 : ℝ} (g1 : 0 < a1) (g2 : 0 < a2)
    (g3 : 0 < a3) (g4 : 0 < a4) : 0 < bezierCoord t a1 a2 a3 a4 := by
  have hm : 0 < min (min a1 a2) (min a3 a4) := lt_min (lt_min g1 g2) (lt_min g3 g4)
  have := bezierCoord_mono (a1 := min (min a1 a2) (min a3 a4)) (a2 := min (min a1 a2) (min a3 a4))
    (a3 := min (min a1 a2) (min a3 a4)) (a4 := min (min a1 a2) (min a3 a4)) h0 h1
    ((min_le_left _ _).trans (min_le_left _ _)) ((min_le_left _ _).trans (min_le_right _ _))
    ((min_le_right _ _).trans (min_le_left _ _)) ((min_le_right _ _).trans (min_le_right _ _))
  rw [bezierCoord_const] at this
  linarith

theorem toRad_mono {a b : ℝ} (h : a ≤ b) : toRad a ≤ toRad b := by
  unfold toRad
  have := mul_le_mul_of_nonneg_right h PI_pos.le
  linarith

theorem toDeg_mono {a b : ℝ} (h : a ≤ b) : toDeg a ≤ toDeg b := by
  unfold toDeg
  have := PI_pos
  gcongr

/-! ### latitude -/

theorem sin_lat_mono {a b : ℝ} (ha : -90 ≤ a) (hb : b ≤ 90) (h : a ≤ b) : sin (toRad a) ≤ sin (toRad b) := by
  have h1 := (abs_lt.1 (lat_lt ⟨0, a⟩ (abs_le.2 ⟨ha, h.trans hb⟩))).1
  have h2 := (abs_lt.1 (lat_lt ⟨0, b⟩ (abs_le.2 ⟨ha.trans h, hb⟩))).2
  exact Real.sin_le_sin_of_le_of_le_pi_div_two h1.le h2.le (toRad_mono h)

theorem bezier_lat (p1 p2 p3 p4 : Point) (t : ℝ) : (bezierCurve p1 p2 p3 p4 t).lat =
    toDeg (arcsin (bezierCoord t (sin (toRad p1.lat)) (sin (toRad p2.lat)) (sin (toRad p3.lat)) (sin (toRad p4.lat)))) := by
  have hr := earthRadius_pos.ne'
  unfold bezierCurve Vec.toGps Point.toCartesian bezierCoord
  dsimp only
  congr 2
  field_simp

theorem bezier_lat_le {p1 p2 p3 p4 : Point} {t s n : ℝ} (h0 : 0 ≤ t) (h1 : t ≤ 1) (hs : -90 ≤ s) (hn : n ≤ 90)
    (g1 : s ≤ p1.lat ∧ p1.lat ≤ n) (g2 : s ≤ p2.lat ∧ p2.lat ≤ n) (g3 : s ≤ p3.lat ∧ p3.lat ≤ n)
    (g4 : s ≤ p4.lat ∧ p4.lat ≤ n) : s ≤ (bezierCurve p1 p2 p3 p4 t).lat ∧ (bezierCurve p1 p2 p3 p4 t).lat ≤ n := by
  have hsn : s ≤ n := g1.1.trans g1.2
  have key : ∀ a, -90 ≤ a → a ≤ 90 → toDeg (arcsin (sin (toRad a))) = a := by
    intro a ha hb
    have h := abs_lt.1 (lat_lt ⟨0, a⟩ (abs_le.2 ⟨ha, hb⟩))
    rw [Real.arcsin_sin h.1.le h.2.le, toDeg_toRad]
  rw [bezier_lat]
  constructor
  · conv_lhs => rw [← key s hs (hsn.trans hn), ← bezierCoord_const t (sin (toRad s))]
    refine toDeg_mono (Real.monotone_arcsin (bezierCoord_mono h0 h1 ?_ ?_ ?_ ?_))
    · exact sin_lat_mono hs (g1.2.trans hn) g1.1
    · exact sin_lat_mono hs (g2.2.trans hn) g2.1
    · exact sin_lat_mono hs (g3.2.trans hn) g3.1
    · exact sin_lat_mono hs (g4.2.trans hn) g4.1
  · conv_rhs => rw [← key n (hs.trans hsn) hn, ← bezierCoord_const t (sin (toRad n))]
    refine toDeg_mono (Real.monotone_arcsin (bezierCoord_mono h0 h1 ?_ ?_ ?_ ?_))
    · exact sin_lat_mono (hs.trans g1.1) hn g1.2
    · exact sin_lat_mono (hs.trans g2.1) hn g2.2
    · exact sin_lat_mono (hs.trans g3.1) hn g3.2
    · exact sin_lat_mono (hs.trans g4.1) hn g4.2

/-! ### longitude -/

/-- a vector in the cone between two angles -/
theorem atan2_cone (x y m h : ℝ) (hm1 : -π < m - h) (hm2 : m + h ≤ π) (hh : h < π / 2) (h0 : 0 ≤ h)
    (hc : 0 < x * cos m + y * sin m)
    (h1 : 0 ≤ y * cos (m - h) - x * sin (m - h)) (h2 : 0 ≤ x * sin (m + h) - y * cos (m + h)) :
    m - h ≤ atan2 y x ∧ atan2 y x ≤ m + h := by
  set u := x * cos m + y * sin m with hu
  set v := y * cos m - x * sin m with hv
  have hsq := Real.sin_sq_add_cos_sq m
  have hx : x = u * cos m - v * sin m := by
    rw [hu, hv]; linear_combination (-x) * hsq
  have hy : y = u * sin m + v * cos m := by
    rw [hu, hv]; linear_combination (-y) * hsq
  set w := arctan (v / u) with hw
  have hw1 := Real.neg_pi_div_two_lt_arctan (v / u)
  have hw2 := Real.arctan_lt_pi_div_two (v / u)
  rw [← hw] at hw1 hw2
  have hcw : 0 < cos w := Real.cos_pos_of_mem_Ioo ⟨hw1, hw2⟩
  have htan : v * cos w = u * sin w := by
    have := Real.tan_arctan (v / u)
    rw [← hw, Real.tan_eq_sin_div_cos] at this
    field_simp at this
    linarith
  have hx' : x = (u / cos w) * cos (m + w) := by
    rw [hx, Real.cos_add]
    field_simp
    linear_combination (-(sin m)) * htan
  have hy' : y = (u / cos w) * sin (m + w) := by
    rw [hy, Real.sin_add]
    field_simp
    linear_combination (cos m) * htan
  have hr : 0 < u / cos w := div_pos hc hcw
  have e1 : y * cos (m - h) - x * sin (m - h) = (u / cos w) * sin (w + h) := by
    have : w + h = (m + w) - (m - h) := by ring
    rw [this, Real.sin_sub (m + w) (m - h)]
    rw [hx', hy']; ring
  have e2 : x * sin (m + h) - y * cos (m + h) = (u / cos w) * sin (h - w) := by
    have : h - w = (m + h) - (m + w) := by ring
    rw [this, Real.sin_sub (m + h) (m + w)]
    rw [hx', hy']; ring
  rw [e1] at h1
  rw [e2] at h2
  have s1 : 0 ≤ sin (w + h) := by
    by_contra hn
    have := mul_neg_of_pos_of_neg hr (not_le.1 hn)
    linarith
  have s2 : 0 ≤ sin (h - w) := by
    by_contra hn
    have := mul_neg_of_pos_of_neg hr (not_le.1 hn)
    linarith
  have l1 : 0 ≤ w + h := by
    by_contra hn
    have := Real.sin_neg_of_neg_of_neg_pi_lt (not_le.1 hn) (by linarith)
    linarith
  have l2 : 0 ≤ h - w := by
    by_contra hn
    have := Real.sin_neg_of_neg_of_neg_pi_lt (not_le.1 hn) (by linarith)
    linarith
  have : atan2 y x = m + w := by
    conv_lhs => rw [hx', hy']
    exact atan2_polar _ _ hr (by linarith) (by linarith)
  rw [this]
  constructor <;> linarith

theorem bezier_lon_le {p1 p2 p3 p4 : Point} {t w e : ℝ} (h0 : 0 ≤ t) (h1 : t ≤ 1) (hw : -180 ≤ w) (he : e ≤ 180)
    (hwe : e - w ≤ 180) (o1 : p1.OnGlobe) (o2 : p2.OnGlobe) (o3 : p3.OnGlobe) (o4 : p4.OnGlobe)
    (g1 : w ≤ p1.lon ∧ p1.lon ≤ e) (g2 : w ≤ p2.lon ∧ p2.lon ≤ e) (g3 : w ≤ p3.lon ∧ p3.lon ≤ e)
    (g4 : w ≤ p4.lon ∧ p4.lon ≤ e) : w ≤ (bezierCurve p1 p2 p3 p4 t).lon ∧ (bezierCurve p1 p2 p3 p4 t).lon ≤ e := by
  have hp := PI_pos
  have hl := PI_lt_pi
  have hwe' : w ≤ e := g1.1.trans g1.2
  set m := toRad ((w + e) / 2) with hm
  set h := toRad ((e - w) / 2) with hh
  have em : m - h = toRad w := by rw [hm, hh]; unfold toRad; ring
  have ep : m + h = toRad e := by rw [hm, hh]; unfold toRad; ring
  have r1 : -π < toRad w := by
    have := toRad_mono hw
    unfold toRad at this ⊢
    linarith
  have r2 : toRad e ≤ π := by
    have := toRad_mono he
    unfold toRad at this ⊢
    linarith
  have r3 : h < π / 2 := by
    have := toRad_mono (show (e - w) / 2 ≤ 90 by linarith)
    rw [hh]
    unfold toRad at this ⊢
    linarith
  have r4 : 0 ≤ h := by
    have := toRad_mono (show 0 ≤ (e - w) / 2 by linarith)
    unfold toRad at this
    rw [hh]
    unfold toRad
    linarith
  -- every control point lies in the cone
  have cone : ∀ p : Point, p.OnGlobe → w ≤ p.lon ∧ p.lon ≤ e →
      0 < p.toCartesian.x * cos m + p.toCartesian.y * sin m ∧
      0 ≤ p.toCartesian.y * cos (m - h) - p.toCartesian.x * sin (m - h) ∧
      0 ≤ p.toCartesian.x * sin (m + h) - p.toCartesian.y * cos (m + h) := by
    intro p hpo hpl
    have hc := cos_lat_pos p hpo
    have hr := earthRadius_pos
    have a1 := toRad_mono hpl.1
    have a2 := toRad_mono hpl.2
    rw [← em] at a1
    rw [← ep] at a2
    have c1 : 0 < cos (toRad p.lon - m) := Real.cos_pos_of_mem_Ioo ⟨by linarith, by linarith⟩
    have c2 : 0 ≤ sin (toRad p.lon - (m - h)) := Real.sin_nonneg_of_nonneg_of_le_pi (by linarith) (by linarith)
    have c3 : 0 ≤ sin ((m + h) - toRad p.lon) := Real.sin_nonneg_of_nonneg_of_le_pi (by linarith) (by linarith)
    unfold Point.toCartesian
    dsimp only
    refine ⟨?_, ?_, ?_⟩
    · rw [Real.cos_sub] at c1
      have := mul_pos (mul_pos hr hc) c1
      linarith
    · rw [Real.sin_sub] at c2
      have := mul_nonneg (mul_pos hr hc).le c2
      linarith
    · rw [Real.sin_sub] at c3
      have := mul_nonneg (mul_pos hr hc).le c3
      linarith
  obtain ⟨x1, y1, z1⟩ := cone p1 o1 g1
  obtain ⟨x2, y2, z2⟩ := cone p2 o2 g2
  obtain ⟨x3, y3, z3⟩ := cone p3 o3 g3
  obtain ⟨x4, y4, z4⟩ := cone p4 o4 g4
  have k1 := bezierCoord_pos h0 h1 x1 x2 x3 x4
  have k2 := bezierCoord_nonneg h0 h1 y1 y2 y3 y4
  have k3 := bezierCoord_nonneg h0 h1 z1 z2 z3 z4
  have key := atan2_cone
    (bezierCoord t p1.toCartesian.x p2.toCartesian.x p3.toCartesian.x p4.toCartesian.x)
    (bezierCoord t p1.toCartesian.y p2.toCartesian.y p3.toCartesian.y p4.toCartesian.y) m h
    (by rw [em]; exact r1) (by rw [ep]; exact r2) r3 r4
    (by unfold bezierCoord at k1 ⊢; linarith)
    (by unfold bezierCoord at k2 ⊢; linarith)
    (by unfold bezierCoord at k3 ⊢; linarith)
  rw [em, ep] at key
  unfold bezierCurve Vec.toGps
  dsimp only
  have m1 := toDeg_mono key.1
  have m2 := toDeg_mono key.2
  rw [toDeg_toRad] at m1 m2
  exact ⟨m1, m2⟩

theorem bezier_box {b : Box} (hb : b.OnGlobe) {p1 p2 p3 p4 : Point} {t : ℝ} (h0 : 0 ≤ t) (h1 : t ≤ 1)
    (g1 : b.Has p1) (g2 : b.Has p2) (g3 : b.Has p3) (g4 : b.Has p4) : b.Has (bezierCurve p1 p2 p3 p4 t) := by
  have og : ∀ p, b.Has p → p.OnGlobe := fun p hp => abs_le.2 ⟨hb.south.trans hp.2.2.1, hp.2.2.2.trans hb.north⟩
  have l1 := bezier_lon_le h0 h1 hb.west hb.east hb.wide (og _ g1) (og _ g2) (og _ g3) (og _ g4)
    ⟨g1.1, g1.2.1⟩ ⟨g2.1, g2.2.1⟩ ⟨g3.1, g3.2.1⟩ ⟨g4.1, g4.2.1⟩
  have l2 := bezier_lat_le h0 h1 hb.south hb.north g1.2.2 g2.2.2 g3.2.2 g4.2.2
  exact ⟨l1.1, l1.2, l2.1, l2.2⟩

theorem bezier_reverse (p1 p2 p3 p4 : Point) (t : ℝ) : bezierCurve p4 p3 p2 p1 (1 - t) = bezierCurve p1 p2 p3 p4 t := by
  have : ∀ a b c d : ℝ, bezierCoord (1 - t) d c b a = bezierCoord t a b c d := by
    intro a b c d; unfold bezierCoord; ring
  unfold bezierCurve
  dsimp only
  rw [this, this, this]

/-! ### auxiliary points -/

theorem auxUnits_eq (p1 p2 : Point) : auxUnits p1 p2 = p1.distance p2 * PI / 900000 := by
  rw [distance_eq, up_eq]
  unfold auxUnits
  dsimp only
  have : cos (toRad (p1.lon - p2.lon)) = cos (toRad (p2.lon - p1.lon)) := by
    rw [← Real.cos_neg]; congr 1; unfold toRad; ring
  rw [this]
  ring_nf

theorem auxUnits_nonneg (p1 p2 : Point) : 0 ≤ auxUnits p1 p2 := by
  rw [auxUnits_eq]
  have := distance_nonneg p1 p2
  have := PI_pos
  positivity

theorem auxUnits_comm (p1 p2 : Point) : auxUnits p1 p2 = auxUnits p2 p1 := by
  rw [auxUnits_eq, auxUnits_eq, distance_of_unit p1 p2 p2 p1 (by unfold Vec.dot; ring)]

theorem auxDivisor_ge (g : ℝ) : 1 ≤ auxDivisor g := by
  unfold auxDivisor
  split_ifs <;> norm_num

theorem auxDivisor_grad (g : ℝ) (hg : |g| ≤ 100000000) : |g| ≤ auxDivisor g := by
  unfold auxDivisor
  split_ifs with a b c d e f h
  · exact (abs_lt.2 a).le
  · exact (abs_lt.2 b).le
  · exact (abs_lt.2 c).le
  · exact (abs_lt.2 d).le
  · exact (abs_lt.2 e).le
  · exact (abs_lt.2 f).le
  · exact (abs_lt.2 h).le
  · exact hg

/-- the auxiliary point is close to the element -/
theorem aux_close (p1 p2 : Point) (o : Option Point) (h1 : p1.OnGlobe) (ho : ∀ n, o = some n → n.OnGlobe) :
    |(auxPosition p1 p2 o).lon - p1.lon| ≤ auxUnits p1 p2 ∧ |(auxPosition p1 p2 o).lat - p1.lat| ≤ auxUnits p1 p2 := by
  have hu := auxUnits_nonneg p1 p2
  cases o with
  | none => simp only [auxPosition, sub_self, abs_zero]; exact ⟨hu, hu⟩
  | some n =>
    have hn := abs_le.1 (ho n rfl)
    have hp := abs_le.1 h1
    unfold auxPosition
    dsimp only
    have hsmall : auxUnits p1 p2 / 1000000 ≤ auxUnits p1 p2 := by linarith
    have hpos : 0 ≤ auxUnits p1 p2 / 1000000 := by positivity
    split_ifs with g1 g2 g3 g4
    · simp only [sub_self, abs_zero, add_sub_cancel_left, abs_of_nonneg hpos]
      exact ⟨hu, hsmall⟩
    · simp only [sub_self, abs_zero, sub_sub_cancel_left, abs_neg, abs_of_nonneg hpos]
      exact ⟨hu, hsmall⟩
    all_goals
      have hlon : 0.01 ≤ |p1.lon - n.lon| := by
        rw [sub_zero] at g1
        exact not_lt.1 g1
      have hgrad : |(p1.lat - n.lat) / (p1.lon - n.lon)| ≤ 100000000 := by
        rw [abs_div, div_le_iff₀ (by linarith)]
        have : |p1.lat - n.lat| ≤ 180 := abs_le.2 ⟨by linarith, by linarith⟩
        linarith
      have hd := auxDivisor_grad _ hgrad
      have hd1 := auxDivisor_ge ((p1.lat - n.lat) / (p1.lon - n.lon))
      generalize (p1.lat - n.lat) / (p1.lon - n.lon) = g at *
      have hq : 0 ≤ auxUnits p1 p2 / auxDivisor g := by positivity
      have hq1 : auxUnits p1 p2 / auxDivisor g ≤ auxUnits p1 p2 := div_le_self hu hd1
      have hq2 : |g| * (auxUnits p1 p2 / auxDivisor g) ≤ auxUnits p1 p2 := by
        rw [mul_div_assoc', div_le_iff₀ (by linarith), mul_comm]
        exact mul_le_mul_of_nonneg_left hd hu
    · simp only [sub_sub_cancel_left, abs_neg, abs_mul, abs_of_nonneg hq]
      exact ⟨hq1, hq2⟩
    · simp only [add_sub_cancel_left, abs_mul, abs_of_nonneg hq]
      exact ⟨hq1, hq2⟩
    · simp only [sub_self, abs_zero]; exact ⟨hu, hu⟩

theorem counters_eq : Osm.counters 101 1 = (List.range 50).map (fun i => 2 * i + 1) := by decide

end Soro.Globe
