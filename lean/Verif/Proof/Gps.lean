import Verif.Spec.Gps
import Verif.Proof.Layout
import Mathlib.Analysis.Real.Pi.Bounds

namespace Soro.Globe
open Real

theorem PI_pos : 0 < PI := by unfold PI; norm_num

theorem PI_lt_pi : PI < π := by
  unfold PI
  have := Real.pi_gt_d4
  linarith

theorem toRad_toDeg (r : ℝ) : toRad (toDeg r) = r := by
  unfold toRad toDeg
  have := PI_pos.ne'
  field_simp

theorem toDeg_toRad (r : ℝ) : toDeg (toRad r) = r := by
  unfold toRad toDeg
  have := PI_pos.ne'
  field_simp

theorem toRad_sub (a b : ℝ) : toRad (a - b) = toRad a - toRad b := by unfold toRad; ring

theorem toRad_add (a b : ℝ) : toRad (a + b) = toRad a + toRad b := by unfold toRad; ring

theorem earthRadius_pos : 0 < earthRadius := by unfold earthRadius; norm_num

/-- latitudes are strictly within a right angle, because the constant is smaller than π -/
theorem lat_lt (p : Point) (h : p.OnGlobe) : |toRad p.lat| < π / 2 := by
  unfold Point.OnGlobe at h
  have h1 := PI_pos
  have h2 := PI_lt_pi
  unfold toRad
  rw [abs_div, abs_mul, abs_of_pos h1, abs_of_pos (by norm_num : (0 : ℝ) < 180)]
  have : |p.lat| * PI ≤ 90 * PI := mul_le_mul_of_nonneg_right h h1.le
  linarith

theorem cos_lat_pos (p : Point) (h : p.OnGlobe) : 0 < cos (toRad p.lat) :=
  Real.cos_pos_of_mem_Ioo (abs_lt.1 (lat_lt p h))

/-! ### atan2 -/

theorem atan2_polar (r t : ℝ) (hr : 0 < r) (h1 : -π < t) (h2 : t ≤ π) : atan2 (r * sin t) (r * cos t) = t := by
  unfold atan2
  have : (⟨r * cos t, r * sin t⟩ : ℂ) = r * (Complex.cos t + Complex.sin t * Complex.I) := by
    apply Complex.ext
    · simp [← Complex.ofReal_cos, ← Complex.ofReal_sin]
    · simp [← Complex.ofReal_cos, ← Complex.ofReal_sin]
  rw [this]
  exact Complex.arg_mul_cos_add_sin_mul_I hr ⟨h1, h2⟩

theorem norm_mk (x y : ℝ) : ‖(⟨x, y⟩ : ℂ)‖ = sqrt (x ^ 2 + y ^ 2) := by
  rw [Complex.norm_def, Complex.normSq_mk]
  congr 1; ring

theorem cos_atan2 (x y : ℝ) : sqrt (x ^ 2 + y ^ 2) * cos (atan2 y x) = x := by
  have := Complex.norm_mul_cos_arg ⟨x, y⟩
  rw [norm_mk] at this
  exact this

theorem sin_atan2 (x y : ℝ) : sqrt (x ^ 2 + y ^ 2) * sin (atan2 y x) = y := by
  have := Complex.norm_mul_sin_arg ⟨x, y⟩
  rw [norm_mk] at this
  exact this

theorem atan2_scale (r x y : ℝ) (hr : 0 < r) : atan2 (r * y) (r * x) = atan2 y x := by
  unfold atan2
  have : (⟨r * x, r * y⟩ : ℂ) = r * ⟨x, y⟩ := by
    apply Complex.ext <;> simp
  rw [this, Complex.arg_real_mul _ hr]

theorem atan2_range (x y : ℝ) : -π < atan2 y x ∧ atan2 y x ≤ π := ⟨Complex.neg_pi_lt_arg _, Complex.arg_le_pi _⟩

/-! ### the frame of a point -/

/-- components of `q` seen from `p`: upwards, to the north and to the east -/
noncomputable def up (p q : Point) : ℝ := p.unit.dot q.unit
noncomputable def no (p q : Point) : ℝ := p.north.dot q.unit
noncomputable def ea (p q : Point) : ℝ := p.east.dot q.unit

theorem up_eq (p q : Point) : up p q = sin (toRad p.lat) * sin (toRad q.lat) +
    cos (toRad p.lat) * cos (toRad q.lat) * cos (toRad (q.lon - p.lon)) := by
  unfold up Vec.dot Point.unit
  rw [toRad_sub, Real.cos_sub]; ring

theorem no_eq (p q : Point) : no p q = cos (toRad p.lat) * sin (toRad q.lat) -
    sin (toRad p.lat) * cos (toRad q.lat) * cos (toRad (q.lon - p.lon)) := by
  unfold no Vec.dot Point.unit Point.north
  rw [toRad_sub, Real.cos_sub]; ring

theorem ea_eq (p q : Point) : ea p q = sin (toRad (q.lon - p.lon)) * cos (toRad q.lat) := by
  unfold ea Vec.dot Point.unit Point.east
  rw [toRad_sub, Real.sin_sub]; ring

theorem unit_sq (p : Point) : p.unit.dot p.unit = 1 := by
  unfold Vec.dot Point.unit
  have h1 := Real.sin_sq_add_cos_sq (toRad p.lat)
  have h2 := Real.sin_sq_add_cos_sq (toRad p.lon)
  simp only
  linear_combination h1 + cos (toRad p.lat) ^ 2 * h2

/-- the components are those of a unit vector -/
theorem comp_sq (p q : Point) : up p q ^ 2 + no p q ^ 2 + ea p q ^ 2 = 1 := by
  rw [up_eq, no_eq, ea_eq]
  have h1 := Real.sin_sq_add_cos_sq (toRad p.lat)
  have h2 := Real.sin_sq_add_cos_sq (toRad q.lat)
  have h3 := Real.sin_sq_add_cos_sq (toRad (q.lon - p.lon))
  linear_combination (sin (toRad q.lat) ^ 2 + cos (toRad q.lat) ^ 2 * cos (toRad (q.lon - p.lon)) ^ 2) * h1 +
    cos (toRad q.lat) ^ 2 * h3 + h2

theorem up_bound (p q : Point) : -1 ≤ up p q ∧ up p q ≤ 1 := by
  have := comp_sq p q
  rw [← abs_le, ← sq_le_one_iff_abs_le_one]
  nlinarith [sq_nonneg (no p q), sq_nonneg (ea p q)]

/-- a point is determined by its components -/
theorem unit_comb (p q : Point) : q.unit = Vec.comb (up p q) (no p q) (ea p q) p.unit p.north p.east := by
  have h1 := Real.sin_sq_add_cos_sq (toRad p.lat)
  have h2 := Real.sin_sq_add_cos_sq (toRad p.lon)
  unfold Vec.comb up no ea Vec.dot Point.unit Point.north Point.east
  simp only [Vec.mk.injEq]
  refine ⟨?_, ?_, ?_⟩
  · generalize cos (toRad p.lat) = c at *
    generalize sin (toRad p.lat) = s at *
    generalize cos (toRad p.lon) = k at *
    generalize sin (toRad p.lon) = m at *
    generalize cos (toRad q.lat) = c' at *
    generalize sin (toRad q.lat) = s' at *
    generalize cos (toRad q.lon) = k' at *
    generalize sin (toRad q.lon) = m' at *
    linear_combination (-(c' * k') * k ^ 2 - c' * m' * m * k) * h1 - c' * k' * h2
  · generalize cos (toRad p.lat) = c at *
    generalize sin (toRad p.lat) = s at *
    generalize cos (toRad p.lon) = k at *
    generalize sin (toRad p.lon) = m at *
    generalize cos (toRad q.lat) = c' at *
    generalize sin (toRad q.lat) = s' at *
    generalize cos (toRad q.lon) = k' at *
    generalize sin (toRad q.lon) = m' at *
    linear_combination (-(c' * m') * m ^ 2 - c' * k' * m * k) * h1 - c' * m' * h2
  · generalize cos (toRad p.lat) = c at *
    generalize sin (toRad p.lat) = s at *
    generalize cos (toRad p.lon) = k at *
    generalize sin (toRad p.lon) = m at *
    generalize cos (toRad q.lat) = c' at *
    generalize sin (toRad q.lat) = s' at *
    generalize cos (toRad q.lon) = k' at *
    generalize sin (toRad q.lon) = m' at *
    linear_combination -(s' * h1)

/-- the scalar product of two combinations of the frame -/
theorem dot_comb (p : Point) (a b c a' b' c' : ℝ) :
    (Vec.comb a b c p.unit p.north p.east).dot (Vec.comb a' b' c' p.unit p.north p.east) = a * a' + b * b' + c * c' := by
  have h1 := Real.sin_sq_add_cos_sq (toRad p.lat)
  have h2 := Real.sin_sq_add_cos_sq (toRad p.lon)
  unfold Vec.comb Vec.dot Point.unit Point.north Point.east
  simp only
  generalize cos (toRad p.lat) = x at *
  generalize sin (toRad p.lat) = s at *
  generalize cos (toRad p.lon) = k at *
  generalize sin (toRad p.lon) = m at *
  linear_combination (a * a' + b * b') * h1 + (a * a' * x ^ 2 + b * b' * s ^ 2 + c * c' - (a * b' + b * a') * s * x) * h2

theorem comb_inj (p : Point) (a b c a' b' c' : ℝ)
    (h : Vec.comb a b c p.unit p.north p.east = Vec.comb a' b' c' p.unit p.north p.east) : a = a' ∧ b = b' ∧ c = c' := by
  have e1 := dot_comb p 1 0 0 a b c
  have e2 := dot_comb p 0 1 0 a b c
  have e3 := dot_comb p 0 0 1 a b c
  rw [h, dot_comb] at e1 e2 e3
  exact ⟨by linarith, by linarith, by linarith⟩

/-! ### distance -/

theorem hav (p q : Point) :
    sin (toRad (q.lat - p.lat) / 2) ^ 2 + sin (toRad (q.lon - p.lon) / 2) ^ 2 * cos (toRad p.lat) * cos (toRad q.lat) =
      (1 - up p q) / 2 := by
  rw [Real.sin_sq_eq_half_sub, Real.sin_sq_eq_half_sub, up_eq, show 2 * (toRad (q.lat - p.lat) / 2) = toRad (q.lat - p.lat) by ring,
    show 2 * (toRad (q.lon - p.lon) / 2) = toRad (q.lon - p.lon) by ring, toRad_sub q.lat p.lat, Real.cos_sub]
  ring

theorem distance_eq (p q : Point) : p.distance q = earthRadius * arccos (up p q) := by
  unfold Point.distance
  simp only
  rw [hav]
  obtain ⟨h1, h2⟩ := up_bound p q
  have hc : cos (arccos (up p q)) = up p q := Real.cos_arccos h1 h2
  have h0 := Real.arccos_nonneg (up p q)
  have hp := Real.arccos_le_pi (up p q)
  have ha : (1 - up p q) / 2 = sin (arccos (up p q) / 2) ^ 2 := by
    rw [Real.sin_sq_eq_half_sub, show 2 * (arccos (up p q) / 2) = arccos (up p q) by ring, hc]; ring
  have hb : 1 - (1 - up p q) / 2 = cos (arccos (up p q) / 2) ^ 2 := by
    rw [ha]
    have := Real.sin_sq_add_cos_sq (arccos (up p q) / 2)
    linarith
  have hs : 0 ≤ sin (arccos (up p q) / 2) := Real.sin_nonneg_of_nonneg_of_le_pi (by linarith) (by linarith [Real.pi_pos])
  have hcs : 0 ≤ cos (arccos (up p q) / 2) := Real.cos_nonneg_of_neg_pi_div_two_le_of_le (by linarith [Real.pi_pos]) (by linarith)
  rw [hb, ha, Real.sqrt_sq hs, Real.sqrt_sq hcs]
  have := atan2_polar 1 (arccos (up p q) / 2) one_pos (by linarith [Real.pi_pos]) (by linarith [Real.pi_pos])
  rw [one_mul, one_mul] at this
  rw [this]
  ring

/-! ### move -/

/-- moving goes along the great circle in the direction of the bearing -/
theorem unit_move (p : Point) (hp : p.OnGlobe) (d b : ℝ) :
    (p.move d b).unit = Vec.comb (cos (d / earthRadius)) (sin (d / earthRadius) * cos (toRad b))
      (sin (d / earthRadius) * sin (toRad b)) p.unit p.north p.east ∧
    -(π / 2) ≤ toRad (p.move d b).lat ∧ toRad (p.move d b).lat ≤ π / 2 := by
  have hc := cos_lat_pos p hp
  unfold Point.move
  simp only
  unfold Point.unit
  simp only [toRad_toDeg]
  have h1 := Real.sin_sq_add_cos_sq (toRad p.lat)
  have h3 := Real.sin_sq_add_cos_sq (d / earthRadius)
  have h4 := Real.sin_sq_add_cos_sq (toRad b)
  refine ⟨?_, Real.neg_pi_div_two_le_arcsin _, Real.arcsin_le_pi_div_two _⟩
  unfold Vec.comb Point.north Point.east
  simp only
  generalize cos (toRad p.lat) = c at *
  generalize sin (toRad p.lat) = s at *
  generalize cos (d / earthRadius) = C at *
  generalize sin (d / earthRadius) = S at *
  generalize cos (toRad b) = k at *
  generalize sin (toRad b) = m at *
  have hw : (s * C + c * S * k) ^ 2 + ((c * C - s * S * k) ^ 2 + (S * m) ^ 2) = 1 := by
    linear_combination (C ^ 2 + S ^ 2 * k ^ 2) * h1 + h3 + S ^ 2 * h4
  have hle : (s * C + c * S * k) ^ 2 ≤ 1 := by nlinarith [sq_nonneg (c * C - s * S * k), sq_nonneg (S * m)]
  have hab := abs_le.1 ((sq_le_one_iff_abs_le_one _).1 hle)
  have hsin : sin (arcsin (s * C + c * S * k)) = s * C + c * S * k := Real.sin_arcsin hab.1 hab.2
  have hcos : cos (arcsin (s * C + c * S * k)) = sqrt ((c * C - s * S * k) ^ 2 + (S * m) ^ 2) := by
    rw [Real.cos_arcsin]; congr 1; linarith
  have hX : C - s * sin (arcsin (s * C + c * S * k)) = c * (c * C - s * S * k) := by
    rw [hsin]; linear_combination -(C * h1)
  have hY : m * S * c = c * (S * m) := by ring
  rw [hX, hY, atan2_scale _ _ _ hc, hcos, hsin]
  have e1 := cos_atan2 (c * C - s * S * k) (S * m)
  have e2 := sin_atan2 (c * C - s * S * k) (S * m)
  rw [Real.cos_add, Real.sin_add, Vec.mk.injEq]
  generalize atan2 (S * m) (c * C - s * S * k) = t at *
  generalize sqrt ((c * C - s * S * k) ^ 2 + (S * m) ^ 2) = v at *
  refine ⟨?_, ?_, ?_⟩
  · linear_combination cos (toRad p.lon) * e1 - sin (toRad p.lon) * e2
  · linear_combination sin (toRad p.lon) * e1 + cos (toRad p.lon) * e2
  · ring

theorem unit_as_comb (p : Point) : p.unit = Vec.comb 1 0 0 p.unit p.north p.east := by
  unfold Vec.comb; simp

theorem north_as_comb (p : Point) : p.north = Vec.comb 0 1 0 p.unit p.north p.east := by
  unfold Vec.comb; simp

theorem east_as_comb (p : Point) : p.east = Vec.comb 0 0 1 p.unit p.north p.east := by
  unfold Vec.comb; simp

theorem up_of_comb (p q : Point) (a b c : ℝ) (h : q.unit = Vec.comb a b c p.unit p.north p.east) : up p q = a := by
  have := dot_comb p 1 0 0 a b c
  rw [← h, ← unit_as_comb] at this
  unfold up; linarith

theorem no_of_comb (p q : Point) (a b c : ℝ) (h : q.unit = Vec.comb a b c p.unit p.north p.east) : no p q = b := by
  have := dot_comb p 0 1 0 a b c
  rw [← h, ← north_as_comb] at this
  unfold no; linarith

theorem ea_of_comb (p q : Point) (a b c : ℝ) (h : q.unit = Vec.comb a b c p.unit p.north p.east) : ea p q = c := by
  have := dot_comb p 0 0 1 a b c
  rw [← h, ← east_as_comb] at this
  unfold ea; linarith

theorem up_move (p : Point) (hp : p.OnGlobe) (d b : ℝ) : up p (p.move d b) = cos (d / earthRadius) :=
  up_of_comb _ _ _ _ _ (unit_move p hp d b).1

theorem distance_move (p : Point) (hp : p.OnGlobe) (d b : ℝ) (h0 : 0 ≤ d) (h1 : d ≤ π * earthRadius) :
    p.distance (p.move d b) = d := by
  have hr := earthRadius_pos
  rw [distance_eq, up_move p hp, Real.arccos_cos (by positivity) (by rw [div_le_iff₀ hr]; exact h1)]
  field_simp

/-! ### bearing and rotation -/

/-- moving by the distance of a point and its bearing, turned by an angle, turns the components of the point -/
theorem unit_rotate (p q : Point) (hp : p.OnGlobe) (w : ℝ) :
    (rotateAround q p w).unit = Vec.comb (up p q) (no p q * cos (toRad w) - ea p q * sin (toRad w))
      (ea p q * cos (toRad w) + no p q * sin (toRad w)) p.unit p.north p.east := by
  unfold rotateAround
  rw [(unit_move p hp _ _).1, toRad_add, distance_eq, mul_div_cancel_left₀ _ earthRadius_pos.ne']
  obtain ⟨h1, h2⟩ := up_bound p q
  rw [Real.cos_arccos h1 h2, Real.sin_arccos, Real.cos_add, Real.sin_add]
  have hb : toRad (p.bearing q) = atan2 (ea p q) (no p q) := by
    unfold Point.bearing
    simp only
    rw [toRad_toDeg, ea_eq, no_eq]
  have hsq : 1 - up p q ^ 2 = no p q ^ 2 + ea p q ^ 2 := by have := comp_sq p q; linarith
  rw [hb, hsq]
  have e1 := cos_atan2 (no p q) (ea p q)
  have e2 := sin_atan2 (no p q) (ea p q)
  generalize sqrt (no p q ^ 2 + ea p q ^ 2) = v at *
  generalize atan2 (ea p q) (no p q) = t at *
  congr 1
  · linear_combination cos (toRad w) * e1 - sin (toRad w) * e2
  · linear_combination cos (toRad w) * e2 + sin (toRad w) * e1

/-- points with the same vector are the same point, if their longitudes are less than a full circle apart -/
theorem unit_inj (p q : Point) (hq : q.OnGlobe) (hp1 : -(π / 2) ≤ toRad p.lat) (hp2 : toRad p.lat ≤ π / 2)
    (hl : |toRad p.lon - toRad q.lon| < 2 * π) (h : p.unit = q.unit) : p = q := by
  unfold Point.unit at h
  rw [Vec.mk.injEq] at h
  obtain ⟨hx, hy, hz⟩ := h
  have hlt := abs_lt.1 (lat_lt q hq)
  have hlat : toRad p.lat = toRad q.lat := Real.injOn_sin ⟨hp1, hp2⟩ ⟨hlt.1.le, hlt.2.le⟩ hz
  have hc := cos_lat_pos q hq
  rw [hlat] at hx hy
  have hx' := mul_left_cancel₀ hc.ne' hx
  have hy' := mul_left_cancel₀ hc.ne' hy
  have hcos : cos (toRad p.lon - toRad q.lon) = 1 := by
    rw [Real.cos_sub, hx', hy']
    have := Real.sin_sq_add_cos_sq (toRad q.lon)
    linarith
  have hab := abs_lt.1 hl
  have h0 := (Real.cos_eq_one_iff_of_lt_of_lt hab.1 hab.2).1 hcos
  have e1 : p.lon = q.lon := by
    rw [← toDeg_toRad p.lon, ← toDeg_toRad q.lon]; congr 1; linarith
  have e2 : p.lat = q.lat := by rw [← toDeg_toRad p.lat, ← toDeg_toRad q.lat, hlat]
  cases p; cases q
  simp only at e1 e2
  rw [e1, e2]

theorem move_lon (p : Point) (d b : ℝ) : |toRad (p.move d b).lon - toRad p.lon| ≤ π := by
  unfold Point.move
  simp only [toRad_toDeg]
  rw [add_sub_cancel_left, abs_le]
  exact ⟨(atan2_range _ _).1.le, (atan2_range _ _).2⟩

theorem rotate_zero (p q : Point) (hp : p.OnGlobe) (hq : q.OnGlobe) (hl : |q.lon - p.lon| ≤ 180) :
    rotateAround q p 0 = q := by
  have hm := (unit_move p hp (p.distance q) (p.bearing q + 0)).2
  refine unit_inj _ _ hq hm.1 hm.2 ?_ ?_
  · have h1 := move_lon p (p.distance q) (p.bearing q + 0)
    have h2 : |toRad p.lon - toRad q.lon| < π := by
      rw [abs_sub_comm, ← toRad_sub]
      unfold toRad
      have h3 := PI_pos
      have h4 := PI_lt_pi
      rw [abs_div, abs_mul, abs_of_pos h3, abs_of_pos (by norm_num : (0 : ℝ) < 180)]
      have : |q.lon - p.lon| * PI ≤ 180 * PI := mul_le_mul_of_nonneg_right hl h3.le
      linarith
    have h5 := abs_sub_le (toRad (rotateAround q p 0).lon) (toRad p.lon) (toRad q.lon)
    have h6 : |toRad (rotateAround q p 0).lon - toRad p.lon| ≤ π := h1
    linarith
  · rw [unit_rotate p q hp 0]
    have : toRad 0 = 0 := by unfold toRad; simp
    rw [this, Real.cos_zero, Real.sin_zero]
    simp only [mul_one, mul_zero, sub_zero, add_zero]
    exact (unit_comb p q).symm

theorem distance_of_unit (p q p' q' : Point) (h : p.unit.dot q.unit = p'.unit.dot q'.unit) :
    p.distance q = p'.distance q' := by
  rw [distance_eq, distance_eq]
  unfold up
  rw [h]

/-! ### the best rotation -/

theorem bestLoop_spec (score : ℝ → ℝ) (ds : List Nat) (done : List Nat) (st : ℝ × ℝ)
    (hst : st.2 ≤ score st.1 ∧ score st.1 ≤ st.2 ∧ ∃ d ∈ done, st.1 = (d : ℝ)) (hlow : ∀ d ∈ done, st.2 ≤ score d) :
    (∃ d ∈ done ++ ds, (bestLoop score ds st).1 = (d : ℝ)) ∧
      ∀ d ∈ done ++ ds, score (bestLoop score ds st).1 ≤ score d := by
  induction ds generalizing done st with
  | nil =>
    obtain ⟨_, h2, d, hd, h3⟩ := hst
    refine ⟨⟨d, by simpa using hd, h3⟩, ?_⟩
    intro d' hd'
    simp only [bestLoop]
    exact h2.trans (hlow d' (by simpa using hd'))
  | cons d ds ih =>
    rw [show done ++ d :: ds = (done ++ [d]) ++ ds by simp]
    unfold bestLoop
    by_cases h : score d < st.2
    · rw [if_pos h]
      refine ih (done ++ [d]) _ ⟨le_refl _, le_refl _, d, by simp, rfl⟩ ?_
      intro d' hd'
      simp only [List.mem_append, List.mem_singleton] at hd'
      rcases hd' with h' | h'
      · exact h.le.trans (hlow d' h')
      · rw [h']
    · rw [if_neg h]
      obtain ⟨h1, h2, d0, hd0, h3⟩ := hst
      refine ih (done ++ [d]) _ ⟨h1, h2, d0, by simp [hd0], h3⟩ ?_
      intro d' hd'
      simp only [List.mem_append, List.mem_singleton] at hd'
      rcases hd' with h' | h'
      · exact hlow d' h'
      · rw [h']; exact not_lt.1 h

theorem bestLoop_range (score : ℝ → ℝ) (M : ℝ) (h0 : score ((0 : Nat) : ℝ) < M) :
    (∃ k < 72, (bestLoop score ((List.range 72).map (5 * ·)) (M, M)).1 = (5 * k : Nat)) ∧
      ∀ k < 72, score (bestLoop score ((List.range 72).map (5 * ·)) (M, M)).1 ≤ score (5 * k : Nat) := by
  have hr : (List.range 72).map (5 * ·) = 0 :: ((List.range 71).map fun k => 5 * (k + 1)) := by decide
  have hfirst : bestLoop score (0 :: ((List.range 71).map fun k => 5 * (k + 1))) (M, M) =
      bestLoop score ((List.range 71).map fun k => 5 * (k + 1)) (((0 : Nat) : ℝ), score ((0 : Nat) : ℝ)) := by
    rw [bestLoop, if_pos h0]
  obtain ⟨⟨d, hd, h1⟩, h2⟩ := bestLoop_spec score ((List.range 71).map fun k => 5 * (k + 1)) [0]
    (((0 : Nat) : ℝ), score ((0 : Nat) : ℝ)) ⟨le_refl _, le_refl _, 0, by simp, rfl⟩ (by simp)
  have hmem : ∀ d, d ∈ [0] ++ (List.range 71).map (fun k => 5 * (k + 1)) ↔ ∃ k < 72, d = 5 * k := by
    intro d
    rw [show [0] ++ (List.range 71).map (fun k => 5 * (k + 1)) = (List.range 72).map (5 * ·) by decide, List.mem_map]
    simp only [List.mem_range]
    constructor
    · rintro ⟨k, hk, rfl⟩; exact ⟨k, hk, rfl⟩
    · rintro ⟨k, hk, rfl⟩; exact ⟨k, hk, rfl⟩
  rw [hr, hfirst]
  constructor
  · obtain ⟨k, hk, rfl⟩ := (hmem d).1 hd
    exact ⟨k, hk, h1⟩
  · intro k hk
    exact h2 _ ((hmem _).2 ⟨k, hk, rfl⟩)

theorem distance_le (p q : Point) : p.distance q ≤ π * earthRadius := by
  rw [distance_eq, mul_comm]
  exact mul_le_mul_of_nonneg_right (Real.arccos_le_pi _) earthRadius_pos.le

theorem distance_nonneg (p q : Point) : 0 ≤ p.distance q := by
  rw [distance_eq]
  exact mul_nonneg earthRadius_pos.le (Real.arccos_nonneg _)

theorem score_le (coords el : Nat → Point) (r : Nat → ℝ) (i : Nat) (s : Station) (d : ℝ) :
    rotationScore coords el r i s d ≤ s.borders.length * (π * earthRadius) := by
  unfold rotationScore
  have key : ∀ (bs : List Border) (x : ℝ), bs.foldl (fun score b =>
      score + (rotateAround (el b.element) (coords i) d).distance
        (rotateAround (el b.neighbourElement) (coords b.neighbour) (r b.neighbour))) x ≤
      x + bs.length * (π * earthRadius) := by
    intro bs
    induction bs with
    | nil => intro x; simp
    | cons b bs ih =>
      intro x
      rw [List.foldl_cons]
      refine (ih _).trans ?_
      have := distance_le (rotateAround (el b.element) (coords i) d)
        (rotateAround (el b.neighbourElement) (coords b.neighbour) (r b.neighbour))
      rw [List.length_cons]
      push_cast
      linarith
  have := key s.borders 0
  linarith

theorem score_eq (coords el : Nat → Point) (r : Nat → ℝ) (i : Nat) (s : Station) (d : ℝ) :
    rotationScore coords el r i s d = gaps coords el r i s d := by
  unfold rotationScore gaps
  have key : ∀ (bs : List Border) (x : ℝ), bs.foldl (fun score b =>
      score + (rotateAround (el b.element) (coords i) d).distance
        (rotateAround (el b.neighbourElement) (coords b.neighbour) (r b.neighbour))) x =
      x + (bs.map fun b => (rotateAround (el b.element) (coords i) d).distance
        (rotateAround (el b.neighbourElement) (coords b.neighbour) (r b.neighbour))).sum := by
    intro bs
    induction bs with
    | nil => intro x; simp
    | cons b bs ih =>
      intro x
      rw [List.foldl_cons, ih, List.map_cons, List.sum_cons]
      ring
  rw [key, zero_add]

/-! ### all elements -/

theorem placeStation_other (g0 : Point) (l : Nat → Layout.Pos) (c : Layout.Pos) (es : List Nat) (g : Nat → Point) (j : Nat)
    (hj : j ∉ es) : placeStation g0 l c es g j = g j := by
  induction es generalizing g with
  | nil => rfl
  | cons e es ih =>
    simp only [List.mem_cons, not_or] at hj
    rw [placeStation, ih _ hj.2, Layout.put_other _ _ hj.1]

theorem placeStation_at (g0 : Point) (l : Nat → Layout.Pos) (c : Layout.Pos) (es : List Nat) (g : Nat → Point) (j : Nat)
    (hj : j ∈ es) : placeStation g0 l c es g j = placeElement g0 (l j).x (l j).y c.x c.y := by
  induction es generalizing g with
  | nil => cases hj
  | cons e es ih =>
    rw [placeStation]
    by_cases h : j ∈ es
    · exact ih _ h
    · have : j = e := by simpa [h] using hj
      subst this
      rw [placeStation_other _ _ _ _ _ _ h, Layout.put_same]

theorem rotateStation_other (g0 : Point) (w : ℝ) (el : Nat → Point) (es : List Nat) (g : Nat → Point) (j : Nat)
    (hj : j ∉ es) : rotateStation g0 w el es g j = g j := by
  induction es generalizing g with
  | nil => rfl
  | cons e es ih =>
    simp only [List.mem_cons, not_or] at hj
    rw [rotateStation, ih _ hj.2, Layout.put_other _ _ hj.1]

theorem rotateStation_at (g0 : Point) (w : ℝ) (el : Nat → Point) (es : List Nat) (g : Nat → Point) (j : Nat)
    (hj : j ∈ es) : rotateStation g0 w el es g j = rotateAround (el j) g0 w := by
  induction es generalizing g with
  | nil => cases hj
  | cons e es ih =>
    rw [rotateStation]
    by_cases h : j ∈ es
    · exact ih _ h
    · have : j = e := by simpa [h] using hj
      subst this
      rw [rotateStation_other _ _ _ _ _ _ h, Layout.put_same]

theorem placeAll_at (coords : Nat → Point) (l : Nat → Layout.Pos) (ss : List (Nat × Station))
    (hn : (ss.map fun s => s.2.elements).flatten.Nodup) (g : Nat → Point) (i : Nat) (s : Station) (hs : (i, s) ∈ ss)
    (j : Nat) (hj : j ∈ s.elements) :
    placeAll coords l ss g j = placeElement (coords i) (l j).x (l j).y (Layout.stationCenter l s.elements).x
      (Layout.stationCenter l s.elements).y := by
  have other : ∀ (ss : List (Nat × Station)) (g : Nat → Point), j ∉ (ss.map fun s => s.2.elements).flatten →
      placeAll coords l ss g j = g j := by
    intro ss
    induction ss with
    | nil => intro g _; rfl
    | cons x ss ih =>
      intro g h
      obtain ⟨i', s'⟩ := x
      simp only [List.map_cons, List.flatten_cons, List.mem_append, not_or] at h
      rw [placeAll, ih _ h.2, placeStation_other _ _ _ _ _ _ h.1]
  induction ss generalizing g with
  | nil => cases hs
  | cons x ss ih =>
    obtain ⟨i', s'⟩ := x
    simp only [List.map_cons, List.flatten_cons, List.nodup_append] at hn
    rw [placeAll]
    rcases List.mem_cons.1 hs with h | h
    · rw [Prod.mk.injEq] at h
      obtain ⟨rfl, rfl⟩ := h
      rw [other _ _ (fun h => hn.2.2 j hj j h rfl), placeStation_at _ _ _ _ _ _ hj]
    · exact ih hn.2.1 _ h

theorem rotateAll_at (coords : Nat → Point) (r : Nat → ℝ) (el : Nat → Point) (ss : List (Nat × Station))
    (hn : (ss.map fun s => s.2.elements).flatten.Nodup) (g : Nat → Point) (i : Nat) (s : Station) (hs : (i, s) ∈ ss)
    (j : Nat) (hj : j ∈ s.elements) : rotateAll coords r el ss g j = rotateAround (el j) (coords i) (r i) := by
  have other : ∀ (ss : List (Nat × Station)) (g : Nat → Point), j ∉ (ss.map fun s => s.2.elements).flatten →
      rotateAll coords r el ss g j = g j := by
    intro ss
    induction ss with
    | nil => intro g _; rfl
    | cons x ss ih =>
      intro g h
      obtain ⟨i', s'⟩ := x
      simp only [List.map_cons, List.flatten_cons, List.mem_append, not_or] at h
      rw [rotateAll, ih _ h.2, rotateStation_other _ _ _ _ _ _ h.1]
  induction ss generalizing g with
  | nil => cases hs
  | cons x ss ih =>
    obtain ⟨i', s'⟩ := x
    simp only [List.map_cons, List.flatten_cons, List.nodup_append] at hn
    rw [rotateAll]
    rcases List.mem_cons.1 hs with h | h
    · rw [Prod.mk.injEq] at h
      obtain ⟨rfl, rfl⟩ := h
      rw [other _ _ (fun h => hn.2.2 j hj j h rfl), rotateStation_at _ _ _ _ _ _ hj]
    · exact ih hn.2.1 _ h

end Soro.Globe
