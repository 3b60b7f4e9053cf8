import Verif.Proof.Runtime
import Verif.Spec.Runtime

/-
The times of the events of an interval.
-/

namespace Soro.Runtime

open Soro.Physics Soro.Runtime.Spec

/-! ### Looking for the time -/

/-- the first result far enough is later for a greater distance -/
theorem find_mono {l : List Result} {o x y : Rat} (hl : l.Pairwise (fun a b : Result => a.time < b.time)) (hxy : x ≤ y) {r s : Result}
    (hr : l.find? (fun r => decide (o + r.dist ≥ x)) = some r) (hs : l.find? (fun r => decide (o + r.dist ≥ y)) = some s) :
    r.time ≤ s.time := by
  induction l with
  | nil => simp at hr
  | cons a l ih =>
    rw [List.pairwise_cons] at hl
    by_cases hx : o + a.dist ≥ x
    · rw [List.find?_cons_of_pos (by simpa using hx)] at hr
      obtain rfl := Option.some.inj hr
      rcases List.mem_cons.mp (List.mem_of_find?_eq_some hs) with rfl | h
      · exact le_refl _
      · exact (hl.1 s h).le
    · rw [List.find?_cons_of_neg (by simpa using hx)] at hr
      rw [List.find?_cons_of_neg (by simp; simp at hx; linarith)] at hs
      exact ih hl.2 hr hs

/-- the first result far enough is no later than any that is far enough -/
theorem find_le {l : List Result} {o x : Rat} (hl : l.Pairwise (fun a b : Result => a.time < b.time)) {s : Result} (hs : s ∈ l)
    (hx : x ≤ o + s.dist) : ∃ r ∈ l, l.find? (fun r => decide (o + r.dist ≥ x)) = some r ∧ r.time ≤ s.time := by
  induction l with
  | nil => simp at hs
  | cons a l ih =>
    rw [List.pairwise_cons] at hl
    by_cases h : o + a.dist ≥ x
    · refine ⟨a, by simp, List.find?_cons_of_pos (by simpa using h), ?_⟩
      rcases List.mem_cons.mp hs with rfl | hs
      · exact le_refl _
      · exact (hl.1 s hs).le
    · rcases List.mem_cons.mp hs with rfl | hs
      · exact absurd hx h
      · obtain ⟨r, h1, h2, h3⟩ := ih hl.2 hs
        exact ⟨r, by simp [h1], by rw [List.find?_cons_of_neg (by simpa using h)]; exact h2, h3⟩

variable {length : Rat} {p : Phases}

theorem accel_nonneg (h : PhasesOk length p) : 0 ≤ p.accel.time := by
  rcases h.accel with ⟨-, h1⟩ | ⟨r, hr, h1, -⟩
  · rw [h1]; exact le_refl _
  · rw [← h1]; exact h.accels.2 r hr

theorem coast_nonneg (h : PhasesOk length p) : 0 ≤ p.coast.time := by
  rcases h.coast with ⟨-, h1⟩ | h1
  · rw [h1]; exact le_refl _
  · exact h.coasts.2 _ h1

theorem deaccel_nonneg (h : PhasesOk length p) : 0 ≤ p.deaccel.time := by
  rcases h.deaccel with ⟨-, h1⟩ | h1
  · rw [h1]; exact le_refl _
  · exact h.deaccels.2 _ h1

/-- time of an event and the phase it is in -/
theorem eventTime_cases (h : PhasesOk length p) {x : Rat} (hx : x ≤ length) (h0 : 0 < length) :
    ∃ t, eventTime p x = some t ∧ 0 ≤ t ∧
    ((p.accels ≠ [] ∧ x ≤ p.accel.dist ∧ t ≤ p.accel.time ∧
        ∃ r, p.accels.find? (fun r => decide (0 + r.dist ≥ x)) = some r ∧ t = r.time) ∨
     (¬ (p.accels ≠ [] ∧ x ≤ p.accel.dist) ∧ p.coasts ≠ [] ∧ x ≤ p.accel.dist + p.coast.dist ∧ p.accel.time ≤ t ∧
        t ≤ p.accel.time + p.coast.time ∧
        ∃ r, p.coasts.find? (fun r => decide (p.accel.dist + r.dist ≥ x)) = some r ∧ t = p.accel.time + r.time) ∨
     (¬ (p.accels ≠ [] ∧ x ≤ p.accel.dist) ∧ ¬ (p.coasts ≠ [] ∧ x ≤ p.accel.dist + p.coast.dist) ∧
        p.accel.time + p.coast.time ≤ t ∧ t ≤ p.accel.time + p.coast.time + p.deaccel.time ∧
        ∃ r, p.deaccels.find? (fun r => decide (p.accel.dist + p.coast.dist + r.dist ≥ x)) = some r ∧
          t = p.accel.time + p.coast.time + r.time)) := by
  have ha := accel_nonneg h
  have hc := coast_nonneg h
  unfold eventTime
  by_cases h1 : p.accels ≠ [] ∧ x ≤ p.accel.dist
  · rw [if_pos h1]
    rcases h.accel with ⟨h2, -⟩ | ⟨s, hs, hst, hsd⟩
    · exact absurd h2 h1.1
    · obtain ⟨r, hr, hf, hle⟩ := find_le (o := 0) (x := x) h.accels.1 hs (by linarith [h1.2])
      have hf' : p.accels.find? (fun r => decide (r.dist ≥ x)) = some r := by
        simpa using hf
      refine ⟨r.time, by rw [hf']; rfl, h.accels.2 r hr, Or.inl ⟨h1.1, h1.2, by linarith, r, hf, rfl⟩⟩
  · rw [if_neg h1]
    by_cases h2 : p.coasts ≠ [] ∧ x ≤ p.accel.dist + p.coast.dist
    · rw [if_pos h2]
      rcases h.coast with ⟨h3, -⟩ | hs
      · exact absurd h3 h2.1
      · obtain ⟨r, hr, hf, hle⟩ := find_le (o := p.accel.dist) (x := x) h.coasts.1 hs h2.2
        have := h.coasts.2 r hr
        refine ⟨p.accel.time + r.time, by rw [hf]; rfl, by linarith, Or.inr (Or.inl ⟨h1, h2.1, h2.2, by linarith, by linarith, r, hf, rfl⟩)⟩
    · rw [if_neg h2]
      have h3 : p.deaccels ≠ [] ∧ x ≤ p.accel.dist + p.coast.dist + p.deaccel.dist := by
        refine ⟨fun h4 => ?_, by rw [h.sum]; exact hx⟩
        rcases h.deaccel with ⟨-, h5⟩ | h5
        · have hsum := h.sum
          rw [h5] at hsum
          simp only [zeroResult, add_zero] at hsum
          rcases h.coast with ⟨h6, h7⟩ | h6
          · rw [h7] at hsum
            simp only [zeroResult, add_zero] at hsum
            rcases h.accel with ⟨h8, h9⟩ | ⟨r, hr, -⟩
            · rw [h9] at hsum
              simp only [zeroResult] at hsum
              linarith
            · exact h1 ⟨List.ne_nil_of_mem hr, by linarith⟩
          · exact h2 ⟨List.ne_nil_of_mem h6, by linarith⟩
        · rw [h4] at h5
          simp at h5
      rw [if_pos h3]
      rcases h.deaccel with ⟨h4, -⟩ | hs
      · exact absurd h4 h3.1
      · obtain ⟨r, hr, hf, hle⟩ := find_le (o := p.accel.dist + p.coast.dist) (x := x) h.deaccels.1 hs h3.2
        have := h.deaccels.2 r hr
        refine ⟨p.accel.time + p.coast.time + r.time, by rw [hf]; rfl, by linarith,
          Or.inr (Or.inr ⟨h1, h2, by linarith, by linarith, r, hf, rfl⟩)⟩

/-- the whole time of the interval -/
def total (p : Phases) : Rat := p.accel.time + p.coast.time + p.deaccel.time

theorem eventTime_some (h : PhasesOk length p) {x : Rat} (hx : x ≤ length) (h0 : 0 < length) :
    ∃ t, eventTime p x = some t ∧ 0 ≤ t ∧ t ≤ total p := by
  have ha := accel_nonneg h
  have hc := coast_nonneg h
  have hb := deaccel_nonneg h
  obtain ⟨t, h1, h2, h3⟩ := eventTime_cases h hx h0
  refine ⟨t, h1, h2, ?_⟩
  unfold total
  rcases h3 with h3 | h3 | h3
  · linarith [h3.2.2.1]
  · linarith [h3.2.2.2.2.1]
  · linarith [h3.2.2.2.1]

/-- an event further along the way is not reached earlier -/
theorem eventTime_mono (h : PhasesOk length p) {x y : Rat} (hxy : x ≤ y) (hy : y ≤ length) (h0 : 0 < length) {t u : Rat}
    (ht : eventTime p x = some t) (hu : eventTime p y = some u) : t ≤ u := by
  obtain ⟨t', h1, -, h2⟩ := eventTime_cases h (hxy.trans hy) h0
  obtain ⟨u', h3, -, h4⟩ := eventTime_cases h hy h0
  rw [ht] at h1
  rw [hu] at h3
  obtain rfl := Option.some.inj h1
  obtain rfl := Option.some.inj h3
  rcases h4 with ⟨h5, h6, h7, r, h8, h9⟩ | ⟨h5, h6, h7, h8, h9, r, h10, h11⟩ | ⟨h5, h6, h7, h8, r, h9, h10⟩
  · rcases h2 with ⟨g5, g6, g7, s, g8, g9⟩ | ⟨g5, -⟩ | ⟨g5, -⟩
    · rw [g9, h9]
      exact find_mono h.accels.1 hxy g8 h8
    · exact absurd ⟨h5, hxy.trans h6⟩ g5
    · exact absurd ⟨h5, hxy.trans h6⟩ g5
  · rcases h2 with ⟨g5, g6, g7, s, g8, g9⟩ | ⟨g5, g6, g7, g8, g9, s, g10, g11⟩ | ⟨g5, g6, -⟩
    · linarith
    · rw [g11, h11]
      have := find_mono h.coasts.1 hxy g10 h10
      linarith
    · exact absurd ⟨h6, hxy.trans h7⟩ g6
  · rcases h2 with ⟨g5, g6, g7, s, g8, g9⟩ | ⟨g5, g6, g7, g8, g9, s, g10, g11⟩ | ⟨g5, g6, g7, g8, s, g9, g10⟩
    · linarith [coast_nonneg h]
    · linarith
    · rw [g10, h10]
      have := find_mono h.deaccels.1 hxy g9 h9
      linarith

end Soro.Runtime
