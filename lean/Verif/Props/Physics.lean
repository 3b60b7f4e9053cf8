import Verif.Proof.Physics

/-
C53-C55, C91-C93: driving a train by steps of half a second.
-/

namespace Soro.Physics.Props

open Soro.Physics Soro.Physics.Spec

/-- a vehicle of constant force -/
def exVehicle (force decel : Rat) : Vehicle :=
  { maxSpeed := 40, deceleration := decel, tractive := [{ poly := [0, 0, force], lower := 0, upper := 40 }]
    resistance := [0, 0, 0] }

/-- a train of 100 kilograms -/
def exTrain (force decel maxSpeed : Rat) : Train :=
  { vehicles := [exVehicle force decel], carriageWeight := 100, maxSpeed := maxSpeed }

/-! ### Coasting -/

/-- C54: at positive speed the call ends, the last result has exactly the distance, the speed is the same everywhere, time
and distance grow. The time of the last result is the needed time rounded up to half seconds. -/
theorem C54_coast (v distance : Rat) (hv : 0 < v) (hd : 0 ≤ distance) :
    ∃ l last, Returns (fun fuel => coast fuel v distance) l ∧ l.head? = some { time := 0, dist := 0, speed := v } ∧
      l.getLast? = some last ∧ last.dist = distance ∧
      (∀ r ∈ l, r.speed = v) ∧ TimeGrows l ∧ DistanceNeverDecreases l ∧
      distance ≤ v * last.time ∧ v * last.time < distance + v / 2 := by
  rcases eq_or_lt_of_le hd with h0 | hpos
  · refine ⟨[{ time := 0, dist := 0, speed := v }], { time := 0, dist := 0, speed := v }, ⟨0, fun fuel hf => ?_⟩, rfl, rfl,
      h0, ?_, List.pairwise_singleton _ _, List.pairwise_singleton _ _, ?_, ?_⟩
    · obtain ⟨n, rfl⟩ : ∃ n, fuel = n + 1 := ⟨fuel - 1, by omega⟩
      subst h0
      simp [coast, loop, Outcome.map, changeLastIf]
    · intro r hr
      simp only [List.mem_singleton] at hr
      rw [hr]
    · simp only
      linarith
    · simp only
      linarith
  · obtain ⟨m, hlt, hle, hrun⟩ := coast_runs hv hpos
    refine ⟨_, _, ⟨m + 1, hrun⟩, by simp [List.range_succ_eq_map], List.getLast?_concat, rfl, ?_, ?_, ?_,
      by simpa using hle, ?_⟩
    · intro r hr
      simp only [List.mem_append, List.mem_map, List.mem_singleton] at hr
      rcases hr with ⟨k, -, rfl⟩ | rfl <;> rfl
    · refine pairwise_range_concat _ _ _ (fun i j hij _ => ?_) (fun i hi => ?_)
      · have : (i : Rat) < j := by exact_mod_cast hij
        simp only
        linarith
      · have : (i : Rat) < m + 1 := by exact_mod_cast hi
        simp only
        linarith
    · refine pairwise_range_concat _ _ _ (fun i j hij _ => ?_) (fun i hi => ?_)
      · have : (i : Rat) ≤ j := by exact_mod_cast hij.le
        exact mul_le_mul_of_nonneg_left (by linarith) hv.le
      · have : (i : Rat) ≤ m := by exact_mod_cast (Nat.lt_succ_iff.mp hi)
        have : v * ((i : Rat) / 2) ≤ v * (m / 2) := mul_le_mul_of_nonneg_left (by linarith) hv.le
        simp only
        linarith
    · have : v * (((m : Rat) + 1) / 2) = v * (m / 2) + v / 2 := by ring
      simp only
      linarith

example : (0 : Rat) < 3 ∧ (0 : Rat) ≤ 4 ∧ coast 5 3 4 = .done
    [{ time := 0, dist := 0, speed := 3 }, { time := 1 / 2, dist := 3 / 2, speed := 3 }, { time := 1, dist := 3, speed := 3 },
     { time := 3 / 2, dist := 4, speed := 3 }] := by decide +kernel

/-- C54: at speed zero (or below) and for a positive distance the call never ends. -/
theorem C54_standing (v distance : Rat) (hv : v ≤ 0) (hd : 0 < distance) :
    NeverEnds (fun fuel => coast fuel v distance) := by
  intro fuel
  simp only [coast]
  rw [loop_endless (g := coastStep v) (fun _ => rfl)]
  · rfl
  · intro k
    rw [coastStep_iterate]
    have : v * ((k : Rat) / 2) ≤ 0 := mul_nonpos_of_nonpos_of_nonneg hv (by positivity)
    simp only [decide_eq_true_eq]
    linarith

example : (0 : Rat) ≤ 0 ∧ (0 : Rat) < 1 ∧ coast 100 0 1 = .running := by decide +kernel

/-! ### Braking -/

/-- C53 without the last distance: the call ends; the last result has the target speed and the physical braking distance
(v² - w²) / 2a; time grows and speed falls from result to result; the distance never decreases up to the last but one
result; the last time is the braking time rounded up to half seconds. Missing: the last distance is not below the one
before (see the negation). -/
theorem C53_brake_partial (tp : Train) (a v w : Rat) (ha : tp.deceleration = some a) (hneg : a < 0) (hv : w < v)
    (hw : 0 ≤ w) :
    ∃ l last, Returns (fun fuel => brake fuel tp v w) l ∧ l.head? = some { time := 0, dist := 0, speed := v } ∧
      l.getLast? = some last ∧ last.speed = w ∧ 2 * -a * last.dist = v * v - w * w ∧ TimeGrows l ∧ SpeedNeverIncreases l ∧
      (∀ r ∈ l, w ≤ r.speed ∧ 0 ≤ r.dist) ∧ DistanceNeverDecreases l.dropLast ∧
      v - w ≤ -a * last.time ∧ -a * (last.time - 1 / 2) < v - w := by
  obtain ⟨m, hlt, hle, hrun⟩ := brake_runs ha hneg hv
  have hpos : 0 < -a := by linarith
  rw [lt_div_iff₀ hpos] at hlt
  rw [div_le_iff₀ hpos] at hle
  -- the speed of every step but the last one is above the target
  have hsp : ∀ i : Nat, i < m + 1 → w < v + a * ((i : Rat) / 2) := by
    intro i hi
    have h1 : (i : Rat) ≤ m := by exact_mod_cast (Nat.lt_succ_iff.mp hi)
    have h2 : (i : Rat) / 2 * -a ≤ m / 2 * -a := mul_le_mul_of_nonneg_right (by linarith) hpos.le
    have h3 : a * ((i : Rat) / 2) = -((i : Rat) / 2 * -a) := by ring
    linarith
  -- and the distance grows from step to step
  have hstep : ∀ i : Nat, i + 1 < m + 1 →
      v * ((i : Rat) / 2) + a * (i * (i - 1) / 8) ≤ v * (((i + 1 : Nat) : Rat) / 2) + a * ((i + 1 : Nat) * ((i + 1 : Nat) - 1) / 8) := by
    intro i hi
    have := hsp i (by omega)
    push_cast
    have h4 : v * (((i : Rat) + 1) / 2) + a * ((i + 1) * (i + 1 - 1) / 8)
        = v * (i / 2) + a * (i * (i - 1) / 8) + (v + a * ((i : Rat) / 2)) / 2 := by ring
    rw [h4]
    linarith
  have hmono : ∀ i j : Nat, i ≤ j → j < m + 1 →
      v * ((i : Rat) / 2) + a * (i * (i - 1) / 8) ≤ v * ((j : Rat) / 2) + a * (j * (j - 1) / 8) := by
    intro i j hij
    induction j with
    | zero =>
      intro _
      obtain rfl : i = 0 := by omega
      exact le_refl _
    | succ j ih =>
      intro hj
      rcases Nat.lt_or_ge i (j + 1) with h | h
      · exact le_trans (ih (by omega) (by omega)) (hstep j hj)
      · obtain rfl : i = j + 1 := by omega
        exact le_refl _
  refine ⟨_, _, ⟨m + 1, hrun⟩, ?_, List.getLast?_concat, rfl, ?_, ?_, ?_, ?_, ?_, ?_, ?_⟩
  · simp [List.range_succ_eq_map]
  · simp only
    rw [mul_div_cancel₀]
    linarith
  · refine pairwise_range_concat _ _ _ (fun i j hij _ => ?_) (fun i hi => ?_)
    · have : (i : Rat) < j := by exact_mod_cast hij
      simp only
      linarith
    · have : (i : Rat) < m + 1 := by exact_mod_cast hi
      simp only
      linarith
  · refine pairwise_range_concat _ _ _ (fun i j hij _ => ?_) (fun i hi => ?_)
    · have h1 : (i : Rat) ≤ j := by exact_mod_cast hij.le
      have h2 : (i : Rat) / 2 * -a ≤ j / 2 * -a := mul_le_mul_of_nonneg_right (by linarith) hpos.le
      simp only
      linarith
    · exact (hsp i hi).le
  · intro r hr
    simp only [List.mem_append, List.mem_map, List.mem_singleton, List.mem_range] at hr
    rcases hr with ⟨k, hk, rfl⟩ | rfl
    · refine ⟨(hsp k hk).le, ?_⟩
      simpa using hmono 0 k (by omega) hk
    · refine ⟨le_refl _, div_nonneg ?_ (by linarith)⟩
      have := mul_self_le_mul_self hw hv.le
      linarith
  · simp only [List.dropLast_concat]
    unfold DistanceNeverDecreases
    rw [List.pairwise_map, List.pairwise_iff_getElem]
    intro i j hi hj hij
    simp only [List.length_range] at hj
    simp only [List.getElem_range]
    exact hmono i j hij.le hj
  · linarith
  · have : -a * (((m : Rat) + 1) / 2 - 1 / 2) = m / 2 * -a := by ring
    simp only
    linarith

example : (exTrain 0 (-1) 40).deceleration = some (-1) ∧ (-1 : Rat) < 0 ∧ (1 : Rat) < 2 ∧ (0 : Rat) ≤ 1 ∧
    brake 4 (exTrain 0 (-1) 40) 2 1 = .done
      [{ time := 0, dist := 0, speed := 2 }, { time := 1 / 2, dist := 1, speed := 3 / 2 },
       { time := 1, dist := 3 / 2, speed := 1 }] := by decide +kernel

/-- C53 fails: the steps add up the speeds at their beginnings and run ahead of the physical braking distance that is put
into the last result, so the distance decreases in the end. Braking from 2.1 m/s to a halt with 1 m/s²: after 2 s 2.7 m,
after 2.5 s 2.205 m. -/
theorem C53_distance_negation :
    ¬ ∀ (tp : Train) (a v w : Rat) (l : List Result), tp.deceleration = some a → a < 0 → w < v → 0 ≤ w →
      Returns (fun fuel => brake fuel tp v w) l → DistanceNeverDecreases l := by
  intro h
  have hneg : (-1 : Rat) < 0 := by decide +kernel
  have hv : (0 : Rat) < 21 / 10 := by decide +kernel
  obtain ⟨l, last, ⟨b, hl⟩, -⟩ := C53_brake_partial (exTrain 0 (-1) 40) (-1) (21 / 10) 0 rfl hneg hv (le_refl _)
  have h1 : brake 10 (exTrain 0 (-1) 40) (21 / 10) 0 = .done
      [{ time := 0, dist := 0, speed := 21 / 10 }, { time := 1 / 2, dist := 21 / 20, speed := 8 / 5 },
       { time := 1, dist := 37 / 20, speed := 11 / 10 }, { time := 3 / 2, dist := 12 / 5, speed := 3 / 5 },
       { time := 2, dist := 27 / 10, speed := 1 / 10 }, { time := 5 / 2, dist := 441 / 200, speed := 0 }] := by
    decide +kernel
  have h2 : brake (b + 10) (exTrain 0 (-1) 40) (21 / 10) 0 = .done l := hl _ (by omega)
  rw [brake_mono h1 (by omega)] at h2
  have h4 := h _ (-1) (21 / 10) 0 l rfl hneg hv (le_refl _) ⟨b, hl⟩
  simp only [Outcome.done.injEq] at h2
  rw [← h2] at h4
  revert h4
  unfold DistanceNeverDecreases
  decide +kernel

/-- C53: a target speed that is not below the initial one is refused. -/
theorem C53_refused (tp : Train) (v w : Rat) (fuel : Nat) (h : v ≤ w) : brake fuel tp v w = .bad := by
  unfold brake
  rw [if_neg (not_lt.mpr h)]

example : (1 : Rat) ≤ 1 ∧ brake 5 (exTrain 0 (-1) 40) 1 1 = .bad := by decide +kernel

/-! ### Accelerating -/

/-- the speed a train accelerates to at most -/
def IsLimit (tp : Train) (target limit : Rat) : Prop :=
  ∃ top, tp.topSpeed = some top ∧ limit = min top target

/-- C55 up to the speed of the last result: with non-negative acceleration time, distance and speed never decrease, no
result is beyond the maximum distance, and all but the last one are slower than the limit. The last one is over the limit
by what one more step gains at most. Missing: the last speed is at most the limit (see the negation). -/
theorem C55_accelerate_partial (tp : Train) (initial target maxD limit : Rat) (fuel : Nat) (l : List Result)
    (hi : 0 ≤ initial) (hd : 0 ≤ maxD) (hlim : IsLimit tp target limit)
    (hacc : ∀ v a, initial ≤ v → tp.acceleration v = some a → 0 ≤ a)
    (h : accelerate fuel tp initial target maxD = .done l) :
    l.head? = some { time := 0, dist := 0, speed := initial } ∧
    TimeGrows l ∧ DistanceNeverDecreases l ∧ SpeedNeverDecreases l ∧ (∀ r ∈ l, r.dist ≤ maxD) ∧
    (∀ r ∈ l.dropLast, r.speed < limit) ∧
    (∀ most, initial ≤ limit → 0 ≤ most → (∀ v a, tp.acceleration v = some a → a ≤ most) →
      ∀ r ∈ l, r.speed ≤ limit + most / 2) := by
  obtain ⟨top, htop, rfl⟩ := hlim
  obtain ⟨top', k, htop', hch, -, rfl⟩ := accelerate_done h
  obtain rfl : top = top' := by
    rw [htop] at htop'
    exact Option.some.inj htop'
  have hpw : ({ time := 0, dist := 0, speed := initial } :: k : List Result).Pairwise Later :=
    accel_chain (tp := tp) (c := fun _ => true) hi hacc (hch.imp (fun _ _ hab => ⟨rfl, hab.2⟩))
  have hdrop : ∀ r ∈ ({ time := 0, dist := 0, speed := initial } :: k : List Result).dropLast,
      r.speed < top ∧ r.speed < target ∧ r.dist < maxD := chain_dropLast (fun _ _ hab => hab.1) hch
  have hover : ∀ most, initial ≤ min top target → 0 ≤ most → (∀ v a, tp.acceleration v = some a → a ≤ most) →
      ∀ r ∈ ({ time := 0, dist := 0, speed := initial } :: k : List Result), r.speed ≤ min top target + most / 2 := by
    intro most hil h0 hmost r hr
    rcases List.mem_cons.mp hr with rfl | hr
    · simp only
      linarith
    · obtain ⟨y, hy, hR⟩ := chain_prev hch r hr
      obtain ⟨a, ha, -, hv, -⟩ := accelStep_some hR.2
      have := hmost _ _ ha
      have : y.speed < min top target := lt_min hR.1.1 hR.1.2.1
      linarith
  rcases cut_cases maxD ({ time := 0, dist := 0, speed := initial } :: k) (by simp) with
    ⟨last, hlast, hle, heq⟩ | ⟨a, last, hl, -, heq⟩ | ⟨last, hl, hgt, -⟩ | ⟨k', a, last, hk', hl, hgt, heq⟩
  · rw [heq]
    refine ⟨rfl, hpw.imp (fun h => h.1), hpw.imp (fun h => h.2.1), hpw.imp (fun h => h.2.2), ?_,
      fun r hr => lt_min (hdrop r hr).1 (hdrop r hr).2.1, hover⟩
    intro r hr
    by_cases hr' : r ∈ ({ time := 0, dist := 0, speed := initial } :: k : List Result).dropLast
    · exact (hdrop r hr').2.2.le
    · have hne : ({ time := 0, dist := 0, speed := initial } :: k : List Result) ≠ [] := by simp
      rw [← List.dropLast_concat_getLast hne] at hr
      rcases List.mem_append.mp hr with hr | hr
      · exact absurd hr hr'
      · rw [List.getLast?_eq_getLast_of_ne_nil hne] at hlast
        simp only [List.mem_singleton] at hr
        rw [hr, Option.some.inj hlast]
        exact hle
  · rw [heq]
    rw [hl] at hdrop hover
    have ha : a = { time := 0, dist := 0, speed := initial } := by
      have := congrArg List.head? hl
      simpa using this.symm
    refine ⟨by rw [ha]; rfl, List.pairwise_singleton _ _, List.pairwise_singleton _ _, List.pairwise_singleton _ _, ?_,
      by simp, fun most h1 h2 h3 r hr => hover most h1 h2 h3 r (by simp at hr ⊢; exact Or.inl hr)⟩
    intro r hr
    simp only [List.mem_singleton] at hr
    exact hr ▸ (hdrop a (by simp)).2.2.le
  · exfalso
    simp at hl
    rw [← hl.1] at hgt
    simp at hgt
    linarith
  · rw [heq]
    have hl' : ({ time := 0, dist := 0, speed := initial } :: k : List Result) = (k' ++ [a]) ++ [last] := by simpa using hl
    rw [hl'] at hdrop hover hpw
    simp only [List.dropLast_concat] at hdrop
    rw [List.pairwise_append] at hpw
    have hpw' := hpw.1
    rw [List.pairwise_append] at hpw'
    have hka : ∀ x ∈ k', Later x a := fun x hx => hpw'.2.2 x hx a (by simp)
    have hkd : ∀ x ∈ k', x.dist < maxD := fun x hx => (hdrop x (by simp [hx])).2.2
    refine ⟨?_, ?_, ?_, ?_, ?_, ?_, ?_⟩
    · have := congrArg List.head? hl
      cases k' with
      | nil => exact absurd rfl hk'
      | cons x k' => simpa using this.symm
    · refine List.pairwise_append.mpr ⟨hpw'.1.imp (fun h => h.1), List.pairwise_singleton _ _, ?_⟩
      intro x hx y hy
      simp only [List.mem_singleton] at hy
      subst hy
      exact (hka x hx).1
    · refine List.pairwise_append.mpr ⟨hpw'.1.imp (fun h => h.2.1), List.pairwise_singleton _ _, ?_⟩
      intro x hx y hy
      simp only [List.mem_singleton] at hy
      subst hy
      exact (hkd x hx).le
    · refine List.pairwise_append.mpr ⟨hpw'.1.imp (fun h => h.2.2), List.pairwise_singleton _ _, ?_⟩
      intro x hx y hy
      simp only [List.mem_singleton] at hy
      subst hy
      exact (hka x hx).2.2
    · intro r hr
      rcases List.mem_append.mp hr with hr | hr
      · exact (hkd r hr).le
      · simp only [List.mem_singleton] at hr
        subst hr
        exact le_refl _
    · intro r hr
      rw [List.dropLast_concat] at hr
      have := hdrop r (by simp [hr])
      exact lt_min this.1 this.2.1
    · intro most h1 h2 h3 r hr
      rcases List.mem_append.mp hr with hr | hr
      · exact hover most h1 h2 h3 r (by simp [hr])
      · simp only [List.mem_singleton] at hr
        subst hr
        exact hover most h1 h2 h3 a (by simp)

example : IsLimit (exTrain 106 (-1) 40) 1 1 ∧ (∀ v a, (exTrain 106 (-1) 40).acceleration v = some a → 0 ≤ a) ∧
    accelerate 4 (exTrain 106 (-1) 40) 0 1 10 = .done
      [{ time := 0, dist := 0, speed := 0 }, { time := 1 / 2, dist := 1 / 8, speed := 1 / 2 },
       { time := 1, dist := 1 / 2, speed := 1 }] := by
  refine ⟨⟨40, by decide +kernel, by decide +kernel⟩, ?_, by decide +kernel⟩
  intro v a h
  by_cases hv : v < 40
  · simp [Train.acceleration, Train.tractiveForce, Train.resistiveForce, Train.sumForces, exTrain, exVehicle, evalPieces,
      evalPoly, hv, Train.weight, massFactor] at h
    rw [← h]
    norm_num
  · simp [Train.acceleration, Train.tractiveForce, Train.resistiveForce, Train.sumForces, exTrain, exVehicle, evalPieces,
      evalPoly, hv] at h

/-- C55 fails: the step that reaches the limit goes over it. Accelerating with 1 m/s² to 0.75 m/s ends at 1 m/s. -/
theorem C55_limit_negation :
    ¬ ∀ (tp : Train) (initial target maxD limit : Rat) (fuel : Nat) (l : List Result), 0 ≤ initial → 0 ≤ maxD →
      initial ≤ limit → IsLimit tp target limit → accelerate fuel tp initial target maxD = .done l →
      ∀ r ∈ l, r.speed ≤ limit := by
  intro h
  have := h (exTrain 106 (-1) 40) 0 (3 / 4) 10 (3 / 4) 4
    [{ time := 0, dist := 0, speed := 0 }, { time := 1 / 2, dist := 1 / 8, speed := 1 / 2 },
     { time := 1, dist := 1 / 2, speed := 1 }] (by decide +kernel) (by decide +kernel) (by decide +kernel)
    ⟨40, by decide +kernel, by decide +kernel⟩ (by decide +kernel) { time := 1, dist := 1 / 2, speed := 1 } (by simp)
  revert this
  decide +kernel

/-- C55: why it ends: the limit or the maximum distance is reached, or the first step already is too long and is thrown
away, only the start is left. -/
theorem C55_end (tp : Train) (initial target maxD limit : Rat) (fuel : Nat) (l : List Result) (hlim : IsLimit tp target limit)
    (h : accelerate fuel tp initial target maxD = .done l) (last : Result) (hlast : l.getLast? = some last) :
    limit ≤ last.speed ∨ maxD ≤ last.dist ∨
    (l = [{ time := 0, dist := 0, speed := initial }] ∧
      ∃ a, tp.acceleration initial = some a ∧ maxD < (initial + a / 4) / 2) := by
  obtain ⟨top, htop, rfl⟩ := hlim
  obtain ⟨top', k, htop', hch, hend, rfl⟩ := accelerate_done h
  obtain rfl : top = top' := by
    rw [htop] at htop'
    exact Option.some.inj htop'
  rcases cut_cases maxD ({ time := 0, dist := 0, speed := initial } :: k) (by simp) with
    ⟨last', hlast', hle, heq⟩ | ⟨a, last', hl, hgt, heq⟩ | ⟨last', hl, hgt, heq⟩ | ⟨k', a, last', hk', hl, hgt, heq⟩
  · rw [heq] at hlast
    have := hend last hlast
    by_cases h1 : last.speed < top
    · by_cases h2 : last.speed < target
      · right; left
        exact not_lt.mp (fun h3 => this ⟨h1, h2, h3⟩)
      · left
        exact le_trans (min_le_right _ _) (not_lt.mp h2)
    · left
      exact le_trans (min_le_left _ _) (not_lt.mp h1)
  · right; right
    rw [hl] at hch
    have ha : a = { time := 0, dist := 0, speed := initial } := by
      have := congrArg List.head? hl
      simpa using this.symm
    rw [List.isChain_cons_cons] at hch
    obtain ⟨acc, hacc, -, hv, hd⟩ := accelStep_some hch.1.2
    subst ha
    refine ⟨heq, acc, hacc, ?_⟩
    rw [hd, hv] at hgt
    simp only at hgt
    linarith
  · rw [heq] at hlast
    simp at hlast
  · right; left
    rw [heq, List.getLast?_concat] at hlast
    rw [← Option.some.inj hlast]

example : IsLimit (exTrain 106 (-1) 40) 10 10 ∧
    accelerate 4 (exTrain 106 (-1) 40) 0 10 (1 / 4) = .done
      [{ time := 0, dist := 0, speed := 0 }, { time := 1 / 2, dist := 1 / 4, speed := 1 / 2 }] ∧
    accelerate 4 (exTrain 106 (-1) 40) 0 10 (1 / 10) = .done [{ time := 0, dist := 0, speed := 0 }] :=
  ⟨⟨40, by decide +kernel, by decide +kernel⟩, by decide +kernel, by decide +kernel⟩

/-- C55: if the acceleration up to the limit is at least some positive value, the call ends. -/
theorem C55_ends (tp : Train) (initial target maxD limit gain : Rat) (hlim : IsLimit tp target limit) (hg : 0 < gain)
    (hacc : ∀ v, initial ≤ v → v < limit → ∃ a, tp.acceleration v = some a ∧ gain ≤ a) :
    ∃ l, Returns (fun fuel => accelerate fuel tp initial target maxD) l := by
  obtain ⟨top, htop, rfl⟩ := hlim
  obtain ⟨n, hn⟩ := exists_nat_gt ((min top target - initial) / (gain / 2))
  rw [div_lt_iff₀ (by linarith)] at hn
  obtain ⟨k, hk⟩ := accel_ends (tp := tp)
    (c := fun r => decide (r.speed < top) && decide (r.speed < target) && decide (r.dist < maxD)) hg n
    { time := 0, dist := 0, speed := initial } (limit := min top target)
    (fun r hr => by
      simp only [Bool.and_eq_true, decide_eq_true_eq] at hr
      exact lt_min hr.1.1 hr.1.2)
    hacc (by simp only; linarith)
  refine ⟨cutToDistance maxD ({ time := 0, dist := 0, speed := initial } :: k), n, fun fuel hf => ?_⟩
  refine accelerate_mono (n := n + 1) ?_ hf
  simp only [accelerate, htop, hk]
  rfl

example : IsLimit (exTrain 106 (-1) 40) 10 10 ∧
    ∀ v, (0 : Rat) ≤ v → v < 10 → ∃ a, (exTrain 106 (-1) 40).acceleration v = some a ∧ 1 ≤ a := by
  refine ⟨⟨40, by decide +kernel, by decide +kernel⟩, fun v _ hv => ⟨1, ?_, le_refl _⟩⟩
  have : v < 40 := by linarith
  simp [Train.acceleration, Train.tractiveForce, Train.resistiveForce, Train.sumForces, exTrain, exVehicle, evalPieces,
    evalPoly, this, Train.weight, massFactor]
  norm_num

/-- C55: standing, with no force left over the resistance, the call never ends. -/
theorem C55_standing (tp : Train) (target maxD limit : Rat) (hlim : IsLimit tp target limit) (h0 : 0 < limit)
    (hd : 0 < maxD) (hacc : tp.acceleration 0 = some 0) :
    NeverEnds (fun fuel => accelerate fuel tp 0 target maxD) := by
  obtain ⟨top, htop, rfl⟩ := hlim
  intro fuel
  have key : ∀ n (s : Result), s.speed = 0 → s.dist = 0 →
      loop (fun r => decide (r.speed < top) && decide (r.speed < target) && decide (r.dist < maxD)) (accelStep tp) n s
        = .running := by
    intro n
    induction n with
    | zero => intros; rfl
    | succ n ih =>
      intro s hs hsd
      unfold loop
      have h1 : 0 < top := lt_of_lt_of_le h0 (min_le_left _ _)
      have h2 : 0 < target := lt_of_lt_of_le h0 (min_le_right _ _)
      simp only [hs, hsd, h1, h2, hd, decide_true, Bool.and_self, if_true]
      cases hst : accelStep tp s with
      | none => simp [accelStep, hs, hacc] at hst
      | some s' =>
        obtain ⟨a, ha, -, hv, hdist⟩ := accelStep_some hst
        rw [hs, hacc] at ha
        have : a = 0 := (Option.some.inj ha).symm
        subst this
        have hv' : s'.speed = 0 := by rw [hv, hs]; ring
        simp only
        rw [ih s' hv' (by rw [hdist, hsd, hs, hv']; ring)]
        rfl
  simp only [accelerate, htop]
  rw [key fuel { time := 0, dist := 0, speed := 0 } rfl rfl]
  rfl

example : IsLimit (exTrain 0 (-1) 40) 10 10 ∧ (0 : Rat) < 10 ∧ (exTrain 0 (-1) 40).acceleration 0 = some 0 :=
  ⟨⟨40, by decide +kernel, by decide +kernel⟩, by decide +kernel, by decide +kernel⟩

/-! ### Nobody outruns their speed -/

/-- C91 for coasting. -/
theorem C91_coast (v distance : Rat) (fuel : Nat) (l : List Result) (hv : 0 < v) (hd : 0 ≤ distance)
    (h : coast fuel v distance = .done l) : NoFasterThanSpeed l := by
  rcases eq_or_lt_of_le hd with h0 | hpos
  · have h1 : coast 1 v distance = .done [{ time := 0, dist := 0, speed := v }] := by
      subst h0
      simp [coast, loop, Outcome.map, changeLastIf]
    have h2 := coast_mono h (m := fuel + 1) (by omega)
    rw [coast_mono h1 (m := fuel + 1) (by omega), Outcome.done.injEq] at h2
    rw [← h2]
    intro i a b _ hb
    simp at hb
  · obtain ⟨m, hlt, hle, hrun⟩ := coast_runs hv hpos
    have h2 := coast_mono h (m := fuel + m + 2) (by omega)
    rw [hrun _ (by omega), Outcome.done.injEq] at h2
    rw [← h2]
    intro i a b ha hb
    have hi : i < m + 1 := by
      have := (List.getElem?_eq_some_iff.mp hb).1
      simp at this
      omega
    rw [List.getElem?_append_left (by simp; omega)] at ha
    simp only [List.getElem?_map, List.getElem?_range hi, Option.map_some, Option.some.injEq] at ha
    rcases Nat.lt_or_ge (i + 1) (m + 1) with hi' | hi'
    · rw [List.getElem?_append_left (by simp; omega)] at hb
      simp only [List.getElem?_map, List.getElem?_range hi', Option.map_some, Option.some.injEq] at hb
      subst ha hb
      simp only [max_self]
      push_cast
      apply le_of_eq
      ring
    · obtain rfl : i = m := by omega
      rw [List.getElem?_append_right (by simp)] at hb
      simp at hb
      subst ha hb
      simp only [max_self]
      have : v * (((i : Rat) + 1) / 2 - i / 2) = v * ((i + 1) / 2) - v * (i / 2) := by ring
      rw [this]
      linarith

example : (0 : Rat) < 3 ∧ (0 : Rat) ≤ 4 ∧ coast 5 3 4 ≠ .running := by decide +kernel

/-- C91 for braking. -/
theorem C91_brake (tp : Train) (a v w : Rat) (fuel : Nat) (l : List Result) (ha : tp.deceleration = some a) (hneg : a < 0)
    (hv : w < v) (hw : 0 ≤ w) (h : brake fuel tp v w = .done l) : NoFasterThanSpeed l := by
  obtain ⟨m, hlt, hle, hrun⟩ := brake_runs ha hneg hv
  have hpos : 0 < -a := by linarith
  have h2 := brake_mono h (m := fuel + m + 2) (by omega)
  rw [hrun _ (by omega), Outcome.done.injEq] at h2
  rw [← h2]
  intro i x y hx hy
  have hi : i < m + 1 := by
    have := (List.getElem?_eq_some_iff.mp hy).1
    simp at this
    omega
  rw [List.getElem?_append_left (by simp; omega)] at hx
  simp only [List.getElem?_map, List.getElem?_range hi, Option.map_some, Option.some.injEq] at hx
  rcases Nat.lt_or_ge (i + 1) (m + 1) with hi' | hi'
  · rw [List.getElem?_append_left (by simp; omega)] at hy
    simp only [List.getElem?_map, List.getElem?_range hi', Option.map_some, Option.some.injEq] at hy
    subst hx hy
    simp only
    push_cast
    have h3 : v + a * (((i : Rat) + 1) / 2) ≤ v + a * (i / 2) := by
      have : a * (((i : Rat) + 1) / 2) = a * (i / 2) + a / 2 := by ring
      linarith
    rw [max_eq_left h3]
    apply le_of_eq
    ring
  · obtain rfl : i = m := by omega
    rw [List.getElem?_append_right (by simp)] at hy
    simp at hy
    subst hx hy
    simp only
    rw [show -(2 * a) = 2 * -a by ring]
    rw [lt_div_iff₀ hpos] at hlt
    rw [div_le_iff₀ hpos] at hle
    have h3 : w < v + a * ((i : Rat) / 2) := by linarith
    rw [max_eq_left h3.le]
    -- what is left of the speed is lost on the last step
    have h4 : v + a * ((i : Rat) / 2) - w ≤ -a / 2 := by
      have : ((i : Rat) + 1) / 2 * -a = i / 2 * -a + -a / 2 := by ring
      linarith
    have h5 : (v * v - w * w) / (2 * -a) ≤
        v * ((i : Rat) / 2) + a * (i * (i - 1) / 8) + (v + a * (i / 2)) * (((i : Rat) + 1) / 2 - i / 2) := by
      rw [div_le_iff₀ (by linarith)]
      have hi0 : (0 : Rat) ≤ i := Nat.cast_nonneg i
      have h6 : 0 ≤ (-a / 2 - (v + a * ((i : Rat) / 2) - w)) * (v + a * (i / 2) + w) :=
        mul_nonneg (by linarith) (by linarith)
      nlinarith [mul_nonneg (mul_nonneg hpos.le hpos.le) hi0, mul_nonneg hpos.le (le_of_lt (lt_of_le_of_lt hw h3))]
    linarith

example : (exTrain 0 (-1) 40).deceleration = some (-1) ∧ (-1 : Rat) < 0 ∧ (0 : Rat) < 21 / 10 ∧
    brake 7 (exTrain 0 (-1) 40) (21 / 10) 0 ≠ .running := by decide +kernel

/-- C91 for accelerating, as long as no result is cut off at the maximum distance. Missing: the cut (see the negation). -/
theorem C91_accelerate_partial (tp : Train) (initial target maxD : Rat) (fuel : Nat) (l : List Result)
    (h : accelerate fuel tp initial target maxD = .done l) (hcut : ∀ r ∈ l, r.dist < maxD) : NoFasterThanSpeed l := by
  obtain ⟨top, k, -, hch, -, rfl⟩ := accelerate_done h
  rcases cut_cases maxD ({ time := 0, dist := 0, speed := initial } :: k) (by simp) with
    ⟨last', hlast', hle, heq⟩ | ⟨a, last', hl, hgt, heq⟩ | ⟨last', hl, hgt, heq⟩ | ⟨k', a, last', hk', hl, hgt, heq⟩
  · rw [heq]
    intro i a b ha hb
    rw [List.isChain_iff_getElem] at hch
    obtain ⟨h1, rfl⟩ := List.getElem?_eq_some_iff.mp ha
    obtain ⟨h2, rfl⟩ := List.getElem?_eq_some_iff.mp hb
    obtain ⟨acc, -, ht, -, hd⟩ := accelStep_some (hch i h2).2
    rw [ht, hd]
    have h3 := le_max_left ({ time := 0, dist := 0, speed := initial } :: k : List Result)[i].speed
      ({ time := 0, dist := 0, speed := initial } :: k : List Result)[i + 1].speed
    have h4 := le_max_right ({ time := 0, dist := 0, speed := initial } :: k : List Result)[i].speed
      ({ time := 0, dist := 0, speed := initial } :: k : List Result)[i + 1].speed
    linarith
  · rw [heq]
    intro i x y _ hy
    simp at hy
  · rw [heq]
    intro i x y _ hy
    simp at hy
  · rw [heq] at hcut
    have := hcut { a with dist := maxD } (by simp)
    exact absurd this (lt_irrefl _)

example : accelerate 4 (exTrain 106 (-1) 40) 0 1 10 = .done
      [{ time := 0, dist := 0, speed := 0 }, { time := 1 / 2, dist := 1 / 8, speed := 1 / 2 },
       { time := 1, dist := 1 / 2, speed := 1 }] ∧
    ∀ r ∈ ([{ time := 0, dist := 0, speed := 0 }, { time := 1 / 2, dist := 1 / 8, speed := 1 / 2 },
       { time := 1, dist := 1 / 2, speed := 1 }] : List Result), r.dist < 10 := by decide +kernel

/-- C91 fails for accelerating: the step that goes over the maximum distance is thrown away and the result before it is
moved to the maximum distance, its time stays. The train is 0.4 m away after half a second, having reached 0.5 m/s. -/
theorem C91_cut_negation :
    ¬ ∀ (tp : Train) (initial target maxD : Rat) (fuel : Nat) (l : List Result), 0 ≤ initial → 0 ≤ maxD →
      accelerate fuel tp initial target maxD = .done l → NoFasterThanSpeed l := by
  intro h
  have := h (exTrain 106 (-1) 40) 0 10 (2 / 5) 4
    [{ time := 0, dist := 0, speed := 0 }, { time := 1 / 2, dist := 2 / 5, speed := 1 / 2 }] (by decide +kernel)
    (by decide +kernel) (by decide +kernel) 0 { time := 0, dist := 0, speed := 0 }
    { time := 1 / 2, dist := 2 / 5, speed := 1 / 2 } rfl rfl
  revert this
  decide +kernel

/-! ### The curves of a train -/

theorem foldl_horner (x : Rat) (fs : List Rat) (acc : Rat) :
    fs.foldl (fun result g => g + result * x) acc = acc * x ^ fs.length + polyValue x fs := by
  induction fs generalizing acc with
  | nil => simp [polyValue]
  | cons f fs ih =>
    rw [List.foldl_cons, ih, polyValue, List.length_cons, pow_succ]
    ring

/-- C92: a polynomial evaluates to the sum of its factors times the powers. -/
theorem C92_polynomial (factors : List Rat) (x : Rat) (h : factors ≠ []) :
    evalPoly factors x = some (polyValue x factors) := by
  cases factors with
  | nil => exact absurd rfl h
  | cons f fs => simp [evalPoly, foldl_horner, polyValue]

example : evalPoly [2, 0, 1] 3 = some 19 ∧ polyValue 3 [2, 0, 1] = 19 := by decide +kernel

theorem find_piece (x : Rat) (l : List Piece) (p : Piece) (hc : Contiguous l) (hp : p ∈ l) (h1 : p.lower ≤ x) (h2 : x < p.upper) :
    l.find? (fun p => decide (x < p.upper)) = some p ∧ ∀ q ∈ l, ∀ f ∈ l.head?, f.lower ≤ q.lower := by
  induction l with
  | nil => cases hp
  | cons q l ih =>
    cases l with
    | nil =>
      simp only [List.mem_singleton] at hp
      subst hp
      simp [h2]
    | cons r l =>
      obtain ⟨hlt, heq, hc'⟩ := hc
      rcases List.mem_cons.mp hp with rfl | hp
      · refine ⟨by simp [h2], ?_⟩
        have key : ∀ (m : List Piece) (r : Piece), Contiguous (r :: m) → ∀ q ∈ r :: m, r.lower ≤ q.lower := by
          intro m
          induction m with
          | nil => intro r _ q hq; simp at hq; rw [hq]
          | cons s m ih =>
            intro r hr q hq
            obtain ⟨a, b, c⟩ := hr
            rcases List.mem_cons.mp hq with rfl | hq
            · exact le_refl _
            · have := ih s c q hq
              linarith
        intro q hq f hf
        simp only [List.head?_cons, Option.mem_def, Option.some.injEq] at hf
        subst hf
        rcases List.mem_cons.mp hq with rfl | hq
        · exact le_refl _
        · have := key l r hc' q hq
          linarith
      · obtain ⟨hf, hord⟩ := ih hc' hp
        have hrp : r.lower ≤ p.lower := hord p hp r (by simp)
        have hx : ¬ x < q.upper := by linarith
        refine ⟨by rw [List.find?_cons]; simp only [hx, decide_false]; exact hf, ?_⟩
        intro q' hq' f hf'
        simp only [List.head?_cons, Option.mem_def, Option.some.injEq] at hf'
        subst hf'
        rcases List.mem_cons.mp hq' with rfl | hq'
        · exact le_refl _
        · have := hord q' hq' r (by simp)
          linarith

/-- C92: a function of pieces that follow each other evaluates the piece whose half open range contains the input. -/
theorem C92_piece (l : List Piece) (p : Piece) (x : Rat) (hc : Contiguous l) (hp : p ∈ l) (h1 : p.lower ≤ x)
    (h2 : x < p.upper) (hne : p.poly ≠ []) : evalPieces l x = some (polyValue x p.poly) := by
  unfold evalPieces
  rw [(find_piece x l p hc hp h1 h2).1]
  exact C92_polynomial _ _ hne

/-- C92: from the end of the last piece on the call throws. -/
theorem C92_beyond (l : List Piece) (x : Rat) (h : ∀ p ∈ l, p.upper ≤ x) : evalPieces l x = none := by
  unfold evalPieces
  have : l.find? (fun p => decide (x < p.upper)) = none := by
    rw [List.find?_eq_none]
    intro p hp
    simpa using h p hp
  rw [this]

def exPieces : List Piece := [{ poly := [1, 0], lower := 0, upper := 2 }, { poly := [2], lower := 2, upper := 5 }]

example : Contiguous exPieces ∧ evalPieces exPieces 1 = some 1 ∧ evalPieces exPieces 2 = some 2 ∧
    (∀ p ∈ exPieces, p.upper ≤ 5) ∧ evalPieces exPieces 5 = none := by
  refine ⟨⟨by decide +kernel, by decide +kernel, by show (2 : Rat) < 5; decide +kernel⟩, by decide +kernel, by decide +kernel, by decide +kernel,
    by decide +kernel⟩

theorem foldl_min (vs : List Vehicle) (acc : Rat) :
    (vs.foldl (fun acc w => if w.maxSpeed < acc then w.maxSpeed else acc) acc ≤ acc ∧
      ∀ w ∈ vs, vs.foldl (fun acc w => if w.maxSpeed < acc then w.maxSpeed else acc) acc ≤ w.maxSpeed) ∧
    (vs.foldl (fun acc w => if w.maxSpeed < acc then w.maxSpeed else acc) acc = acc ∨
      ∃ w ∈ vs, vs.foldl (fun acc w => if w.maxSpeed < acc then w.maxSpeed else acc) acc = w.maxSpeed) := by
  induction vs generalizing acc with
  | nil => simp
  | cons v vs ih =>
    simp only [List.foldl_cons]
    obtain ⟨⟨h1, h2⟩, h3⟩ := ih (if v.maxSpeed < acc then v.maxSpeed else acc)
    by_cases hv : v.maxSpeed < acc
    · simp only [hv, if_true] at h1 h2 h3 ⊢
      refine ⟨⟨by linarith, ?_⟩, ?_⟩
      · intro w hw
        rcases List.mem_cons.mp hw with rfl | hw
        · exact h1
        · exact h2 w hw
      · rcases h3 with h3 | ⟨w, hw, h3⟩
        · exact Or.inr ⟨v, by simp, h3⟩
        · exact Or.inr ⟨w, by simp [hw], h3⟩
    · simp only [hv, if_false] at h1 h2 h3 ⊢
      refine ⟨⟨h1, ?_⟩, ?_⟩
      · intro w hw
        rcases List.mem_cons.mp hw with rfl | hw
        · linarith
        · exact h2 w hw
      · rcases h3 with h3 | ⟨w, hw, h3⟩
        · exact Or.inl h3
        · exact Or.inr ⟨w, by simp [hw], h3⟩

/-- C93: the top speed of a train is the least one among its own limit and those of all its vehicles. -/
theorem C93_top_speed (tp : Train) (top : Rat) (h : tp.topSpeed = some top) :
    top ≤ tp.maxSpeed ∧ (∀ v ∈ tp.vehicles, top ≤ v.maxSpeed) ∧
    (top = tp.maxSpeed ∨ ∃ v ∈ tp.vehicles, top = v.maxSpeed) := by
  unfold Train.topSpeed at h
  cases hv : tp.vehicles with
  | nil => simp [hv] at h
  | cons v vs =>
    simp only [hv, Option.some.injEq] at h
    obtain ⟨⟨h1, h2⟩, h3⟩ := foldl_min vs v.maxSpeed
    subst h
    refine ⟨min_le_right _ _, ?_, ?_⟩
    · intro w hw
      rcases List.mem_cons.mp hw with rfl | hw
      · exact le_trans (min_le_left _ _) h1
      · exact le_trans (min_le_left _ _) (h2 w hw)
    · rcases min_choice (vs.foldl (fun (acc : Rat) (w : Vehicle) => if w.maxSpeed < acc then w.maxSpeed else acc) v.maxSpeed) tp.maxSpeed with h | h
      · right
        rcases h3 with h3 | ⟨w, hw, h3⟩
        · exact ⟨v, by simp, by rw [h, h3]⟩
        · exact ⟨w, by simp [hw], by rw [h, h3]⟩
      · exact Or.inl h

example : (exTrain 0 (-1) 50).topSpeed = some 40 ∧ (exTrain 0 (-1) 30).topSpeed = some 30 := by decide +kernel

/-- C93: a train slower than its top speed always gets a force: if the curve of every vehicle goes on up to (at least) the
top speed of the vehicle, no step of accelerating throws. -/
theorem C93_force (tp : Train) (top v : Rat) (h : tp.topSpeed = some top) (hv : v < top) (hw : tp.weight ≠ 0)
    (hr : ∀ w ∈ tp.vehicles, w.resistance ≠ [])
    (hc : ∀ w ∈ tp.vehicles, ∃ p ∈ w.tractive, w.maxSpeed ≤ p.upper)
    (hne : ∀ w ∈ tp.vehicles, ∀ p ∈ w.tractive, p.poly ≠ []) :
    ∃ a, tp.acceleration v = some a := by
  have hsum : ∀ (f : Vehicle → Option Rat) (vs : List Vehicle), (∀ w ∈ vs, ∃ a, f w = some a) →
      ∃ a, Train.sumForces f vs = some a := by
    intro f vs
    induction vs with
    | nil => intro _; exact ⟨0, rfl⟩
    | cons w vs ih =>
      intro hall
      obtain ⟨a, ha⟩ := hall w (by simp)
      obtain ⟨b, hb⟩ := ih (fun w hw => hall w (by simp [hw]))
      exact ⟨a + b, by simp [Train.sumForces, ha, hb]⟩
  obtain ⟨t, ht⟩ := hsum (fun vh => evalPieces vh.tractive v) tp.vehicles (by
    intro w hwm
    obtain ⟨p, hp, hup⟩ := hc w hwm
    have hlt : v < p.upper := lt_of_lt_of_le (lt_of_lt_of_le hv ((C93_top_speed tp top h).2.1 w hwm)) hup
    unfold evalPieces
    cases hf : w.tractive.find? (fun p => decide (v < p.upper)) with
    | none =>
      rw [List.find?_eq_none] at hf
      exact absurd (by simpa using hlt) (hf p hp)
    | some q =>
      simp only
      exact ⟨_, C92_polynomial _ _ (hne w hwm q (List.mem_of_find?_eq_some hf))⟩)
  obtain ⟨r, hr'⟩ := hsum (fun vh => evalPoly vh.resistance v) tp.vehicles (fun w hwm => ⟨_, C92_polynomial _ _ (hr w hwm)⟩)
  refine ⟨(t - r) / (tp.weight * massFactor), ?_⟩
  unfold Train.acceleration Train.tractiveForce Train.resistiveForce
  rw [ht, hr']
  simp only
  rw [if_neg hw]

example : (exTrain 106 (-1) 50).topSpeed = some 40 ∧ (exTrain 106 (-1) 50).weight ≠ 0 ∧
    (exTrain 106 (-1) 50).acceleration 39 = some 1 ∧ (exTrain 106 (-1) 50).acceleration 40 = none := by decide +kernel

end Soro.Physics.Props
