import Verif.Proof.Bitfield
import Verif.Spec.Calendar

namespace Soro.DepTrain
open Bitfield

theorem secOf_eq (d : Int) (h0 : 0 ≤ d) (h : d * 86400 < 2 ^ 32) : (secOf d : Int) = d * 86400 := by
  unfold secOf
  rw [Int.emod_eq_of_lt (by omega) h]; omega

theorem relToAbs_eq (a r : Nat) (h : a + r < 2 ^ 32) : relToAbs a r = a + r := by
  unfold relToAbs; exact Nat.mod_eq_of_lt h

theorem overlaps_iff (t : DepTrain) (iv : TimeInterval) (hv : iv.start ≤ iv.stop) (ht : t.InRange) (d : Int)
    (h0 : 0 ≤ d) (hd : d ≤ t.days.last) :
    iv.overlaps (t.eventInterval (secOf d)) = true ↔ RunMeets t iv d := by
  have hl := ht.last
  have ho := ht.order
  have hs := secOf_eq d h0 (by omega)
  simp only [TimeInterval.overlaps, Bool.and_eq_true, decide_eq_true_eq, RunMeets]
  simp only [eventInterval]
  rw [relToAbs_eq _ _ (by omega), relToAbs_eq _ _ (by omega)]
  constructor
  · rintro ⟨h1, h2⟩
    exact ⟨max iv.start (d * 86400 + t.firstDeparture), by omega, by omega⟩
  · rintro ⟨x, ⟨h1, h2⟩, h3, h4⟩
    omega

/-- start index of `from` -/
def startIdx (b : Bitfield) (t : Nat) : Nat :=
  if dayOf t ≤ b.first then 0 else min (dist b.first (dayOf t)) b.endIdx

/-- end index of `to` -/
def stopIdx (b : Bitfield) (t : Nat) : Nat :=
  if dayOf t ≥ b.last then b.endIdx else if dayOf t < b.first then 0 else dist b.first (dayOf t) + 1

theorem startIdx_le (b : Bitfield) (t : Nat) : startIdx b t ≤ b.endIdx := by
  unfold startIdx; split <;> omega

theorem stopIdx_le (b : Bitfield) (t : Nat) : stopIdx b t ≤ b.endIdx := by
  unfold stopIdx; split
  · omega
  · split
    · omega
    · simp only [dist, endIdx]; omega

theorem fromIt_eq (b : Bitfield) (t : Nat) : b.fromIt t = b.skip (startIdx b t) := by
  unfold fromIt startIdx
  split
  · exact iter_eq_skip _ _ (by omega)
  · split
    · rw [iter_eq_skip _ _ (by omega), Nat.min_eq_right (by omega)]
    · rw [iter_eq_skip _ _ (by omega), Nat.min_eq_left (by omega)]

theorem toIt_eq (b : Bitfield) (t : Nat) : b.toIt t = b.skip (stopIdx b t) := by
  have := stopIdx_le b t
  unfold toIt
  unfold stopIdx at this ⊢
  split
  · exact iter_eq_skip _ _ (by omega)
  · split
    · exact iter_eq_skip _ _ (by omega)
    · rename_i h1 h2
      rw [if_neg h1, if_neg h2] at this
      exact iter_eq_skip _ _ this

theorem startIdx_le_stopIdx (b : Bitfield) (hb : b.first ≤ b.last) (s e : Nat) (h : s ≤ e) :
    startIdx b s ≤ stopIdx b e := by
  have h1 : dayOf s ≤ dayOf e := by
    simp only [dayOf]; have := Nat.div_le_div_right (c := 86400) h; omega
  unfold startIdx stopIdx
  split
  · omega
  · split
    · omega
    · simp only [dist, endIdx]; split <;> omega

/-- `first + i` for `i` in the bracket is exactly the day range. -/
theorem bracket (b : Bitfield) (hb : b.first ≤ b.last) (s e : Nat) (h : s ≤ e) (d : Int)
    (h1 : b.first ≤ d) (h2 : d ≤ b.last) :
    (b.first + startIdx b s ≤ d ∧ d < b.first + startIdx b s + (stopIdx b e - startIdx b s : Nat)) ↔
      dayOf s ≤ d ∧ d ≤ dayOf e := by
  have h3 := startIdx_le_stopIdx b hb s e h
  have h4 := startIdx_le b s
  rw [show (b.first + startIdx b s + (stopIdx b e - startIdx b s : Nat) : Int) = b.first + stopIdx b e by omega]
  have hA : b.first + startIdx b s ≤ d ↔ dayOf s ≤ d := by
    simp only [startIdx, dist, endIdx]
    split <;> omega
  have hB : d < b.first + stopIdx b e ↔ d ≤ dayOf e := by
    simp only [stopIdx, dist, endIdx]
    split
    · omega
    · split <;> omega
  rw [hA, hB]

theorem day_le_sec (i e : Nat) (d : Int) (hd : (i : Int) = d * 86400) : d ≤ dayOf e ↔ i ≤ e := by
  simp only [dayOf]
  omega

/-- the end position is not moved by `advance` -/
theorem advance_stop (t : DepTrain) (ht : t.InRange) (iv : TimeInterval) :
    t.advance iv (t.days.skip (stopIdx t.days iv.stop)) = t.days.skip (stopIdx t.days iv.stop) := by
  rw [advance, if_neg]
  rintro ⟨h1, h2, _⟩
  have hb := ht.wf.le
  have h3 := t.days.le_skip (stopIdx t.days iv.stop)
  have hr : t.days.first ≤ t.days.idxToDate (t.days.skip (stopIdx t.days iv.stop)) ∧
      t.days.idxToDate (t.days.skip (stopIdx t.days iv.stop)) ≤ t.days.last := by
    simp only [idxToDate, endIdx, dist] at *; omega
  have := ht.first; have := ht.last
  have hs := secOf_eq _ (by omega) (show t.days.idxToDate (t.days.skip (stopIdx t.days iv.stop)) * 86400 < 2 ^ 32 by omega)
  have h4 := (day_le_sec _ iv.stop _ hs).2 h2
  generalize t.days.skip (stopIdx t.days iv.stop) = k at *
  simp only [idxToDate, stopIdx, endIdx, dist] at *
  split at h3
  · omega
  · split at h3 <;> omega

theorem walk_advance (t : DepTrain) (ht : t.InRange) (iv : TimeInterval) (n i : Nat)
    (h : i + n = stopIdx t.days iv.stop) :
    t.walk iv (t.advance iv (t.days.skip i)) (t.days.skip (stopIdx t.days iv.stop)) =
      some (((t.days.daysBetween i n).filter
        (fun d => iv.overlaps (t.eventInterval (secOf d)))).map secOf) := by
  induction n generalizing i with
  | zero =>
    have : i = stopIdx t.days iv.stop := by omega
    rw [this, advance_stop t ht iv, walk]
    simp [daysBetween]
  | succ n ih =>
    have h1 := ih (i + 1) (by omega)
    have hle := stopIdx_le t.days iv.stop
    by_cases hti : t.days.test i = true
    · rw [skip_set _ _ hti]
      have hmid : secOf (t.days.idxToDate i) ≤ iv.stop := by
        have := ht.first; have := ht.last; have := ht.wf.le
        have hs := secOf_eq (t.days.idxToDate i) (by simp only [idxToDate]; omega)
          (by simp only [idxToDate, endIdx, dist] at *; omega)
        rw [← day_le_sec _ _ _ hs]
        simp only [idxToDate, stopIdx, endIdx, dist] at *
        split at h
        · omega
        · split at h <;> omega
      by_cases ho : iv.overlaps (t.eventInterval (secOf (t.days.idxToDate i))) = true
      · rw [advance, if_neg (by simp [ho]), walk]
        have := t.days.le_skip (stopIdx t.days iv.stop)
        rw [if_neg (by omega), if_pos (by omega), incr, h1]
        simp [daysBetween, List.range'_succ, hti, ho]
      · have ho : iv.overlaps (t.eventInterval (secOf (t.days.idxToDate i))) = false := by simpa using ho
        rw [advance, if_pos ⟨by omega, hmid, ho⟩, incr, h1]
        simp [daysBetween, List.range'_succ, hti, ho]
    · have hti : t.days.test i = false := by simpa using hti
      rw [skip_unset _ i (by omega) hti, h1]
      simp [daysBetween, List.range'_succ, hti]

theorem departures_eq (t : DepTrain) (ht : t.InRange) (iv : TimeInterval) (hv : iv.start ≤ iv.stop) :
    t.departures iv = some (((t.days.daysBetween (startIdx t.days iv.start)
        (stopIdx t.days iv.stop - startIdx t.days iv.start)).filter
        (fun d => iv.overlaps (t.eventInterval (secOf d)))).map secOf) := by
  unfold departures depBegin depEnd
  rw [fromIt_eq, toIt_eq, advance_stop t ht iv]
  apply walk_advance t ht
  have := startIdx_le_stopIdx t.days ht.wf.le _ _ hv
  omega

end Soro.DepTrain
