import Verif.Proof.CalendarDebug
import Verif.Spec.Calendar
import Verif.Props.Calendar

/-! Property C173: the assertions of calendars and departures. -/

namespace Soro
open Bitfield Dbg DepTrain

/-- C173. The debug build makes the same calendar as the release build from a mask with one character per day, and is stopped
by an assertion for all other masks and for ranges that end before they start. -/
theorem C173_make (first last : Int) (mask : List Char) (h1 : first ≠ NODAY) (h2 : last ≠ NODAY)
    (hfit : mask.length ≤ 512) :
    (first ≤ last ∧ (mask.length : Int) = last - first + 1 → SameAs (makeD first last mask) (make first last mask)) ∧
    (¬ (first ≤ last ∧ (mask.length : Int) = last - first + 1) → Stops (makeD first last mask)) :=
  ⟨fun h => makeD_same first last mask h1 h2 h.1 h.2 hfit, makeD_stops first last mask h1 h2⟩

example : (10 : Int) ≠ NODAY ∧ (12 : Int) ≠ NODAY ∧ ((['1', '0', '1'].length : Nat) : Int) = 12 - 10 + 1 ∧
    ¬ ((['1', '0'].length : Nat) : Int) = 12 - 10 + 1 := by decide

/-- C173. Updating a day and uniting calendars is the same in both builds as long as the joint range has at most 512 days,
and is stopped by an assertion otherwise. -/
theorem C173_update (b o : Bitfield) (hb : b.WF) (hd : b.Dated) (ho : o.WF) (hod : o.Dated) (d : Int) (v : Bool)
    (hn : d ≠ NODAY) :
    (max b.last d - min b.first d < 512 → SameAs (b.setD d v) (b.set d v)) ∧
    (¬ max b.last d - min b.first d < 512 → Stops (b.setD d v)) ∧
    (max b.last o.last - min b.first o.first < 512 → SameAs (b.unionD o) (some (b.union o))) ∧
    (¬ max b.last o.last - min b.first o.first < 512 → Stops (b.unionD o)) :=
  ⟨setD_same hb hd d v hn, setD_stops hb hd d v hn, fun h => ⟨_, rfl, unionD_ok hb hd ho hod h⟩,
    unionD_stops hb hd ho hod⟩

example : exCal.WF ∧ exCal.Dated ∧ (90 : Int) ≠ NODAY ∧ max exCal.last 90 - min exCal.first 90 < 512 ∧
    ¬ max exCal.last 900 - min exCal.first 900 < 512 := ⟨exCal_wf, by unfold Dated; decide, by decide, by decide, by decide⟩

/-- C173. Iterating a calendar, as a whole or between two points in time, and asking for its days throws nothing in the debug
build and returns what the release build returns. -/
theorem C173_iteration (b : Bitfield) (hb : b.WF) (hd : b.Dated) (s e : Nat) (hse : s ≤ e) (he : e < 2 ^ 32) :
    SameAs (b.beginD >>= fun i => b.endD >>= fun j => b.walkD i j) (b.walk b.beginIt b.endIt) ∧
    SameAs (b.fromD s >>= fun i => b.toD e >>= fun j => b.walkD i j) (b.walk (b.fromIt s) (b.toIt e)) ∧
    SameAs b.getSetDaysD (some b.getSetDays) ∧
    (∀ d, b.first ≤ d → d ≤ b.last → SameAs (b.atD d) (b.at? d)) := by
  refine ⟨?_, ?_, ⟨_, rfl, getSetDaysD_ok hd⟩, fun d h1 h2 => ⟨_, at?_test b d h1 h2, atD_ok hd h1 h2⟩⟩
  · obtain ⟨l, hl, -⟩ := C04_iteration_exact b hb
    refine ⟨l, hl, ?_⟩
    unfold beginD endD
    rw [iterD_ok hb hd (by omega), ok_bind, endIdxD_ok hb hd, ok_bind, iterD_ok hb hd (by omega), ok_bind]
    exact Bitfield.walkD_same hb hd _ _ (by rw [iter_eq_skip _ _ (by omega)]; exact skip_pos _ _ (by omega)) hl
  · obtain ⟨l, hl, -⟩ := C05_window_exact b hb s e hse
    refine ⟨l, hl, ?_⟩
    rw [fromD_ok hb hd (by omega), ok_bind, toD_ok hb hd he, ok_bind]
    exact Bitfield.walkD_same hb hd _ _
      (by rw [DepTrain.fromIt_eq]; exact skip_pos _ _ (DepTrain.startIdx_le _ _)) hl

example : exCal.WF ∧ exCal.Dated ∧ (8640000 : Nat) ≤ 8900000 ∧ (8900000 : Nat) < 2 ^ 32 :=
  ⟨exCal_wf, by unfold Dated; decide, by decide, by decide⟩

/-- C173. The first and the last day of a calendar are the same in both builds if it has one, and asking for them is stopped by
an assertion otherwise. -/
theorem C173_extremes (b : Bitfield) (hb : b.WF) (hd : b.Dated) :
    ((∃ d, RunsOn b d) → SameAs b.firstSetDateD b.firstSetDate ∧ SameAs b.lastSetDateD b.lastSetDate) ∧
    ((∀ d, ¬ RunsOn b d) → Stops b.firstSetDateD ∧ Stops b.lastSetDateD) := by
  constructor
  · rintro ⟨d, h⟩
    have := (at?_eq_true b d).1 h
    exact ⟨firstSetDateD_same hd ⟨_, this.2.2⟩, lastSetDateD_same hb hd ⟨_, this.2.2⟩⟩
  · intro h
    have hn : ¬ (List.range BITSIZE).any b.test = true := by
      rw [any_iff]
      rintro ⟨i, hi⟩
      have hr : ¬ b.last - b.first < i := fun hc => by rw [hb.zero i hc] at hi; cases hi
      refine h (b.first + i) ((at?_eq_true b _).2 ⟨by omega, by omega, ?_⟩)
      rwa [show dist b.first (b.first + i) = i by simp only [dist]; omega]
    unfold firstSetDateD lastSetDateD
    rw [check_neg hn, check_neg hn]
    exact ⟨⟨_, rfl⟩, ⟨_, rfl⟩⟩

example : (∃ d, RunsOn exCal d) ∧ (⟨5, 9, 0#512⟩ : Bitfield).WF ∧ ∀ d, ¬ RunsOn ⟨5, 9, 0#512⟩ d := by
  refine ⟨⟨100, by unfold RunsOn; decide +kernel⟩, ⟨by decide, by decide, fun i _ => by simp [test]⟩, fun d h => ?_⟩
  have := ((at?_eq_true _ _).1 h).2.2
  simp [test] at this

/-- C173. Iterating the departures of a train throws nothing in the debug build and returns what the release build returns, for
all trains whose runs lie in the range of the time type and all intervals. -/
theorem C173_departures (t : DepTrain) (ht : t.InRange) (iv : TimeInterval) (h1 : iv.start ≤ iv.stop)
    (h2 : iv.stop < 2 ^ 32) (hv : t.days.last * 86400 + t.lastArrival < 2 ^ 32 - 1) :
    SameAs (t.departuresD iv) (t.departures iv) := by
  have := ht.first; have := ht.last; have := ht.wf.le
  have hd : t.days.Dated := by unfold Dated NODAY; omega
  exact DepTrain.departuresD_same ht hd (by omega) iv h1 h2

example : exTrain.InRange ∧ exTrain.days.last * 86400 + exTrain.lastArrival < 2 ^ 32 - 1 :=
  ⟨exTrain_inRange, by decide⟩

/-- C173. The time a train takes up on a day: as in the release build if the time is a midnight of a day it runs and its times are
known; stopped by an assertion if it is no midnight, the train does not run on that day of its calendar, or a time is unknown. -/
theorem C173_event_interval (t : DepTrain) (hd : t.days.Dated) (m : Nat) (h1 : t.days.first ≤ ((m / 86400 : Nat) : Int))
    (h2 : ((m / 86400 : Nat) : Int) ≤ t.days.last) :
    (m % 86400 = 0 ∧ RunsOn t.days ((m / 86400 : Nat) : Int) ∧ t.firstDeparture ≠ 2 ^ 32 - 1 ∧ t.lastArrival ≠ 2 ^ 32 - 1 →
      SameAs (t.eventIntervalD m) (some (t.eventInterval m))) ∧
    (¬ (m % 86400 = 0 ∧ RunsOn t.days ((m / 86400 : Nat) : Int) ∧ t.firstDeparture ≠ 2 ^ 32 - 1 ∧ t.lastArrival ≠ 2 ^ 32 - 1) →
      Stops (t.eventIntervalD m)) := by
  have hat := atD_ok hd h1 h2
  have hr : RunsOn t.days ((m / 86400 : Nat) : Int) ↔ t.days.test (dist t.days.first ((m / 86400 : Nat) : Int)) = true := by
    unfold RunsOn
    rw [at?_eq_true]
    exact ⟨fun h => h.2.2, fun h => ⟨h1, h2, h⟩⟩
  unfold DepTrain.eventIntervalD DepTrain.timeD
  rw [hr]
  constructor
  · rintro ⟨a, b, c, d⟩
    refine ⟨_, rfl, ?_⟩
    rw [check_pos a, ok_bind, hat, ok_bind, check_pos b, ok_bind, check_pos c, check_pos d]; rfl
  · intro h
    by_cases a : m % 86400 = 0
    · rw [check_pos a, ok_bind, hat, ok_bind]
      by_cases b : t.days.test (dist t.days.first ((m / 86400 : Nat) : Int)) = true
      · rw [check_pos b, ok_bind]
        by_cases c : t.firstDeparture ≠ 2 ^ 32 - 1
        · rw [check_pos c, check_neg (fun d => h ⟨a, b, c, d⟩)]
          exact ⟨82, rfl⟩
        · rw [check_neg c]
          exact ⟨76, rfl⟩
      · rw [check_neg b]
        exact ⟨99, rfl⟩
    · rw [check_neg a]
      exact ⟨98, rfl⟩

example : exTrain.days.Dated ∧ exTrain.days.first ≤ ((8640000 / 86400 : Nat) : Int) ∧
    ((8640000 / 86400 : Nat) : Int) ≤ exTrain.days.last ∧ 8640000 % 86400 = 0 ∧
    RunsOn exTrain.days ((8640000 / 86400 : Nat) : Int) ∧ exTrain.firstDeparture ≠ 2 ^ 32 - 1 ∧ exTrain.lastArrival ≠ 2 ^ 32 - 1 :=
  ⟨by unfold Dated; decide, by decide, by decide, by decide, by unfold RunsOn; decide +kernel, by decide, by decide⟩

/-- C173. A train whose first departure or last arrival is unknown: asking for its departures in an interval is stopped by an
assertion as soon as the train runs on a day in the interval. -/
theorem C173_unknown (t : DepTrain) (hb : t.days.WF) (h0 : 0 ≤ t.days.first) (hl : t.days.last * 86400 < 2 ^ 32)
    (hu : t.firstDeparture = 2 ^ 32 - 1 ∨ t.lastArrival = 2 ^ 32 - 1) (iv : TimeInterval) (h2 : iv.start < 2 ^ 32) (d : Int)
    (hr : RunsOn t.days d) (hd1 : ((iv.start / 86400 : Nat) : Int) ≤ d) (hd2 : d * 86400 ≤ iv.stop) :
    Stops (t.departuresD iv) := by
  have hle := hb.le
  have hd : t.days.Dated := by unfold Dated NODAY; omega
  obtain ⟨r1, r2, r3⟩ := (at?_eq_true _ _).1 hr
  have hstart : startIdx t.days iv.start ≤ dist t.days.first d := by
    unfold startIdx dayOf
    split
    · omega
    · simp only [dist]; omega
  have hskip : ∀ (i j : Nat), i ≤ j → j < t.days.endIdx → t.days.test j = true → t.days.skip i ≤ j := by
    intro i j
    fun_induction Bitfield.skip t.days i with
    | case1 i hc ih =>
      intro hij hj ht
      refine ih ?_ hj ht
      rcases Nat.lt_or_ge i j with h | h
      · omega
      · obtain rfl : i = j := by omega
        rw [hc.2] at ht; cases ht
    | case2 i hc => intro hij _ _; exact hij
  have hend : dist t.days.first d < t.days.endIdx := by simp only [dist, endIdx]; omega
  have hi := hskip _ _ hstart hend r3
  have hp := skip_pos t.days (startIdx t.days iv.start) (startIdx_le _ _)
  unfold DepTrain.departuresD DepTrain.depBeginD
  rw [fromD_ok hb hd h2, ok_bind, fromIt_eq]
  generalize t.days.skip (startIdx t.days iv.start) = i at hi hp
  have hilt : i < t.days.endIdx := by omega
  have htest : t.days.test i = true := by
    rcases hp.2 with h | h
    · omega
    · exact h
  obtain ⟨e1, e2, e3⟩ := idx_range hb hilt
  have hsec := secOf_eq (t.days.idxToDate i) (by omega) (by omega)
  have hdate : t.days.idxToDate i ≤ d := by
    simp only [idxToDate, dist] at hi ⊢
    omega
  have hdiv : ((secOf (t.days.idxToDate i) / 86400 : Nat) : Int) = t.days.idxToDate i := by omega
  have hs : Stops (t.eventIntervalD (secOf (t.days.idxToDate i))) := by
    refine (C173_event_interval t hd _ (by omega) (by omega)).2 ?_
    rintro ⟨-, -, a, b⟩
    rcases hu with h | h
    · exact a h
    · exact b h
  obtain ⟨n, hn⟩ := hs
  refine ⟨n, ?_⟩
  rw [DepTrain.advanceD, if_pos hilt, derefD_ok hb hd hilt htest, ok_bind, if_pos (by omega), hn]
  rfl

example : (⟨7, exCal, 22 * 3600, 2 ^ 32 - 1⟩ : DepTrain).days.WF ∧ 0 ≤ exCal.first ∧ exCal.last * 86400 < 2 ^ 32 ∧
    RunsOn exCal 100 ∧ (((0 : Nat) / 86400 : Nat) : Int) ≤ 100 ∧ (100 : Int) * 86400 ≤ (2 ^ 32 - 1 : Nat) :=
  ⟨exCal_wf, by decide, by decide, by unfold RunsOn; decide +kernel, by decide, by decide⟩

end Soro
