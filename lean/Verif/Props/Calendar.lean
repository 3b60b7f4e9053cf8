import Verif.Proof.Departures

/-! Properties C01 - C08: service day calendars and departures. -/

namespace Soro
open Bitfield

/-- C01. A calendar built from a 0/1 mask answers the mask, and rejects days outside its range. -/
theorem C01_make_answers_mask (first last : Int) (mask : List Char)
    (hle : first ≤ last) (hlen : (mask.length : Int) = last - first + 1) (hfit : mask.length ≤ 512)
    (h01 : ∀ c ∈ mask, c = '0' ∨ c = '1') :
    ∃ b, Bitfield.make first last mask = some b ∧ b.WF ∧
      (∀ (i : Nat) (hi : i < mask.length), b.at? (first + i) = some (decide (mask[i] = '1'))) ∧
      (∀ d : Int, d < first ∨ last < d → b.at? d = none) := by
  obtain ⟨b, hb, _⟩ := make_any first last mask mask.length hlen (by omega) hfit
  obtain ⟨h1, h2, h3, h4⟩ := make_spec _ _ _ _ hle hlen hb
  refine ⟨b, hb, h3, ?_, ?_⟩
  · intro i hi
    rw [at?_test _ _ (by omega) (by omega), h4]
    have : dist b.first (first + i) = i := by simp only [dist]; omega
    rw [this, List.getD_eq_getElem?_getD, List.getElem?_eq_getElem hi]
    rcases h01 _ (List.getElem_mem hi) with h | h <;> simp [h]
  · intro d hd
    rw [at?, if_neg (by omega)]

example : ∃ mask : List Char, (mask.length : Int) = (12 : Int) - 10 + 1 ∧ mask.length ≤ 512 ∧
    (∀ c ∈ mask, c = '0' ∨ c = '1') ∧ '1' ∈ mask ∧ '0' ∈ mask := ⟨['1', '0', '1'], by decide⟩

/-- C01 for masks that do not have one character per day, in a release build. Characters behind the last day are ignored. If the
character of the last day is missing, the terminating zero is taken for it: the last day is a service day. -/
theorem C01_wrong_length (first last : Int) (mask : List Char) (n : Nat) (hpos : 0 < n) (hn : (n : Int) = last - first + 1)
    (hm : n ≤ mask.length + 1) (hfit : n ≤ 512) (h01 : ∀ c ∈ mask, c = '0' ∨ c = '1') :
    ∃ b, Bitfield.make first last mask = some b ∧ b.first = first ∧ b.last = last ∧
      (∀ (i : Nat) (hi : i < mask.length), i < n → b.at? (first + i) = some (decide (mask[i] = '1'))) ∧
      (mask.length + 1 = n → b.at? last = some true) := by
  obtain ⟨b, hb, h1, h2, h4⟩ := make_any first last mask n hn hm hfit
  refine ⟨b, hb, h1, h2, ?_, ?_⟩
  · intro i hi hin
    rw [at?_test _ _ (by omega) (by omega), h4]
    have : dist b.first (first + i) = i := by simp only [dist]; omega
    rw [this, List.getD_eq_getElem?_getD, List.getElem?_take_of_lt hin, List.getElem?_append_left hi,
      List.getElem?_eq_getElem hi]
    rcases h01 _ (List.getElem_mem hi) with h | h <;> simp [h]
  · intro h
    rw [at?_test _ _ (by omega) (by omega), h4]
    have : dist b.first last = mask.length := by simp only [dist]; omega
    rw [this, List.getD_eq_getElem?_getD, List.getElem?_take_of_lt (by omega)]
    simp

example : ∃ b, Bitfield.make 10 12 ['1', '0'] = some b ∧ b.at? 11 = some false ∧ b.at? 12 = some true := by
  obtain ⟨b, h1, _, _, h2, h3⟩ := C01_wrong_length 10 12 ['1', '0'] 3 (by decide) (by decide) (by decide) (by decide) (by decide)
  exact ⟨b, h1, h2 1 (by decide) (by decide), h3 (by decide)⟩

/-- C02 (one update). -/
theorem C02_set_visible_and_framed (b : Bitfield) (d : Int) (v : Bool) (hb : b.WF)
    (hfit : max b.last d - min b.first d < 512) :
    ∃ b', b.set d v = some b' ∧ b'.WF ∧ b'.first = min b.first d ∧ b'.last = max b.last d ∧
      b'.at? d = some v ∧
      (∀ e, e ≠ d → b.first ≤ e → e ≤ b.last → b'.at? e = b.at? e) ∧
      (∀ e, e ≠ d → b'.first ≤ e → e ≤ b'.last → (e < b.first ∨ b.last < e) → b'.at? e = some false) := by
  obtain ⟨b', hs⟩ := set_isSome b d v hb.le hfit
  obtain ⟨h1, h2, h3⟩ := set_spec b b' d v hs hb.le
  have hle := hb.le
  have key : ∀ e, e ≠ d → b'.first ≤ e → e ≤ b'.last →
      b'.at? e = some (decide (b.first ≤ e) && b.test (dist b.first e)) := by
    intro e hne hf hl
    rw [at?_test _ _ hf hl, h3]
    have h4 : b'.first + (dist b'.first e : Nat) = e := by simp only [dist]; omega
    have h5 : dist b'.first e < 512 := by simp only [dist]; omega
    rw [h4, if_neg hne]
    simp [h5]
  refine ⟨b', hs, set_wf b b' d v hb hs hfit, h1, h2, ?_, ?_, ?_⟩
  · rw [at?_test _ _ (by omega) (by omega), h3, if_pos]
    simp only [dist]; omega
  · intro e hne hf hl
    rw [key e hne (by omega) (by omega), at?_test _ _ hf hl]
    simp [hf]
  · intro e hne hf hl ho
    rw [key e hne hf hl]
    rcases ho with ho | ho
    · simp; omega
    · have := hb.zero (dist b.first e) (by simp only [dist]; omega)
      simp [this]

/-- apply a sequence of updates -/
def setAll (b : Bitfield) : List (Int × Bool) → Option Bitfield
  | [] => some b
  | (d, v) :: us => (b.set d v).bind (fun b' => setAll b' us)

/-- the last value written to day `d`, if any -/
def lastWrite (d : Int) (us : List (Int × Bool)) : Option Bool :=
  (us.reverse.find? (fun u => u.1 == d)).map (·.2)

theorem lastWrite_cons (d : Int) (u : Int × Bool) (us : List (Int × Bool)) :
    lastWrite d (u :: us) = (lastWrite d us).or (if u.1 = d then some u.2 else none) := by
  unfold lastWrite
  rw [List.reverse_cons, List.find?_append]
  cases h : us.reverse.find? (fun u => u.1 == d)
  · by_cases hu : u.1 = d <;> simp [hu]
  · simp

/-- C02 (histories). After any sequence of updates inside a window of 512 days the calendar answers for every day the
last value written, else its original answer, else false for days it was extended to, and rejects all other days. -/
theorem C02_set_history (us : List (Int × Bool)) (b : Bitfield) (lo hi : Int) (hb : b.WF)
    (hw : hi - lo < 512) (hlo : lo ≤ b.first) (hhi : b.last ≤ hi)
    (hus : ∀ u ∈ us, lo ≤ u.1 ∧ u.1 ≤ hi) :
    ∃ b', setAll b us = some b' ∧ b'.WF ∧ lo ≤ b'.first ∧ b'.last ≤ hi ∧
      (∀ d v, lastWrite d us = some v → b'.at? d = some v) ∧
      (∀ d, lastWrite d us = none → b.first ≤ d → d ≤ b.last → b'.at? d = b.at? d) ∧
      (∀ d, lastWrite d us = none → (d < b.first ∨ b.last < d) → b'.at? d ≠ some true) := by
  induction us generalizing b with
  | nil =>
    refine ⟨b, rfl, hb, hlo, hhi, ?_, fun _ _ _ _ => rfl, ?_⟩
    · intro d v h; simp [lastWrite] at h
    · intro d _ h; rw [at?, if_neg (by omega)]; simp
  | cons u us ih =>
    obtain ⟨d, v⟩ := u
    have hd := hus (d, v) (by simp)
    simp only at hd
    have hle := hb.le
    obtain ⟨b1, hs, hwf, hf1, hl1, hat, hold, hnew⟩ := C02_set_visible_and_framed b d v hb (by omega)
    obtain ⟨b', hr, hwf', h1, h2, h3, h4, h5⟩ :=
      ih b1 hwf (by omega) (by omega) (fun u hu => hus u (by simp [hu]))
    refine ⟨b', by simp [setAll, hs, hr], hwf', h1, h2, ?_, ?_, ?_⟩
    · intro e w hw
      rw [lastWrite_cons] at hw
      cases hl : lastWrite e us with
      | some w' => rw [hl] at hw; simp at hw; subst hw; exact h3 e w' hl
      | none =>
        rw [hl] at hw
        by_cases he : d = e
        · subst he
          simp at hw; subst hw
          rw [h4 d hl (by omega) (by omega), hat]
        · simp [he] at hw
    · intro e hn hf hl
      rw [lastWrite_cons, Option.or_eq_none_iff] at hn
      have hne : e ≠ d := by intro h; simp [h] at hn
      rw [h4 e hn.1 (by omega) (by omega), hold e hne hf hl]
    · intro e hn ho
      rw [lastWrite_cons, Option.or_eq_none_iff] at hn
      have hne : e ≠ d := by intro h; simp [h] at hn
      by_cases hin : b1.first ≤ e ∧ e ≤ b1.last
      · rw [h4 e hn.1 hin.1 hin.2, hnew e hne hin.1 hin.2 ho]; simp
      · exact h5 e hn.1 (by omega)

/-- a concrete calendar for the non-vacuity examples: days 100..102 with mask 101 -/
def exCal : Bitfield := ⟨100, 102, 5#512⟩

theorem exCal_wf : exCal.WF := by
  refine ⟨by decide, by decide, ?_⟩
  intro i hi
  have hi : (102 : Int) - 100 < i := hi
  show (5#512).getLsbD i = false
  rw [BitVec.getLsbD_ofNat, Nat.testBit_lt_two_pow]
  · simp
  · calc 5 < 2 ^ 3 := by decide
      _ ≤ 2 ^ i := Nat.pow_le_pow_right (by decide) (by omega)

example : exCal.WF ∧ max exCal.last 90 - min exCal.first 90 < 512 := ⟨exCal_wf, by decide⟩

example : exCal.WF ∧ (90 : Int) ≤ exCal.first ∧ exCal.last ≤ 601 ∧ (601 : Int) - 90 < 512 ∧
    ∀ u ∈ [((90 : Int), true), (601, true), (101, false)], 90 ≤ u.1 ∧ u.1 ≤ 601 :=
  ⟨exCal_wf, by decide, by decide, by decide, by decide⟩

/-- C03. The union runs on a day iff one operand does; its range is the joint range; it is well-formed
(and hence operations on it behave as in the other properties). -/
theorem C03_union_days (a o : Bitfield) (ha : a.WF) (ho : o.WF)
    (hfit : max a.last o.last - min a.first o.first < 512) :
    (a.union o).WF ∧ (a.union o).first = min a.first o.first ∧ (a.union o).last = max a.last o.last ∧
    (∀ d, RunsOn (a.union o) d ↔ RunsOn a d ∨ RunsOn o d) ∧
    (∀ d, (a.union o).at? d = (o.union a).at? d) := by
  have key : ∀ (a o : Bitfield), a.WF → o.WF → max a.last o.last - min a.first o.first < 512 →
      ∀ d, RunsOn (a.union o) d ↔ RunsOn a d ∨ RunsOn o d := by
    intro a o ha ho hfit d
    have h1 := union_first a o
    have h2 := union_last a o
    have := ha.le; have := ho.le
    simp only [RunsOn, at?_eq_true]
    have zer : ∀ (x : Bitfield), x.WF → x.last < d → x.test (dist x.first d) = false := by
      intro x hx hl; apply hx.zero; have := hx.le; simp only [dist]; omega
    by_cases hin : min a.first o.first ≤ d ∧ d ≤ max a.last o.last
    · rw [union_test _ _ _ (by simp only [dist]; omega)]
      have h4 : (a.union o).first + (dist (a.union o).first d : Nat) = d := by simp only [dist]; omega
      rw [h4]
      simp only [Bool.or_eq_true, Bool.and_eq_true, decide_eq_true_eq]
      constructor
      · rintro ⟨_, _, ⟨h5, h6⟩ | ⟨h5, h6⟩⟩
        · left; refine ⟨h5, ?_, h6⟩
          apply Classical.byContradiction; intro hh
          rw [zer a ha (by omega)] at h6; cases h6
        · right; refine ⟨h5, ?_, h6⟩
          apply Classical.byContradiction; intro hh
          rw [zer o ho (by omega)] at h6; cases h6
      · rintro (⟨h5, _, h6⟩ | ⟨h5, _, h6⟩)
        · exact ⟨by omega, by omega, Or.inl ⟨h5, h6⟩⟩
        · exact ⟨by omega, by omega, Or.inr ⟨h5, h6⟩⟩
    · constructor
      · rintro ⟨_, _, _⟩; omega
      · rintro (⟨_, _, _⟩ | ⟨_, _, _⟩) <;> omega
  refine ⟨union_wf a o ha ho hfit, union_first a o, rfl, key a o ha ho hfit, ?_⟩
  intro d
  have h1 := key a o ha ho hfit d
  have h2 := key o a ho ha (by omega) d
  have h3 : RunsOn (a.union o) d ↔ RunsOn (o.union a) d := by rw [h1, h2, Or.comm]
  have e1 := union_first a o; have e2 := union_last a o
  have e3 := union_first o a; have e4 := union_last o a
  simp only [RunsOn] at h3
  by_cases hin : min a.first o.first ≤ d ∧ d ≤ max a.last o.last
  · rw [at?_test (a.union o) _ (by omega) (by omega), at?_test (o.union a) _ (by omega) (by omega)] at h3 ⊢
    simp only [Option.some.injEq] at h3 ⊢
    exact Bool.eq_iff_iff.2 h3
  · rw [at?, if_neg (by omega), at?, if_neg (by omega)]

example : exCal.WF ∧ (⟨300, 302, 5#512⟩ : Bitfield).WF ∧
    max exCal.last 302 - min exCal.first 300 < 512 := by
  refine ⟨exCal_wf, ⟨by decide, by decide, ?_⟩, by decide⟩
  exact exCal_wf.zero

/-- C04. Iteration visits exactly the days of the calendar, in increasing order; `count`, `get_set_days`,
`first_set_date` and `last_set_date` describe the same list. -/
theorem C04_iteration_exact (b : Bitfield) (hb : b.WF) :
    ∃ l, b.walk b.beginIt b.endIt = some l ∧ l.Pairwise (· < ·) ∧ (∀ d, d ∈ l ↔ RunsOn b d) ∧
      b.count = l.length ∧ b.getSetDays = l ∧ b.firstSetDate = l.head? ∧ b.lastSetDate = l.getLast? := by
  refine ⟨b.daysBetween 0 b.endIdx, walk_begin_end b, pairwise_daysBetween _ _ _, ?_, count_eq b hb,
    getSetDays_eq b hb, ?_, ?_⟩
  · intro d
    rw [mem_daysBetween_at b hb.le _ _ (by omega)]
    simp only [RunsOn]
    constructor
    · exact fun h => h.1
    · intro h
      have := (at?_eq_true b d).1 h
      refine ⟨h, by omega, ?_⟩
      simp only [endIdx, dist]; omega
  · rw [firstSetDate, daysBetween, List.head?_map, ← filter_test_range b hb, List.head?_filter]
  · rw [lastSetDate, daysBetween, List.getLast?_map, List.getLast?_eq_head?_reverse, ← List.filter_reverse,
      List.head?_filter, List.range_eq_range']

example : exCal.WF ∧ RunsOn exCal 100 ∧ RunsOn exCal 102 ∧ ¬ RunsOn exCal 101 :=
  ⟨exCal_wf, by unfold RunsOn; decide +kernel, by unfold RunsOn; decide +kernel, by unfold RunsOn; decide +kernel⟩

/-- C05. `from(s)`..`to(e)` visits exactly the days of the calendar between the days of `s` and `e`. -/
theorem C05_window_exact (b : Bitfield) (hb : b.WF) (s e : Nat) (hse : s ≤ e) :
    ∃ l, b.walk (b.fromIt s) (b.toIt e) = some l ∧ l.Pairwise (· < ·) ∧
      (∀ d : Int, d ∈ l ↔ RunsOn b d ∧ (s / 86400 : Nat) ≤ d ∧ d ≤ (e / 86400 : Nat)) := by
  have hle := DepTrain.startIdx_le_stopIdx b hb.le s e hse
  have hst := DepTrain.stopIdx_le b e
  refine ⟨b.daysBetween (DepTrain.startIdx b s) (DepTrain.stopIdx b e - DepTrain.startIdx b s), ?_,
    pairwise_daysBetween _ _ _, ?_⟩
  · rw [DepTrain.fromIt_eq, DepTrain.toIt_eq]
    have := walk_skip b (DepTrain.stopIdx b e - DepTrain.startIdx b s) (DepTrain.startIdx b s) (by omega)
    rwa [show DepTrain.startIdx b s + (DepTrain.stopIdx b e - DepTrain.startIdx b s) = DepTrain.stopIdx b e by omega]
      at this
  · intro d
    rw [mem_daysBetween_at b hb.le _ _ (by omega)]
    have hbr := DepTrain.bracket b hb.le s e hse d
    simp only [RunsOn]
    constructor
    · rintro ⟨h1, h2⟩
      have h3 := (at?_eq_true b d).1 h1
      exact ⟨h1, (hbr h3.1 h3.2.1).1 h2⟩
    · rintro ⟨h1, h2⟩
      have h3 := (at?_eq_true b d).1 h1
      exact ⟨h1, (hbr h3.1 h3.2.1).2 h2⟩

example : exCal.WF ∧ 101 * 86400 + 5 ≤ 500 * 86400 := ⟨exCal_wf, by decide⟩

/-- C06, full statement: `equivalent` holds iff both calendars have the same days. -/
def C06_full : Prop := ∀ a o : Bitfield, a.WF → o.WF → (a.equivalent o = true ↔ ∀ d, RunsOn a d ↔ RunsOn o d)

/-- C06 is false for the code: the shift result is discarded, so equal calendars with different ranges are
reported as different. -/
theorem C06_equivalent_negation : ¬ C06_full := by
  intro h
  have hw : (⟨100, 103, 5#512⟩ : Bitfield).WF := by
    refine ⟨by decide, by decide, ?_⟩
    intro i hi
    have hi : (103 : Int) - 100 < i := hi
    exact exCal_wf.zero i (by show (102 : Int) - 100 < i; omega)
  have := (h exCal ⟨100, 103, 5#512⟩ exCal_wf hw).2 ?_
  · exact absurd this (by decide +kernel)
  · intro d
    simp only [RunsOn, at?_eq_true, exCal]
    constructor
    · rintro ⟨h1, h2, h3⟩; exact ⟨h1, by omega, h3⟩
    · rintro ⟨h1, h2, h3⟩
      refine ⟨h1, ?_, h3⟩
      apply Classical.byContradiction; intro hh
      have : d = 103 := by omega
      subst this
      exact absurd h3 (by decide +kernel)

/-- C06, the part that holds (missing: the converse, which is false): calendars reported as equivalent have the
same days; and for calendars with the same range the answer is exact. -/
theorem C06_equivalent_partial (a o : Bitfield) (ha : a.WF) (ho : o.WF) :
    (a.equivalent o = true → ∀ d, RunsOn a d ↔ RunsOn o d) ∧
    (a.first = o.first → a.last = o.last → ((∀ d, RunsOn a d ↔ RunsOn o d) → a.equivalent o = true)) := by
  constructor
  · intro h
    have : a = o := by
      unfold equivalent at h
      split at h
      · assumption
      · split at h <;> simpa using h
    subst this
    exact fun _ => Iff.rfl
  · intro hf hl hd
    have : a = o := by
      obtain ⟨af, al, ab⟩ := a
      obtain ⟨of', ol, ob⟩ := o
      simp only at hf hl
      subst hf; subst hl
      congr 1
      apply BitVec.eq_of_getLsbD_eq
      intro i hi
      by_cases hin : (i : Int) ≤ al - af
      · have := hd (af + i)
        simp only [RunsOn, at?_eq_true, test] at this
        have e : dist af (af + i) = i := by simp only [dist]; omega
        simp only [e] at this
        rw [Bool.eq_iff_iff]
        constructor
        · intro h; exact (this.1 ⟨by omega, by omega, h⟩).2.2
        · intro h; exact (this.2 ⟨by omega, by omega, h⟩).2.2
      · have h1 := ha.zero i (by simp only; omega)
        have h2 := ho.zero i (by simp only; omega)
        simp only [test] at h1 h2
        rw [h1, h2]
    subst this
    simp [equivalent]

example : exCal.WF ∧ exCal.equivalent exCal = true := ⟨exCal_wf, by decide +kernel⟩

/-- C07, full statement: departures in a valid interval are exactly the runs that meet it. -/
def C07_full : Prop := ∀ (t : DepTrain) (iv : TimeInterval), t.InRange → iv.start ≤ iv.stop → iv.stop < 2 ^ 32 →
    ∃ l, t.departures iv = some l ∧ l.Pairwise (· < ·) ∧
      (∀ d : Int, 0 ≤ d → ((d * 86400).toNat ∈ l ↔ RunsOn t.days d ∧ RunMeets t iv d))

/-- C07, what the code does exactly: it yields, in increasing order, the midnights of all service days on or after the
day of the interval start whose run meets the interval. -/
theorem C07_departures_characterised (t : DepTrain) (iv : TimeInterval) (ht : t.InRange)
    (hv : iv.start ≤ iv.stop) :
    ∃ l, t.departures iv = some l ∧ l.Pairwise (· < ·) ∧
      (∀ x : Nat, x ∈ l ↔ ∃ d : Int, (x : Int) = d * 86400 ∧ RunsOn t.days d ∧
        (iv.start / 86400 : Nat) ≤ d ∧ RunMeets t iv d) := by
  have hwf := ht.wf
  have hsle := DepTrain.startIdx_le_stopIdx t.days hwf.le _ _ hv
  have hst := DepTrain.stopIdx_le t.days iv.stop
  have hsec : ∀ d, RunsOn t.days d → (secOf d : Int) = d * 86400 := by
    intro d hd
    have := (at?_eq_true _ _).1 hd
    have := ht.first; have := ht.last
    exact DepTrain.secOf_eq d (by omega) (by omega)
  refine ⟨_, DepTrain.departures_eq t ht iv hv, ?_, ?_⟩
  · rw [List.pairwise_map]
    have hp := (pairwise_daysBetween t.days (DepTrain.startIdx t.days iv.start)
      (DepTrain.stopIdx t.days iv.stop - DepTrain.startIdx t.days iv.start)).filter
      (fun d => iv.overlaps (t.eventInterval (secOf d)))
    refine hp.imp_of_mem ?_
    intro x y hx hy hxy
    have hx' := ((mem_daysBetween_at t.days hwf.le _ _ (by omega) x).1 (List.mem_filter.1 hx).1).1
    have hy' := ((mem_daysBetween_at t.days hwf.le _ _ (by omega) y).1 (List.mem_filter.1 hy).1).1
    have := hsec x hx'; have := hsec y hy'
    omega
  · intro x
    simp only [List.mem_map, List.mem_filter]
    constructor
    · rintro ⟨d, ⟨h1, h2⟩, rfl⟩
      have h3 := (mem_daysBetween_at t.days hwf.le _ _ (by omega) d).1 h1
      have h4 := (at?_eq_true _ _).1 h3.1
      have h5 := (DepTrain.bracket t.days hwf.le _ _ hv d h4.1 h4.2.1).1 h3.2
      refine ⟨d, hsec d h3.1, h3.1, h5.1, ?_⟩
      exact (DepTrain.overlaps_iff t iv hv ht d (by have := ht.first; omega) h4.2.1).1 h2
    · rintro ⟨d, hxd, h1, h2, h3⟩
      have h4 := (at?_eq_true _ _).1 h1
      have h0 : 0 ≤ d := by have := ht.first; omega
      refine ⟨d, ⟨?_, (DepTrain.overlaps_iff t iv hv ht d h0 h4.2.1).2 h3⟩, ?_⟩
      · rw [mem_daysBetween_at t.days hwf.le _ _ (by omega) d]
        refine ⟨h1, (DepTrain.bracket t.days hwf.le _ _ hv d h4.1 h4.2.1).2 ⟨h2, ?_⟩⟩
        obtain ⟨y, ⟨h5, h6⟩, h7, h8⟩ := h3
        simp only [dayOf]; omega
      · have := hsec d h1; omega

/-- C07, the part that holds (missing: runs that start before the day of the interval start, see the negation): for trains
that arrive on the day they depart, the departures are exactly the runs that meet the interval. -/
theorem C07_departures_partial (t : DepTrain) (iv : TimeInterval) (ht : t.InRange)
    (hv : iv.start ≤ iv.stop) (hsame : t.lastArrival < 86400) :
    ∃ l, t.departures iv = some l ∧ l.Pairwise (· < ·) ∧
      (∀ d : Int, 0 ≤ d → ((d * 86400).toNat ∈ l ↔ RunsOn t.days d ∧ RunMeets t iv d)) := by
  obtain ⟨l, h1, h2, h3⟩ := C07_departures_characterised t iv ht hv
  refine ⟨l, h1, h2, ?_⟩
  intro d hd
  rw [h3]
  constructor
  · rintro ⟨e, he, h4, _, h6⟩
    have : d = e := by omega
    subst this; exact ⟨h4, h6⟩
  · rintro ⟨h4, h5⟩
    refine ⟨d, by omega, h4, ?_, h5⟩
    obtain ⟨x, ⟨_, h6⟩, h7, _⟩ := h5
    omega

/-- a train that departs at 22:00 on days 100 and 102 and arrives at 26:00, i.e. 02:00 of the next day -/
def exTrain : DepTrain := ⟨7, exCal, 22 * 3600, 26 * 3600⟩

theorem exTrain_inRange : exTrain.InRange :=
  ⟨exCal_wf, by decide, by decide, by decide⟩

/-- C07 is false for the code: the run that starts at 22:00 of day 100 is under way at 01:00 of day 101 but is not
among the departures of the interval 00:30 .. 01:30 of day 101. -/
theorem C07_departures_negation : ¬ C07_full := by
  intro h
  obtain ⟨l, h1, -, h3⟩ := h exTrain ⟨101 * 86400 + 1800, 101 * 86400 + 5400⟩ exTrain_inRange (by decide) (by decide)
  obtain ⟨l', h1', -, h3'⟩ := C07_departures_characterised exTrain ⟨101 * 86400 + 1800, 101 * 86400 + 5400⟩
    exTrain_inRange (by decide)
  rw [h1] at h1'
  cases h1'
  have h := (h3 100 (by decide)).2 ⟨by unfold RunsOn; decide +kernel, 101 * 86400 + 3600, by decide, by decide⟩
  obtain ⟨d, h4, -, h5, -⟩ := (h3' _).1 h
  simp only at h5
  omega

example : exTrain.InRange ∧ (⟨100 * 86400, 103 * 86400⟩ : TimeInterval).start ≤ 103 * 86400 ∧
    exTrain.departures ⟨100 * 86400, 103 * 86400⟩ = some [100 * 86400, 102 * 86400] :=
  ⟨exTrain_inRange, by decide, by rw [DepTrain.departures_eq _ exTrain_inRange _ (by decide)]; decide +kernel⟩

example : ({ exTrain with lastArrival := 23 * 3600 } : DepTrain).InRange ∧ 23 * 3600 < 86400 :=
  ⟨⟨exCal_wf, by decide, by decide, by decide⟩, by decide⟩

/-- C08. `trips` has one entry per service day, in order, and `trip_count` is their number. -/
theorem C08_trips_complete (t : DepTrain) (ht : t.InRange) :
    ∃ l, t.trips = some l ∧ l.length = t.tripCount ∧ (l.map (·.2)).Pairwise (· < ·) ∧
      (∀ p ∈ l, p.1 = t.id) ∧
      (∀ x : Nat, x ∈ l.map (·.2) ↔ ∃ d : Int, (x : Int) = d * 86400 ∧ RunsOn t.days d) := by
  obtain ⟨l, h1, h2, h3⟩ := C07_departures_characterised t .default ht (by decide)
  have hfirst := ht.first
  have hlast := ht.last
  have hord := ht.order
  have hmeets : ∀ d, RunsOn t.days d → RunMeets t .default d := by
    intro d hd
    have := (at?_eq_true _ _).1 hd
    refine ⟨d * 86400 + t.lastArrival, by omega, ?_⟩
    show ((0 : Nat) : Int) ≤ _ ∧ _ ≤ (((2 ^ 32 - 1 : Nat)) : Int)
    omega
  refine ⟨l.map fun a => (t.id, a), by simp [DepTrain.trips, DepTrain.allDepartures, h1], ?_, ?_, ?_, ?_⟩
  · -- compare with the unfiltered iteration
    have hd := DepTrain.departures_eq t ht .default (by decide)
    rw [h1] at hd
    cases hd
    rw [List.length_map, List.length_map, DepTrain.tripCount, count_eq _ ht.wf]
    have e1 : DepTrain.startIdx t.days TimeInterval.default.start = 0 := by
      unfold DepTrain.startIdx
      rw [if_pos]
      show dayOf 0 ≤ _
      simp only [dayOf]; omega
    have e2 : DepTrain.stopIdx t.days TimeInterval.default.stop = t.days.endIdx := by
      unfold DepTrain.stopIdx
      rw [if_pos]
      show dayOf (2 ^ 32 - 1) ≥ _
      simp only [dayOf]; omega
    rw [e1, e2, Nat.sub_zero]
    congr 1
    rw [List.filter_eq_self]
    intro d hdm
    have hr := ((mem_daysBetween_at t.days ht.wf.le _ _ (by omega) d).1 hdm).1
    have := (at?_eq_true _ _).1 hr
    exact (DepTrain.overlaps_iff t .default (by decide) ht d (by omega) (by omega)).2 (hmeets d hr)
  · simpa [List.map_map, Function.comp_def] using h2
  · intro p hp
    simp only [List.mem_map] at hp
    obtain ⟨a, _, rfl⟩ := hp
    rfl
  · intro x
    rw [List.map_map, show ((fun p : Nat × Nat => p.2) ∘ fun a => (t.id, a)) = id from rfl, List.map_id, h3]
    constructor
    · rintro ⟨d, h4, h5, _⟩; exact ⟨d, h4, h5⟩
    · rintro ⟨d, h4, h5⟩
      have := (at?_eq_true _ _).1 h5
      refine ⟨d, h4, h5, ?_, hmeets d h5⟩
      show (((0 / 86400 : Nat)) : Int) ≤ d
      omega

example : exTrain.InRange ∧ exTrain.trips = some [(7, 100 * 86400), (7, 102 * 86400)] ∧ exTrain.tripCount = 2 :=
  ⟨exTrain_inRange, by
    rw [DepTrain.trips, DepTrain.allDepartures, DepTrain.departures_eq _ exTrain_inRange _ (by decide)]; decide +kernel,
    by decide +kernel⟩

end Soro
