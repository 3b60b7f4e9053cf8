import Verif.Model.Bitfield

/-! Helper lemmas about the calendar model. -/

namespace Soro.Bitfield

theorem le_skip (b : Bitfield) (i : Nat) : i ≤ b.skip i := by
  fun_induction Bitfield.skip b i <;> omega

theorem skip_le (b : Bitfield) (i : Nat) (h : i ≤ b.endIdx) : b.skip i ≤ b.endIdx := by
  fun_induction Bitfield.skip b i with
  | case1 i hc ih => exact ih (by omega)
  | case2 i hc => exact h

theorem skip_unset (b : Bitfield) (i : Nat) (h : i < b.endIdx) (ht : b.test i = false) :
    b.skip i = b.skip (i + 1) := by
  rw [skip, if_pos ⟨h, ht⟩]

theorem skip_set (b : Bitfield) (i : Nat) (ht : b.test i = true) : b.skip i = i := by
  rw [skip, if_neg (by simp [ht])]

theorem skip_end (b : Bitfield) : b.skip b.endIdx = b.endIdx := by
  rw [skip, if_neg (by omega)]

theorem iter_eq_skip (b : Bitfield) (i : Nat) (h : i ≤ b.endIdx) : b.iter i = b.skip i := by
  unfold iter
  split
  · rename_i hc
    rw [skip_unset b i (by omega) hc.2]; rfl
  · rename_i hc
    rw [skip, if_neg]
    intro hh
    exact hc ⟨by omega, hh.2⟩

/-- the days visited between two indices -/
def daysBetween (b : Bitfield) (i n : Nat) : List Int :=
  ((List.range' i n).filter b.test).map b.idxToDate

theorem walk_skip (b : Bitfield) (n i : Nat) (h : i + n ≤ b.endIdx) :
    b.walk (b.skip i) (b.skip (i + n)) = some (b.daysBetween i n) := by
  induction n generalizing i with
  | zero =>
    rw [walk]; simp [daysBetween]
  | succ n ih =>
    have h1 := ih (i + 1) (by omega)
    rw [show i + 1 + n = i + (n + 1) by omega] at h1
    by_cases ht : b.test i = true
    · rw [skip_set b i ht, walk]
      have := b.le_skip (i + (n + 1))
      rw [if_neg (by omega), if_pos (by omega), incr, h1]
      simp [daysBetween, List.range'_succ, ht]
    · have ht : b.test i = false := by simpa using ht
      rw [skip_unset b i (by omega) ht, h1]
      simp [daysBetween, List.range'_succ, ht]

theorem walk_begin_end (b : Bitfield) : b.walk b.beginIt b.endIt = some (b.daysBetween 0 b.endIdx) := by
  have := walk_skip b b.endIdx 0 (by omega)
  rw [beginIt, endIt, iter_eq_skip _ _ (by omega), iter_eq_skip _ _ (by omega)]
  simpa using this

theorem mem_daysBetween (b : Bitfield) (i n : Nat) (d : Int) :
    d ∈ b.daysBetween i n ↔
      b.first + i ≤ d ∧ d < b.first + i + n ∧ b.test (dist b.first d) = true := by
  simp only [daysBetween, List.mem_map, List.mem_filter, List.mem_range'_1, idxToDate, dist]
  constructor
  · rintro ⟨a, ⟨⟨h1, h2⟩, h3⟩, rfl⟩
    refine ⟨by omega, by omega, ?_⟩
    rw [show (b.first + (a : Int) - b.first).toNat = a by omega]; exact h3
  · rintro ⟨h1, h2, h3⟩
    exact ⟨(d - b.first).toNat, ⟨⟨by omega, by omega⟩, h3⟩, by omega⟩

theorem pairwise_daysBetween (b : Bitfield) (i n : Nat) :
    (b.daysBetween i n).Pairwise (· < ·) := by
  rw [daysBetween, List.pairwise_map]
  refine ((List.pairwise_lt_range' (s := i) (n := n)).filter _).imp ?_
  intro x y h
  simp only [idxToDate]; omega

theorem at?_eq_true (b : Bitfield) (d : Int) :
    b.at? d = some true ↔ b.first ≤ d ∧ d ≤ b.last ∧ b.test (dist b.first d) = true := by
  unfold at?
  split <;> rename_i h
  · simp [h.1, h.2]
  · simp; omega

theorem mem_daysBetween_at (b : Bitfield) (hb : b.first ≤ b.last) (i n : Nat) (h : i + n ≤ b.endIdx)
    (d : Int) :
    d ∈ b.daysBetween i n ↔ b.at? d = some true ∧ b.first + i ≤ d ∧ d < b.first + i + n := by
  rw [mem_daysBetween, at?_eq_true]
  simp only [endIdx, dist] at h
  constructor
  · rintro ⟨h1, h2, h3⟩; exact ⟨⟨by omega, by omega, h3⟩, h1, h2⟩
  · rintro ⟨⟨_, _, h3⟩, h1, h2⟩; exact ⟨h1, h2, h3⟩

theorem filter_test_range (b : Bitfield) (hb : b.WF) :
    (List.range BITSIZE).filter b.test = (List.range' 0 b.endIdx).filter b.test := by
  have hle : b.endIdx ≤ BITSIZE := by
    have := hb.le; have := hb.fits; simp only [endIdx, dist, BITSIZE]; omega
  have : List.range BITSIZE = List.range' 0 b.endIdx ++ List.range' b.endIdx (BITSIZE - b.endIdx) := by
    have h := List.range'_append_1 (s := 0) (m := b.endIdx) (n := BITSIZE - b.endIdx)
    rw [Nat.zero_add] at h
    rw [h, List.range_eq_range']
    congr 1; omega
  rw [this, List.filter_append]
  have h2 : (List.range' b.endIdx (BITSIZE - b.endIdx)).filter b.test = [] := by
    rw [List.filter_eq_nil_iff]
    intro i hi
    rw [List.mem_range'_1] at hi
    have := hb.zero i (by have := hb.le; simp only [endIdx, dist] at hi; omega)
    simp [this]
  rw [h2, List.append_nil]

theorem getSetDays_eq (b : Bitfield) (hb : b.WF) : b.getSetDays = b.daysBetween 0 b.endIdx := by
  rw [getSetDays, daysBetween, filter_test_range b hb]

theorem count_eq (b : Bitfield) (hb : b.WF) : b.count = (b.daysBetween 0 b.endIdx).length := by
  rw [count, List.countP_eq_length_filter, filter_test_range b hb, daysBetween, List.length_map]

/-! ### reading bits -/

theorem test_make (mask : List Char) (h : mask.length ≤ 512) (i : Nat) :
    ((BitVec.ofBoolListBE ((List.replicate (512 - mask.length) '0' ++ mask.reverse).map (· != '0'))).setWidth
      512).getLsbD i = (mask.getD i '0' != '0') := by
  rw [BitVec.getLsbD_setWidth, BitVec.getLsbD_ofBoolListBE]
  simp only [List.length_map, List.length_append, List.length_replicate, List.length_reverse]
  by_cases hi : i < 512
  · have hl : 512 - mask.length + mask.length = 512 := by omega
    simp only [hi, hl, decide_true, Bool.true_and]
    by_cases him : i < mask.length
    · rw [List.getD_eq_getElem?_getD, List.getElem?_map, List.getElem?_append_right (by simp; omega)]
      rw [List.getElem?_reverse (by simp; omega)]
      simp only [List.length_replicate]
      rw [show mask.length - 1 - (512 - 1 - i - (512 - mask.length)) = i by omega]
      simp [him]
    · rw [List.getD_eq_getElem?_getD, List.getElem?_map, List.getElem?_append_left (by simp; omega)]
      rw [List.getElem?_replicate, if_pos (by omega)]
      have : mask[i]? = none := by simp; omega
      simp [List.getD_eq_getElem?_getD, this]
  · have : mask[i]? = none := by simp; omega
    simp [hi, List.getD_eq_getElem?_getD, this]

theorem getLsbD_setBit (x : BitVec 512) (i j : Nat) (v : Bool) (hi : i < 512) :
    (if v then x ||| BitVec.twoPow 512 i else x &&& ~~~ BitVec.twoPow 512 i).getLsbD j
      = if j = i then v else x.getLsbD j := by
  by_cases hj : j < 512
  · by_cases hji : j = i
    · subst hji
      cases v <;> simp [BitVec.getLsbD_twoPow, hi]
    · have : ¬ i = j := fun h => hji h.symm
      cases v <;> simp [BitVec.getLsbD_twoPow, hi, hj, hji, this]
  · have h1 : ¬ j = i := by omega
    have h2 : x.getLsbD j = false := by
      cases h : x.getLsbD j
      · rfl
      · exact absurd (BitVec.lt_of_getLsbD h) hj
    have : ¬ i = j := fun h => h1 h.symm
    cases v <;> simp [h1, h2, BitVec.getLsbD_twoPow, this, hj]

theorem test_ge (b : Bitfield) (i : Nat) (h : 512 ≤ i) : b.test i = false := by
  cases h' : b.test i
  · rfl
  · exact absurd (BitVec.lt_of_getLsbD h') (by omega)

/-- the first part of `set`: extending the range -/
def widen (b : Bitfield) (d : Int) : Bitfield :=
  if d < b.first then { b with bits := b.bits <<< dist d b.first, first := d }
  else if d ≤ b.last then b
  else { b with last := d }

theorem set_def (b : Bitfield) (d : Int) (v : Bool) :
    b.set d v = (if dist (b.widen d).first d < BITSIZE then
      some { b.widen d with bits := if v then (b.widen d).bits ||| BitVec.twoPow 512 (dist (b.widen d).first d)
                           else (b.widen d).bits &&& ~~~ BitVec.twoPow 512 (dist (b.widen d).first d) }
      else none) := rfl

theorem widen_first (b : Bitfield) (d : Int) : (b.widen d).first = min b.first d := by
  unfold widen
  split
  · show d = _; omega
  · split
    · omega
    · show b.first = _; omega

theorem widen_last (b : Bitfield) (d : Int) (hb : b.first ≤ b.last) : (b.widen d).last = max b.last d := by
  unfold widen
  split
  · show b.last = _; omega
  · split
    · omega
    · show d = _; omega

/-- bits of the widened calendar, read by date -/
theorem widen_test (b : Bitfield) (d : Int) (i : Nat) :
    (b.widen d).test i = (decide (i < 512) && decide (b.first ≤ (b.widen d).first + i) &&
      b.test (dist b.first ((b.widen d).first + i))) := by
  by_cases hi : i < 512
  rotate_left
  · rw [test_ge _ _ (by omega)]; simp [hi]
  unfold widen
  split
  · rename_i h
    simp only [test, dist, hi, decide_true, Bool.true_and, BitVec.getLsbD_shiftLeft]
    have h2 : decide (b.first ≤ d + (i:Int)) = !decide (i < (b.first - d).toNat) := by
      rw [Bool.eq_iff_iff]; simp; omega
    have h3 : (d + (i:Int) - b.first).toNat = i - (b.first - d).toNat := by omega
    rw [h2, h3]
  · have h3 : (b.first + (i:Int) - b.first).toNat = i := by omega
    have h4 : b.first ≤ b.first + (i:Int) := by omega
    split <;> simp only [test, dist, hi, h3, h4, decide_true, Bool.true_and]

theorem set_spec (b b' : Bitfield) (d : Int) (v : Bool) (h : b.set d v = some b') (hb : b.first ≤ b.last) :
    b'.first = min b.first d ∧ b'.last = max b.last d ∧
    ∀ i : Nat, b'.test i =
      if b'.first + i = d then v
      else (decide (i < 512) && decide (b.first ≤ b'.first + i) && b.test (dist b.first (b'.first + i))) := by
  rw [set_def] at h
  split at h <;> rename_i hlt
  rotate_left
  · cases h
  cases h
  refine ⟨widen_first b d, widen_last b d hb, ?_⟩
  intro i
  simp only [test]
  rw [getLsbD_setBit _ _ _ _ hlt]
  have hf := widen_first b d
  by_cases hi : i = dist (b.widen d).first d
  · rw [if_pos hi, if_pos (by simp only [dist] at hi; omega)]
  · rw [if_neg hi, if_neg (by simp only [dist] at hi; omega)]
    exact widen_test b d i

theorem set_isSome (b : Bitfield) (d : Int) (v : Bool) (hb : b.first ≤ b.last)
    (hf : max b.last d - min b.first d < 512) : ∃ b', b.set d v = some b' := by
  rw [set_def, if_pos]
  · exact ⟨_, rfl⟩
  · rw [widen_first]; simp only [dist, BITSIZE]; omega

theorem set_wf (b b' : Bitfield) (d : Int) (v : Bool) (hb : b.WF) (h : b.set d v = some b')
    (hf : max b.last d - min b.first d < 512) : b'.WF := by
  obtain ⟨h1, h2, h3⟩ := set_spec b b' d v h hb.le
  have := hb.le
  refine ⟨by omega, by omega, ?_⟩
  intro i hi
  rw [h3, if_neg (by omega)]
  by_cases hz : i < 512 ∧ b.first ≤ b'.first + i
  · have : b.test (dist b.first (b'.first + i)) = false := by
      apply hb.zero; simp only [dist]; omega
    simp [this]
  · have : (decide (i < 512) && decide (b.first ≤ b'.first + i)) = false := by
      rw [Bool.and_eq_false_iff]; simp; omega
    simp [this]

theorem at?_test (b : Bitfield) (d : Int) (h1 : b.first ≤ d) (h2 : d ≤ b.last) :
    b.at? d = some (b.test (dist b.first d)) := by
  rw [at?, if_pos ⟨h1, h2⟩]

theorem union_first (a o : Bitfield) : (a.union o).first = min a.first o.first := by
  simp only [union]
  split
  · show a.first = _; omega
  · show o.first = _; omega

theorem union_last (a o : Bitfield) : (a.union o).last = max a.last o.last := rfl

theorem union_test (a o : Bitfield) (i : Nat) (hi : i < 512) :
    (a.union o).test i =
      ((decide (a.first ≤ (a.union o).first + i) && a.test (dist a.first ((a.union o).first + i))) ||
       (decide (o.first ≤ (a.union o).first + i) && o.test (dist o.first ((a.union o).first + i)))) := by
  rw [union_first]
  simp only [union]
  split
  · rename_i h
    simp only [test, dist, BitVec.getLsbD_or, BitVec.getLsbD_shiftLeft, hi, decide_true, Bool.true_and]
    rw [show min a.first o.first = a.first by omega]
    have h1 : (a.first + (i:Int) - a.first).toNat = i := by omega
    have h2 : decide (o.first ≤ a.first + (i:Int)) = !decide (i < (o.first - a.first).toNat) := by
      rw [Bool.eq_iff_iff]; simp; omega
    have h3 : (a.first + (i:Int) - o.first).toNat = i - (o.first - a.first).toNat := by omega
    have h4 : a.first ≤ a.first + (i:Int) := by omega
    simp only [h1, h2, h3, h4, decide_true, Bool.true_and]
  · rename_i h
    simp only [test, dist, BitVec.getLsbD_or, BitVec.getLsbD_shiftLeft, hi, decide_true, Bool.true_and]
    rw [show min a.first o.first = o.first by omega]
    have h1 : (o.first + (i:Int) - o.first).toNat = i := by omega
    have h2 : decide (a.first ≤ o.first + (i:Int)) = !decide (i < (a.first - o.first).toNat) := by
      rw [Bool.eq_iff_iff]; simp; omega
    have h3 : (o.first + (i:Int) - a.first).toNat = i - (a.first - o.first).toNat := by omega
    have h4 : o.first ≤ o.first + (i:Int) := by omega
    simp only [h1, h2, h3, h4, decide_true, Bool.true_and]

theorem union_wf (a o : Bitfield) (ha : a.WF) (ho : o.WF)
    (hf : max a.last o.last - min a.first o.first < 512) : (a.union o).WF := by
  have h1 := union_first a o
  have h2 := union_last a o
  have := ha.le; have := ho.le
  refine ⟨by omega, by omega, ?_⟩
  intro i hi
  by_cases hi5 : i < 512
  · rw [union_test a o i hi5]
    have e1 : (decide (a.first ≤ (a.union o).first + i) && a.test (dist a.first ((a.union o).first + i))) = false := by
      rw [Bool.and_eq_false_iff]
      by_cases h : a.first ≤ (a.union o).first + i
      · right; apply ha.zero; simp only [dist]; omega
      · left; simp; omega
    have e2 : (decide (o.first ≤ (a.union o).first + i) && o.test (dist o.first ((a.union o).first + i))) = false := by
      rw [Bool.and_eq_false_iff]
      by_cases h : o.first ≤ (a.union o).first + i
      · right; apply ho.zero; simp only [dist]; omega
      · left; simp; omega
    simp [e1, e2]
  · exact test_ge _ _ (by omega)

theorem make_any (first last : Int) (mask : List Char) (n : Nat) (hn : (n : Int) = last - first + 1)
    (hm : n ≤ mask.length + 1) (hf : n ≤ 512) :
    ∃ b, make first last mask = some b ∧ b.first = first ∧ b.last = last ∧
      ∀ i, b.test i = (((mask ++ ['\x00']).take n).getD i '0' != '0') := by
  obtain rfl : n = (last - first + 1).toNat := by omega
  have hl : ((mask ++ ['\x00']).take (last - first + 1).toNat).length ≤ 512 := by
    rw [List.length_take]; omega
  have hm := make.eq_def first last mask
  dsimp only at hm
  rw [if_pos ⟨by omega, by assumption, by assumption⟩] at hm
  exact ⟨_, hm, rfl, rfl, test_make _ hl⟩

theorem make_spec (first last : Int) (mask : List Char) (b : Bitfield) (hle : first ≤ last)
    (hlen : (mask.length : Int) = last - first + 1) (h : make first last mask = some b) :
    b.first = first ∧ b.last = last ∧ b.WF ∧ ∀ i, b.test i = (mask.getD i '0' != '0') := by
  have hf : mask.length ≤ 512 := by
    unfold make at h
    simp only [show (last - first + 1).toNat = mask.length by omega] at h
    split at h
    · rename_i hc; exact hc.2.2
    · cases h
  obtain ⟨b', h1, h2, h3, h4⟩ := make_any first last mask mask.length hlen (by omega) hf
  rw [h] at h1
  cases h1
  rw [List.take_left'  rfl] at h4
  refine ⟨h2, h3, ⟨by omega, by omega, fun i hi => ?_⟩, h4⟩
  refine (h4 i).trans ?_
  have : mask[i]? = none := by
    rw [List.getElem?_eq_none_iff]; omega
  simp [List.getD_eq_getElem?_getD, this]

end Soro.Bitfield
