import Verif.Proof.Debug
import Verif.Proof.Departures
import Verif.Spec.CalendarDebug

/-! The assertions of calendars and departures. -/

namespace Soro
namespace Bitfield
open Dbg

/-- an iterator position: the end or a set day -/
def Pos (b : Bitfield) (i : Nat) : Prop := i ≤ b.endIdx ∧ (i = b.endIdx ∨ b.test i = true)

theorem distD_ok {a b : Int} (ha : a ≠ NODAY) (hb : b ≠ NODAY) (h : a ≤ b) : distD a b = .ok (dist a b) := by
  unfold distD
  rw [check_pos ha, check_pos hb, check_pos h]; rfl

theorem distD_stops {a b : Int} (h : ¬ (a ≠ NODAY ∧ b ≠ NODAY ∧ a ≤ b)) : Stops (distD a b) := by
  unfold distD
  by_cases ha : a ≠ NODAY
  · by_cases hb : b ≠ NODAY
    · have hc : ¬ a ≤ b := fun hc => h ⟨ha, hb, hc⟩
      rw [check_pos ha, check_pos hb, check_neg hc]; exact ⟨_, rfl⟩
    · rw [check_pos ha, check_neg hb]; exact ⟨_, rfl⟩
  · rw [check_neg ha]; exact ⟨_, rfl⟩

theorem skip_pos (b : Bitfield) (i : Nat) (h : i ≤ b.endIdx) : b.Pos (b.skip i) := by
  refine ⟨skip_le b i h, ?_⟩
  fun_induction Bitfield.skip b i with
  | case1 i hc ih => exact ih (by omega)
  | case2 i hc =>
    by_cases hi : i = b.endIdx
    · exact Or.inl hi
    · right
      cases ht : b.test i
      · exact absurd ⟨by omega, ht⟩ hc
      · rfl

variable {b : Bitfield}

theorem endIdxD_ok (hb : b.WF) (hd : b.Dated) : b.endIdxD = .ok b.endIdx := by
  have := hd.1; have := hd.2
  unfold endIdxD
  rw [distD_ok (by omega) (by omega) hb.le]; rfl

theorem idxToDateD_ok (hd : b.Dated) (i : Nat) : b.idxToDateD i = .ok (b.idxToDate i) := by
  have := hd.1
  unfold idxToDateD
  rw [check_pos (by omega)]; rfl

theorem atD_ok (hd : b.Dated) {d : Int} (h1 : b.first ≤ d) (h2 : d ≤ b.last) :
    b.atD d = .ok (b.test (dist b.first d)) := by
  have := hd.1; have := hd.2
  unfold atD getIdxD
  rw [if_pos ⟨h1, h2⟩, check_pos ⟨h1, h2⟩, distD_ok (by omega) (by omega) h1]; rfl

theorem idx_range (hb : b.WF) {i : Nat} (h : i < b.endIdx) :
    b.first ≤ b.idxToDate i ∧ b.idxToDate i ≤ b.last ∧ dist b.first (b.idxToDate i) = i := by
  have := hb.le
  simp only [endIdx, dist, idxToDate] at h ⊢
  omega

theorem incrD_ok (hb : b.WF) (hd : b.Dated) {i : Nat} (h : i < b.endIdx) : b.incrD i = .ok (b.incr i) := by
  have hp := skip_pos b (i + 1) (by omega)
  unfold incrD
  rw [endIdxD_ok hb hd, ok_bind, check_pos h]
  simp only [ok_bind]
  rw [check_pos hp.1, check_pos hp.2]; rfl

theorem moveD_ok (hb : b.WF) (hd : b.Dated) {i : Nat} (h : i ≤ b.endIdx) :
    b.moveD i b.endIdx = .ok (b.iter i) := by
  unfold moveD iter
  by_cases hi : i ≠ b.endIdx
  · obtain ⟨h1, h2, h3⟩ := idx_range hb (show i < b.endIdx by omega)
    rw [if_pos hi, idxToDateD_ok hd, ok_bind, atD_ok hd h1 h2, ok_bind, h3]
    cases ht : b.test i
    · have hc : i ≠ b.endIdx ∧ false = false := ⟨hi, rfl⟩
      show b.incrD i = .ok (if i ≠ b.endIdx ∧ false = false then b.incr i else i)
      rw [if_pos hc]
      exact incrD_ok hb hd (by omega)
    · have hc : ¬ (i ≠ b.endIdx ∧ true = false) := by simp
      simp only [if_neg hc]; rfl
  · rw [if_neg hi, if_neg (fun hc => hi hc.1)]; rfl

theorem iterD_ok (hb : b.WF) (hd : b.Dated) {i : Nat} (h : i ≤ b.endIdx) : b.iterD i = .ok (b.iter i) := by
  have hp := skip_pos b i h
  unfold iterD
  rw [endIdxD_ok hb hd, ok_bind, check_pos h, moveD_ok hb hd h]
  simp only [ok_bind]
  rw [check_pos (by rw [iter_eq_skip b i h]; exact hp.1)]; rfl

theorem derefD_ok (hb : b.WF) (hd : b.Dated) {i : Nat} (h : i < b.endIdx) (ht : b.test i = true) :
    b.derefD i = .ok (b.idxToDate i) := by
  obtain ⟨h1, h2, h3⟩ := idx_range hb h
  unfold derefD
  rw [atD_ok hd h1 h2, ok_bind, h3, ht, check_pos rfl]; rfl

theorem fromD_ok (hb : b.WF) (hd : b.Dated) {t : Nat} (h : t < 2 ^ 32) : b.fromD t = .ok (b.fromIt t) := by
  have := hd.1
  unfold fromD fromIt
  by_cases h1 : dayOf t ≤ b.first
  · rw [if_pos h1, if_pos h1]; exact iterD_ok hb hd (by omega)
  · rw [if_neg h1, if_neg h1, distD_ok (by omega) (by simp only [dayOf, NODAY]; omega) (by omega), ok_bind,
      endIdxD_ok hb hd, ok_bind]
    by_cases h2 : dist b.first (dayOf t) ≥ b.endIdx
    · rw [if_pos h2, if_pos h2]; exact iterD_ok hb hd (by omega)
    · rw [if_neg h2, if_neg h2]; exact iterD_ok hb hd (by omega)

theorem toD_ok (hb : b.WF) (hd : b.Dated) {t : Nat} (h : t < 2 ^ 32) : b.toD t = .ok (b.toIt t) := by
  have := hd.1
  unfold toD toIt
  by_cases h1 : dayOf t ≥ b.last
  · rw [if_pos h1, if_pos h1, endIdxD_ok hb hd, ok_bind]; exact iterD_ok hb hd (by omega)
  · rw [if_neg h1, if_neg h1]
    by_cases h2 : dayOf t < b.first
    · rw [if_pos h2, if_pos h2]; exact iterD_ok hb hd (by omega)
    · rw [if_neg h2, if_neg h2, distD_ok (by omega) (by simp only [dayOf, NODAY]; omega) (by omega), ok_bind]
      exact iterD_ok hb hd (by simp only [dist, endIdx]; omega)

theorem walkD_same (hb : b.WF) (hd : b.Dated) (i stop : Nat) (hp : b.Pos i) {l : List Int}
    (h : b.walk i stop = some l) : b.walkD i stop = .ok l := by
  fun_induction Bitfield.walk b i stop generalizing l with
  | case1 => rw [walkD, if_pos rfl]; cases h; rfl
  | case2 i hne hi ih =>
    simp only [Option.map_eq_some_iff] at h
    obtain ⟨l', h1, rfl⟩ := h
    have ht : b.test i = true := by
      rcases hp.2 with h | h
      · omega
      · exact h
    rw [walkD, if_neg hne, if_pos hi, derefD_ok hb hd hi ht, ok_bind, incrD_ok hb hd hi, ok_bind,
      ih (skip_pos b _ (by omega)) h1]
    rfl
  | case3 => cases h

theorem mapM_ok {α β : Type} (f : α → Dbg β) (g : α → β) (l : List α) (h : ∀ a ∈ l, f a = .ok (g a)) :
    l.mapM f = .ok (l.map g) := by
  induction l with
  | nil => rfl
  | cons a l ih =>
    rw [List.mapM_cons, h a (by simp), ok_bind, ih fun x hx => h x (by simp [hx])]
    rfl

theorem getSetDaysD_ok (hd : b.Dated) : b.getSetDaysD = .ok b.getSetDays :=
  mapM_ok _ _ _ fun i _ => idxToDateD_ok hd i

theorem widenD_ok (hd : b.Dated) (d : Int) : b.widenD d = .ok (b.widen d) := by
  have := hd.1; have := hd.2
  unfold widenD widen
  by_cases h1 : d < b.first
  · rw [if_pos h1, if_pos h1, distD_ok (by omega) (by omega) (by omega)]; rfl
  · rw [if_neg h1, if_neg h1]
    by_cases h2 : d ≤ b.last
    · rw [if_pos h2, if_pos h2]; rfl
    · rw [if_neg h2, if_neg h2]; rfl

theorem setD_same (hb : b.WF) (hd : b.Dated) (d : Int) (v : Bool) (hn : d ≠ NODAY)
    (hf : max b.last d - min b.first d < 512) : SameAs (b.setD d v) (b.set d v) := by
  have := hd.1; have := hd.2; have := hb.le
  have hw := widen_first b d
  have hl := widen_last b d hb.le
  rw [set_def]
  unfold setD getIdxD
  rw [widenD_ok hd, ok_bind, distD_ok (by omega) (by omega) (by omega), ok_bind,
    check_pos (by simp only [dist, BITSIZE]; omega), check_pos (by omega),
    distD_ok (by omega) (by omega) (by omega)]
  simp only [ok_bind]
  have hi : dist (b.widen d).first d < BITSIZE := by simp only [dist, BITSIZE]; omega
  rw [if_pos hi, if_pos hi]
  exact ⟨_, rfl, rfl⟩

theorem setD_stops (hb : b.WF) (hd : b.Dated) (d : Int) (v : Bool) (hn : d ≠ NODAY)
    (hf : ¬ max b.last d - min b.first d < 512) : Stops (b.setD d v) := by
  have := hd.1; have := hd.2; have := hb.le
  have hw := widen_first b d
  have hl := widen_last b d hb.le
  unfold setD
  rw [widenD_ok hd, ok_bind, distD_ok (by omega) (by omega) (by omega), ok_bind,
    check_neg (by simp only [dist, BITSIZE]; omega)]
  exact ⟨_, rfl⟩

theorem unionD_ok {o : Bitfield} (hb : b.WF) (hd : b.Dated) (ho : o.WF) (hod : o.Dated)
    (hf : max b.last o.last - min b.first o.first < 512) : b.unionD o = .ok (b.union o) := by
  have := hd.1; have := hd.2; have := hb.le
  have := hod.1; have := hod.2; have := ho.le
  unfold unionD
  rw [distD_ok (by omega) (by omega) (by omega), ok_bind, check_pos (by simp only [dist, BITSIZE]; omega)]
  simp only [ok_bind]
  by_cases h : b.first < o.first
  · rw [if_pos h, distD_ok (by omega) (by omega) (by omega)]; rfl
  · rw [if_neg h, distD_ok (by omega) (by omega) (by omega)]; rfl

theorem unionD_stops {o : Bitfield} (hb : b.WF) (hd : b.Dated) (ho : o.WF) (hod : o.Dated)
    (hf : ¬ max b.last o.last - min b.first o.first < 512) : Stops (b.unionD o) := by
  have := hd.1; have := hd.2; have := hb.le
  have := hod.1; have := hod.2; have := ho.le
  unfold unionD
  rw [distD_ok (by omega) (by omega) (by omega), ok_bind, check_neg (by simp only [dist, BITSIZE]; omega)]
  exact ⟨_, rfl⟩

theorem any_iff : (List.range BITSIZE).any b.test = true ↔ ∃ i, b.test i = true := by
  rw [List.any_eq_true]
  constructor
  · rintro ⟨i, -, h⟩; exact ⟨i, h⟩
  · rintro ⟨i, h⟩
    refine ⟨i, List.mem_range.2 ?_, h⟩
    by_cases hi : i < 512
    · exact hi
    · rw [test_ge _ _ (by omega)] at h; cases h

theorem firstSetDateD_same (hd : b.Dated) (h : ∃ i, b.test i = true) : SameAs b.firstSetDateD b.firstSetDate := by
  unfold firstSetDateD firstSetDate
  rw [check_pos (any_iff.2 h), ok_bind]
  obtain ⟨i, h1⟩ := h
  cases hf : (List.range BITSIZE).find? b.test with
  | none =>
    have := any_iff.2 ⟨i, h1⟩
    rw [List.any_eq_true] at this
    obtain ⟨j, h2, h3⟩ := this
    exact absurd h3 (by simpa using List.find?_eq_none.1 hf j h2)
  | some j =>
    refine ⟨_, rfl, ?_⟩
    simp only [lift, ok_bind]
    exact idxToDateD_ok hd j

theorem lastSetDateD_same (hb : b.WF) (hd : b.Dated) (h : ∃ i, b.test i = true) :
    SameAs b.lastSetDateD b.lastSetDate := by
  have := hd.1; have := hd.2
  unfold lastSetDateD lastSetDate
  rw [check_pos (any_iff.2 h), distD_ok (by omega) (by omega) hb.le]
  simp only [ok_bind]
  obtain ⟨i, h1⟩ := h
  have hi : i < b.endIdx := by
    by_cases hc : b.last - b.first < i
    · rw [hb.zero i hc] at h1; cases h1
    · simp only [endIdx, dist]; have := hb.le; omega
  rw [show dist b.first b.last + 1 = b.endIdx from rfl]
  cases hf : (List.range b.endIdx).reverse.find? b.test with
  | none => exact absurd h1 (by simpa using List.find?_eq_none.1 hf i (by simpa using hi))
  | some j =>
    refine ⟨_, rfl, ?_⟩
    simp only [lift, ok_bind]
    exact idxToDateD_ok hd j

theorem makeD_same (first last : Int) (mask : List Char) (h1 : first ≠ NODAY) (h2 : last ≠ NODAY) (hle : first ≤ last)
    (hlen : (mask.length : Int) = last - first + 1) (hfit : mask.length ≤ 512) :
    SameAs (makeD first last mask) (make first last mask) := by
  obtain ⟨b, hb, _⟩ := make_any first last mask mask.length hlen (by omega) hfit
  refine ⟨b, hb, ?_⟩
  unfold makeD
  rw [distD_ok h1 h2 hle, ok_bind, check_pos hle, check_pos (by simp only [dist]; omega), hb]
  rfl

theorem makeD_stops (first last : Int) (mask : List Char) (h1 : first ≠ NODAY) (h2 : last ≠ NODAY)
    (h : ¬ (first ≤ last ∧ (mask.length : Int) = last - first + 1)) : Stops (makeD first last mask) := by
  unfold makeD
  by_cases hle : first ≤ last
  · rw [distD_ok h1 h2 hle, ok_bind, check_pos hle, ok_bind, check_neg (by simp only [dist]; omega)]
    exact ⟨_, rfl⟩
  · obtain ⟨n, hn⟩ := distD_stops (a := first) (b := last) (fun hc => hle hc.2.2)
    rw [hn]; exact ⟨n, rfl⟩

end Bitfield

namespace DepTrain
open Dbg Bitfield

theorem eventIntervalD_ok {t : DepTrain} (ht : t.InRange) (hd : t.days.Dated) {d : Int}
    (h1 : t.days.first ≤ d) (h2 : d ≤ t.days.last) (h3 : t.days.test (dist t.days.first d) = true) (hv : t.lastArrival < 2 ^ 32 - 1) :
    t.eventIntervalD (secOf d) = .ok (t.eventInterval (secOf d)) := by
  have hs := secOf_eq d (by have := ht.first; omega) (by have := ht.last; omega)
  have ho := ht.order
  have hdiv : ((secOf d / 86400 : Nat) : Int) = d := by omega
  unfold eventIntervalD timeD
  rw [check_pos (by omega), ok_bind, hdiv, atD_ok hd h1 h2, ok_bind, h3, check_pos rfl, ok_bind, check_pos (by omega),
    check_pos (by omega)]
  rfl

theorem advanceD_ok {t : DepTrain} (ht : t.InRange) (hd : t.days.Dated) (hv : t.lastArrival < 2 ^ 32 - 1)
    (iv : TimeInterval) (i : Nat) (hp : t.days.Pos i) :
    t.advanceD iv i = .ok (t.advance iv i) ∧ t.days.Pos (t.advance iv i) := by
  fun_induction DepTrain.advance t iv i with
  | case1 i hc ih =>
    have htest : t.days.test i = true := by
      rcases hp.2 with h | h
      · omega
      · exact h
    obtain ⟨h1, h2, h3⟩ := idx_range ht.wf hc.1
    obtain ⟨e1, e2⟩ := ih (skip_pos _ _ (by omega))
    refine ⟨?_, e2⟩
    rw [advanceD, if_pos hc.1, derefD_ok ht.wf hd hc.1 htest, ok_bind, if_pos hc.2.1,
      eventIntervalD_ok ht hd h1 h2 (by rw [h3]; exact htest) hv, ok_bind, if_pos hc.2.2, incrD_ok ht.wf hd hc.1, ok_bind, e1]
  | case2 i hc =>
    refine ⟨?_, hp⟩
    rw [advanceD]
    by_cases hi : i < t.days.endIdx
    · have htest : t.days.test i = true := by
        rcases hp.2 with h | h
        · omega
        · exact h
      obtain ⟨h1, h2, h3⟩ := idx_range ht.wf hi
      rw [if_pos hi, derefD_ok ht.wf hd hi htest, ok_bind]
      by_cases hs : secOf (t.days.idxToDate i) ≤ iv.stop
      · rw [if_pos hs, eventIntervalD_ok ht hd h1 h2 (by rw [h3]; exact htest) hv, ok_bind,
          if_neg (fun hn => hc ⟨hi, hs, hn⟩)]; rfl
      · rw [if_neg hs]; rfl
    · rw [if_neg hi]; rfl

theorem walkD_same {t : DepTrain} (ht : t.InRange) (hd : t.days.Dated) (hv : t.lastArrival < 2 ^ 32 - 1)
    (iv : TimeInterval) (i stop : Nat) (hp : t.days.Pos i) {l : List Nat} (h : t.walk iv i stop = some l) :
    t.walkD iv i stop = .ok l := by
  fun_induction DepTrain.walk t iv i stop generalizing l with
  | case1 => rw [walkD, if_pos rfl]; cases h; rfl
  | case2 i hne hi ih =>
    simp only [Option.map_eq_some_iff] at h
    obtain ⟨l', h1, rfl⟩ := h
    have htest : t.days.test i = true := by
      rcases hp.2 with h | h
      · omega
      · exact h
    obtain ⟨e1, e2⟩ := advanceD_ok ht hd hv iv (t.days.incr i) (skip_pos _ _ (by omega))
    rw [walkD, if_neg hne, if_pos hi, derefD_ok ht.wf hd hi htest, ok_bind, incrD_ok ht.wf hd hi, ok_bind, e1, ok_bind,
      ih e2 h1]
    rfl
  | case3 => cases h

theorem departuresD_same {t : DepTrain} (ht : t.InRange) (hd : t.days.Dated) (hv : t.lastArrival < 2 ^ 32 - 1)
    (iv : TimeInterval) (h1 : iv.start ≤ iv.stop) (h2 : iv.stop < 2 ^ 32) :
    SameAs (t.departuresD iv) (t.departures iv) := by
  refine ⟨_, departures_eq t ht iv h1, ?_⟩
  have he := departures_eq t ht iv h1
  unfold departures depBegin depEnd at he
  obtain ⟨e1, e2⟩ := advanceD_ok ht hd hv iv (t.days.fromIt iv.start)
    (by rw [fromIt_eq]; exact skip_pos _ _ (startIdx_le _ _))
  obtain ⟨e3, e4⟩ := advanceD_ok ht hd hv iv (t.days.toIt iv.stop)
    (by rw [toIt_eq]; exact skip_pos _ _ (stopIdx_le _ _))
  unfold departuresD depBeginD depEndD
  rw [fromD_ok ht.wf hd (by omega), ok_bind, e1, ok_bind, toD_ok ht.wf hd h2, ok_bind, e3, ok_bind]
  exact walkD_same ht hd hv iv _ _ e2 he

end DepTrain
end Soro
