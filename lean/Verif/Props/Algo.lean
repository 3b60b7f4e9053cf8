import Verif.Proof.Algo

/-! Properties C30 - C34: container algorithms. -/

namespace Soro
open Algo

/-- C30: for sorted inputs the result is strictly increasing and the union; unsorted inputs are rejected. -/
theorem C30_merge_unique (c1 c2 : List Nat) :
    (c1.Pairwise (· ≤ ·) ∧ c2.Pairwise (· ≤ ·) →
      ∃ r, mergeUnique c1 c2 = some r ∧ r.Pairwise (· < ·) ∧ ∀ x, x ∈ r ↔ x ∈ c1 ∨ x ∈ c2) ∧
    (¬ (c1.Pairwise (· ≤ ·) ∧ c2.Pairwise (· ≤ ·)) → mergeUnique c1 c2 = none) := by
  unfold mergeUnique
  constructor
  · rintro ⟨h1, h2⟩
    rw [if_pos (by rw [(isSorted_iff c1).2 h1, (isSorted_iff c2).2 h2]; rfl)]
    refine ⟨_, rfl, unique_lt _ (merge_sorted _ _ h1 h2), fun x => ?_⟩
    rw [mem_unique, (merge_perm _ _).mem_iff, List.mem_append]
  · intro h
    rw [if_neg]
    rw [Bool.and_eq_true, isSorted_iff, isSorted_iff]
    exact h

example : mergeUnique [1, 3, 3] [2, 3, 5] = some [1, 2, 3, 5] ∧ mergeUnique [2, 1] [] = none := by
  simp [mergeUnique, isSorted, merge, unique]

/-- C31: for strictly increasing ranges `multi_set_merge` terminates and returns the strictly increasing union, whatever
the heap does with equal heads (`ch`). -/
theorem C31_multi_set_merge (ch : Nat → Nat) (ranges : List (List Nat)) (hs : ∀ r ∈ ranges, r.Pairwise (· < ·)) :
    ∃ l, multiSetMerge ch ranges = some l ∧ l.Pairwise (· < ·) ∧ ∀ y, y ∈ l ↔ ∃ r ∈ ranges, y ∈ r :=
  multiSetMerge_spec ch ranges hs

/-- C31: the result does not depend on the choices of the heap. -/
theorem C31_choice_independent (ch ch' : Nat → Nat) (ranges : List (List Nat)) (hs : ∀ r ∈ ranges, r.Pairwise (· < ·)) :
    multiSetMerge ch ranges = multiSetMerge ch' ranges := by
  obtain ⟨l, h1, h2, h3⟩ := multiSetMerge_spec ch ranges hs
  obtain ⟨l', h1', h2', h3'⟩ := multiSetMerge_spec ch' ranges hs
  rw [h1, h1', lt_ext h2 h2' (fun x => by rw [h3, h3'])]

/-- The oracle of the model covers the heap: each range with a minimal head can be the popped one. -/
theorem C31_every_choice (q : List (Nat × List Nat)) (pre post : List (Nat × List Nat)) (c : Nat × List Nat)
    (hq : q = pre ++ c :: post) (hmin : ∀ r ∈ q, c.1 ≤ r.1) :
    ∃ ch, popTop ch q = some (c, pre ++ post) := by
  have hm : minHead q = some c.1 := by
    cases h : minHead q with
    | none => rw [minHead_none] at h; simp [h] at hq
    | some m =>
      obtain ⟨h1, r, h2, h3⟩ := minHead_le q m h
      have := hmin r h2
      have := h1 c (by simp [hq])
      rw [show m = c.1 by omega]
  have hcount : pre.countP (fun r => r.1 == c.1) < q.countP fun r => r.1 == c.1 := by
    rw [hq, List.countP_append, List.countP_cons]; simp
  have key : ∀ (m : Nat) (pre : List (Nat × List Nat)), c.1 = m →
      takeNth m (pre.countP fun r => r.1 == m) (pre ++ c :: post) = some (c, pre ++ post) := by
    intro m pre hcm
    induction pre with
    | nil => simp [takeNth, hcm]
    | cons r pre ih =>
      rw [List.countP_cons, List.cons_append]
      by_cases hr : r.1 = m
      · simp [takeNth, hr, ih]
      · simp [takeNth, hr, ih]
  refine ⟨pre.countP fun r => r.1 == c.1, ?_⟩
  unfold popTop
  rw [hm]
  dsimp only
  rw [Nat.mod_eq_of_lt hcount, hq]
  exact key c.1 pre rfl

example : (∀ r ∈ [[1, 4], [], [1, 2], [2]], r.Pairwise (· < ·)) ∧
    multiSetMerge (fun i => i) [[1, 4], [], [1, 2], [2]] = some [1, 2, 4] := by decide

/-- C32: `overlap` on sorted lists -/
theorem C32_overlap (c1 c2 : List Nat) :
    (c1.Pairwise (· ≤ ·) ∧ c2.Pairwise (· ≤ ·) →
      ∃ b, overlap c1 c2 = some b ∧ (b = true ↔ ∃ a, a ∈ c1 ∧ a ∈ c2)) ∧
    (¬ (c1.Pairwise (· ≤ ·) ∧ c2.Pairwise (· ≤ ·)) → overlap c1 c2 = none) := by
  unfold overlap
  constructor
  · rintro ⟨h1, h2⟩
    rw [if_pos (by rw [(isSorted_iff c1).2 h1, (isSorted_iff c2).2 h2]; rfl)]
    exact ⟨_, rfl, overlapLoop_iff c1 c2 h1 h2⟩
  · intro h
    rw [if_neg]
    rw [Bool.and_eq_true, isSorted_iff, isSorted_iff]
    exact h

/-- C32: `overlap_non_sorted` on arbitrary lists, for every permutation `std::sort` may produce -/
theorem C32_overlap_non_sorted (c1 c2 p1 p2 : List Nat) (h1 : IsPermIndex c1 p1) (h2 : IsPermIndex c2 p2) :
    overlapNonSorted c1 c2 p1 p2 = true ↔ ∃ a, a ∈ c1 ∧ a ∈ c2 := by
  unfold overlapNonSorted
  rw [overlapLoop_iff _ _ h1.2 h2.2]
  simp only [(byIndex_perm c1 p1 h1.1).mem_iff, (byIndex_perm c2 p2 h2.1).mem_iff]

/-- C32: `get_overlap` returns the common elements in order -/
theorem C32_get_overlap (c1 c2 : List Nat) (h1 : c1.Pairwise (· ≤ ·)) (h2 : c2.Pairwise (· ≤ ·)) :
    (getOverlap c1 c2).Pairwise (· ≤ ·) ∧ (getOverlap c1 c2).Sublist c1 ∧
    (∀ a, a ∈ getOverlap c1 c2 ↔ a ∈ c1 ∧ a ∈ c2) ∧
    ∀ a, (getOverlap c1 c2).count a = min (c1.count a) (c2.count a) :=
  have hs : (getOverlap c1 c2).Sublist c1 := setIntersection_sublist _ _ _ _
  ⟨h1.sublist hs, hs, mem_setInter c1 c2 h1 h2, setInter_count c1 c2 h1 h2⟩

/-- C32: `get_overlap_non_sorted` keeps the common elements in the order of a duplicate-free first list. -/
theorem C32_get_overlap_non_sorted (c1 c2 p1 p2 : List Nat) (h1 : IsPermIndex c1 p1) (h2 : IsPermIndex c2 p2)
    (hnd : c1.Nodup) : getOverlapNonSorted c1 c2 p1 p2 = c1.filter (fun x => decide (x ∈ c2)) := by
  unfold getOverlapNonSorted
  dsimp only
  generalize hS : setIntersection (fun a b => decide (c1[a]?.getD 0 < c2[b]?.getD 0))
    (fun b a => decide (c2[b]?.getD 0 < c1[a]?.getD 0)) p1 p2 = S
  have hsub : S.Sublist p1 := hS ▸ setIntersection_sublist _ _ _ _
  have hmap : S.map (fun i => c1[i]?.getD 0) = setInter (byIndex c1 p1) (byIndex c2 p2) := by
    rw [← hS]
    exact setIntersection_map (fun i => c1[i]?.getD 0) (fun i => c2[i]?.getD 0) p1 p2
  have hv : ∀ v, v ∈ S.map (fun i => c1[i]?.getD 0) ↔ v ∈ c1 ∧ v ∈ c2 := by
    intro v
    rw [hmap, mem_setInter _ _ h1.2 h2.2, (byIndex_perm c1 p1 h1.1).mem_iff, (byIndex_perm c2 p2 h2.1).mem_iff]
  have hlt : ∀ i ∈ S, i < c1.length := fun i hi => by
    have := h1.1.mem_iff.1 (hsub.subset hi); simpa using this
  have hmem : ∀ i, i ∈ S ↔ i < c1.length ∧ c1[i]?.getD 0 ∈ c2 := by
    intro i
    constructor
    · intro hi
      exact ⟨hlt i hi, ((hv _).1 (List.mem_map.2 ⟨i, hi, rfl⟩)).2⟩
    · rintro ⟨hi, hc⟩
      have hmi : c1[i]?.getD 0 ∈ c1 := by simp [hi]
      obtain ⟨j, hj, he⟩ := List.mem_map.1 ((hv _).2 ⟨hmi, hc⟩)
      have hjl := hlt j hj
      simp only [List.getElem?_eq_getElem hjl, List.getElem?_eq_getElem hi, Option.getD_some] at he
      have : j = i := (List.getElem_inj hnd).1 he
      exact this ▸ hj
  have hsort : sortNat S = (List.range c1.length).filter (fun i => decide (c1[i]?.getD 0 ∈ c2)) := by
    apply lt_ext
    · have hn : (sortNat S).Nodup := (sortNat_perm S).nodup_iff.2 ((h1.1.nodup_iff.2 List.nodup_range).sublist hsub)
      exact (List.Pairwise.and (sortNat_sorted S) hn).imp (fun h => Nat.lt_of_le_of_ne h.1 h.2)
    · exact List.Pairwise.filter _ List.pairwise_lt_range
    · intro x
      rw [mem_sortNat, hmem]; simp
  rw [hsort]
  have e := byIndex_range c1
  unfold byIndex at e ⊢
  conv => rhs; rw [← e]
  rw [List.filter_map]
  rfl

example : IsPermIndex [3, 1, 2] [1, 2, 0] ∧ IsPermIndex [2, 7, 3] [0, 2, 1] ∧
    getOverlapNonSorted [3, 1, 2] [2, 7, 3] [1, 2, 0] [0, 2, 1] = [3, 2] := by
  refine ⟨⟨by decide, by decide⟩, ⟨by decide, by decide⟩, ?_⟩
  rw [C32_get_overlap_non_sorted _ _ _ _ ⟨by decide, by decide⟩ ⟨by decide, by decide⟩ (by decide)]
  decide

/-- C33: `slice` keeps exactly positions `a .. b-1`, in both variants. -/
theorem C33_slice {α : Type} (v : List α) (a b : Nat) :
    (a ≤ b → b ≤ v.length → ∃ r, sliceInPlace v a b = some r ∧ sliceCopy v a b = some r ∧ r.length = b - a ∧
      ∀ i, i < b - a → r[i]? = v[a + i]?) ∧
    (¬ (a ≤ b ∧ b ≤ v.length) → sliceInPlace v a b = none ∧ sliceCopy v a b = none) := by
  constructor
  · intro hab hb
    have e : (v.take b).drop a = (v.drop a).take (b - a) := List.drop_take
    refine ⟨(v.take b).drop a, ?_, ?_, ?_, ?_⟩
    · simp only [sliceInPlace, hb, if_true, List.length_take]
      rw [if_pos (by omega)]
    · rw [sliceCopy, if_pos ⟨hab, hb⟩, e]
    · simp only [List.length_drop, List.length_take]; omega
    · intro i hi
      rw [List.getElem?_drop, List.getElem?_take, if_pos (by omega)]
  · intro h
    constructor
    · simp only [sliceInPlace]
      split
      · rw [if_neg]; simp only [List.length_take]; omega
      · rfl
    · rw [sliceCopy, if_neg h]

/-- C33: clasping: a start beyond the end means 0, an end beyond the end means the size. -/
theorem C33_slice_clasp {α : Type} (v : List α) (a b : Nat) :
    (a ≤ b → b ≤ v.length → ∃ r, sliceClaspInPlace v a b = some r ∧ sliceClaspCopy v a b = some r ∧ r.length = b - a ∧
      ∀ i, i < b - a → r[i]? = v[a + i]?) ∧
    (a ≤ v.length → v.length < b → sliceClaspInPlace v a b = some (v.drop a) ∧ sliceClaspCopy v a b = some (v.drop a)) ∧
    (v.length < a → b ≤ v.length → sliceClaspInPlace v a b = some (v.take b) ∧ sliceClaspCopy v a b = some (v.take b)) ∧
    (v.length < a → v.length < b → sliceClaspInPlace v a b = some v ∧ sliceClaspCopy v a b = some v) ∧
    (b < a → a ≤ v.length → sliceClaspInPlace v a b = none ∧ sliceClaspCopy v a b = none) := by
  unfold sliceClaspInPlace sliceClaspCopy clasp
  dsimp only
  refine ⟨fun h1 h2 => ?_, fun h1 h2 => ?_, fun h1 h2 => ?_, fun h1 h2 => ?_, fun h1 h2 => ?_⟩
  · rw [if_neg (by omega), if_neg (by omega)]
    exact (C33_slice v a b).1 h1 h2
  · rw [if_neg (by omega), if_pos h2]
    simp [sliceInPlace, sliceCopy, h1, List.take_of_length_le]
  · rw [if_pos h1, if_neg (by omega)]
    simp [sliceInPlace, sliceCopy, h2]
  · rw [if_pos h1, if_pos h2]
    simp [sliceInPlace, sliceCopy]
  · rw [if_neg (by omega), if_neg (by omega)]
    exact (C33_slice v a b).2 (by omega)

/-- C33: `remove_until` keeps the suffix from the first match on, nothing without match. -/
theorem C33_remove_until {α : Type} (v : List α) (pred : α → Bool) :
    ∃ pre, v = pre ++ removeUntil v pred ∧ (∀ x ∈ pre, pred x = false) ∧
      ((∀ x ∈ v, pred x = false) → removeUntil v pred = []) ∧
      ((∃ x ∈ v, pred x = true) → ∃ x l, removeUntil v pred = x :: l ∧ pred x = true) := by
  unfold removeUntil
  refine ⟨v.take (v.findIdx pred), (List.take_append_drop _ _).symm, ?_, ?_, ?_⟩
  · intro x hx
    obtain ⟨i, hi, rfl⟩ := List.mem_iff_getElem.1 hx
    simp only [List.length_take] at hi
    rw [List.getElem_take]
    simpa using List.not_of_lt_findIdx (p := pred) (xs := v) (i := i) (by omega)
  · intro h
    have : v.findIdx pred = v.length := List.findIdx_eq_length.2 h
    simp [this]
  · rintro ⟨x, hx, hp⟩
    have hlt : v.findIdx pred < v.length := List.findIdx_lt_length_of_exists ⟨x, hx, hp⟩
    exact ⟨v[v.findIdx pred], v.drop (v.findIdx pred + 1), List.drop_eq_getElem_cons hlt, List.findIdx_getElem⟩

/-- C33: `remove_after` keeps the prefix up to the last match, nothing without match. -/
theorem C33_remove_after {α : Type} (v : List α) (pred : α → Bool) :
    ∃ post, v = removeAfter v pred ++ post ∧ (∀ x ∈ post, pred x = false) ∧
      ((∀ x ∈ v, pred x = false) → removeAfter v pred = []) ∧
      ((∃ x ∈ v, pred x = true) → ∃ x l, removeAfter v pred = l ++ [x] ∧ pred x = true) := by
  have e : removeAfter v pred = (removeUntil v.reverse pred).reverse := by
    unfold removeAfter removeUntil
    rw [List.reverse_drop]; simp
  obtain ⟨pre, h1, h2, h3, h4⟩ := C33_remove_until v.reverse pred
  refine ⟨pre.reverse, ?_, by simpa using h2, ?_, ?_⟩
  · have := congrArg List.reverse h1
    rw [List.reverse_reverse, List.reverse_append, ← e] at this
    exact this
  · intro h
    rw [e, h3 (by simpa using h)]; rfl
  · rintro ⟨x, hx, hp⟩
    obtain ⟨y, l, h5, h6⟩ := h4 ⟨x, by simpa using hx, hp⟩
    exact ⟨y, l.reverse, by rw [e, h5]; simp, h6⟩

example : removeUntil [1, 2, 3, 2, 1] (· == 2) = [2, 3, 2, 1] ∧ removeAfter [1, 2, 3, 2, 1] (· == 2) = [1, 2, 3, 2] ∧
    removeAfter [1] (· == 2) = [] ∧ sliceClaspCopy [1, 2, 3] 1 9 = some [2, 3] := by decide

/-- C34: multiset intersection, sorted; the inputs are only reordered. -/
theorem C34_sort_and_intersect (c1 c2 : List Nat) :
    ∃ r d1 d2, sortAndIntersect c1 c2 = (r, d1, d2) ∧ d1.Perm c1 ∧ d2.Perm c2 ∧ r.Pairwise (· ≤ ·) ∧
      (∀ a, r.count a = min (c1.count a) (c2.count a)) ∧ ∀ a, a ∈ r ↔ a ∈ c1 ∧ a ∈ c2 := by
  refine ⟨_, _, _, rfl, sortNat_perm c1, sortNat_perm c2, ?_, ?_, ?_⟩
  · exact (sortNat_sorted c1).sublist (setIntersection_sublist _ _ _ _)
  · intro a
    rw [setInter_count _ _ (sortNat_sorted c1) (sortNat_sorted c2), (sortNat_perm c1).count_eq, (sortNat_perm c2).count_eq]
  · intro a
    rw [mem_setInter _ _ (sortNat_sorted c1) (sortNat_sorted c2), mem_sortNat, mem_sortNat]

/-- C34: `intersect` of sorted containers -/
theorem C34_intersect (c1 c2 : List Nat) (h1 : c1.Pairwise (· ≤ ·)) (h2 : c2.Pairwise (· ≤ ·)) :
    (intersect c1 c2).Pairwise (· ≤ ·) ∧ (∀ a, (intersect c1 c2).count a = min (c1.count a) (c2.count a)) ∧
    ∀ a, a ∈ intersect c1 c2 ↔ a ∈ c1 ∧ a ∈ c2 :=
  ⟨h1.sublist (setIntersection_sublist _ _ _ _), setInter_count c1 c2 h1 h2, mem_setInter c1 c2 h1 h2⟩

example : (sortAndIntersect [3, 1, 1] [1, 3, 1, 5]).1.count 1 = 2 := by
  obtain ⟨r, d1, d2, h, _, _, _, hc, _⟩ := C34_sort_and_intersect [3, 1, 1] [1, 3, 1, 5]
  rw [h]; simp [hc]

end Soro
