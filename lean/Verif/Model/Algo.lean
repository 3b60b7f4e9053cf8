/-
Model of the container algorithms in `include/soro/utls/algo/` and of the standard algorithms they are built from.

Values are natural numbers (the code instantiates the templates with ids). Sorting values of a total order has a unique
result, so `std::sort` is a function; sorting *indices* by value has not, there the permutation is a parameter.
-/

namespace Soro.Algo

/-! ### standard algorithms -/

/-- insertion into a sorted list -/
def insertNat (a : Nat) : List Nat → List Nat
  | [] => [a]
  | b :: l => if a ≤ b then a :: b :: l else b :: insertNat a l

/-- `std::sort` with `<`: the result is unique, so the algorithm does not matter -/
def sortNat (l : List Nat) : List Nat := l.foldr insertNat []

/-- `std::is_sorted` -/
def isSorted : List Nat → Bool
  | [] => true
  | [_] => true
  | a :: b :: l => decide (¬ b < a) && isSorted (b :: l)

/-- `std::unique` + `erase`: of every run of equal elements the first is kept -/
def unique : List Nat → List Nat
  | [] => []
  | [a] => [a]
  | a :: b :: l => if a = b then unique (b :: l) else a :: unique (b :: l)

/-- `utl::erase_duplicates`: sort, then unique -/
def eraseDup (l : List Nat) : List Nat := unique (sortNat l)

/-- `std::merge` -/
def merge : List Nat → List Nat → List Nat
  | [], ys => ys
  | xs, [] => xs
  | x :: xs, y :: ys => if y < x then y :: merge (x :: xs) ys else x :: merge xs (y :: ys)
termination_by xs ys => xs.length + ys.length

/-- `std::set_intersection` with a comparison of elements of both ranges; elements of the first range are copied. -/
def setIntersection {α β : Type} (lt12 : α → β → Bool) (lt21 : β → α → Bool) : List α → List β → List α
  | [], _ => []
  | _, [] => []
  | x :: xs, y :: ys =>
    if lt12 x y then setIntersection lt12 lt21 xs (y :: ys)
    else if lt21 y x then setIntersection lt12 lt21 (x :: xs) ys
    else x :: setIntersection lt12 lt21 xs ys
termination_by xs ys => xs.length + ys.length

/-- `std::set_difference` -/
def setDifference : List Nat → List Nat → List Nat
  | [], _ => []
  | xs, [] => xs
  | x :: xs, y :: ys =>
    if x < y then x :: setDifference xs (y :: ys)
    else if y < x then setDifference (x :: xs) ys
    else setDifference xs ys
termination_by xs ys => xs.length + ys.length

/-! ### merge_unique.h -/

/-- merge_unique.h:16-33; `none`: `utl::verify` throws. -/
def mergeUnique (c1 c2 : List Nat) : Option (List Nat) :=
  if isSorted c1 && isSorted c2 then some (unique (merge c1 c2)) else none

/-! ### multi_set_merge.h -/

/-- A non-empty range: the element `*first` and the rest. multi_set_merge.h:18 drops the empty ones. -/
def nonEmpty : List Nat → Option (Nat × List Nat)
  | [] => none
  | x :: xs => some (x, xs)

/-- the smallest `*first` in the queue -/
def minHead : List (Nat × List Nat) → Option Nat
  | [] => none
  | r :: q => match minHead q with
    | none => some r.1
    | some m => some (min r.1 m)

/-- remove the `k`-th range with `*first = m` -/
def takeNth (m : Nat) : Nat → List (Nat × List Nat) → Option ((Nat × List Nat) × List (Nat × List Nat))
  | _, [] => none
  | k, r :: q =>
    if r.1 = m then
      match k with
      | 0 => some (r, q)
      | k + 1 => (takeNth m k q).map fun p => (p.1, r :: p.2)
    else (takeNth m k q).map fun p => (p.1, r :: p.2)

/-- `queue.top(); queue.pop()`: which of several ranges with minimal `*first` is on top depends on the heap. The oracle
value `ch` makes this choice: every one of them is taken for some `ch`. -/
def popTop (ch : Nat) (q : List (Nat × List Nat)) : Option ((Nat × List Nat) × List (Nat × List Nat)) :=
  match minHead q with
  | none => none
  | some m => takeNth m (ch % (q.countP fun r => r.1 == m)) q

/-- multi_set_merge.h:60-62 -/
def emplaceNonEmpty (r : List Nat) (q : List (Nat × List Nat)) : List (Nat × List Nat) :=
  match nonEmpty r with
  | none => q
  | some r => r :: q

/-- multi_set_merge.h:48-63; `back` is `result.back()`, the returned list are the elements appended to `result`.
`ch i` is the choice in iteration `i`; the loop is bounded by fuel, `none` means it is used up. -/
def mergeLoop (ch : Nat → Nat) : Nat → Nat → List (Nat × List Nat) → Nat → Option (List Nat)
  | 0, _, _, _ => none
  | fuel + 1, i, q, back =>
    match popTop (ch i) q with
    | none => some []
    | some ((x, xs), rest) =>
      let back' := if x > back then x else back
      let q' := emplaceNonEmpty ((x :: xs).dropWhile fun y => decide (y ≤ back')) rest
      (mergeLoop ch fuel (i + 1) q' back').map fun l => if x > back then x :: l else l

/-- number of elements in all ranges -/
def totalLength (ranges : List (List Nat)) : Nat := (ranges.map List.length).sum

/-- multi_set_merge.h:13-66 -/
def multiSetMerge (ch : Nat → Nat) (ranges : List (List Nat)) : Option (List Nat) :=
  match ranges.filterMap nonEmpty with
  | [] => some []
  | [r] => some (r.1 :: r.2)
  | q =>
    match minHead q with
    | none => none
    | some m => (mergeLoop ch (totalLength ranges + 1) 0 q m).map (m :: ·)

/-! ### overlap.h -/

/-- overlap.h:78-90, on the unread parts of both ranges -/
def overlapLoop : List Nat → List Nat → Bool
  | [], _ => false
  | _, [] => false
  | x :: xs, y :: ys =>
    if x = y then true
    else if x < y then overlapLoop (xs.dropWhile fun z => decide (z < y)) (y :: ys)
    else overlapLoop (x :: xs) (ys.dropWhile fun z => decide (z < x))
termination_by xs ys => xs.length + ys.length
decreasing_by
  · have := (List.dropWhile_sublist (fun z => decide (z < y)) (l := xs)).length_le
    simp only [List.length_cons]; omega
  · have := (List.dropWhile_sublist (fun z => decide (z < x)) (l := ys)).length_le
    simp only [List.length_cons]; omega

/-- overlap.h:66-91 with `AssertSort`; `none`: `utl::verify` throws. -/
def overlap (c1 c2 : List Nat) : Option Bool :=
  if isSorted c1 && isSorted c2 then some (overlapLoop c1 c2) else none

/-- overlap.h:51-63 `sorted_wrapper`: the elements in the order of the index; out of range indices do not occur. -/
def byIndex (c : List Nat) (p : List Nat) : List Nat := p.map fun i => c[i]?.getD 0

/-- overlap.h:24-43: `p` is a possible result of `get_permutation_index(c)`. -/
def IsPermIndex (c p : List Nat) : Prop :=
  p.Perm (List.range c.length) ∧ (byIndex c p).Pairwise (· ≤ ·)

/-- overlap.h:93-110, given the two permutation indices -/
def overlapNonSorted (c1 c2 p1 p2 : List Nat) : Bool := overlapLoop (byIndex c1 p1) (byIndex c2 p2)

/-- `std::set_intersection` of lists of values -/
def setInter (c1 c2 : List Nat) : List Nat :=
  setIntersection (fun a b => decide (a < b)) (fun b a => decide (b < a)) c1 c2

/-- overlap.h:112-125 (the asserts are not active in release builds) -/
def getOverlap (c1 c2 : List Nat) : List Nat := setInter c1 c2

/-- overlap.h:127-155, given the two permutation indices -/
def getOverlapNonSorted (c1 c2 p1 p2 : List Nat) : List Nat :=
  let lt12 := fun a b => decide (c1[a]?.getD 0 < c2[b]?.getD 0)
  let lt21 := fun b a => decide (c2[b]?.getD 0 < c1[a]?.getD 0)
  byIndex c1 (sortNat (setIntersection lt12 lt21 p1 p2))

/-! ### remove_after.h, remove_until.h, slice.h, sort_and_intersect.h -/

/-- remove_until.h:8-12 -/
def removeUntil {α : Type} (v : List α) (pred : α → Bool) : List α := v.drop (v.findIdx pred)

/-- remove_after.h:8-13: `std::distance(rlast, rend)` elements are kept -/
def removeAfter {α : Type} (v : List α) (pred : α → Bool) : List α := v.take (v.length - v.reverse.findIdx pred)

/-- slice.h:12-17, in place; `none`: undefined behaviour (erase with invalid iterators) -/
def sliceInPlace {α : Type} (v : List α) (frm to : Nat) : Option (List α) :=
  if to ≤ v.length then
    let v' := v.take to
    if frm ≤ v'.length then some (v'.drop frm) else none
  else none

/-- slice.h:21-33, copying; `none`: undefined behaviour -/
def sliceCopy {α : Type} (v : List α) (frm to : Nat) : Option (List α) :=
  if frm ≤ to ∧ to ≤ v.length then some ((v.drop frm).take (to - frm)) else none

/-- slice.h:42-43 and 56-57 -/
def clasp (size frm to : Nat) : Nat × Nat := (if frm > size then 0 else frm, if to > size then size else to)

/-- slice.h:39-46 -/
def sliceClaspInPlace {α : Type} (v : List α) (frm to : Nat) : Option (List α) :=
  let c := clasp v.length frm to
  sliceInPlace v c.1 c.2

/-- slice.h:52-60 -/
def sliceClaspCopy {α : Type} (v : List α) (frm to : Nat) : Option (List α) :=
  let c := clasp v.length frm to
  sliceCopy v c.1 c.2

/-- sort_and_intersect.h:18-30: the result and the two modified containers -/
def sortAndIntersect (c1 c2 : List Nat) : List Nat × List Nat × List Nat :=
  (setInter (sortNat c1) (sortNat c2), sortNat c1, sortNat c2)

/-- sort_and_intersect.h:32-46 -/
def intersect (c1 c2 : List Nat) : List Nat := setInter c1 c2

end Soro.Algo
