import Verif.Spec.Section
import Mathlib.Data.List.Basic
import Mathlib.Data.List.Nodup
import Mathlib.Data.List.Pairwise
import Verif.Props.Utls

/-
Properties C44, C45, C46: element order, sections and lines.
-/

namespace Soro.Infra
open Spec

/-! ### C44 -/

theorem equal_sep {a b : Item} (h : Separated a b) : Utls.equal a.km b.km = true ↔ a.km = b.km := by
  rw [Utls.C67_meaning, abs_lt]
  rcases h with h | h | h
  · simp [h]
  · constructor
    · intro h'; linarith [h'.1]
    · intro e; rw [e] at h; linarith
  · constructor
    · intro h'; linarith [h'.2]
    · intro e; rw [e] at h; linarith

/-- the order by exact kilometrage, key and id -/
theorem order_iff (up : Bool) {a b : Item} (h : Separated a b) :
    orderImpl up a b = true ↔ (if up then a.km < b.km else b.km < a.km) ∨
      a.km = b.km ∧ (orderKey a.ty a.rising < orderKey b.ty b.rising ∨
        orderKey a.ty a.rising = orderKey b.ty b.rising ∧ a.id < b.id) := by
  unfold orderImpl
  by_cases he : a.km = b.km
  · rw [(equal_sep h).2 he]
    simp only [Bool.not_true, Bool.false_eq_true, if_false, he, lt_irrefl, ite_self, false_or, true_and]
    split
    · rw [decide_eq_true_eq]; constructor
      · exact .inl
      · rintro (h | h); exacts [h, absurd h.1 (by assumption)]
    · rename_i hk
      simp only [ne_eq, not_not] at hk
      rw [decide_eq_true_eq, hk]; simp
  · have : Utls.equal a.km b.km = false := by rw [Bool.eq_false_iff]; exact fun x => he ((equal_sep h).1 x)
    rw [this]
    cases up <;> simp [he]

/-- C44 (partial): if distinct kilometrages differ by at least the tolerance and the ids are distinct, both orders are strict total
orders, so sorting is well defined and its result unique. -/
theorem C44_strict_partial (up : Bool) (l : List Item) (hs : ∀ a ∈ l, ∀ b ∈ l, Separated a b) (hid : ∀ a ∈ l, ∀ b ∈ l, a.id = b.id → a = b) :
    StrictTotal (orderImpl up) l := by
  refine ⟨?_, ?_, ?_⟩
  · intro a ha
    rw [Bool.eq_false_iff, ne_eq, order_iff up (hs a ha a ha)]
    cases up <;> simp
  · intro a ha b hb c hc
    rw [order_iff up (hs a ha b hb), order_iff up (hs b hb c hc), order_iff up (hs a ha c hc)]
    cases up
    · simp only [Bool.false_eq_true, if_false]
      rintro (h | ⟨h, h1⟩) (h' | ⟨h', h2⟩)
      · exact .inl (by linarith)
      · exact .inl (by rw [← h']; exact h)
      · exact .inl (by rw [h]; exact h')
      · exact .inr ⟨by rw [h, h'], by omega⟩
    · simp only [if_true]
      rintro (h | ⟨h, h1⟩) (h' | ⟨h', h2⟩)
      · exact .inl (by linarith)
      · exact .inl (by rw [← h']; exact h)
      · exact .inl (by rw [h]; exact h')
      · exact .inr ⟨by rw [h, h'], by omega⟩
  · intro a ha b hb hne
    rw [order_iff up (hs a ha b hb), order_iff up (hs b hb a ha)]
    have hid' : a.id ≠ b.id := fun h => hne (hid a ha b hb h)
    rcases lt_trichotomy a.km b.km with h | h | h
    · cases up <;> simp [h]
    · simp only [h, lt_irrefl, ite_self, false_or, true_and]; omega
    · cases up <;> simp [h]

/-- C44 is false: kilometrages closer than the tolerance give a cycle. -/
theorem C44_cycle_negation (up : Bool) : ∃ a b c : Item, a.ty.isTrack = true ∧ b.ty.isTrack = true ∧ c.ty.isTrack = true ∧
    orderImpl up a b = true ∧ orderImpl up b c = true ∧ orderImpl up c a = true := by
  cases up
  · exact ⟨⟨0, .halt, true, 0⟩, ⟨1/125, .mainSignal, true, 1⟩, ⟨2/125, .eotd, true, 2⟩, by decide +kernel⟩
  · exact ⟨⟨2/125, .halt, true, 0⟩, ⟨1/125, .mainSignal, true, 1⟩, ⟨0, .eotd, true, 2⟩, by decide +kernel⟩

/-- C44: elements of different type or direction are never compared by their ids: the keys of track elements differ unless the types
and, for directed elements, the directions are the same. -/
theorem C44_keys (t u : Ty) (r s : Bool) (ht : t.isTrack = true) (hu : u.isTrack = true) :
    orderKey t r = orderKey u s ↔ t = u ∧ (t.isDirected = true → t ≠ .metaElement → r = s) := by
  revert r s
  cases t <;> cases u <;> first | (exfalso; revert ht; decide) | (exfalso; revert hu; decide) | decide

theorem sort_unique {up : Bool} {l l' l'' : List Item} (h : StrictTotal (orderImpl up) l) (h' : IsSort up l l') (h'' : IsSort up l l'') :
    l' = l'' := by
  have key : ∀ (x y : List Item), x.Perm y → (∀ a ∈ x, a ∈ l) → x.Pairwise (fun a b => orderImpl up b a = false) →
      y.Pairwise (fun a b => orderImpl up b a = false) → x = y := by
    intro x y hp hx s1 s2
    refine List.Perm.eq_of_pairwise (le := fun a b => orderImpl up b a = false) ?_ s1 s2 hp
    intro a b ha hb h1 h2
    by_contra hne
    rcases h.total a (hx a ha) b (hx b (hp.mem_iff.2 hb)) hne with h | h
    · rw [h2] at h; cases h
    · rw [h1] at h; cases h
  exact key _ _ (h'.1.trans h''.1.symm) (fun a ha => h'.1.mem_iff.1 ha) h'.2 h''.2

/-- C44 (partial): under the same conditions every sorting algorithm yields the same list. -/
theorem C44_sort_unique_partial (up : Bool) (l l' l'' : List Item) (hs : ∀ a ∈ l, ∀ b ∈ l, Separated a b)
    (hid : ∀ a ∈ l, ∀ b ∈ l, a.id = b.id → a = b) (h' : IsSort up l l') (h'' : IsSort up l l'') : l' = l'' :=
  sort_unique (C44_strict_partial up l hs hid) h' h''

example : (∀ a ∈ [(⟨0, .halt, true, 0⟩ : Item), ⟨0, .mainSignal, true, 1⟩, ⟨1, .eotd, false, 2⟩], ∀ b ∈ [(⟨0, .halt, true, 0⟩ : Item),
    ⟨0, .mainSignal, true, 1⟩, ⟨1, .eotd, false, 2⟩], Separated a b) := by
  intro a ha b hb
  simp only [List.mem_cons, List.not_mem_nil, or_false] at ha hb
  rcases ha with rfl | rfl | rfl <;> rcases hb with rfl | rfl | rfl <;> norm_num [Separated]

/-! ### C46 -/

/-- C46: `from` is the part of the order from the given element on. -/
theorem C46_from (s : Section) (e : Item) (up : Bool) (h : e ∈ s.order up) :
    ∃ pre, s.order up = pre ++ s.since e up ∧ e ∉ pre ∧ (s.since e up).head? = some e := by
  refine ⟨(s.order up).take ((s.order up).idxOf e), (List.take_append_drop _ _).symm, ?_, ?_⟩
  · intro hm
    rw [List.mem_take_iff_getElem] at hm
    obtain ⟨i, hi, he⟩ := hm
    have := List.not_of_lt_findIdx (xs := s.order up) (p := (· == e)) (i := i) (by rw [← List.idxOf]; omega)
    simp at this
    exact this he
  · rw [Section.since, List.head?_drop, List.getElem?_eq_getElem (List.idxOf_lt_length_of_mem h), List.getElem_idxOf]

/-- C46: `to` is the part of the order up to and including the given element. -/
theorem C46_to (s : Section) (e : Item) (up : Bool) (h : e ∈ s.order up) :
    ∃ pre post, s.order up = pre ++ e :: post ∧ e ∉ pre ∧ s.to e up = some (pre ++ [e]) := by
  have hi := List.idxOf_lt_length_of_mem h
  obtain ⟨pre, h1, h2, h3⟩ := C46_from s e up h
  cases hf : s.since e up with
  | nil => rw [hf] at h3; cases h3
  | cons x post =>
    rw [hf] at h1 h3
    obtain rfl : x = e := by simpa using h3
    refine ⟨pre, post, h1, h2, ?_⟩
    have hidx : (s.order up).idxOf x = pre.length := by rw [h1, List.idxOf_append_of_notMem h2]; simp
    simp only [Section.to]
    rw [if_pos hi, hidx, h1, List.take_append, List.take_of_length_le (by omega)]
    simp

/-- C46: `from_to` is the contiguous part from the one to the other element, if they come in this order. -/
theorem C46_fromTo (s : Section) (a b : Item) (up : Bool) (pre mid post : List Item) (h : s.order up = pre ++ (a :: mid ++ b :: post))
    (hn : (s.order up).Nodup) : s.fromTo a b up = some (a :: mid ++ [b]) := by
  rw [h] at hn
  have ha : (s.order up).idxOf a = pre.length := by
    rw [h, List.idxOf_append_of_notMem]
    · simp
    · intro hm; rw [List.nodup_append] at hn; exact hn.2.2 a hm a (by simp) rfl
  have hb : (s.order up).idxOf b = pre.length + (mid.length + 1) := by
    rw [h, List.idxOf_append_of_notMem, List.idxOf_append_of_notMem]
    · simp
    · intro hm; rw [List.nodup_append, List.nodup_append] at hn; exact hn.2.1.2.2 b hm b (by simp) rfl
    · intro hm; rw [List.nodup_append] at hn; exact hn.2.2 b hm b (by simp) rfl
  simp only [Section.fromTo]
  rw [ha, hb, if_pos ⟨by rw [h]; simp, by omega⟩, h, List.take_append, List.take_of_length_le (by omega), List.drop_append,
    List.drop_of_length_le (Nat.le_refl _)]
  have e : pre.length + (mid.length + 1) + 1 - pre.length = (a :: mid).length + 1 := by simp; omega
  rw [e, List.take_append, List.take_of_length_le (by omega)]
  simp

/-- mirrored sections -/
theorem fromTo_mirror (s : Section) (hm : s.falling = s.rising.reverse) (hn : s.rising.Nodup) (pre mid post : List Item) (a b : Item)
    (h : s.rising = pre ++ (a :: mid ++ b :: post)) :
    ∃ x, s.fromTo a b true = some x ∧ s.fromTo b a false = some x.reverse := by
  refine ⟨a :: mid ++ [b], C46_fromTo s a b true pre mid post h hn, ?_⟩
  have := C46_fromTo s b a false post.reverse mid.reverse pre.reverse (by
    show s.falling = _
    rw [hm, h]; simp) (by show s.falling.Nodup; rw [hm]; exact List.nodup_reverse.2 hn)
  rw [this]; simp

/-- C46 (partial): if no two track elements are closer than the tolerance, the falling order is the reverse of the rising one. -/
theorem C46_mirror_partial (start fin : Item) (l r f : List Item) (hr : IsSort true l r) (hf : IsSort false l f)
    (hs : l.Pairwise fun a b => a.km + 1 / 100 ≤ b.km ∨ b.km + 1 / 100 ≤ a.km) :
    (Section.build start fin r f).falling = (Section.build start fin r f).rising.reverse := by
  have hsep : ∀ a ∈ l, ∀ b ∈ l, a = b ∨ a.km + 1 / 100 ≤ b.km ∨ b.km + 1 / 100 ≤ a.km := by
    intro a ha b hb
    by_cases he : a = b
    · exact .inl he
    · haveI : Std.Symm (fun a b : Item => a.km + 1 / 100 ≤ b.km ∨ b.km + 1 / 100 ≤ a.km) := ⟨fun _ _ => Or.symm⟩
      exact .inr (hs.forall ha hb he)
  have key : ∀ a ∈ l, ∀ b ∈ l, a ≠ b → (orderImpl true a b = false ↔ orderImpl false b a = false) := by
    intro a ha b hb hne
    have h := (hsep a ha b hb).resolve_left hne
    have s1 : Separated a b := .inr h
    have s2 : Separated b a := .inr h.symm
    rw [← Bool.not_eq_true, ← Bool.not_eq_true, order_iff _ s1, order_iff _ s2]
    have hk : a.km ≠ b.km := by rintro e; rw [e] at h; rcases h with h | h <;> linarith
    have hk' : b.km ≠ a.km := hk.symm
    simp [hk, hk']
  -- the list has no duplicates, so both orders are strict on it
  have hnd : l.Nodup := by
    refine hs.imp ?_
    rintro a b h rfl
    rcases h with h | h <;> linarith
  have hirr : ∀ up, ∀ a ∈ l, orderImpl up a a = false := by
    intro up a _
    rw [Bool.eq_false_iff, ne_eq, order_iff up (.inl rfl)]
    cases up <;> simp
  have hf' : IsSort true l f.reverse := by
    refine ⟨(List.reverse_perm f).trans hf.1, ?_⟩
    rw [List.pairwise_reverse]
    refine List.Pairwise.imp_of_mem ?_ (List.Pairwise.and (hf.1.nodup_iff.2 hnd) hf.2)
    rintro a b ha hb ⟨hne, h⟩
    exact (key a (hf.1.mem_iff.1 ha) b (hf.1.mem_iff.1 hb) hne).2 h
  have ht : StrictTotal (orderImpl true) l := by
    have hsep' : ∀ a ∈ l, ∀ b ∈ l, Separated a b := by
      intro a ha b hb
      rcases hsep a ha b hb with rfl | h
      · exact .inl rfl
      · exact .inr h
    refine ⟨hirr true, ?_, ?_⟩
    · intro a ha b hb c hc
      rw [order_iff _ (hsep' a ha b hb), order_iff _ (hsep' b hb c hc), order_iff _ (hsep' a ha c hc)]
      simp only [if_true]
      rintro (h | ⟨h, h1⟩) (h' | ⟨h', h2⟩)
      · exact .inl (by linarith)
      · exact .inl (by rw [← h']; exact h)
      · exact .inl (by rw [h]; exact h')
      · exact .inr ⟨by rw [h, h'], by omega⟩
    · intro a ha b hb hne
      rw [order_iff _ (hsep' a ha b hb), order_iff _ (hsep' b hb a ha)]
      rcases (hsep a ha b hb).resolve_left hne with h | h
      · left; left; simp only [if_true]; linarith
      · right; left; simp only [if_true]; linarith
  have : f.reverse = r := sort_unique ht hf' hr
  rw [Section.build, ← this]
  simp

/-- C46 (partial): then the part between two elements is the same in both directions, mirrored. -/
theorem C46_fromTo_mirror_partial (start fin : Item) (l r f : List Item) (hr : IsSort true l r) (hf : IsSort false l f)
    (hs : l.Pairwise fun a b => a.km + 1 / 100 ≤ b.km ∨ b.km + 1 / 100 ≤ a.km) (hne : start ≠ fin) (h1 : start ∉ l) (h2 : fin ∉ l)
    (pre mid post : List Item) (a b : Item) (h : start :: r ++ [fin] = pre ++ (a :: mid ++ b :: post)) :
    ∃ x, (Section.build start fin r f).fromTo a b true = some x ∧ (Section.build start fin r f).fromTo b a false = some x.reverse := by
  refine fromTo_mirror _ (C46_mirror_partial start fin l r f hr hf hs) ?_ pre mid post a b h
  have hnd : l.Nodup := by
    refine hs.imp ?_
    rintro a b h rfl
    rcases h with h | h <;> linarith
  show (start :: r ++ [fin]).Nodup
  rw [List.cons_append, List.nodup_cons, List.nodup_append]
  refine ⟨?_, hr.1.nodup_iff.2 hnd, by simp, ?_⟩
  · simp only [List.mem_append, List.mem_singleton, not_or]
    exact ⟨fun x => h1 (hr.1.mem_iff.1 x), hne⟩
  · intro x hx y hy e
    simp only [List.mem_singleton] at hy
    rw [e, hy] at hx
    exact h2 (hr.1.mem_iff.1 hx)

/-- C46 is false: elements at the same kilometrage come in the same order in both directions. -/
theorem C46_mirror_negation (start fin : Item) (up : Bool) :
    let h : Item := ⟨5, .halt, up, 1⟩
    let m : Item := ⟨5, .mainSignal, up, 2⟩
    IsSort true [h, m] [h, m] ∧ IsSort false [h, m] [h, m] ∧
      (Section.build start fin [h, m] [h, m]).falling = [fin, h, m, start] ∧
      (Section.build start fin [h, m] [h, m]).rising = [start, h, m, fin] := by
  refine ⟨⟨List.Perm.refl _, ?_⟩, ⟨List.Perm.refl _, ?_⟩, rfl, rfl⟩ <;> cases up <;> decide +kernel

/-- C46 is false for a section that starts and ends at the same element: `to` this element is the first element alone. -/
theorem C46_loop_negation (e : Item) (r f : List Item) (up : Bool) : (Section.build e e r f).to e up = some [e] := by
  cases up <;> simp [Section.build, Section.to, Section.order]

/-- C46: iterating over a section yields, in the order of the direction and from one end to the other, exactly its ends and those of its
track elements that have no direction or this one, each as often as it is there. -/
theorem C46_iterate (start fin : Item) (l r f : List Item) (hr : IsSort true l r) (hf : IsSort false l f)
    (h1 : start.ty.isDirected = false) (h2 : fin.ty.isDirected = false) (up : Bool) :
    ∃ mid, (Section.build start fin r f).iterate up = (if up then start else fin) :: mid ++ [if up then fin else start] ∧
      mid.Sublist (if up then r else f) ∧
      ∀ e, mid.count e = if e.ty.isDirected = true ∧ e.rising ≠ up then 0 else l.count e := by
  refine ⟨(if up then r else f).filter fun e => !(e.ty.isDirected && decide (e.rising ≠ up)), ?_, List.filter_sublist, ?_⟩
  · cases up <;> simp [Section.iterate, Section.build, Section.order, h1, h2]
  · intro e
    have hp : (if up then r else f).Perm l := by cases up; exacts [hf.1, hr.1]
    by_cases h : e.ty.isDirected = true ∧ e.rising ≠ up
    · rw [if_pos h, List.count_eq_zero]
      intro hm
      simpa [h.1, h.2] using (List.mem_filter.1 hm).2
    · rw [if_neg h, List.count_filter, hp.count_eq]
      simp only [not_and, not_not] at h
      cases hd : e.ty.isDirected
      · simp
      · simp [h hd]

example : (Section.build ⟨0, .bumper, false, 0⟩ ⟨9, .border, true, 1⟩ [⟨3, .halt, true, 2⟩, ⟨4, .eotd, false, 3⟩]
    [⟨4, .eotd, false, 3⟩, ⟨3, .halt, true, 2⟩]).iterate true = [⟨0, .bumper, false, 0⟩, ⟨3, .halt, true, 2⟩, ⟨9, .border, true, 1⟩] := by
  decide +kernel

example : IsSort true [⟨4, .eotd, false, 3⟩, ⟨3, .halt, true, 2⟩] [⟨3, .halt, true, 2⟩, ⟨4, .eotd, false, 3⟩] :=
  ⟨List.Perm.swap _ _ _, by decide +kernel⟩

/-! ### C45 -/

theorem lowerBound_spec {α : Type} (p : α → Bool) (l : List α) (k : Nat) (hk : k ≤ l.length) (h1 : ∀ (i : Nat) x, i < k → l[i]? = some x → p x = true)
    (h2 : ∀ (i : Nat) x, k ≤ i → l[i]? = some x → p x = false) (fuel first len : Nat) (hf : len ≤ fuel) (ha : first ≤ k) (hb : k ≤ first + len)
    (hl : first + len ≤ l.length) : lowerBound p l fuel first len = some k := by
  induction fuel generalizing first len with
  | zero => rw [lowerBound]; congr 1; omega
  | succ n ih =>
    rw [lowerBound]
    split
    · congr 1; omega
    · have hlt : first + len / 2 < l.length := by omega
      dsimp only
      rw [List.getElem?_eq_getElem hlt]
      dsimp only
      split
      · rename_i hp
        have : first + len / 2 < k := by
          by_contra hc
          rw [h2 (first + len / 2) _ (by omega) (List.getElem?_eq_getElem hlt)] at hp
          cases hp
        exact ih _ _ (by omega) (by omega) (by omega) (by omega)
      · rename_i hp
        have : k ≤ first + len / 2 := by
          by_contra hc
          exact hp (h1 (first + len / 2) _ (by omega) (List.getElem?_eq_getElem hlt))
        exact ih _ _ (by omega) (by omega) (by omega) (by omega)

/-- a list sorted by a threshold has a border -/
theorem exists_border (l : List Segment) (km : Rat) (hs : l.Pairwise fun a b => a.frm ≤ b.frm) :
    ∃ k ≤ l.length, (∀ (i : Nat) x, i < k → l[i]? = some x → x.frm ≤ km) ∧ (∀ (i : Nat) x, k ≤ i → l[i]? = some x → ¬ x.frm ≤ km) := by
  induction l with
  | nil => exact ⟨0, by simp, by simp, by simp⟩
  | cons s l ih =>
    rw [List.pairwise_cons] at hs
    by_cases hle : s.frm ≤ km
    · obtain ⟨k, h1, h2, h3⟩ := ih hs.2
      refine ⟨k + 1, by simp; omega, ?_, ?_⟩
      · intro i x hi hx
        cases i with
        | zero => simp at hx; subst hx; exact hle
        | succ i => exact h2 i x (by omega) (by simpa using hx)
      · intro i x hi hx
        cases i with
        | zero => omega
        | succ i => exact h3 i x (by omega) (by simpa using hx)
    · refine ⟨0, by simp, by simp, ?_⟩
      intro i x _ hx
      cases i with
      | zero => simp at hx; subst hx; exact hle
      | succ i =>
        intro h
        have := hs.1 x (List.mem_of_getElem? (by simpa using hx))
        exact hle (le_trans this h)

theorem adjoining_sorted : ∀ (l : List Segment), Adjoining l → l.Pairwise (fun a b => a.frm ≤ b.frm)
  | [], _ => .nil
  | [s], _ => List.pairwise_singleton _ _
  | s :: t :: l, h => by
    have ih := adjoining_sorted (t :: l) h.2.2
    refine List.Pairwise.cons ?_ ih
    intro b hb
    have h1 : s.frm ≤ t.frm := by rw [← h.2.1]; exact h.1
    rcases List.mem_cons.1 hb with rfl | hb
    · exact h1
    · exact le_trans h1 ((List.pairwise_cons.1 ih).1 b hb)

theorem adjoining_next : ∀ (l : List Segment), Adjoining l → ∀ (i : Nat) s t, l[i]? = some s → l[i + 1]? = some t → s.to = t.frm
  | [], _, _, _, _, h, _ => by simp at h
  | [s], _, i, _, _, _, h => by simp at h
  | s :: t :: l, h, 0, a, b, ha, hb => by
    simp at ha hb; subst ha hb; exact h.2.1
  | s :: t :: l, h, i + 1, a, b, ha, hb => adjoining_next (t :: l) h.2.2 i a b (by simpa using ha) (by simpa using hb)

/-- C45: for positions on the line `get_segment` returns the last segment that starts at or before the position, and it contains the
position. -/
theorem C45_contains (l : List Segment) (km : Rat) (f b : Segment) (hf : l.head? = some f) (hb : l.getLast? = some b)
    (ha : Adjoining l) (h1 : f.frm ≤ km) (h2 : km ≤ b.to) :
    ∃ (i : Nat) (s : Segment), getSegment l km = some s ∧ l[i]? = some s ∧ s.frm ≤ km ∧ km ≤ s.to ∧
      ∀ (j : Nat) (t : Segment), i < j → l[j]? = some t → km < t.frm := by
  obtain ⟨k, hk, ka, kb⟩ := exists_border l km (adjoining_sorted l ha)
  have h0 : l[0]? = some f := by rw [← List.head?_eq_getElem?]; exact hf
  have hkpos : 0 < k := by
    by_contra hc
    exact kb 0 f (by omega) h0 h1
  have hlt : k - 1 < l.length := by omega
  refine ⟨k - 1, l[k - 1], ?_, List.getElem?_eq_getElem hlt, ka _ _ (by omega) (List.getElem?_eq_getElem hlt), ?_, ?_⟩
  · rw [getSegment, hf, hb]
    dsimp only
    rw [if_neg (not_lt.2 h1), if_neg (not_lt.2 h2), lowerBound_spec _ l k hk (by simpa using ka) (by simpa using kb) _ _ _ (le_refl _)
      (Nat.zero_le _) (by omega) (by omega)]
    simp only [Option.bind_some]
    rw [if_neg (by omega), List.getElem?_eq_getElem hlt]
  · by_cases hl : k < l.length
    · have e1 := List.getElem?_eq_getElem hl
      have := adjoining_next l ha (k - 1) _ _ (List.getElem?_eq_getElem hlt) (by rw [show k - 1 + 1 = k by omega]; exact e1)
      rw [this]
      exact le_of_lt (not_le.1 (kb k _ (le_refl _) e1))
    · have : l.getLast? = some l[k - 1] := by
        rw [List.getLast?_eq_getElem?, show l.length - 1 = k - 1 by omega]
        exact List.getElem?_eq_getElem hlt
      rw [hb] at this
      cases this
      exact h2
  · intro j t hj ht
    exact not_le.1 (kb j t (by omega) ht)

/-- C45: positions outside the line get its first or last segment. -/
theorem C45_outside (l : List Segment) (km : Rat) (f b : Segment) (hf : l.head? = some f) (hb : l.getLast? = some b) :
    (km < f.frm → getSegment l km = some f) ∧ (f.frm ≤ km → b.to < km → getSegment l km = some b) := by
  rw [getSegment, hf, hb]
  dsimp only
  refine ⟨fun h => if_pos h, fun h1 h2 => by rw [if_neg (not_lt.2 h1), if_pos h2]⟩

/-- C45: a line without segments has no segment to return; the release build reads beyond the end. -/
theorem C45_empty (km : Rat) : getSegment [] km = none := rfl

example : Adjoining [⟨0, 2, 7⟩, ⟨2, 2, 8⟩, ⟨2, 5, 9⟩] := by norm_num [Adjoining]
example : getSegment [⟨0, 2, 7⟩, ⟨2, 2, 8⟩, ⟨2, 5, 9⟩] 2 = some ⟨2, 5, 9⟩ ∧ getSegment [⟨0, 2, 7⟩, ⟨2, 2, 8⟩, ⟨2, 5, 9⟩] 1 = some ⟨0, 2, 7⟩ := by
  decide +kernel

end Soro.Infra
