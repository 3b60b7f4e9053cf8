import Verif.Proof.ExclusionSet

/-! Properties C09 - C15: exclusion sets. -/

namespace Soro
open ES

/-- C09. A set made from sorted ids (duplicates allowed) exists; membership, `expanded_set`, iteration and `count`
describe exactly the given ids, in strictly increasing order. -/
theorem C09_make_represents_ids (id : Nat) (ids : List Nat) (h : ValidIds ids) :
    ∃ s l, ES.make id ids = some s ∧ (∀ x, s.idx x = true ↔ x ∈ ids) ∧
      s.iterate = some l ∧ s.expandedSet = l ∧ l.Pairwise (· < ·) ∧ (∀ x, x ∈ l ↔ x ∈ ids) ∧
      s.count = l.length := by
  obtain ⟨s, h1, h2, _, h3⟩ := make_spec id ids h
  refine ⟨s, s.expandedSet, h1, h3, h2.iterate_eq, rfl, expanded_sorted s, fun x => ?_, (expanded_length s).symm⟩
  rw [h2.expanded_mem, h3]

example : ValidIds [3, 3, 64, 200] := by unfold ValidIds; decide

/-- C09 for every reachable set: iteration is complete, increasing and without repetition. -/
theorem C09_iterate_reachable (s : ES) (h : s.Reachable) :
    ∃ l, s.iterate = some l ∧ s.expandedSet = l ∧ l.Pairwise (· < ·) ∧ (∀ x, x ∈ l ↔ s.idx x = true) ∧
      s.count = l.length :=
  ⟨s.expandedSet, h.wf.iterate_eq, rfl, expanded_sorted s, h.wf.expanded_mem, (expanded_length s).symm⟩

/-- C10. `a |= b` (and `a | b`) succeeds and is set union. -/
theorem C10_union (a b : ES) (ha : a.Reachable) (hb : b.Reachable) :
    ∃ s, a.union b = some s ∧ s.Reachable ∧ ∀ x, s.idx x = true ↔ a.idx x = true ∨ b.idx x = true := by
  obtain ⟨s, h1, _, h3⟩ := union_spec ha.wf hb.wf
  exact ⟨s, h1, .union ha hb h1, h3⟩

/-- The union of non-empty sets keeps the id of the left operand. -/
theorem C10_union_id (a b : ES) (ha : a.Reachable) (hb : b.Reachable) (hne : a.isEmpty = false) :
    ∃ s, a.union b = some s ∧ s.id = a.id := by
  cases hbe : b.isEmpty
  · obtain ⟨s, h1, _, h3, _⟩ := union_ne (ha.wf.ne hne) (hb.wf.ne hbe)
    exact ⟨s, h1, h3⟩
  · exact ⟨a, by simp [ES.union, hbe], rfl⟩

/-- C11. `a -= b` (and `a - b`) succeeds and is set difference; the id is kept. -/
theorem C11_diff (a b : ES) (ha : a.Reachable) (hb : b.Reachable) :
    ∃ s, a.diff b = some s ∧ s.Reachable ∧ s.id = a.id ∧
      ∀ x, s.idx x = true ↔ a.idx x = true ∧ ¬ b.idx x = true := by
  obtain ⟨s, h1, _, h3, h4⟩ := diff_spec ha.wf hb.wf
  exact ⟨s, h1, .diff ha hb h1, h3, h4⟩

/-- C11 for `a -= a`. -/
theorem C11_diff_self (a : ES) (x : Nat) : a.diffSelf.idx x = false := by
  have := fresh_mem a.id x
  unfold ES.Mem at this
  cases h : (fresh a.id).idx x
  · exact h
  · exact absurd h this

/-- C12. After every history of operations `ok()` holds. -/
theorem C12_ok (s : ES) (h : s.Reachable) : s.ok = true := h.wf.ok

/-- C12, spelled out: a reachable set is either empty or its window is block aligned, contains all members, and the
stored first / last member are the least / greatest member. -/
theorem C12_window (s : ES) (h : s.Reachable) :
    (s.isEmpty = true ↔ ∀ x, s.idx x = false) ∧
    (s.isEmpty = false →
      s.first % 64 = 0 ∧ (s.last + 1) % 64 = 0 ∧ s.bits.size = s.last + 1 - s.first ∧
      s.idx s.firstSet = true ∧ s.idx s.lastSet = true ∧
      (∀ x, s.idx x = true → s.firstSet ≤ x ∧ x ≤ s.lastSet) ∧
      s.first ≤ s.firstSet ∧ s.firstSet < s.first + 64 ∧ s.lastSet ≤ s.last ∧ s.last < s.lastSet + 64 ∧
      (∀ i, s.bits.test i = true ↔ s.idx (s.first + i) = true)) := by
  refine ⟨?_, fun he => ?_⟩
  · rw [h.wf.empty_iff]; simp [ES.Mem]
  · have n := h.wf.ne he
    have hf := n.hf; have hl := n.hl
    refine ⟨by omega, by omega, n.hsz, n.mem_first, n.mem_last, fun x hx => n.mem_bounds hx,
      by omega, by omega, by omega, by omega, fun i => ?_⟩
    rw [n.test_eq]; exact n.get_iff i

/-- C12. Every operation is defined (no block is accessed out of range) on reachable sets. -/
theorem C12_total (a b : ES) (ha : a.Reachable) (hb : b.Reachable) (alias : Bool) (hal : alias = true → a = b) :
    (a.union b).isSome ∧ (a.diff b).isSome ∧ (a.compare b alias).isSome ∧ (a.contains b alias).isSome ∧
    (a.iterate).isSome ∧ (∀ i, a.isEmpty = false → i < 2 ^ 32 - 64 → (a.set i).isSome) := by
  obtain ⟨s1, h1, _⟩ := union_spec ha.wf hb.wf
  obtain ⟨s2, h2, _⟩ := diff_spec ha.wf hb.wf
  obtain ⟨r, h3, _⟩ := contains_spec ha.wf hb.wf alias hal
  have h4 : (a.compare b alias).isSome := by
    unfold ES.contains at h3
    cases h : a.compare b alias
    · rw [h] at h3; cases h3
    · rfl
  refine ⟨by simp [h1], by simp [h2], h4, by simp [h3], by simp [ha.wf.iterate_eq], fun i he hi => ?_⟩
  obtain ⟨s', h5, _⟩ := set_spec a i (ha.wf.ne he) hi
  simp [h5]

/-- C13. Sets obtained by any histories have the same window and bits iff they have the same members. -/
theorem C13_extensional (a b : ES) (ha : a.Reachable) (hb : b.Reachable) :
    (∀ x, a.idx x = b.idx x) ↔ a = { b with id := a.id } := by
  constructor
  · intro h
    exact ha.wf.ext hb.wf (fun x => by unfold ES.Mem; rw [h])
  · intro h x
    rw [h]; rfl

/-- C14. `compare` decides the inclusion order unless both sets are empty. -/
theorem C14_compare (a b : ES) (ha : a.Reachable) (hb : b.Reachable) (hne : a.isEmpty = false ∨ b.isEmpty = false)
    (alias : Bool) (hal : alias = true → a = b) :
    ∃ r, a.compare b alias = some r ∧
      (r = .equivalent ↔ (∀ x, a.idx x = true ↔ b.idx x = true)) ∧
      (r = .less ↔ (∀ x, a.idx x = true → b.idx x = true) ∧ ∃ x, b.idx x = true ∧ a.idx x = false) ∧
      (r = .greater ↔ (∀ x, b.idx x = true → a.idx x = true) ∧ ∃ x, a.idx x = true ∧ b.idx x = false) ∧
      (r = .unordered ↔ (∃ x, a.idx x = true ∧ b.idx x = false) ∧ ∃ x, b.idx x = true ∧ a.idx x = false) := by
  obtain ⟨r, hr, h1, h2, h3, h4⟩ := compare_spec ha.wf hb.wf hne alias hal
  have nsub : ∀ p q : ES, ¬ p.Sub q ↔ ∃ x, p.idx x = true ∧ q.idx x = false := by
    intro p q
    unfold ES.Sub ES.Mem
    constructor
    · intro h
      apply Classical.byContradiction
      intro hc
      apply h
      intro x hx
      cases hq : q.idx x
      · exact absurd ⟨x, hx, hq⟩ hc
      · rfl
    · rintro ⟨x, hx, hq⟩ h
      rw [h x hx] at hq; cases hq
  refine ⟨r, hr, ?_, ?_, ?_, ?_⟩
  · rw [h1]; unfold ES.Sub ES.Mem
    exact ⟨fun h x => ⟨h.1 x, h.2 x⟩, fun h => ⟨fun x => (h x).1, fun x => (h x).2⟩⟩
  · rw [h2, nsub]; rfl
  · rw [h3, nsub, and_comm]; rfl
  · rw [h4, nsub, nsub]

/-- C14. Two empty sets - even a set and itself - compare as `greater`. -/
theorem C14_compare_empty (a b : ES) (ha : a.isEmpty = true) (hb : b.isEmpty = true) (alias : Bool) :
    a.compare b alias = some .greater := by
  simp [ES.compare, ha, hb]

/-- C14. `contains` is inclusion, for all sets. -/
theorem C14_contains (a b : ES) (ha : a.Reachable) (hb : b.Reachable) (alias : Bool) (hal : alias = true → a = b) :
    ∃ r, a.contains b alias = some r ∧ (r = true ↔ ∀ x, b.idx x = true → a.idx x = true) :=
  contains_spec ha.wf hb.wf alias hal

/-- C15. Inserting an id into a non-empty set adds exactly this id, and the set stays well-formed.
Missing: the empty set, for which the claim is false, see `C15_set_on_empty_negation`. -/
theorem C15_set_partial (a : ES) (i : Nat) (ha : a.Reachable) (hne : a.isEmpty = false) (hi : i < 2 ^ 32 - 64) :
    ∃ s, a.set i = some s ∧ s.Reachable ∧ s.ok = true ∧ s.id = a.id ∧
      ∀ x, s.idx x = true ↔ x = i ∨ a.idx x = true := by
  obtain ⟨s, h1, h2, h3, h4⟩ := set_spec a i (ha.wf.ne hne) hi
  exact ⟨s, h1, .set ha hne hi h1, WF.ok (Or.inr h2), h3, h4⟩

/-- C15 is false for the empty set: inserting into a fresh set gives a set with exactly the right members, but `ok()`
is violated and the set with the same members made by `make_exclusion_set` does not contain it. -/
theorem C15_set_on_empty_negation (i : Nat) (hi : i < 2 ^ 32 - 64) :
    ∃ s t, (fresh 0).set i = some s ∧ ES.make 0 [i] = some t ∧
      (∀ x, x < 2 ^ 32 - 1 → (s.idx x = true ↔ x = i)) ∧ (∀ x, t.idx x = true ↔ x = i) ∧
      s.ok = false ∧ t.contains s false = some false := by
  obtain ⟨t, ht, htw, _, htm⟩ := make_spec 0 [i] ⟨by simp, by simpa using hi⟩
  have hinv : INVALID = 4294967295 := by decide
  have hs : ∃ s, (fresh 0).set i = some s ∧ s.first = i / 64 * 64 ∧ s.last = INVALID ∧ s.firstSet = i ∧
      s.lastSet = INVALID ∧ s.bits.size = INVALID - i / 64 * 64 ∧
      (∀ p, s.bits.get p = true ↔ p = i - i / 64 * 64) := by
    have h1 : i < (fresh 0).first := by simp only [fresh]; omega
    unfold ES.set
    simp only [if_pos h1, BV.set]
    have h2 : i - ((fresh 0).lowerFirst (i / 64 * 64)).first < ((fresh 0).lowerFirst (i / 64 * 64)).bits.size := by
      simp only [lowerFirst, fresh, BV.shl, BV.resize, BV.empty]; omega
    rw [if_pos h2]
    refine ⟨_, rfl, rfl, rfl, ?_, ?_, ?_, ?_⟩
    · simp only [lowerFirst, fresh]; omega
    · simp only [lowerFirst, fresh]; omega
    · simp only [lowerFirst, fresh, BV.shl, BV.resize, BV.empty]; omega
    · intro p
      simp only [lowerFirst, fresh, BV.shl, BV.resize, BV.empty, BV.test]
      by_cases hp : p = i - i / 64 * 64 <;> simp [hp]
  obtain ⟨s, hs, f1, f2, f3, f4, f5, f6⟩ := hs
  have htne : t.isEmpty = false := by
    cases he : t.isEmpty
    · rfl
    · exact absurd ((htm i).2 (by simp)) ((htw.empty_iff).1 he i)
  have tn := htw.ne htne
  have tf : t.firstSet = i := by simpa using (htm _).1 tn.mem_first
  have tl : t.lastSet = i := by simpa using (htm _).1 tn.mem_last
  have hse : s.isEmpty = false := by
    have : (s.bits.size == 0) = false := by rw [beq_eq_false_iff_ne]; omega
    simp [ES.isEmpty, this]
  refine ⟨s, t, hs, ht, ?_, fun x => by simpa [ES.Mem] using htm x, ?_, ?_⟩
  · intro x hx
    unfold ES.idx
    split
    · constructor
      · intro h; cases h
      · intro h; omega
    · unfold BV.test
      rw [Bool.and_eq_true, f6, decide_eq_true_eq]
      omega
  · simp [ES.ok, hse, f2]
  · have tff := tn.hf; have tll := tn.hl
    have h1 : ¬ (t.first = s.first ∧ t.last = s.last) := by omega
    have h2 : ¬ (t.firstSet ≤ s.firstSet ∧ t.lastSet ≥ s.lastSet) := by omega
    have h3 : t.firstSet ≥ s.firstSet ∧ t.lastSet ≤ s.lastSet := by omega
    simp only [ES.contains, ES.compare, hse, htne, Bool.false_and, Bool.false_eq_true, if_false, if_neg h1, if_neg h2,
      if_pos h3]
    have nb := tn.nblocks
    have tsz := tn.hsz
    have h4 : t.bits.nblocks + (t.first - s.first) / 64 ≤ s.bits.nblocks := by
      unfold BV.nblocks at *; omega
    simp only [containsImpl, if_pos h4, Option.map_some]
    have h5 : ((List.range (64 * t.bits.nblocks)).all
        fun p => !t.bits.test p || s.bits.test (p + 64 * ((t.first - s.first) / 64))) = true := by
      rw [List.all_eq_true]
      intro p _
      cases hp : t.bits.test p
      · simp
      · rw [tn.test_eq, tn.get_iff] at hp
        have := (htm _).1 hp
        simp only [List.mem_singleton] at this
        have e : p + 64 * ((t.first - s.first) / 64) = i - i / 64 * 64 := by omega
        rw [e]
        simp only [Bool.not_true, Bool.false_or, BV.test, Bool.and_eq_true, f6, decide_eq_true_eq, and_true]
        omega
    rw [h5]
    rfl

/-! Non-vacuity: sets in far apart windows, reached by a history using every operation. -/

def exIds : List Nat := [3, 64, 200]
def exIds2 : List Nat := [64, 5000]

theorem exReach : ∃ a b c d e : ES, ES.make 7 exIds = some a ∧ ES.make 8 exIds2 = some b ∧ a.union b = some c ∧
    c.diff a = some d ∧ d.isEmpty = false ∧ d.set 1 = some e ∧ e.Reachable ∧ e.isEmpty = false ∧
    (∀ x, e.idx x = true ↔ x = 1 ∨ x = 5000) := by
  obtain ⟨a, h1, w1, _, m1⟩ := make_spec 7 exIds (by unfold ValidIds exIds; decide)
  obtain ⟨b, h2, w2, _, m2⟩ := make_spec 8 exIds2 (by unfold ValidIds exIds2; decide)
  have ra : a.Reachable := .make (by unfold ValidIds exIds; decide) h1
  have rb : b.Reachable := .make (by unfold ValidIds exIds2; decide) h2
  obtain ⟨c, h3, rc, m3⟩ := C10_union a b ra rb
  obtain ⟨d, h4, rd, _, m4⟩ := C11_diff c a rc ra
  have md : ∀ x, d.idx x = true ↔ x = 5000 := by
    intro x
    rw [m4, m3]
    have m1' := m1 x; have m2' := m2 x
    unfold ES.Mem at m1' m2'
    rw [m1', m2']
    simp only [exIds, exIds2, List.mem_cons, List.not_mem_nil, or_false]
    omega
  have de : d.isEmpty = false := by
    cases he : d.isEmpty
    · rfl
    · exact absurd ((md 5000).2 rfl) ((rd.wf.empty_iff).1 he 5000)
  obtain ⟨e, h5, re, _, _, m5⟩ := C15_set_partial d 1 rd de (by decide)
  refine ⟨a, b, c, d, e, h1, h2, h3, h4, de, h5, re, ?_, fun x => by rw [m5, md]⟩
  cases he : e.isEmpty
  · rfl
  · exact absurd ((m5 1).2 (Or.inl rfl)) ((re.wf.empty_iff).1 he 1)

example : ∃ s : ES, s.Reachable ∧ s.isEmpty = false := by
  obtain ⟨_, _, _, _, e, _, _, _, _, _, _, h, h', _⟩ := exReach
  exact ⟨e, h, h'⟩

end Soro
