import Verif.Spec.ExclusionSet

/-! Well-formedness invariant of exclusion sets and its preservation. -/

namespace Soro

theorem find_range_some (p : Nat → Bool) (n i : Nat) (h : (List.range n).find? p = some i) :
    i < n ∧ p i = true ∧ ∀ j, j < i → p j = false := by
  rw [List.find?_range_eq_some] at h
  refine ⟨by simpa using h.2.1, h.1, fun j hj => by simpa using h.2.2 j hj⟩

theorem find_range_none (p : Nat → Bool) (n : Nat) (h : (List.range n).find? p = none) :
    ∀ j, j < n → p j = false := by
  intro j hj
  simpa using List.find?_eq_none.1 h j (by simpa using hj)

theorem find_rev_some (p : Nat → Bool) (n i : Nat) (h : (List.range n).reverse.find? p = some i) :
    i < n ∧ p i = true ∧ ∀ j, i < j → j < n → p j = false := by
  induction n with
  | zero => simp at h
  | succ n ih =>
    rw [List.range_succ, List.reverse_append] at h
    simp only [List.reverse_cons, List.reverse_nil, List.nil_append, List.singleton_append, List.find?_cons] at h
    split at h
    · rename_i hp
      cases h
      exact ⟨by omega, hp, fun j _ _ => by omega⟩
    · rename_i hp
      obtain ⟨h1, h2, h3⟩ := ih h
      refine ⟨by omega, h2, fun j h4 h5 => ?_⟩
      by_cases hj : j = n
      · subst hj; simpa using hp
      · exact h3 j h4 (by omega)

theorem find_rev_none (p : Nat → Bool) (n : Nat) (h : (List.range n).reverse.find? p = none) :
    ∀ j, j < n → p j = false := by
  intro j hj
  simpa using List.find?_eq_none.1 h j (by simpa using hj)

namespace ES

/-- invariant of a non-empty set -/
structure NE (s : ES) : Prop where
  hf : s.first = s.firstSet / 64 * 64
  hl : s.last = (s.lastSet / 64 + 1) * 64 - 1
  hlt : s.lastSet < 2 ^ 32 - 64
  hsz : s.bits.size = s.last + 1 - s.first
  hfl : s.firstSet ≤ s.lastSet
  gf : s.bits.get (s.firstSet - s.first) = true
  gl : s.bits.get (s.lastSet - s.first) = true
  hb : ∀ i, s.bits.get i = true → s.firstSet ≤ s.first + i ∧ s.first + i ≤ s.lastSet

/-- the invariant -/
def WF (s : ES) : Prop := s = fresh s.id ∨ NE s

theorem NE.lt_size {s : ES} (h : NE s) {i : Nat} (hi : s.bits.get i = true) : i < s.bits.size := by
  have := h.hb i hi; have := h.hf; have := h.hl; have := h.hsz; omega

theorem NE.test_eq {s : ES} (h : NE s) (i : Nat) : s.bits.test i = s.bits.get i := by
  unfold BV.test
  cases hg : s.bits.get i
  · simp
  · have := h.lt_size hg; simp [this]

theorem NE.not_empty {s : ES} (h : NE s) : s.isEmpty = false := by
  have := h.hlt; have := h.hfl
  have : s.lastSet ≠ INVALID := by unfold INVALID; omega
  simp [isEmpty, this]

theorem fresh_empty (id : Nat) : (fresh id).isEmpty = true := by
  simp [fresh, isEmpty, BV.empty]

theorem isEmpty_iff {s : ES} (h : WF s) : s.isEmpty = true ↔ s = fresh s.id := by
  constructor
  · intro he
    rcases h with h | h
    · exact h
    · rw [h.not_empty] at he; cases he
  · intro he; rw [he]; exact fresh_empty _

theorem WF.ne {s : ES} (h : WF s) (he : s.isEmpty = false) : NE s := by
  rcases h with h | h
  · rw [h, fresh_empty] at he; cases he
  · exact h

theorem fresh_mem (id x : Nat) : ¬ (fresh id).Mem x := by
  simp only [Mem, idx, fresh, BV.test, BV.empty]
  by_cases h : x < INVALID ∨ x > INVALID <;> simp [h]

theorem NE.mem_iff {s : ES} (h : NE s) (x : Nat) : s.Mem x ↔ s.first ≤ x ∧ s.bits.get (x - s.first) = true := by
  unfold Mem idx
  rw [h.test_eq]
  have := h.hf; have := h.hfl
  split
  · constructor
    · intro h; cases h
    · rintro ⟨h1, h2⟩
      have := h.hb _ h2
      omega
  · constructor
    · intro h2; exact ⟨by omega, h2⟩
    · rintro ⟨h1, h2⟩; exact h2

theorem NE.get_iff {s : ES} (h : NE s) (i : Nat) : s.bits.get i = true ↔ s.Mem (s.first + i) := by
  rw [h.mem_iff]; simp

theorem NE.mem_first {s : ES} (h : NE s) : s.Mem s.firstSet := by
  rw [h.mem_iff]; exact ⟨by have := h.hf; omega, h.gf⟩

theorem NE.mem_last {s : ES} (h : NE s) : s.Mem s.lastSet := by
  rw [h.mem_iff]; exact ⟨by have := h.hf; have := h.hfl; omega, h.gl⟩

theorem NE.mem_bounds {s : ES} (h : NE s) {x : Nat} (hx : s.Mem x) : s.firstSet ≤ x ∧ x ≤ s.lastSet := by
  rw [h.mem_iff] at hx
  have := h.hb _ hx.2
  omega

theorem NE.nblocks {s : ES} (h : NE s) : 64 * s.bits.nblocks = s.bits.size := by
  unfold BV.nblocks; have := h.hf; have := h.hl; have := h.hfl; have := h.hsz; omega

theorem WF.mem_lt {s : ES} (h : WF s) {x : Nat} (hx : s.Mem x) : x < 2 ^ 32 - 64 := by
  rcases h with h | h
  · rw [h] at hx; exact absurd hx (fresh_mem _ _)
  · have := (h.mem_bounds hx).2; have := h.hlt; omega

theorem clear_eq (s : ES) : s.clear = fresh s.id := rfl

/-! ### make -/

theorem setBits_spec (first : Nat) (ids : List Nat) (v : BV)
    (h : ∀ i ∈ ids, first ≤ i ∧ i - first < v.size) :
    ∃ v', setBits v first ids = some v' ∧ v'.size = v.size ∧
      ∀ p, v'.get p = true ↔ v.get p = true ∨ (first + p) ∈ ids := by
  induction ids generalizing v with
  | nil => exact ⟨v, rfl, rfl, by simp⟩
  | cons i is ih =>
    obtain ⟨h1, h2⟩ := h i (by simp)
    simp only [setBits, if_pos h1, BV.set, if_pos h2, Option.bind_some]
    obtain ⟨v', e1, e2, e3⟩ := ih ⟨v.size, fun j => if j = i - first then true else v.get j⟩
      (fun j hj => h j (by simp [hj]))
    refine ⟨v', e1, e2, fun p => ?_⟩
    rw [e3]
    simp only [List.mem_cons]
    by_cases hp : p = i - first
    · have : first + p = i := by omega
      simp [hp, this]; omega
    · have : first + p ≠ i := by omega
      simp [hp, this]

theorem getLastD_mem (i : Nat) (is : List Nat) : (i :: is).getLastD i ∈ i :: is := by
  rw [List.getLastD_eq_getLast?, List.getLast?_eq_some_getLast (by simp)]
  exact List.getLast_mem _

theorem le_getLast_of_sorted (ids : List Nat) (h : ids.Pairwise (· ≤ ·)) (d : Nat) :
    ∀ x ∈ ids, x ≤ ids.getLastD d := by
  induction ids generalizing d with
  | nil => simp
  | cons i is ih =>
    rw [List.pairwise_cons] at h
    intro x hx
    cases is with
    | nil => simp at hx ⊢; omega
    | cons j js =>
      have hl : (i :: j :: js).getLastD d = (j :: js).getLastD j := by
        rw [List.getLastD_eq_getLast?, List.getLastD_eq_getLast?, List.getLast?_cons_cons,
          List.getLast?_eq_some_getLast (by simp)]; rfl
      rw [hl]
      rcases List.mem_cons.1 hx with rfl | hx
      · exact h.1 _ (getLastD_mem j js)
      · exact ih h.2 j x hx

theorem make_spec (id : Nat) (ids : List Nat) (h : ValidIds ids) :
    ∃ s, make id ids = some s ∧ WF s ∧ s.id = id ∧ ∀ x, s.Mem x ↔ x ∈ ids := by
  cases ids with
  | nil => exact ⟨_, rfl, Or.inl rfl, rfl, fun x => by simpa using fresh_mem id x⟩
  | cons i is =>
    obtain ⟨hs, hv⟩ := h
    have hlast := le_getLast_of_sorted (i :: is) hs i
    have hmem := getLastD_mem i is
    generalize hL : (i :: is).getLastD i = L at *
    have hfirst : ∀ x ∈ i :: is, i ≤ x := by
      intro x hx
      rw [List.pairwise_cons] at hs
      rcases List.mem_cons.1 hx with rfl | hx
      · omega
      · exact hs.1 _ hx
    have hiL := hlast i (by simp)
    have hLv := hv L hmem
    obtain ⟨v', e1, e2, e3⟩ := setBits_spec (i / 64 * 64) (i :: is)
      (BV.empty.resize ((L / 64 + 1) * 64 - 1 - i / 64 * 64 + 1)) (by
        intro x hx
        have := hfirst x hx; have := hlast x hx
        simp only [BV.resize]; omega)
    simp only [make, hL, e1, Option.map_some]
    have hg : ∀ p, v'.get p = true ↔ (i / 64 * 64 + p) ∈ i :: is := by
      intro p; rw [e3]; simp [BV.resize, BV.empty, BV.test]
    have hne : NE ⟨id, i / 64 * 64, (L / 64 + 1) * 64 - 1, i, L, v'⟩ := by
      constructor
      · rfl
      · rfl
      · exact hLv
      · simp only [e2, BV.resize]; omega
      · exact hiL
      · simp only [hg]
        have : i / 64 * 64 + (i - i / 64 * 64) = i := by omega
        rw [this]; simp
      · simp only [hg]
        have : i / 64 * 64 + (L - i / 64 * 64) = L := by omega
        rw [this]; exact hmem
      · intro p hp
        rw [hg] at hp
        exact ⟨hfirst _ hp, hlast _ hp⟩
    refine ⟨_, rfl, Or.inr hne, rfl, fun x => ?_⟩
    rw [hne.mem_iff]
    simp only [hg]
    constructor
    · rintro ⟨h1, h2⟩
      have : i / 64 * 64 + (x - i / 64 * 64) = x := by omega
      rwa [this] at h2
    · intro hx
      have := hfirst x hx
      have h3 : i / 64 * 64 + (x - i / 64 * 64) = x := by omega
      exact ⟨by omega, by rwa [h3]⟩

/-! ### set -/

theorem set_spec (s : ES) (i : Nat) (h : NE s) (hi : i < 2 ^ 32 - 64) :
    ∃ s', s.set i = some s' ∧ NE s' ∧ s'.id = s.id ∧ ∀ x, s'.Mem x ↔ x = i ∨ s.Mem x := by
  have hf := h.hf; have hl := h.hl; have hlt := h.hlt; have hsz := h.hsz; have hfl := h.hfl
  -- the window after the resize
  have key : ∀ s1 : ES, s1 = (if i < s.first then s.lowerFirst (i / 64 * 64)
        else if i > s.last then s.increaseLast ((i / 64 + 1) * 64 - 1) else s) →
      s1.id = s.id ∧ s1.firstSet = s.firstSet ∧ s1.lastSet = s.lastSet ∧
      s1.first = min i s.firstSet / 64 * 64 ∧ s1.last = (max i s.lastSet / 64 + 1) * 64 - 1 ∧
      s1.bits.size = s1.last + 1 - s1.first ∧
      ∀ p, s1.bits.get p = true ↔ s.first ≤ s1.first + p ∧ s.bits.get (s1.first + p - s.first) = true := by
    intro s1 hs1
    split at hs1
    · rename_i hlow
      subst hs1
      refine ⟨rfl, rfl, rfl, ?_, ?_, ?_, fun p => ?_⟩
      · simp only [lowerFirst]; omega
      · simp only [lowerFirst]; omega
      · simp only [lowerFirst, BV.shl, BV.resize]; omega
      · simp only [lowerFirst, BV.shl, BV.resize, BV.test, Bool.and_eq_true, decide_eq_true_eq]
        constructor
        · rintro ⟨⟨h1, h2⟩, h3, h4, h5, h6⟩
          refine ⟨by omega, ?_⟩
          have : i / 64 * 64 + p - s.first = p - (s.first - i / 64 * 64) := by omega
          rwa [this]
        · rintro ⟨h1, h2⟩
          have h3 := h.lt_size h2
          have : i / 64 * 64 + p - s.first = p - (s.first - i / 64 * 64) := by omega
          rw [this] at h2 h3
          refine ⟨⟨?_, ?_⟩, ?_, ?_, h3, h2⟩ <;> first | omega | exact decide_eq_true (by omega)
    · split at hs1
      · subst hs1
        refine ⟨rfl, rfl, rfl, ?_, ?_, ?_, fun p => ?_⟩
        · simp only [increaseLast]; omega
        · simp only [increaseLast]; omega
        · simp only [increaseLast, BV.resize]; omega
        · simp only [increaseLast, BV.resize, BV.test, Bool.and_eq_true, decide_eq_true_eq, Nat.add_sub_cancel_left]
          constructor
          · rintro ⟨h1, h2, h3⟩
            exact ⟨by omega, h3⟩
          · rintro ⟨h1, h2⟩
            have := h.lt_size h2
            exact ⟨by omega, this, h2⟩
      · subst hs1
        refine ⟨rfl, rfl, rfl, by omega, by omega, hsz, fun p => ?_⟩
        simp
  unfold set
  generalize hs1 : (if i < s.first then s.lowerFirst (i / 64 * 64)
        else if i > s.last then s.increaseLast ((i / 64 + 1) * 64 - 1) else s) = s1
  obtain ⟨k1, k2, k3, k4, k5, k6, k7⟩ := key s1 hs1.symm
  have hin : i - s1.first < s1.bits.size := by omega
  simp only [BV.set, if_pos hin, Option.map_some]
  have hg : ∀ p, (if p = i - s1.first then true else s1.bits.get p) = true ↔
      s1.first + p = i ∨ s.Mem (s1.first + p) := by
    intro p
    rw [h.mem_iff]
    by_cases hp : p = i - s1.first
    · have : s1.first + p = i := by omega
      simp [hp]; omega
    · have : s1.first + p ≠ i := by omega
      simp [hp, k7, this]
  have hne : NE { s1 with bits := ⟨s1.bits.size, fun j => if j = i - s1.first then true else s1.bits.get j⟩,
                          firstSet := min i s1.firstSet, lastSet := max i s1.lastSet } := by
    constructor
    · simp only [k2]; exact k4
    · simp only [k3]; exact k5
    · simp only [k3]; omega
    · exact k6
    · simp only [k2, k3]; omega
    · simp only [hg, k2]
      have : s1.first + (min i s.firstSet - s1.first) = min i s.firstSet := by omega
      rw [this]
      rcases Nat.le_total i s.firstSet with hh | hh
      · left; omega
      · right; rw [Nat.min_eq_right hh]; exact h.mem_first
    · simp only [hg, k3]
      have : s1.first + (max i s.lastSet - s1.first) = max i s.lastSet := by omega
      rw [this]
      rcases Nat.le_total i s.lastSet with hh | hh
      · right; rw [Nat.max_eq_right hh]; exact h.mem_last
      · left; omega
    · intro p hp
      simp only [hg, k2, k3] at hp ⊢
      rcases hp with hp | hp
      · omega
      · have := h.mem_bounds hp; omega
  refine ⟨_, rfl, hne, k1, fun x => ?_⟩
  rw [hne.mem_iff]
  simp only [hg]
  constructor
  · rintro ⟨h1, h2⟩
    have : s1.first + (x - s1.first) = x := by omega
    rwa [this] at h2
  · intro hx
    have h1 : s1.first ≤ x := by
      rcases hx with hx | hx
      · omega
      · have := h.mem_bounds hx; omega
    have h3 : s1.first + (x - s1.first) = x := by omega
    exact ⟨h1, by rwa [h3]⟩

/-! ### union -/

/-- the window and the bit vector fit together -/
structure Win (s : ES) : Prop where
  hsz : s.bits.size = s.last + 1 - s.first
  hle : s.first ≤ s.last
  hb : ∀ i, s.bits.get i = true → i < s.bits.size

/-- the bit of id `x` -/
def Bit (s : ES) (x : Nat) : Prop := s.first ≤ x ∧ s.bits.get (x - s.first) = true

theorem NE.win {s : ES} (h : NE s) : Win s := by
  have hf := h.hf; have hl := h.hl; have hfl := h.hfl
  exact ⟨h.hsz, by omega, fun i hi => h.lt_size hi⟩

theorem lowerFirst_win {s : ES} (h : Win s) (n : Nat) (hn : n < s.first) :
    Win (s.lowerFirst n) ∧ ∀ x, (s.lowerFirst n).Bit x ↔ s.Bit x := by
  have hsz := h.hsz; have hle := h.hle
  refine ⟨⟨?_, ?_, ?_⟩, fun x => ?_⟩
  · simp only [lowerFirst, BV.shl, BV.resize]; omega
  · simp only [lowerFirst]; omega
  · intro i hi
    simp only [lowerFirst, BV.shl, BV.resize, BV.test, Bool.and_eq_true, decide_eq_true_eq] at hi ⊢
    exact of_decide_eq_true hi.1.1
  · simp only [Bit, lowerFirst, BV.shl, BV.resize, BV.test, Bool.and_eq_true, decide_eq_true_eq]
    constructor
    · rintro ⟨h0, ⟨h1, h2⟩, h3, h4, h5, h6⟩
      have : x - s.first = x - n - (s.first - n) := by omega
      exact ⟨by omega, by rwa [this]⟩
    · rintro ⟨h1, h2⟩
      have h3 := h.hb _ h2
      have h4 : x - s.first = x - n - (s.first - n) := by omega
      rw [h4] at h2 h3
      refine ⟨by omega, ⟨?_, ?_⟩, ?_, ?_, h3, h2⟩ <;> first | omega | exact decide_eq_true (by omega)

theorem increaseLast_win {s : ES} (h : Win s) (n : Nat) (hn : s.last < n) :
    Win (s.increaseLast n) ∧ ∀ x, (s.increaseLast n).Bit x ↔ s.Bit x := by
  have hsz := h.hsz; have hle := h.hle
  refine ⟨⟨?_, ?_, ?_⟩, fun x => ?_⟩
  · simp only [increaseLast, BV.resize]; omega
  · simp only [increaseLast]; omega
  · intro i hi
    simp only [increaseLast, BV.resize, BV.test, Bool.and_eq_true, decide_eq_true_eq] at hi ⊢
    exact hi.1
  · simp only [Bit, increaseLast, BV.resize, BV.test, Bool.and_eq_true, decide_eq_true_eq]
    constructor
    · rintro ⟨h0, h1, h2, h3⟩
      exact ⟨h0, h3⟩
    · rintro ⟨h1, h2⟩
      have h3 := h.hb _ h2
      exact ⟨h1, by omega, h3, h2⟩

theorem NE.bit_iff {s : ES} (h : NE s) (x : Nat) : s.Bit x ↔ s.Mem x := (h.mem_iff x).symm

/-- a set described by its bits is well-formed -/
theorem ne_of_bits {s : ES} (hf : s.first = s.firstSet / 64 * 64) (hl : s.last = (s.lastSet / 64 + 1) * 64 - 1)
    (hlt : s.lastSet < 2 ^ 32 - 64) (hsz : s.bits.size = s.last + 1 - s.first)
    (b1 : s.Bit s.firstSet) (b2 : s.Bit s.lastSet)
    (hb : ∀ x, s.Bit x → s.firstSet ≤ x ∧ x ≤ s.lastSet) : NE s := by
  refine ⟨hf, hl, hlt, hsz, (hb _ b2).1, b1.2, b2.2, fun i hi => ?_⟩
  exact hb _ ⟨by omega, by rwa [Nat.add_sub_cancel_left]⟩

theorem union_ne {a o : ES} (ha : NE a) (ho : NE o) :
    ∃ s, a.union o = some s ∧ NE s ∧ s.id = a.id ∧ ∀ x, s.Mem x ↔ a.Mem x ∨ o.Mem x := by
  unfold union
  rw [ho.not_empty, ha.not_empty]
  simp only [Bool.false_eq_true, if_false]
  have af := ha.hf; have al := ha.hl; have alt := ha.hlt; have asz := ha.hsz; have afl := ha.hfl
  have of := ho.hf; have ol := ho.hl; have olt := ho.hlt; have osz := ho.hsz; have ofl := ho.hfl
  have key2 : ∀ s, s = (if a.first > o.first then a.lowerFirst o.first else a) →
      Win s ∧ (∀ x, s.Bit x ↔ a.Bit x) ∧ s.id = a.id ∧ s.firstSet = a.firstSet ∧ s.lastSet = a.lastSet ∧
      s.first = min a.first o.first ∧ s.last = a.last := by
    intro s hs
    split at hs <;> subst hs
    · obtain ⟨h1, h2⟩ := lowerFirst_win ha.win o.first (by omega)
      refine ⟨h1, h2, rfl, rfl, rfl, ?_, rfl⟩
      simp only [lowerFirst]; omega
    · exact ⟨ha.win, fun _ => Iff.rfl, rfl, rfl, rfl, by omega, rfl⟩
  generalize hs2 : (if a.first > o.first then a.lowerFirst o.first else a) = a2
  obtain ⟨w2, b2, i2, f2, l2, ff2, ll2⟩ := key2 a2 hs2.symm
  have key3 : ∀ s, s = (if a2.last < o.last then a2.increaseLast o.last else a2) →
      Win s ∧ (∀ x, s.Bit x ↔ a.Bit x) ∧ s.id = a.id ∧ s.firstSet = a.firstSet ∧ s.lastSet = a.lastSet ∧
      s.first = min a.first o.first ∧ s.last = max a.last o.last := by
    intro s hs
    split at hs <;> subst hs
    · obtain ⟨h1, h2⟩ := increaseLast_win w2 o.last (by omega)
      refine ⟨h1, fun x => (h2 x).trans (b2 x), i2, f2, l2, ff2, ?_⟩
      simp only [increaseLast]; omega
    · exact ⟨w2, b2, i2, f2, l2, ff2, by omega⟩
  generalize hs3 : (if a2.last < o.last then a2.increaseLast o.last else a2) = a3
  obtain ⟨w3, b3, i3, f3, l3, ff3, ll3⟩ := key3 a3 hs3.symm
  have sz3 := w3.hsz
  have nb := ho.nblocks
  have nb3 : 64 * a3.bits.nblocks = a3.bits.size := by unfold BV.nblocks; omega
  have hdiff : 64 * ((o.first - a3.first) / 64) = o.first - a3.first := by omega
  have hin : o.bits.nblocks + (o.first - a3.first) / 64 ≤ a3.bits.nblocks := by omega
  simp only [orBlocks, if_pos hin, Option.map_some, hdiff]
  refine ⟨_, rfl, ?_⟩
  generalize hr : ({ a3 with
    bits := { size := a3.bits.size, get := fun p =>
          if (o.first - a3.first) / 64 ≤ p / 64 ∧ p / 64 < (o.first - a3.first) / 64 + o.bits.nblocks then
            a3.bits.get p || o.bits.test (p - (o.first - a3.first))
          else a3.bits.get p }
    firstSet := min a3.firstSet o.firstSet
    lastSet := max a3.lastSet o.lastSet } : ES) = r
  have hbit : ∀ x, r.Bit x ↔ a.Mem x ∨ o.Mem x := by
    intro x
    rw [← ha.bit_iff, ← b3, ← ho.bit_iff]
    subst hr
    simp only [Bit]
    rw [ho.test_eq]
    split
    · rename_i hc
      rw [Bool.or_eq_true]
      constructor
      · rintro ⟨h1, h2 | h2⟩
        · exact Or.inl ⟨h1, h2⟩
        · have : x - o.first = x - a3.first - (o.first - a3.first) := by omega
          exact Or.inr ⟨by omega, by rwa [this]⟩
      · rintro (⟨h1, h2⟩ | ⟨h1, h2⟩)
        · exact ⟨h1, Or.inl h2⟩
        · have : x - o.first = x - a3.first - (o.first - a3.first) := by omega
          exact ⟨by omega, Or.inr (by rwa [this] at h2)⟩
    · rename_i hc
      constructor
      · intro h; exact Or.inl h
      · rintro (h | ⟨h1, h2⟩)
        · exact h
        · have := ho.lt_size h2; omega
  have r1 : r.first = a3.first := by rw [← hr]
  have r2 : r.last = a3.last := by rw [← hr]
  have r3 : r.firstSet = min a.firstSet o.firstSet := by rw [← hr, ← f3]
  have r4 : r.lastSet = max a.lastSet o.lastSet := by rw [← hr, ← l3]
  have r5 : r.bits.size = a3.bits.size := by rw [← hr]
  have r6 : r.id = a.id := by rw [← hr, ← i3]
  have hne : NE r := by
    apply ne_of_bits
    · omega
    · omega
    · omega
    · omega
    · rw [hbit, r3]
      rcases Nat.le_total a.firstSet o.firstSet with h | h
      · rw [Nat.min_eq_left h]; exact Or.inl ha.mem_first
      · rw [Nat.min_eq_right h]; exact Or.inr ho.mem_first
    · rw [hbit, r4]
      rcases Nat.le_total a.lastSet o.lastSet with h | h
      · rw [Nat.max_eq_right h]; exact Or.inr ho.mem_last
      · rw [Nat.max_eq_left h]; exact Or.inl ha.mem_last
    · intro x hx
      rw [hbit] at hx
      rcases hx with hx | hx
      · have := ha.mem_bounds hx; omega
      · have := ho.mem_bounds hx; omega
  exact ⟨hne, r6, fun x => by rw [← hne.bit_iff]; exact hbit x⟩

theorem union_empty_left {a o : ES} (ha : a.isEmpty = true) : a.union o = if o.isEmpty then some a else o.union o := by
  unfold union
  cases h : o.isEmpty <;> simp [ha]

theorem union_spec {a o : ES} (ha : WF a) (ho : WF o) :
    ∃ s, a.union o = some s ∧ WF s ∧ ∀ x, s.Mem x ↔ a.Mem x ∨ o.Mem x := by
  cases hoe : o.isEmpty
  · have hon := ho.ne hoe
    cases hae : a.isEmpty
    · obtain ⟨s, h1, h2, _, h3⟩ := union_ne (ha.ne hae) hon
      exact ⟨s, h1, Or.inr h2, h3⟩
    · obtain ⟨s, h1, h2, _, h3⟩ := union_ne hon hon
      rw [union_empty_left hae, hoe]
      refine ⟨s, h1, Or.inr h2, fun x => ?_⟩
      rw [h3, (isEmpty_iff ha).1 hae]
      simp [fresh_mem]
  · refine ⟨a, by simp [union, hoe], ha, fun x => ?_⟩
    rw [(isEmpty_iff ho).1 hoe]
    simp [fresh_mem]

/-! ### difference -/

theorem maskBlocks_spec {a o : ES} (ha : NE a) (ho : NE o) (h1 : a.lastSet ≥ o.firstSet) (h2 : o.lastSet ≥ a.firstSet) :
    ∃ v, a.maskBlocks o = some v ∧ v.size = a.bits.size ∧
      ∀ p, v.get p = true ↔ a.bits.get p = true ∧ ¬ o.Mem (a.first + p) := by
  have af := ha.hf; have al := ha.hl; have alt := ha.hlt; have asz := ha.hsz; have afl := ha.hfl
  have of := ho.hf; have ol := ho.hl; have olt := ho.hlt; have osz := ho.hsz; have ofl := ho.hfl
  have nba := ha.nblocks; have nbo := ho.nblocks
  unfold maskBlocks
  split
  · rename_i hle
    rw [if_neg (by omega)]
    refine ⟨_, rfl, rfl, fun p => ?_⟩
    simp only [ho.test_eq, ho.mem_iff]
    have hd : 64 * ((o.first - a.first) / 64) = o.first - a.first := by omega
    rw [hd]
    split
    · rename_i hc
      have e : a.first + p - o.first = p - (o.first - a.first) := by omega
      have : o.first ≤ a.first + p := by omega
      rw [Bool.and_eq_true, Bool.not_eq_true', e]
      simp [this]
    · rename_i hc
      constructor
      · intro hp
        refine ⟨hp, ?_⟩
        rintro ⟨h3, h4⟩
        have := ho.lt_size h4
        have := ha.lt_size hp
        omega
      · exact fun h => h.1
  · rename_i hle
    rw [if_neg (by omega)]
    refine ⟨_, rfl, rfl, fun p => ?_⟩
    simp only [ho.test_eq, ho.mem_iff]
    have hd : 64 * ((a.first - o.first) / 64) = a.first - o.first := by omega
    rw [hd]
    split
    · rename_i hc
      have e : a.first + p - o.first = p + (a.first - o.first) := by omega
      have : o.first ≤ a.first + p := by omega
      rw [Bool.and_eq_true, Bool.not_eq_true', e]
      simp [this]
    · rename_i hc
      constructor
      · intro hp
        refine ⟨hp, ?_⟩
        rintro ⟨h3, h4⟩
        have := ho.lt_size h4
        have := ha.lt_size hp
        omega
      · exact fun h => h.1

/-- `compact` restores the invariant -/
theorem compact_ne {s : ES} (hf : s.first % 64 = 0) (hl : s.last % 64 = 63)
    (hlt : s.lastSet < 2 ^ 32 - 64) (hsz : s.bits.size = s.last + 1 - s.first)
    (hff : s.first ≤ s.firstSet) (hll : s.lastSet ≤ s.last)
    (b1 : s.Bit s.firstSet) (b2 : s.Bit s.lastSet)
    (hb : ∀ x, s.Bit x → s.firstSet ≤ x ∧ x ≤ s.lastSet) :
    NE s.compact ∧ s.compact.id = s.id ∧ ∀ x, s.compact.Mem x ↔ s.Bit x := by
  have hfl := (hb _ b2).1
  have hbit : ∀ x, s.compact.Bit x ↔ s.Bit x := by
    intro x
    simp only [Bit, compact, BV.resize, BV.shr, BV.test, Bool.and_eq_true, decide_eq_true_eq]
    constructor
    · rintro ⟨h1, h2, h3, h4, h5⟩
      have : x - s.first = x - s.firstSet / 64 * 64 + (s.firstSet / 64 * 64 - s.first) := by omega
      exact ⟨by omega, by rwa [this]⟩
    · intro hx
      have hx' := hb x hx
      obtain ⟨h1, h2⟩ := hx
      have : x - s.first = x - s.firstSet / 64 * 64 + (s.firstSet / 64 * 64 - s.first) := by omega
      refine ⟨by omega, ?_, ?_, ?_, by rwa [← this]⟩ <;> first | omega | exact decide_eq_true (by omega)
  have hne : NE s.compact := by
    apply ne_of_bits
    · rfl
    · simp only [compact]; omega
    · exact hlt
    · simp only [compact, BV.resize, BV.shr]; omega
    · rw [hbit]; exact b1
    · rw [hbit]; exact b2
    · intro x hx; rw [hbit] at hx; exact hb x hx
  exact ⟨hne, rfl, fun x => by rw [← hne.bit_iff]; exact hbit x⟩

theorem diff_ne {a o : ES} (ha : NE a) (ho : NE o) :
    ∃ s, a.diff o = some s ∧ WF s ∧ s.id = a.id ∧ ∀ x, s.Mem x ↔ a.Mem x ∧ ¬ o.Mem x := by
  have af := ha.hf; have al := ha.hl; have alt := ha.hlt; have asz := ha.hsz; have afl := ha.hfl
  unfold diff
  rw [ho.not_empty, ha.not_empty]
  simp only [Bool.or_self, Bool.false_eq_true, if_false]
  split
  · rename_i hc
    refine ⟨a, rfl, Or.inr ha, rfl, fun x => ?_⟩
    constructor
    · intro hx
      refine ⟨hx, fun hy => hc ?_⟩
      have := ha.mem_bounds hx; have := ho.mem_bounds hy; omega
    · exact fun h => h.1
  · rename_i hc
    have hc : a.lastSet ≥ o.firstSet ∧ o.lastSet ≥ a.firstSet := by omega
    obtain ⟨v, hv, hvs, hvg⟩ := maskBlocks_spec ha ho hc.1 hc.2
    simp only [hv, Option.map_some]
    refine ⟨_, rfl, ?_⟩
    have hvt : ∀ p, v.test p = v.get p := by
      intro p
      unfold BV.test
      cases hg : v.get p
      · simp
      · have := ha.lt_size ((hvg p).1 hg).1
        rw [hvs]; simp [this]
    -- the bits after masking
    have hB : ∀ x, (a.first ≤ x ∧ v.get (x - a.first) = true) ↔ a.Mem x ∧ ¬ o.Mem x := by
      intro x
      rw [hvg, ha.mem_iff x]
      constructor
      · rintro ⟨h1, h2, h3⟩
        have : a.first + (x - a.first) = x := by omega
        rw [this] at h3
        exact ⟨⟨h1, h2⟩, h3⟩
      · rintro ⟨⟨h1, h2⟩, h3⟩
        have : a.first + (x - a.first) = x := by omega
        exact ⟨h1, h2, by rwa [this]⟩
    have key2 : ∀ s2 : ES, s2 = (if v.test (a.firstSet - a.first) = true then { a with bits := v }
          else { a with bits := v, firstSet := ({ a with bits := v } : ES).getFirstSet }) →
        s2.id = a.id ∧ s2.first = a.first ∧ s2.last = a.last ∧ s2.lastSet = a.lastSet ∧ s2.bits = v ∧
        ((s2.firstSet = INVALID ∧ ∀ p, v.get p = false) ∨
         (s2.firstSet ≤ a.lastSet ∧ a.first ≤ s2.firstSet ∧ v.get (s2.firstSet - a.first) = true ∧
          ∀ p, v.get p = true → s2.firstSet ≤ a.first + p)) := by
      intro s2 hs2
      split at hs2
      · rename_i ht
        subst hs2
        refine ⟨rfl, rfl, rfl, rfl, rfl, Or.inr ⟨afl, by simp only; omega, ?_, ?_⟩⟩
        · rw [← hvt]; exact ht
        · intro p hp
          exact (ha.hb p ((hvg p).1 hp).1).1
      · subst hs2
        refine ⟨rfl, rfl, rfl, rfl, rfl, ?_⟩
        simp only [getFirstSet]
        cases hfind : (List.range v.size).find? v.test with
        | none =>
          left
          refine ⟨rfl, fun p => ?_⟩
          have := find_range_none _ _ hfind p
          cases hg : v.get p
          · rfl
          · rw [hvt] at this
            rw [← hg]; apply this
            rw [hvs]; exact ha.lt_size ((hvg p).1 hg).1
        | some i =>
          right
          obtain ⟨h1, h2, h3⟩ := find_range_some _ _ _ hfind
          rw [hvt] at h2
          have h4 := ha.hb i ((hvg i).1 h2).1
          refine ⟨by simp only; omega, by simp only; omega, ?_, ?_⟩
          · simp only [Nat.add_sub_cancel]; exact h2
          · intro p hp
            have := h3 p
            rw [hvt, hp] at this
            simp only
            have : ¬ p < i := fun h => by simpa using this h
            omega
    generalize hs2 : (if v.test (a.firstSet - a.first) = true then { a with bits := v }
          else { a with bits := v, firstSet := ({ a with bits := v } : ES).getFirstSet }) = s2
    obtain ⟨k1, k2, k3, k4, k5, k6⟩ := key2 s2 hs2.symm
    split
    · rename_i hinv
      have hz : ∀ p, v.get p = false := by
        rcases k6 with k6 | k6
        · exact k6.2
        · exfalso; rw [hinv] at k6; unfold INVALID at k6; omega
      refine ⟨Or.inl rfl, k1, fun x => ?_⟩
      rw [clear_eq, ← hB]
      simp [fresh_mem, hz]
    · rename_i hinv
      obtain ⟨m1, m2, m3, m4⟩ : s2.firstSet ≤ a.lastSet ∧ a.first ≤ s2.firstSet ∧
          v.get (s2.firstSet - a.first) = true ∧ ∀ p, v.get p = true → s2.firstSet ≤ a.first + p := by
        rcases k6 with k6 | k6
        · exact absurd k6.1 hinv
        · exact k6
      have key3 : ∀ s3 : ES, s3 = (if s2.bits.test (s2.lastSet - s2.first) = true then s2
            else { s2 with lastSet := s2.getLastSet }) →
          s3.id = a.id ∧ s3.first = a.first ∧ s3.last = a.last ∧ s3.firstSet = s2.firstSet ∧ s3.bits = v ∧
          (s3.lastSet ≤ a.lastSet ∧ a.first ≤ s3.lastSet ∧ v.get (s3.lastSet - a.first) = true ∧
            ∀ p, v.get p = true → a.first + p ≤ s3.lastSet) := by
        intro s3 hs3
        split at hs3
        · rename_i ht
          subst hs3
          rw [k5, k4, k2, hvt] at ht
          refine ⟨k1, k2, k3, rfl, k5, ?_⟩
          rw [k4]
          exact ⟨Nat.le_refl _, by omega, ht, fun p hp => (ha.hb p ((hvg p).1 hp).1).2⟩
        · subst hs3
          refine ⟨k1, k2, k3, rfl, k5, ?_⟩
          simp only [getLastSet, k5, k2]
          cases hfind : (List.range v.size).reverse.find? v.test with
          | none =>
            exfalso
            have := find_rev_none _ _ hfind (s2.firstSet - a.first)
              (by rw [hvs]; exact ha.lt_size ((hvg _).1 m3).1)
            rw [hvt, m3] at this; cases this
          | some i =>
            obtain ⟨h1, h2, h3⟩ := find_rev_some _ _ _ hfind
            rw [hvt] at h2
            have h4 := ha.hb i ((hvg i).1 h2).1
            refine ⟨by simp only; omega, by simp only; omega, ?_, ?_⟩
            · simp only [Nat.add_sub_cancel]; exact h2
            · intro p hp
              have := h3 p
              rw [hvt, hp] at this
              have hps := ha.lt_size ((hvg p).1 hp).1
              simp only
              have : ¬ i < p := fun h => by simpa using this h (by omega)
              omega
      generalize hs3 : (if s2.bits.test (s2.lastSet - s2.first) = true then s2
            else { s2 with lastSet := s2.getLastSet }) = s3
      obtain ⟨n1, n2, n3, n4, n5, n6, n7, n8, n9⟩ := key3 s3 hs3.symm
      have hBit : ∀ x, s3.Bit x ↔ a.Mem x ∧ ¬ o.Mem x := by
        intro x
        unfold Bit
        rw [n2, n5]; exact hB x
      have hbnd : ∀ x, s3.Bit x → s3.firstSet ≤ x ∧ x ≤ s3.lastSet := by
        intro x hx
        unfold Bit at hx
        rw [n2, n5] at hx
        have h1 := m4 _ hx.2
        have h2 := n9 _ hx.2
        omega
      obtain ⟨c1, c2, c3⟩ := compact_ne (s := s3) (by omega) (by omega) (by omega) (by rw [n5, hvs]; omega)
        (by omega) (by omega)
        (by unfold Bit; rw [n2, n5, n4]; exact ⟨m2, m3⟩)
        (by unfold Bit; rw [n2, n5]; exact ⟨n7, n8⟩) hbnd
      exact ⟨Or.inr c1, by rw [c2, n1], fun x => by rw [c3]; exact hBit x⟩

theorem diff_spec {a o : ES} (ha : WF a) (ho : WF o) :
    ∃ s, a.diff o = some s ∧ WF s ∧ s.id = a.id ∧ ∀ x, s.Mem x ↔ a.Mem x ∧ ¬ o.Mem x := by
  cases hae : a.isEmpty
  · cases hoe : o.isEmpty
    · exact diff_ne (ha.ne hae) (ho.ne hoe)
    · refine ⟨a, by simp [diff, hoe], ha, rfl, fun x => ?_⟩
      rw [(isEmpty_iff ho).1 hoe]
      simp [fresh_mem]
  · refine ⟨a, by simp [diff, hae], ha, rfl, fun x => ?_⟩
    rw [(isEmpty_iff ha).1 hae]
    simp [fresh_mem]

theorem Reachable.wf {s : ES} (h : Reachable s) : WF s := by
  induction h with
  | make hv he =>
    obtain ⟨s', h1, h2, _⟩ := make_spec _ _ hv
    rw [he] at h1; cases h1; exact h2
  | union _ _ he ih1 ih2 =>
    obtain ⟨s', h1, h2, _⟩ := union_spec ih1 ih2
    rw [he] at h1; cases h1; exact h2
  | diff _ _ he ih1 ih2 =>
    obtain ⟨s', h1, h2, _⟩ := diff_spec ih1 ih2
    rw [he] at h1; cases h1; exact h2
  | clear _ _ => exact Or.inl rfl
  | set _ he hi hs ih =>
    obtain ⟨s', h1, h2, _⟩ := set_spec _ _ (ih.ne he) hi
    rw [hs] at h1; cases h1; exact Or.inr h2

/-! ### ok, extensionality -/

theorem NE.getFirstSet_eq {s : ES} (h : NE s) : s.getFirstSet = s.firstSet := by
  have hf := h.hf; have hl := h.hl; have hfl := h.hfl; have hsz := h.hsz
  unfold getFirstSet
  cases hfind : (List.range s.bits.size).find? s.bits.test with
  | none =>
    have := find_range_none _ _ hfind (s.firstSet - s.first) (by omega)
    rw [h.test_eq, h.gf] at this; cases this
  | some i =>
    obtain ⟨h1, h2, h3⟩ := find_range_some _ _ _ hfind
    rw [h.test_eq] at h2
    have h4 := h.hb i h2
    have h5 := h3 (s.firstSet - s.first)
    rw [h.test_eq, h.gf] at h5
    have : ¬ (s.firstSet - s.first < i) := fun hh => by simpa using h5 hh
    simp only; omega

theorem NE.getLastSet_eq {s : ES} (h : NE s) : s.getLastSet = s.lastSet := by
  have hf := h.hf; have hl := h.hl; have hfl := h.hfl; have hsz := h.hsz
  unfold getLastSet
  cases hfind : (List.range s.bits.size).reverse.find? s.bits.test with
  | none =>
    have := find_rev_none _ _ hfind (s.firstSet - s.first) (by omega)
    rw [h.test_eq, h.gf] at this; cases this
  | some i =>
    obtain ⟨h1, h2, h3⟩ := find_rev_some _ _ _ hfind
    rw [h.test_eq] at h2
    have h4 := h.hb i h2
    have h5 := h3 (s.lastSet - s.first)
    rw [h.test_eq, h.gl] at h5
    have : ¬ (i < s.lastSet - s.first) := fun hh => by simpa using h5 hh (by omega)
    simp only; omega

theorem WF.ok {s : ES} (h : WF s) : s.ok = true := by
  rcases h with h | h
  · rw [h]; simp [ES.ok, fresh_empty]
  · have hf := h.hf; have hl := h.hl; have hfl := h.hfl; have hsz := h.hsz; have hlt := h.hlt
    unfold ES.ok
    rw [h.getFirstSet_eq, h.getLastSet_eq, h.test_eq, h.test_eq, h.gf, h.gl]
    simp only [Bool.or_eq_true, Bool.and_eq_true, decide_eq_true_eq, bne_iff_ne, beq_self_eq_true, and_true, INVALID]
    right
    omega

theorem NE.ext {a b : ES} (ha : NE a) (hb : NE b) (h : ∀ x, a.Mem x ↔ b.Mem x) : a = { b with id := a.id } := by
  have e1 : a.firstSet = b.firstSet := by
    have := (hb.mem_bounds ((h _).1 ha.mem_first)).1
    have := (ha.mem_bounds ((h _).2 hb.mem_first)).1
    omega
  have e2 : a.lastSet = b.lastSet := by
    have := (hb.mem_bounds ((h _).1 ha.mem_last)).2
    have := (ha.mem_bounds ((h _).2 hb.mem_last)).2
    omega
  have e3 : a.first = b.first := by rw [ha.hf, hb.hf, e1]
  have e4 : a.last = b.last := by rw [ha.hl, hb.hl, e2]
  have e5 : a.bits = b.bits := by
    have s1 : a.bits.size = b.bits.size := by rw [ha.hsz, hb.hsz, e3, e4]
    have s2 : a.bits.get = b.bits.get := by
      funext i
      rw [Bool.eq_iff_iff, ha.get_iff, hb.get_iff, e3]; exact h _
    cases ha' : a.bits; cases hb' : b.bits
    rw [ha', hb'] at s1 s2
    simp only at s1 s2
    rw [s1, s2]
  cases a; cases b
  simp only at e1 e2 e3 e4 e5 ⊢
  subst e1 e2 e3 e4 e5
  rfl

theorem WF.empty_iff {s : ES} (h : WF s) : s.isEmpty = true ↔ ∀ x, ¬ s.Mem x := by
  constructor
  · intro he x; rw [(isEmpty_iff h).1 he]; exact fresh_mem _ _
  · intro hx
    cases he : s.isEmpty
    · exact absurd (h.ne he).mem_first (hx _)
    · rfl

theorem WF.ext {a b : ES} (ha : WF a) (hb : WF b) (h : ∀ x, a.Mem x ↔ b.Mem x) : a = { b with id := a.id } := by
  cases he : a.isEmpty
  · have hbe : b.isEmpty = false := by
      cases hbe : b.isEmpty
      · rfl
      · exact absurd ((h _).1 (ha.ne he).mem_first) ((hb.empty_iff).1 hbe _)
    exact (ha.ne he).ext (hb.ne hbe) h
  · have hbe : b.isEmpty = true := by
      rw [hb.empty_iff]; intro x hx; exact (ha.empty_iff).1 he x ((h x).2 hx)
    rw [(isEmpty_iff hb).1 hbe]
    exact (isEmpty_iff ha).1 he

/-! ### expanded_set, iteration, count -/

theorem WF.test_iff {s : ES} (h : WF s) (i : Nat) : s.bits.test i = true ↔ i < s.bits.size ∧ s.Mem (s.first + i) := by
  rcases h with h | h
  · rw [h]; simp [fresh_mem, fresh, BV.test, BV.empty]
  · rw [h.test_eq, ← h.get_iff]
    constructor
    · intro hg; exact ⟨h.lt_size hg, hg⟩
    · exact fun hg => hg.2

theorem WF.mem_window {s : ES} (h : WF s) {x : Nat} (hx : s.Mem x) : s.first ≤ x ∧ x - s.first < s.bits.size := by
  rcases h with h | h
  · rw [h] at hx; exact absurd hx (fresh_mem _ _)
  · rw [h.mem_iff] at hx
    exact ⟨hx.1, h.lt_size hx.2⟩

theorem WF.expanded_mem {s : ES} (h : WF s) (x : Nat) : x ∈ s.expandedSet ↔ s.Mem x := by
  simp only [expandedSet, List.mem_map, List.mem_filter, List.mem_range, h.test_iff]
  constructor
  · rintro ⟨i, ⟨_, _, h3⟩, rfl⟩; exact h3
  · intro hx
    obtain ⟨h1, h2⟩ := h.mem_window hx
    have : s.first + (x - s.first) = x := by omega
    exact ⟨x - s.first, ⟨h2, h2, by rwa [this]⟩, this⟩

theorem expanded_sorted (s : ES) : s.expandedSet.Pairwise (· < ·) := by
  unfold expandedSet
  rw [List.pairwise_map]
  exact (List.Pairwise.filter _ List.pairwise_lt_range).imp (fun h => by omega)

theorem expanded_length (s : ES) : s.expandedSet.length = s.count := by
  simp [expandedSet, count, BV.count, List.countP_eq_length_filter]

/-- iteration from position `i` collects the set bits at positions `≥ i` -/
theorem skip_spec (s : ES) (i : Nat) (hi : i ≤ s.bits.size) :
    i ≤ s.skip i ∧ s.skip i ≤ s.bits.size ∧ (∀ j, i ≤ j → j < s.skip i → s.bits.test j = false) ∧
    (s.skip i < s.bits.size → s.bits.test (s.skip i) = true) := by
  fun_induction ES.skip s i with
  | case1 i h ih =>
    obtain ⟨h1, h2, h3, h4⟩ := ih (by omega)
    refine ⟨by omega, h2, fun j hj1 hj2 => ?_, h4⟩
    by_cases hj : j = i
    · subst hj; exact h.2
    · exact h3 j (by omega) hj2
  | case2 i h =>
    refine ⟨Nat.le_refl _, hi, fun j _ _ => by omega, fun hlt => ?_⟩
    cases ht : s.bits.test i
    · exact absurd ⟨hlt, ht⟩ h
    · rfl

theorem filter_range'_skip (p : Nat → Bool) (i k : Nat) (h : ∀ j, i ≤ j → j < i + k → p j = false) (m : Nat) :
    (List.range' i (k + m)).filter p = (List.range' (i + k) m).filter p := by
  induction k generalizing i with
  | zero => simp
  | succ k ih =>
    have : k + 1 + m = (k + m) + 1 := by omega
    rw [this, List.range'_succ, List.filter_cons, h i (by omega) (by omega)]
    have e := ih (i + 1) (fun j h1 h2 => h j (by omega) (by omega))
    simp only [Bool.false_eq_true, if_false]
    rw [e]
    congr 2
    omega

theorem walk_spec (s : ES) (i : Nat) (hi : i ≤ s.bits.size) (ht : i < s.bits.size → s.bits.test i = true) :
    s.walk i = some (((List.range' i (s.bits.size - i)).filter s.bits.test).map (s.first + ·)) := by
  fun_induction ES.walk s i with
  | case1 => simp
  | case2 i h1 h2 ih =>
    obtain ⟨k1, k2, k3, k4⟩ := skip_spec s (i + 1) (by omega)
    rw [ih k2 k4]
    have e : s.bits.size - i = (s.bits.size - (i + 1)) + 1 := by omega
    rw [e, List.range'_succ, List.filter_cons, ht h2]
    have e2 : s.bits.size - (i + 1) = (s.skip (i + 1) - (i + 1)) + (s.bits.size - s.skip (i + 1)) := by omega
    rw [e2, filter_range'_skip s.bits.test (i + 1) _ (fun j h1 h2 => k3 j h1 (by omega))]
    have e3 : i + 1 + (s.skip (i + 1) - (i + 1)) = s.skip (i + 1) := by omega
    rw [e3]
    simp
  | case3 i h1 h2 => omega

theorem WF.iterate_eq {s : ES} (h : WF s) : s.iterate = some s.expandedSet := by
  rcases h with h | h
  · rw [h]
    unfold iterate
    rw [walk_spec _ _ (by simp [fresh]) (by simp [fresh, BV.empty])]
    simp [expandedSet, fresh, BV.empty]
  · unfold iterate expandedSet
    have hf := h.hf; have hl := h.hl; have hfl := h.hfl; have hsz := h.hsz
    rw [walk_spec _ _ (by omega) (fun _ => by rw [h.test_eq]; exact h.gf)]
    have e : s.bits.size = (s.firstSet - s.first) + (s.bits.size - (s.firstSet - s.first)) := by omega
    have := filter_range'_skip s.bits.test 0 (s.firstSet - s.first) (by
      intro j _ hj
      rw [h.test_eq]
      cases hg : s.bits.get j
      · rfl
      · have := h.hb j hg; omega) (s.bits.size - (s.firstSet - s.first))
    rw [← e] at this
    rw [List.range_eq_range', this]
    simp

/-! ### compare -/

theorem all_test_iff {a b : ES} (ha : NE a) (hb : NE b) (d : Nat) (hd : b.first = a.first + d) (hle : d % 64 = 0) :
    ((List.range (64 * b.bits.nblocks)).all fun p => !b.bits.test p || a.bits.test (p + 64 * (d / 64))) = true ↔
    b.Sub a := by
  have e : 64 * (d / 64) = d := by omega
  simp only [List.all_eq_true, List.mem_range, Bool.or_eq_true, Bool.not_eq_true', e, ha.test_eq, hb.test_eq]
  rw [hb.nblocks]
  constructor
  · intro h x hx
    rw [hb.mem_iff] at hx
    rw [ha.mem_iff]
    rcases h (x - b.first) (hb.lt_size hx.2) with h | h
    · rw [hx.2] at h; cases h
    · have : x - b.first + d = x - a.first := by omega
      exact ⟨by omega, by rwa [this] at h⟩
  · intro h p hp
    cases hg : b.bits.get p
    · simp
    · right
      rw [hb.get_iff] at hg
      have := h _ hg
      rw [ha.get_iff]
      have e2 : a.first + (p + d) = b.first + p := by omega
      rwa [e2]

theorem containsImpl_spec {a b : ES} (ha : NE a) (hb : NE b) (h1 : a.firstSet ≤ b.firstSet) (h2 : b.lastSet ≤ a.lastSet) :
    ∃ r, containsImpl a b = some r ∧ (r = true ↔ b.Sub a) := by
  have af := ha.hf; have al := ha.hl; have alt := ha.hlt; have asz := ha.hsz; have afl := ha.hfl
  have bf := hb.hf; have bl := hb.hl; have blt := hb.hlt; have bsz := hb.hsz; have bfl := hb.hfl
  have na := ha.nblocks; have nb := hb.nblocks
  have : b.bits.nblocks + (b.first - a.first) / 64 ≤ a.bits.nblocks := by omega
  simp only [containsImpl, if_pos this]
  exact ⟨_, rfl, all_test_iff ha hb (b.first - a.first) (by omega) (by omega)⟩

theorem containsImplSameSize_spec {a b : ES} (ha : NE a) (hb : NE b) (h1 : a.first = b.first) (h2 : a.last = b.last) :
    (containsImplSameSize a b = .equivalent ↔ a.Sub b ∧ b.Sub a) ∧
    (containsImplSameSize a b = .less ↔ a.Sub b ∧ ¬ b.Sub a) ∧
    (containsImplSameSize a b = .greater ↔ ¬ a.Sub b ∧ b.Sub a) ∧
    (containsImplSameSize a b = .unordered ↔ ¬ a.Sub b ∧ ¬ b.Sub a) := by
  have e1 := all_test_iff hb ha 0 (by omega) rfl
  have e2 := all_test_iff ha hb 0 (by omega) rfl
  have hn : b.bits.nblocks = a.bits.nblocks := by
    have := ha.nblocks; have := hb.nblocks; have := ha.hsz; have := hb.hsz; omega
  rw [hn] at e2
  simp only [Nat.zero_div, Nat.mul_zero, Nat.add_zero] at e1 e2
  unfold containsImplSameSize
  dsimp only
  generalize ((List.range (64 * a.bits.nblocks)).all fun p => !a.bits.test p || b.bits.test p) = x at e1 ⊢
  generalize ((List.range (64 * a.bits.nblocks)).all fun p => !b.bits.test p || a.bits.test p) = y at e2 ⊢
  rw [← e1, ← e2]
  cases x <;> cases y <;> simp

/-- the answer of `compare` for two well-formed sets -/
theorem compare_spec {a o : ES} (ha : WF a) (ho : WF o) (hne : a.isEmpty = false ∨ o.isEmpty = false)
    (alias : Bool) (hal : alias = true → a = o) :
    ∃ r, a.compare o alias = some r ∧
      (r = .equivalent ↔ a.Sub o ∧ o.Sub a) ∧ (r = .less ↔ a.Sub o ∧ ¬ o.Sub a) ∧
      (r = .greater ↔ ¬ a.Sub o ∧ o.Sub a) ∧ (r = .unordered ↔ ¬ a.Sub o ∧ ¬ o.Sub a) := by
  unfold compare
  cases hae : a.isEmpty
  · have na := ha.ne hae
    cases hoe : o.isEmpty
    · have no := ho.ne hoe
      simp only [Bool.false_and, Bool.false_eq_true, if_false]
      cases alias
      · simp only [Bool.false_eq_true, if_false]
        split
        · rename_i hc
          exact ⟨_, rfl, containsImplSameSize_spec na no hc.1 hc.2⟩
        · rename_i hw
          have af := na.hf; have al := na.hl; have bf := no.hf; have bl := no.hl
          have bounds : ∀ {p q : ES}, NE p → NE q → p.Sub q → q.firstSet ≤ p.firstSet ∧ p.lastSet ≤ q.lastSet := by
            intro p q hp hq hs
            exact ⟨(hq.mem_bounds (hs _ hp.mem_first)).1, (hq.mem_bounds (hs _ hp.mem_last)).2⟩
          split
          · rename_i hc
            obtain ⟨r, hr, hri⟩ := containsImpl_spec na no hc.1 hc.2
            have hns : ¬ a.Sub o := by
              intro hs
              have := bounds na no hs
              have e1 : a.firstSet = o.firstSet := by omega
              have e2 : a.lastSet = o.lastSet := by omega
              rw [e1] at af; rw [e2] at al
              exact hw ⟨by omega, by omega⟩
            rw [hr]
            refine ⟨_, rfl, ?_⟩
            cases r
            · have : ¬ o.Sub a := fun h => by simpa using hri.2 h
              simp [hns, this]
            · have := hri.1 rfl
              simp [hns, this]
          · split
            · rename_i hc1 hc
              obtain ⟨r, hr, hri⟩ := containsImpl_spec no na hc.1 hc.2
              have hns : ¬ o.Sub a := by
                intro hs
                have := bounds no na hs
                omega
              rw [hr]
              refine ⟨_, rfl, ?_⟩
              cases r
              · have : ¬ a.Sub o := fun h => by simpa using hri.2 h
                simp [hns, this]
              · have := hri.1 rfl
                simp [hns, this]
            · rename_i hc1 hc2
              have h1 : ¬ a.Sub o := fun hs => by have := bounds na no hs; omega
              have h2 : ¬ o.Sub a := fun hs => by have := bounds no na hs; omega
              exact ⟨_, rfl, by simp [h1, h2]⟩
      · cases hal rfl
        have hs : a.Sub a := fun _ h => h
        exact ⟨_, rfl, by simp [hs]⟩
    · have h1 : o.Sub a := fun x hx => absurd hx ((ho.empty_iff).1 hoe x)
      have h2 : ¬ a.Sub o := fun hs => absurd (hs _ na.mem_first) ((ho.empty_iff).1 hoe _)
      exact ⟨_, rfl, by simp [h1, h2]⟩
  · have hoe : o.isEmpty = false := by
      rcases hne with h | h
      · rw [h] at hae; cases hae
      · exact h
    have no := ho.ne hoe
    have h1 : a.Sub o := fun x hx => absurd hx ((ha.empty_iff).1 hae x)
    have h2 : ¬ o.Sub a := fun hs => absurd (hs _ no.mem_first) ((ha.empty_iff).1 hae _)
    rw [hoe]
    exact ⟨_, rfl, by simp [h1, h2]⟩

theorem contains_spec {a o : ES} (ha : WF a) (ho : WF o) (alias : Bool) (hal : alias = true → a = o) :
    ∃ r, a.contains o alias = some r ∧ (r = true ↔ o.Sub a) := by
  unfold contains
  by_cases hne : a.isEmpty = false ∨ o.isEmpty = false
  · obtain ⟨r, hr, h1, h2, h3, h4⟩ := compare_spec ha ho hne alias hal
    rw [hr]
    refine ⟨_, rfl, ?_⟩
    simp only [Bool.or_eq_true, beq_iff_eq, h1, h3]
    by_cases s1 : a.Sub o <;> simp [s1]
  · have hae : a.isEmpty = true := by cases h : a.isEmpty <;> simp_all
    have hoe : o.isEmpty = true := by cases h : o.isEmpty <;> simp_all
    have h1 : o.Sub a := fun x hx => absurd hx ((ho.empty_iff).1 hoe x)
    refine ⟨true, ?_, by simp [h1]⟩
    simp [compare, hae, hoe]

end ES
end Soro
