import Verif.Model.Algo

namespace Soro.Algo

theorem insertNat_spec (a : Nat) (l : List Nat) (h : l.Pairwise (· ≤ ·)) :
    (insertNat a l).Perm (a :: l) ∧ (insertNat a l).Pairwise (· ≤ ·) := by
  induction l with
  | nil => exact ⟨.refl _, by simp [insertNat]⟩
  | cons b l ih =>
    obtain ⟨h1, h2⟩ := List.pairwise_cons.1 h
    obtain ⟨h3, h4⟩ := ih h2
    unfold insertNat
    split
    · rename_i hab
      refine ⟨.refl _, List.pairwise_cons.2 ⟨fun c hc => ?_, h⟩⟩
      rcases List.mem_cons.1 hc with rfl | hc
      · exact hab
      · exact Nat.le_trans hab (h1 c hc)
    · rename_i hab
      refine ⟨(List.Perm.cons b h3).trans (.swap a b l), List.pairwise_cons.2 ⟨fun c hc => ?_, h4⟩⟩
      rcases List.mem_cons.1 (h3.mem_iff.1 hc) with rfl | hc
      · omega
      · exact h1 c hc

theorem sortNat_spec (l : List Nat) : (sortNat l).Perm l ∧ (sortNat l).Pairwise (· ≤ ·) := by
  induction l with
  | nil => exact ⟨.refl _, .nil⟩
  | cons a l ih =>
    obtain ⟨h1, h2⟩ := insertNat_spec a (sortNat l) ih.2
    exact ⟨h1.trans (ih.1.cons a), h2⟩

theorem sortNat_perm (l : List Nat) : (sortNat l).Perm l := (sortNat_spec l).1

theorem sortNat_sorted (l : List Nat) : (sortNat l).Pairwise (· ≤ ·) := (sortNat_spec l).2

theorem mem_sortNat (l : List Nat) (x : Nat) : x ∈ sortNat l ↔ x ∈ l := (sortNat_perm l).mem_iff

theorem isSorted_iff (l : List Nat) : isSorted l = true ↔ l.Pairwise (· ≤ ·) := by
  fun_induction isSorted l with
  | case1 => simp
  | case2 => simp
  | case3 a b l ih =>
    simp only [Bool.and_eq_true, decide_eq_true_eq, ih]
    constructor
    · rintro ⟨h1, h2⟩
      refine List.pairwise_cons.2 ⟨fun x hx => ?_, h2⟩
      rcases List.mem_cons.1 hx with rfl | hx
      · omega
      · have := (List.pairwise_cons.1 h2).1 x hx; omega
    · intro h
      have := List.pairwise_cons.1 h
      exact ⟨by have := this.1 b (by simp); omega, this.2⟩

theorem mem_unique (l : List Nat) (x : Nat) : x ∈ unique l ↔ x ∈ l := by
  fun_induction unique l with
  | case1 => simp
  | case2 => simp
  | case3 a l ih => simp [ih]
  | case4 a b l h ih => simp [ih]

theorem unique_lt (l : List Nat) (h : l.Pairwise (· ≤ ·)) : (unique l).Pairwise (· < ·) := by
  fun_induction unique l with
  | case1 => simp
  | case2 => simp
  | case3 a l ih => exact ih (List.pairwise_cons.1 h).2
  | case4 a b l hab ih =>
    have h' := List.pairwise_cons.1 h
    refine List.pairwise_cons.2 ⟨fun x hx => ?_, ih h'.2⟩
    rw [mem_unique] at hx
    have h1 := h'.1 b (by simp)
    have h2 : b ≤ x := by
      rcases List.mem_cons.1 hx with rfl | hx
      · exact Nat.le_refl _
      · exact (List.pairwise_cons.1 h'.2).1 x hx
    omega

theorem mem_eraseDup (l : List Nat) (x : Nat) : x ∈ eraseDup l ↔ x ∈ l := by
  rw [eraseDup, mem_unique, mem_sortNat]

theorem eraseDup_lt (l : List Nat) : (eraseDup l).Pairwise (· < ·) := unique_lt _ (sortNat_sorted l)

theorem lt_nodup {l : List Nat} (h : l.Pairwise (· < ·)) : l.Nodup := h.imp (fun h => Nat.ne_of_lt h)

theorem lt_le {l : List Nat} (h : l.Pairwise (· < ·)) : l.Pairwise (· ≤ ·) := h.imp (fun h => Nat.le_of_lt h)

/-- two strictly increasing lists with the same elements are equal -/
theorem lt_ext {l m : List Nat} (hl : l.Pairwise (· < ·)) (hm : m.Pairwise (· < ·)) (h : ∀ x, x ∈ l ↔ x ∈ m) : l = m := by
  have hp : l.Perm m := by
    rw [List.perm_iff_count]
    intro a
    rw [(lt_nodup hl).count, (lt_nodup hm).count]
    simp [h]
  exact List.Perm.eq_of_pairwise (fun a b _ _ h1 h2 => absurd h1 (Nat.lt_asymm h2)) hl hm hp

theorem merge_perm (xs ys : List Nat) : (merge xs ys).Perm (xs ++ ys) := by
  fun_induction merge xs ys with
  | case1 => simp
  | case2 => simp
  | case3 x xs y ys h ih => exact (ih.cons y).trans (List.perm_middle.symm)
  | case4 x xs y ys h ih => exact ih.cons x

theorem merge_sorted (xs ys : List Nat) (hx : xs.Pairwise (· ≤ ·)) (hy : ys.Pairwise (· ≤ ·)) :
    (merge xs ys).Pairwise (· ≤ ·) := by
  fun_induction merge xs ys with
  | case1 => exact hy
  | case2 => exact hx
  | case3 x xs y ys h ih =>
    have hy' := List.pairwise_cons.1 hy
    refine List.pairwise_cons.2 ⟨fun z hz => ?_, ih hx hy'.2⟩
    rw [(merge_perm _ _).mem_iff] at hz
    rcases List.mem_append.1 hz with hz | hz
    · rcases List.mem_cons.1 hz with rfl | hz
      · omega
      · have := (List.pairwise_cons.1 hx).1 z hz; omega
    · exact hy'.1 z hz
  | case4 x xs y ys h ih =>
    have hx' := List.pairwise_cons.1 hx
    refine List.pairwise_cons.2 ⟨fun z hz => ?_, ih hx'.2 hy⟩
    rw [(merge_perm _ _).mem_iff] at hz
    rcases List.mem_append.1 hz with hz | hz
    · exact hx'.1 z hz
    · rcases List.mem_cons.1 hz with rfl | hz
      · omega
      · have := (List.pairwise_cons.1 hy).1 z hz; omega

/-! ### set_intersection, set_difference -/

theorem setIntersection_sublist {α β : Type} (l12 : α → β → Bool) (l21 : β → α → Bool) (xs : List α) (ys : List β) :
    (setIntersection l12 l21 xs ys).Sublist xs := by
  fun_induction setIntersection l12 l21 xs ys with
  | case1 => simp
  | case2 => simp
  | case3 x xs y ys h ih => exact ih.cons _
  | case4 x xs y ys h h' ih => exact ih
  | case5 x xs y ys h h' ih => exact ih.cons₂ _

/-- the values in a `set_intersection` by keys -/
theorem setIntersection_map {α β : Type} (f : α → Nat) (g : β → Nat) (xs : List α) (ys : List β) :
    (setIntersection (fun a b => decide (f a < g b)) (fun b a => decide (g b < f a)) xs ys).map f =
      setInter (xs.map f) (ys.map g) := by
  unfold setInter
  fun_induction setIntersection (fun a b => decide (f a < g b)) (fun b a => decide (g b < f a)) xs ys with
  | case1 => simp [setIntersection]
  | case2 xs _ => cases xs <;> simp [setIntersection]
  | case3 x xs y ys h ih => simp only [List.map_cons] at ih ⊢; rw [setIntersection]; simp_all
  | case4 x xs y ys h h' ih =>
    simp only [List.map_cons, decide_eq_true_eq] at ih h h' ⊢
    rw [setIntersection, ih]; simp [h, h']
  | case5 x xs y ys h h' ih =>
    simp only [List.map_cons, decide_eq_true_eq] at ih h h' ⊢
    rw [setIntersection, ih]; simp [h, h']

theorem count_zero_of_lt {y x : Nat} {l : List Nat} (h : (y :: l).Pairwise (· ≤ ·)) (hx : x < y) :
    (y :: l).count x = 0 := by
  apply List.count_eq_zero_of_not_mem
  intro hm
  rcases List.mem_cons.1 hm with rfl | hm
  · omega
  · have := (List.pairwise_cons.1 h).1 x hm; omega

theorem setInter_count (xs ys : List Nat) (hx : xs.Pairwise (· ≤ ·)) (hy : ys.Pairwise (· ≤ ·)) (a : Nat) :
    (setInter xs ys).count a = min (xs.count a) (ys.count a) := by
  unfold setInter
  fun_induction setIntersection (fun a b => decide (a < b)) (fun b a => decide (b < a)) xs ys with
  | case1 => simp
  | case2 => simp
  | case3 x xs y ys h ih =>
    have h : x < y := by simpa using h
    rw [ih (List.pairwise_cons.1 hx).2 hy]
    by_cases hax : x = a
    · subst hax; rw [count_zero_of_lt hy h]; simp
    · rw [List.count_cons_of_ne (a := a) hax]
  | case4 x xs y ys h h' ih =>
    have h' : y < x := by simpa using h'
    rw [ih hx (List.pairwise_cons.1 hy).2]
    by_cases hay : y = a
    · subst hay; rw [count_zero_of_lt hx h']; simp
    · rw [List.count_cons_of_ne (b := y) hay]
  | case5 x xs y ys h h' ih =>
    have h : ¬ x < y := by simpa using h
    have h' : ¬ y < x := by simpa using h'
    have e : x = y := by omega
    subst e
    rw [List.count_cons, List.count_cons, List.count_cons, ih (List.pairwise_cons.1 hx).2 (List.pairwise_cons.1 hy).2]
    split <;> omega

theorem mem_setInter (xs ys : List Nat) (hx : xs.Pairwise (· ≤ ·)) (hy : ys.Pairwise (· ≤ ·)) (a : Nat) :
    a ∈ setInter xs ys ↔ a ∈ xs ∧ a ∈ ys := by
  rw [← List.count_pos_iff, setInter_count xs ys hx hy, ← List.count_pos_iff, ← List.count_pos_iff]
  omega

theorem setDifference_sublist (xs ys : List Nat) : (setDifference xs ys).Sublist xs := by
  fun_induction setDifference xs ys with
  | case1 => simp
  | case2 => simp
  | case3 x xs y ys h ih => exact ih.cons₂ _
  | case4 x xs y ys h h' ih => exact ih
  | case5 x xs y ys h h' ih => exact ih.cons _

theorem setDifference_count (xs ys : List Nat) (hx : xs.Pairwise (· ≤ ·)) (hy : ys.Pairwise (· ≤ ·)) (a : Nat) :
    (setDifference xs ys).count a = xs.count a - ys.count a := by
  fun_induction setDifference xs ys with
  | case1 => simp
  | case2 => simp
  | case3 x xs y ys h ih =>
    rw [List.count_cons, List.count_cons, ih (List.pairwise_cons.1 hx).2 hy]
    by_cases hax : x = a
    · subst hax; rw [count_zero_of_lt hy h]; simp
    · simp [hax]
  | case4 x xs y ys h h' ih =>
    rw [ih hx (List.pairwise_cons.1 hy).2]
    by_cases hay : y = a
    · subst hay; rw [count_zero_of_lt hx h']; simp
    · rw [List.count_cons_of_ne (b := y) hay]
  | case5 x xs y ys h h' ih =>
    have e : x = y := by omega
    subst e
    rw [List.count_cons, List.count_cons, ih (List.pairwise_cons.1 hx).2 (List.pairwise_cons.1 hy).2]
    split <;> omega

theorem mem_setDifference (xs ys : List Nat) (hx : xs.Pairwise (· < ·)) (hy : ys.Pairwise (· ≤ ·)) (a : Nat) :
    a ∈ setDifference xs ys ↔ a ∈ xs ∧ a ∉ ys := by
  rw [← List.count_pos_iff, setDifference_count xs ys (lt_le hx) hy, (lt_nodup hx).count]
  have := List.count_pos_iff (a := a) (l := ys)
  by_cases h1 : a ∈ xs <;> by_cases h2 : a ∈ ys
  · have := this.2 h2; simp [h1, h2]
  · have : ys.count a = 0 := List.count_eq_zero_of_not_mem h2
    simp [h1, h2, this]
  · simp [h1]
  · simp [h1]

/-! ### multi_set_merge -/

theorem minHead_none (q : List (Nat × List Nat)) : minHead q = none ↔ q = [] := by
  cases q with
  | nil => simp [minHead]
  | cons r q => simp only [minHead]; split <;> simp

theorem minHead_le (q : List (Nat × List Nat)) (m : Nat) (h : minHead q = some m) :
    (∀ r ∈ q, m ≤ r.1) ∧ ∃ r ∈ q, r.1 = m := by
  induction q generalizing m with
  | nil => cases h
  | cons r q ih =>
    simp only [minHead] at h
    split at h
    · rename_i hn
      rw [minHead_none] at hn
      subst hn; cases h; simp
    · rename_i m' hm
      obtain ⟨h1, r', h2, h3⟩ := ih m' hm
      cases h
      refine ⟨fun x hx => ?_, ?_⟩
      · rcases List.mem_cons.1 hx with rfl | hx
        · omega
        · have := h1 x hx; omega
      · by_cases hr : r.1 ≤ m'
        · exact ⟨r, by simp, by omega⟩
        · exact ⟨r', by simp [h2], by omega⟩

theorem takeNth_perm (m k : Nat) (q : List (Nat × List Nat)) (c : Nat × List Nat) (rest : List (Nat × List Nat))
    (h : takeNth m k q = some (c, rest)) : q.Perm (c :: rest) ∧ c.1 = m := by
  induction q generalizing k c rest with
  | nil => simp [takeNth] at h
  | cons r q ih =>
    simp only [takeNth] at h
    split at h
    · rename_i hr
      cases k with
      | zero => simp only [Option.some.injEq, Prod.mk.injEq] at h; obtain ⟨rfl, rfl⟩ := h; exact ⟨.refl _, hr⟩
      | succ k =>
        simp only [Option.map_eq_some_iff, Prod.mk.injEq] at h
        obtain ⟨⟨c', rest'⟩, h1, rfl, rfl⟩ := h
        obtain ⟨h2, h3⟩ := ih k _ _ h1
        exact ⟨(h2.cons r).trans (List.Perm.swap _ _ _), h3⟩
    · simp only [Option.map_eq_some_iff, Prod.mk.injEq] at h
      obtain ⟨⟨c', rest'⟩, h1, rfl, rfl⟩ := h
      obtain ⟨h2, h3⟩ := ih k _ _ h1
      exact ⟨(h2.cons r).trans (List.Perm.swap _ _ _), h3⟩

theorem takeNth_some (m k : Nat) (q : List (Nat × List Nat)) (h : k < q.countP fun r => r.1 == m) :
    ∃ p, takeNth m k q = some p := by
  induction q generalizing k with
  | nil => simp at h
  | cons r q ih =>
    rw [List.countP_cons] at h
    simp only [takeNth]
    by_cases hr : r.1 = m
    · rw [if_pos hr]
      cases k with
      | zero => exact ⟨_, rfl⟩
      | succ k =>
        simp only [hr, beq_self_eq_true, if_true] at h
        obtain ⟨p, hp⟩ := ih k (by omega)
        exact ⟨_, by dsimp only; rw [hp]; rfl⟩
    · rw [if_neg hr]
      simp only [beq_iff_eq, hr, if_false] at h
      obtain ⟨p, hp⟩ := ih k (by omega)
      exact ⟨_, by rw [hp]; rfl⟩

theorem popTop_none (ch : Nat) (q : List (Nat × List Nat)) : popTop ch q = none ↔ q = [] := by
  unfold popTop
  constructor
  · intro h
    split at h
    · rename_i hm; exact (minHead_none q).1 hm
    · rename_i m hm
      obtain ⟨_, r, hr, hrm⟩ := minHead_le q m hm
      have hpos : 0 < q.countP fun r => r.1 == m := List.countP_pos_iff.2 ⟨r, hr, by simp [hrm]⟩
      obtain ⟨p, hp⟩ := takeNth_some m (ch % q.countP fun r => r.1 == m) q (Nat.mod_lt _ hpos)
      rw [hp] at h; cases h
  · rintro rfl; rfl

theorem popTop_some (ch : Nat) (q : List (Nat × List Nat)) (c : Nat × List Nat) (rest : List (Nat × List Nat))
    (h : popTop ch q = some (c, rest)) : q.Perm (c :: rest) ∧ ∀ r ∈ q, c.1 ≤ r.1 := by
  unfold popTop at h
  split at h
  · cases h
  · rename_i m hm
    obtain ⟨h1, h2⟩ := takeNth_perm _ _ _ _ _ h
    exact ⟨h1, fun r hr => by have := (minHead_le q m hm).1 r hr; omega⟩

/-- the elements of the ranges in a queue -/
def InQ (q : List (Nat × List Nat)) (y : Nat) : Prop := ∃ r ∈ q, y ∈ r.1 :: r.2

def qLen (q : List (Nat × List Nat)) : Nat := (q.map fun r => r.2.length + 1).sum

theorem qLen_perm {q q' : List (Nat × List Nat)} (h : q.Perm q') : qLen q = qLen q' := (h.map _).sum_nat

theorem dropWhile_le_mem (l : List Nat) (b : Nat) (h : l.Pairwise (· ≤ ·)) (y : Nat) :
    y ∈ l.dropWhile (fun z => decide (z ≤ b)) ↔ y ∈ l ∧ b < y := by
  induction l with
  | nil => simp
  | cons x l ih =>
    have h' := List.pairwise_cons.1 h
    rw [List.dropWhile_cons]
    by_cases hx : x ≤ b
    · simp only [hx, decide_true, if_true, ih h'.2, List.mem_cons]
      constructor
      · rintro ⟨h1, h2⟩; exact ⟨Or.inr h1, h2⟩
      · rintro ⟨rfl | h1, h2⟩
        · omega
        · exact ⟨h1, h2⟩
    · simp only [hx, decide_false, Bool.false_eq_true, if_false]
      constructor
      · intro hy
        refine ⟨hy, ?_⟩
        rcases List.mem_cons.1 hy with rfl | hy
        · omega
        · have := h'.1 y hy; omega
      · exact fun h => h.1

theorem mergeLoop_spec (ch : Nat → Nat) (fuel i : Nat) (q : List (Nat × List Nat)) (back : Nat)
    (hs : ∀ r ∈ q, (r.1 :: r.2).Pairwise (· ≤ ·)) (hf : qLen q < fuel) :
    ∃ E, mergeLoop ch fuel i q back = some E ∧ (back :: E).Pairwise (· < ·) ∧
      ∀ y, y ∈ E ↔ back < y ∧ InQ q y := by
  induction fuel generalizing i q back with
  | zero => omega
  | succ fuel ih =>
    rw [mergeLoop]
    split
    · rename_i hp
      rw [popTop_none] at hp
      subst hp
      exact ⟨[], rfl, by simp, by simp [InQ]⟩
    · rename_i x xs rest hp
      obtain ⟨hperm, hmin⟩ := popTop_some _ _ _ _ hp
      dsimp only at hmin ⊢
      have hc : (x :: xs).Pairwise (· ≤ ·) := hs (x, xs) (hperm.mem_iff.2 (by simp))
      generalize hb : (if x > back then x else back) = back'
      have hb1 : x ≤ back' := by rw [← hb]; split <;> omega
      have hb2 : back ≤ back' := by rw [← hb]; split <;> omega
      have hdl : ((x :: xs).dropWhile fun y => decide (y ≤ back')).length ≤ xs.length := by
        rw [List.dropWhile_cons]
        simp only [hb1, decide_true, if_true]
        exact (List.dropWhile_sublist _).length_le
      have hdm := dropWhile_le_mem (x :: xs) back' hc
      have hds : ((x :: xs).dropWhile fun y => decide (y ≤ back')).Pairwise (· ≤ ·) :=
        hc.sublist (List.dropWhile_sublist _)
      generalize (x :: xs).dropWhile (fun y => decide (y ≤ back')) = rem at hdl hdm hds
      have hlen : qLen q = xs.length + 1 + qLen rest := by
        rw [qLen_perm hperm]; simp [qLen]
      -- the new queue
      have key : ∃ q', emplaceNonEmpty rem rest = q' ∧
          (∀ r ∈ q', (r.1 :: r.2).Pairwise (· ≤ ·)) ∧ qLen q' < fuel ∧
          ∀ y, InQ q' y ↔ y ∈ rem ∨ InQ rest y := by
        have hrest : ∀ r ∈ rest, (r.1 :: r.2).Pairwise (· ≤ ·) := fun r hr =>
          hs r (hperm.mem_iff.2 (by simp [hr]))
        cases rem with
        | nil => exact ⟨rest, rfl, hrest, by omega, by simp⟩
        | cons z zs =>
          refine ⟨(z, zs) :: rest, rfl, ?_, ?_, ?_⟩
          · intro r hr
            rcases List.mem_cons.1 hr with rfl | hr
            · exact hds
            · exact hrest r hr
          · simp only [List.length_cons] at hdl
            simp only [qLen, List.map_cons, List.sum_cons] at hlen hf ⊢
            omega
          · intro y; simp [InQ]
      obtain ⟨q', hq', h1, h2, h3⟩ := key
      rw [hq']
      obtain ⟨E, hE, hpw, hm⟩ := ih (i + 1) q' back' h1 h2
      have hq : ∀ y, InQ q y ↔ y ∈ x :: xs ∨ InQ rest y := by
        intro y
        simp only [InQ, hperm.mem_iff, List.mem_cons]
        constructor
        · rintro ⟨r, rfl | hr, h⟩
          · exact Or.inl h
          · exact Or.inr ⟨r, hr, h⟩
        · rintro (h | ⟨r, hr, h⟩)
          · exact ⟨_, Or.inl rfl, h⟩
          · exact ⟨r, Or.inr hr, h⟩
      have hpw' := List.pairwise_cons.1 hpw
      simp only [hE, Option.map_some]
      by_cases hx : x > back
      · have : back' = x := by rw [← hb, if_pos hx]
        subst this
        simp only [hx, if_true]
        refine ⟨_, rfl, List.pairwise_cons.2 ⟨?_, hpw⟩, ?_⟩
        · intro y hy
          rcases List.mem_cons.1 hy with rfl | hy
          · exact hx
          · have := hpw'.1 y hy; omega
        · intro y
          rw [List.mem_cons, hm, h3, hdm, hq]
          constructor
          · rintro (rfl | ⟨h, h' | h'⟩)
            · exact ⟨hx, Or.inl (by simp)⟩
            · exact ⟨by omega, Or.inl h'.1⟩
            · exact ⟨by omega, Or.inr h'⟩
          · rintro ⟨h, h'⟩
            by_cases hy : y = back'
            · exact Or.inl hy
            · have hge : back' ≤ y := by
                rcases h' with h' | ⟨r, hr, h'⟩
                · rcases List.mem_cons.1 h' with rfl | h'
                  · omega
                  · exact (List.pairwise_cons.1 hc).1 y h'
                · have h4 := hmin r (hperm.mem_iff.2 (by simp [hr]))
                  have h5 := hs r (hperm.mem_iff.2 (by simp [hr]))
                  rcases List.mem_cons.1 h' with rfl | h'
                  · omega
                  · have := (List.pairwise_cons.1 h5).1 y h'; omega
              refine Or.inr ⟨by omega, ?_⟩
              rcases h' with h' | h'
              · exact Or.inl ⟨h', by omega⟩
              · exact Or.inr h'
      · have : back' = back := by rw [← hb, if_neg hx]
        subst this
        simp only [hx, if_false]
        refine ⟨E, rfl, hpw, ?_⟩
        intro y
        rw [hm, h3, hdm, hq]
        constructor
        · rintro ⟨h, h' | h'⟩
          · exact ⟨h, Or.inl h'.1⟩
          · exact ⟨h, Or.inr h'⟩
        · rintro ⟨h, h' | h'⟩
          · exact ⟨h, Or.inl ⟨h', h⟩⟩
          · exact ⟨h, Or.inr h'⟩

theorem inQ_filterMap (ranges : List (List Nat)) (y : Nat) :
    InQ (ranges.filterMap nonEmpty) y ↔ ∃ r ∈ ranges, y ∈ r := by
  simp only [InQ, List.mem_filterMap]
  constructor
  · rintro ⟨r, ⟨l, hl, h⟩, hy⟩
    cases l with
    | nil => cases h
    | cons z zs => simp only [nonEmpty, Option.some.injEq] at h; subst h; exact ⟨_, hl, hy⟩
  · rintro ⟨l, hl, hy⟩
    cases l with
    | nil => cases hy
    | cons z zs => exact ⟨(z, zs), ⟨_, hl, rfl⟩, hy⟩

theorem qLen_filterMap (ranges : List (List Nat)) : qLen (ranges.filterMap nonEmpty) = totalLength ranges := by
  induction ranges with
  | nil => rfl
  | cons l ls ih =>
    cases l with
    | nil => rw [List.filterMap_cons]; simpa [qLen, totalLength, nonEmpty] using ih
    | cons z zs => simpa [qLen, totalLength, nonEmpty] using ih

theorem multiSetMerge_spec (ch : Nat → Nat) (ranges : List (List Nat)) (hs : ∀ r ∈ ranges, r.Pairwise (· < ·)) :
    ∃ l, multiSetMerge ch ranges = some l ∧ l.Pairwise (· < ·) ∧ ∀ y, y ∈ l ↔ ∃ r ∈ ranges, y ∈ r := by
  have hq := inQ_filterMap ranges
  have hl := qLen_filterMap ranges
  have hs' : ∀ r ∈ ranges.filterMap nonEmpty, (r.1 :: r.2).Pairwise (· < ·) := by
    intro r hr
    obtain ⟨l, h1, h2⟩ := List.mem_filterMap.1 hr
    cases l with
    | nil => cases h2
    | cons z zs => simp only [nonEmpty, Option.some.injEq] at h2; subst h2; exact hs _ h1
  unfold multiSetMerge
  generalize ranges.filterMap nonEmpty = q at hq hl hs'
  split
  · exact ⟨[], rfl, by simp, fun y => by rw [← hq]; simp [InQ]⟩
  · rename_i r
    exact ⟨_, rfl, hs' r (by simp), fun y => by rw [← hq]; simp [InQ]⟩
  · rename_i hne hns
    cases hm : minHead q with
    | none => exact absurd ((minHead_none q).1 hm) hne
    | some m =>
      obtain ⟨h1, r, h2, h3⟩ := minHead_le q m hm
      obtain ⟨E, h4, h5, h6⟩ := mergeLoop_spec ch (totalLength ranges + 1) 0 q m (fun r hr => lt_le (hs' r hr)) (by omega)
      refine ⟨m :: E, by simp [h4], h5, fun y => ?_⟩
      rw [← hq, List.mem_cons, h6]
      constructor
      · rintro (rfl | h)
        · exact ⟨r, h2, by simp [h3]⟩
        · exact h.2
      · rintro ⟨r, hr, hy⟩
        have := h1 r hr
        have : m ≤ y := by
          rcases List.mem_cons.1 hy with rfl | hy
          · omega
          · have := (List.pairwise_cons.1 (hs' r hr)).1 y hy; omega
        by_cases he : y = m
        · exact Or.inl he
        · exact Or.inr ⟨by omega, r, hr, hy⟩

/-! ### overlap -/

theorem dropWhile_lt_mem (l : List Nat) (b : Nat) (h : l.Pairwise (· ≤ ·)) (y : Nat) :
    y ∈ l.dropWhile (fun z => decide (z < b)) ↔ y ∈ l ∧ b ≤ y := by
  cases b with
  | zero => cases l <;> simp [List.dropWhile_cons]
  | succ b =>
    have := dropWhile_le_mem l b h y
    simp only [show ∀ z : Nat, (z < b + 1) = (z ≤ b) from fun z => by simp [Nat.lt_succ_iff]]
    rw [this]; exact Iff.rfl

theorem overlapLoop_iff (xs ys : List Nat) (hx : xs.Pairwise (· ≤ ·)) (hy : ys.Pairwise (· ≤ ·)) :
    overlapLoop xs ys = true ↔ ∃ a, a ∈ xs ∧ a ∈ ys := by
  fun_induction overlapLoop xs ys with
  | case1 => simp
  | case2 => simp
  | case3 x xs ys => simp
  | case4 x xs y ys h h' ih =>
    have hx' := List.pairwise_cons.1 hx
    rw [ih (hx'.2.sublist (List.dropWhile_sublist _)) hy]
    constructor
    · rintro ⟨a, h1, h2⟩
      exact ⟨a, List.mem_cons_of_mem _ ((dropWhile_lt_mem _ _ hx'.2 a).1 h1).1, h2⟩
    · rintro ⟨a, h1, h2⟩
      have hya : y ≤ a := by
        rcases List.mem_cons.1 h2 with rfl | h2
        · exact Nat.le_refl _
        · exact (List.pairwise_cons.1 hy).1 a h2
      rcases List.mem_cons.1 h1 with rfl | h1
      · omega
      · exact ⟨a, (dropWhile_lt_mem _ _ hx'.2 a).2 ⟨h1, hya⟩, h2⟩
  | case5 x xs y ys h h' ih =>
    have hy' := List.pairwise_cons.1 hy
    rw [ih hx (hy'.2.sublist (List.dropWhile_sublist _))]
    constructor
    · rintro ⟨a, h1, h2⟩
      exact ⟨a, h1, List.mem_cons_of_mem _ ((dropWhile_lt_mem _ _ hy'.2 a).1 h2).1⟩
    · rintro ⟨a, h1, h2⟩
      have hxa : x ≤ a := by
        rcases List.mem_cons.1 h1 with rfl | h1
        · exact Nat.le_refl _
        · exact (List.pairwise_cons.1 hx).1 a h1
      rcases List.mem_cons.1 h2 with rfl | h2
      · omega
      · exact ⟨a, h1, (dropWhile_lt_mem _ _ hy'.2 a).2 ⟨h2, hxa⟩⟩

theorem byIndex_range (c : List Nat) : byIndex c (List.range c.length) = c := by
  apply List.ext_getElem?
  intro i
  simp only [byIndex, List.getElem?_map, List.getElem?_range, Option.map_if]
  by_cases h : i < c.length
  · simp [h]
  · simp [h]

theorem byIndex_perm (c p : List Nat) (h : p.Perm (List.range c.length)) : (byIndex c p).Perm c := by
  have := h.map (fun i => c[i]?.getD 0)
  have e := byIndex_range c
  unfold byIndex at e ⊢
  rwa [e] at this

end Soro.Algo
