import Verif.Spec.Units
import Mathlib.Tactic.Ring
import Mathlib.Tactic.Linarith
import Mathlib.Algebra.Order.Ring.Rat

/-
Properties C63, C73, C78: quantities with units.
-/

namespace Soro.Units
open Spec

theorem countType_eq (x : Tag) (l : List Tag) : countType x l = l.count x := by
  have : ∀ a, l.foldl (fun a y => a + if x = y then 1 else 0) a = a + l.count x := by
    induction l with
    | nil => intro a; rfl
    | cons y l ih =>
      intro a
      rw [List.foldl_cons, ih, List.count_cons]
      by_cases h : x = y
      · simp [h]; omega
      · have : ¬ y = x := fun h' => h h'.symm
        simp [h, this]
  rw [countType, this, Nat.zero_add]

theorem removeOnce_eq (x : Tag) (l : List Tag) : removeOnce x l = l.erase x := by
  induction l with
  | nil => rfl
  | cons y l ih =>
    rw [removeOnce, List.erase_cons, ih]
    by_cases h : x = y
    · simp [h]
    · have : ¬ y = x := fun h' => h h'.symm
      simp [h, this]

theorem count_removeTimes (n : Nat) (x t : Tag) (l : List Tag) :
    (removeTimes n x l).count t = if t = x then l.count t - n else l.count t := by
  induction n generalizing l with
  | zero => simp [removeTimes]
  | succ n ih =>
    rw [removeTimes, ih, removeOnce_eq]
    by_cases h : t = x
    · subst h
      simp only [if_true, List.count_erase_self]
      omega
    · have : ¬ x = t := fun h' => h h'.symm
      simp [h, List.count_erase_of_ne]

theorem count_simplifyTagN (n d : List Tag) (x t : Tag) :
    (simplifyTagN n d x).count t = if t = x then n.count t - min (n.count t) (d.count t) else n.count t := by
  unfold simplifyTagN
  simp only [countType_eq]
  by_cases h : t = x
  · subst h
    simp only [if_true]
    split
    · rw [count_removeTimes, if_pos rfl, minV]; split <;> omega
    · omega
  · rw [if_neg h]
    split
    · rw [count_removeTimes, if_neg h]
    · rfl

theorem count_simplifyTagD (n d : List Tag) (x t : Tag) :
    (simplifyTagD n d x).count t = if t = x then d.count t - min (n.count t) (d.count t) else d.count t := by
  unfold simplifyTagD
  simp only [countType_eq]
  by_cases h : t = x
  · subst h
    simp only [if_true]
    split
    · rw [count_removeTimes, if_pos rfl, minV]; split <;> omega
    · omega
  · rw [if_neg h]
    split
    · rw [count_removeTimes, if_neg h]
    · rfl

theorem count_simplifyN (n d : List Tag) (t : Tag) : (simplifyN n d).count t = n.count t - min (n.count t) (d.count t) := by
  unfold simplifyN
  simp only [count_simplifyTagN]
  cases t <;> simp

theorem count_simplifyD (n d : List Tag) (t : Tag) : (simplifyD n d).count t = d.count t - min (n.count t) (d.count t) := by
  unfold simplifyD
  simp only [count_simplifyTagD]
  cases t <;> simp

theorem reduced_iff (q : Quantity) : Reduced q ↔ ∀ t, q.num.count t = 0 ∨ q.den.count t = 0 := by
  unfold Reduced
  refine forall_congr' fun t => ?_
  rw [List.count_eq_zero, List.count_eq_zero]
  tauto

theorem count_concatTimes (n : Nat) (l : List Tag) (t : Tag) : (concatTimes n l).count t = n * l.count t := by
  induction n with
  | zero => simp [concatTimes]
  | succ n ih => rw [concatTimes, List.count_append, ih]; ring

/-- C63, multiplication: exponents add, the result is reduced, values multiply. -/
theorem C63_mul (a b : Quantity) : (∀ t, exponent (a.mul b) t = exponent a t + exponent b t) ∧ Reduced (a.mul b) ∧
    (a.mul b).val = a.val * b.val := by
  refine ⟨fun t => ?_, (reduced_iff _).2 fun t => ?_, rfl⟩
  · simp only [exponent, Quantity.mul, count_simplifyN, count_simplifyD, List.count_append]; omega
  · simp only [Quantity.mul, count_simplifyN, count_simplifyD, List.count_append]; omega

/-- C63, division: exponents subtract, the result is reduced, values divide. -/
theorem C63_div (a b : Quantity) : (∀ t, exponent (a.div b) t = exponent a t - exponent b t) ∧ Reduced (a.div b) ∧
    (a.div b).val = a.val / b.val := by
  refine ⟨fun t => ?_, (reduced_iff _).2 fun t => ?_, rfl⟩
  · simp only [exponent, Quantity.div, count_simplifyN, count_simplifyD, List.count_append]; omega
  · simp only [Quantity.div, count_simplifyN, count_simplifyD, List.count_append]; omega

/-- C63, powers: exponents are multiplied. -/
theorem C63_pow (a : Quantity) (e : Nat) : (∀ t, exponent (a.pow e) t = e * exponent a t) ∧ Reduced (a.pow e) ∧
    (a.pow e).val = a.val ^ e := by
  refine ⟨fun t => ?_, (reduced_iff _).2 fun t => ?_, rfl⟩
  · simp only [exponent, Quantity.pow, count_simplifyN, count_simplifyD, count_concatTimes]
    rw [mul_sub]
    push_cast [Nat.cast_sub (Nat.min_le_left _ _), Nat.cast_sub (Nat.min_le_right (e * _) _)]
    ring
  · simp only [Quantity.pow, count_simplifyN, count_simplifyD, count_concatTimes]; omega

/-- C63: the free power function agrees with the member. -/
theorem C63_pow_free (a : Quantity) (e : Nat) : (∀ t, exponent (a.powFree e) t = exponent (a.pow (e + 1)) t) ∧
    (a.powFree e).val = (a.pow (e + 1)).val ∧ (Reduced a → Reduced (a.powFree e)) := by
  induction e with
  | zero =>
    refine ⟨fun t => ?_, ?_, fun h => h⟩
    · rw [(C63_pow a 1).1]; simp [Quantity.powFree]
    · simp [Quantity.powFree, Quantity.pow]
  | succ e ih =>
    refine ⟨fun t => ?_, ?_, fun _ => (C63_mul _ _).2.1⟩
    · rw [Quantity.powFree, (C63_mul _ _).1, ih.1, (C63_pow a _).1, (C63_pow a _).1]; push_cast; ring
    · rw [Quantity.powFree, (C63_mul _ _).2.2, ih.2.1]; simp only [Quantity.pow]; ring

theorem isSameTypeList_iff (a b : List Tag) : isSameTypeList a b = true ↔ ∀ t, a.count t = b.count t := by
  unfold isSameTypeList
  simp only [Bool.and_eq_true, decide_eq_true_eq, countType_eq]
  constructor
  · rintro ⟨⟨⟨h1, h2⟩, h3⟩, h4⟩ t; cases t <;> assumption
  · intro h; exact ⟨⟨⟨h _, h _⟩, h _⟩, h _⟩

/-- C63: reduced quantities convert into each other iff they have the same exponents. -/
theorem C63_convertible (a b : Quantity) (ha : Reduced a) (hb : Reduced b) :
    isSameFraction a b = true ↔ ∀ t, exponent a t = exponent b t := by
  rw [isSameFraction, Bool.and_eq_true, isSameTypeList_iff, isSameTypeList_iff]
  rw [reduced_iff] at ha hb
  unfold exponent
  constructor
  · rintro ⟨h1, h2⟩ t; rw [h1, h2]
  · intro h
    refine ⟨fun t => ?_, fun t => ?_⟩ <;> (have := h t; have := ha t; have := hb t; omega)

/-- C63: multiplying and dividing by the same quantity gives back unit and value. -/
theorem C63_cancel (a b : Quantity) (ha : Reduced a) (hb : b.val ≠ 0) :
    isSameFraction ((a.mul b).div b) a = true ∧ ((a.mul b).div b).val = a.val := by
  refine ⟨(C63_convertible _ _ (C63_div _ _).2.1 ha).2 fun t => ?_, ?_⟩
  · rw [(C63_div _ _).1, (C63_mul _ _).1]; ring
  · rw [(C63_div _ _).2.2, (C63_mul _ _).2.2, mul_div_assoc, div_self hb, mul_one]

/-- a speed and a time -/
example : ((Quantity.mk [.meter] [.second] 3).mul ⟨[.second], [], 4⟩).num = [.meter] ∧
    ((Quantity.mk [.meter] [.second] 3).mul ⟨[.second], [], 4⟩).den = [] ∧ Reduced ⟨[.meter], [.second], 3⟩ := by
  refine ⟨by decide, by decide, ?_⟩
  intro t; cases t <;> decide

/-! ### C73: comparisons of quantities -/

/-- C73 (partial): for values that differ by at least 0.01 exactly one of `<`, `==`, `>` holds, and it is the exact order. -/
theorem C73_separated_partial (a b : Rat) (h : 1 / 100 ≤ |a - b|) :
    eqVal a b = false ∧ (ltVal a b = true ↔ ltVal b a = false) ∧ leVal a b = ltVal a b := by
  have hne : a ≠ b := by rintro rfl; norm_num at h
  refine ⟨?_, ?_, ?_⟩
  · rw [eqVal, decide_eq_false_iff_not, not_lt]
    split
    · rwa [abs_of_neg (by assumption)] at h
    · rwa [abs_of_nonneg (by linarith)] at h
  · simp only [ltVal, decide_eq_true_eq, decide_eq_false_iff_not, not_lt]
    exact ⟨le_of_lt, fun h => lt_of_le_of_ne h hne⟩
  · simp only [ltVal, leVal, decide_eq_decide]
    exact ⟨fun h => lt_of_le_of_ne h hne, le_of_lt⟩

/-- C73 is false: whenever two different values differ by less than 0.01 they are equal and one is less than the other. -/
theorem C73_negation (a b : Rat) (h : a < b) (hc : b - a < 1 / 100) : eqVal a b = true ∧ ltVal a b = true ∧ leVal b a = false := by
  refine ⟨?_, by simp [ltVal, h], by simp [leVal, h]⟩
  rw [eqVal, decide_eq_true_eq, if_pos (by linarith)]
  linarith

example : (1 / 100 : Rat) ≤ |1 - 2| := by norm_num

/-! ### C78: unit strings -/

/-- the part of a unit string for a tag occurring `c` times -/
def block (t : Tag) (c : Nat) : List Char := if c ≠ 0 ∧ c < 10 then t.symbol ++ exponentSymbol c ++ ['*'] else []

theorem exponentSymbol_inj (c c' : Nat) (h : c ≠ 0 ∧ c < 10) (h' : c' ≠ 0 ∧ c' < 10) (x x' : List Char)
    (e : exponentSymbol c ++ '*' :: x = exponentSymbol c' ++ '*' :: x') : c = c' ∧ x = x' := by
  have k : ∀ c : Nat, c ≠ 0 ∧ c < 10 → c = 1 ∨ c = 2 ∨ c = 3 ∨ c = 4 ∨ c = 5 ∨ c = 6 ∨ c = 7 ∨ c = 8 ∨ c = 9 := by omega
  rcases k c h with rfl | rfl | rfl | rfl | rfl | rfl | rfl | rfl | rfl <;>
  rcases k c' h' with rfl | rfl | rfl | rfl | rfl | rfl | rfl | rfl | rfl <;>
  simp [exponentSymbol] at e ⊢ <;> exact e

theorem block_inj (t : Tag) (c c' : Nat) (h : c < 10) (h' : c' < 10) (x x' : List Char)
    (hx : t.symbol.head? ≠ x.head?) (hx' : t.symbol.head? ≠ x'.head?) (e : block t c ++ x = block t c' ++ x') : c = c' ∧ x = x' := by
  unfold block at e
  by_cases h0 : c = 0
  · by_cases h0' : c' = 0
    · subst h0 h0'; simpa using e
    · rw [if_neg (by omega), if_pos (by omega)] at e
      exfalso
      apply hx
      simp only [List.nil_append] at e
      rw [e]
      cases t <;> rfl
  · by_cases h0' : c' = 0
    · rw [if_pos (by omega), if_neg (by omega)] at e
      exfalso
      apply hx'
      simp only [List.nil_append] at e
      rw [← e]
      cases t <;> rfl
    · rw [if_pos (by omega), if_pos (by omega)] at e
      simp only [List.append_assoc, List.append_cancel_left_eq, List.singleton_append] at e
      exact exponentSymbol_inj c c' ⟨h0, h⟩ ⟨h0', h'⟩ x x' e

theorem block_head (t : Tag) (c : Nat) (x : List Char) : (block t c ++ x).head? = t.symbol.head? ∨ (block t c ++ x).head? = x.head? := by
  unfold block
  split
  · left; cases t <;> rfl
  · right; rfl

/-- the unit string with the trailing star -/
def starred (f : Tag → Nat) : List Char :=
  block .meter (f .meter) ++ (block .second (f .second) ++ (block .kilogram (f .kilogram) ++ (block .ampere (f .ampere) ++ [])))

theorem starred_inj (f g : Tag → Nat) (hf : ∀ t, f t < 10) (hg : ∀ t, g t < 10) (h : starred f = starred g) : f = g := by
  have a4 : ∀ f : Tag → Nat, (block .ampere (f .ampere) ++ []).head? = some 'A' ∨ (block .ampere (f .ampere) ++ []).head? = none := by
    intro f
    rcases block_head .ampere (f .ampere) [] with h | h <;> rw [h] <;> simp [Tag.symbol]
  have a3 : ∀ f : Tag → Nat, (block .kilogram (f .kilogram) ++ (block .ampere (f .ampere) ++ [])).head? ∈ [some 'k', some 'A', none] := by
    intro f
    rcases block_head .kilogram (f .kilogram) (block .ampere (f .ampere) ++ []) with h | h <;> rw [h]
    · simp [Tag.symbol]
    · rcases a4 f with h | h <;> rw [h] <;> simp
  have a2 : ∀ f : Tag → Nat, (block .second (f .second) ++ (block .kilogram (f .kilogram) ++ (block .ampere (f .ampere) ++ []))).head?
      ∈ [some 's', some 'k', some 'A', none] := by
    intro f
    rcases block_head .second (f .second) (block .kilogram (f .kilogram) ++ (block .ampere (f .ampere) ++ [])) with h | h <;> rw [h]
    · simp [Tag.symbol]
    · have := a3 f
      simp only [List.mem_cons] at this ⊢
      tauto
  have ne : ∀ (o : Option Char) (c : Char) (l : List (Option Char)), o ∈ l → some c ∉ l → some c ≠ o := by
    rintro o c l h1 h2 rfl; exact h2 h1
  obtain ⟨h1, h⟩ := block_inj .meter _ _ (hf _) (hg _) _ _ (ne _ 'm' _ (a2 f) (by decide)) (ne _ 'm' _ (a2 g) (by decide)) h
  obtain ⟨h2, h⟩ := block_inj .second _ _ (hf _) (hg _) _ _ (ne _ 's' _ (a3 f) (by decide)) (ne _ 's' _ (a3 g) (by decide)) h
  have b : ∀ f : Tag → Nat, some 'k' ≠ (block .ampere (f .ampere) ++ []).head? := by
    intro f; rcases a4 f with h | h <;> rw [h] <;> simp
  obtain ⟨h3, h⟩ := block_inj .kilogram _ _ (hf _) (hg _) _ _ (b f) (b g) h
  obtain ⟨h4, -⟩ := block_inj .ampere _ _ (hf _) (hg _) [] [] (by simp [Tag.symbol]) (by simp [Tag.symbol]) h
  funext t
  cases t <;> assumption

theorem starred_last (f : Tag → Nat) : starred f = [] ∨ (starred f).getLast? = some '*' := by
  have b : ∀ t c, block t c = [] ∨ (block t c).getLast? = some '*' := by
    intro t c
    unfold block
    split
    · right; simp
    · left; rfl
  have app : ∀ x y : List Char, (x = [] ∨ x.getLast? = some '*') → (y = [] ∨ y.getLast? = some '*') →
      (x ++ y = [] ∨ (x ++ y).getLast? = some '*') := by
    intro x y hx hy
    rw [List.getLast?_append]
    rcases hy with rfl | hy
    · simpa using hx
    · right; rw [hy]; rfl
  exact app _ _ (b _ _) (app _ _ (b _ _) (app _ _ (b _ _) (app _ _ (b _ _) (.inl rfl))))

theorem starred_empty (f : Tag → Nat) (hf : ∀ t, f t < 10) (h : starred f = []) : ∀ t, f t = 0 := by
  have := starred_inj f (fun _ => 0) hf (by simp) (by rw [h]; decide)
  intro t; rw [this]

theorem typeListStr_eq (l : List Tag) : typeListStr l = if starred (l.count ·) = [] then none else some (starred (l.count ·)).dropLast := by
  have e : tagStr l .meter ++ tagStr l .second ++ tagStr l .kilogram ++ tagStr l .ampere = starred (l.count ·) := by
    simp [starred, tagStr, block, countType_eq]
  unfold typeListStr
  rw [e]
  rcases starred_last (l.count ·) with h | h
  · simp [h]
  · have hn : starred (l.count ·) ≠ [] := by intro h'; rw [h'] at h; cases h
    have hn' : (starred (l.count ·)).isEmpty = false := by simpa using hn
    simp only [hn', hn, h, if_false, if_true, Bool.false_eq_true]

theorem dropLast_star (l : List Char) (h : l.getLast? = some '*') : l = l.dropLast ++ ['*'] := by
  obtain ⟨ys, rfl⟩ := List.getLast?_eq_some_iff.1 h
  simp

/-- two lists of tags without ten-fold occurrences have the same string iff they have the same counts -/
theorem typeListStr_inj (a b : List Tag) (ha : ∀ t, a.count t < 10) (hb : ∀ t, b.count t < 10) :
    typeListStr a = typeListStr b ↔ ∀ t, a.count t = b.count t := by
  constructor
  · intro h
    rw [typeListStr_eq, typeListStr_eq] at h
    have : starred (a.count ·) = starred (b.count ·) := by
      split at h
      · rename_i h1
        split at h
        · rename_i h2; rw [h1, h2]
        · cases h
      · rename_i h1
        split at h
        · cases h
        · rename_i h2
          rw [dropLast_star _ ((starred_last _).resolve_left h1), dropLast_star _ ((starred_last _).resolve_left h2), Option.some.inj h]
    intro t
    exact congrFun (starred_inj _ _ ha hb this) t
  · intro h
    have : (a.count ·) = (b.count ·) := funext h
    rw [typeListStr_eq, typeListStr_eq, this]

theorem starred_chars (f : Tag → Nat) : ∀ c ∈ starred f, c ≠ '/' ∧ c ≠ ']' ∧ c ≠ '1' := by
  have b : ∀ t n, ∀ c ∈ block t n, c ≠ '/' ∧ c ≠ ']' ∧ c ≠ '1' := by
    intro t n c hc
    unfold block at hc
    split at hc
    · rename_i hn
      rw [List.mem_append, List.mem_append] at hc
      rcases hc with (hc | hc) | hc
      · cases t <;> simp [Tag.symbol] at hc
        all_goals (try rcases hc with rfl | rfl)
        all_goals (try subst hc)
        all_goals decide
      · have k : n = 1 ∨ n = 2 ∨ n = 3 ∨ n = 4 ∨ n = 5 ∨ n = 6 ∨ n = 7 ∨ n = 8 ∨ n = 9 := by omega
        rcases k with rfl | rfl | rfl | rfl | rfl | rfl | rfl | rfl | rfl <;> simp [exponentSymbol] at hc <;> subst hc <;> decide
      · simp at hc; subst hc; decide
    · cases hc
  intro c hc
  unfold starred at hc
  simp only [List.mem_append, List.not_mem_nil, or_false] at hc
  rcases hc with hc | hc | hc | hc <;> exact b _ _ c hc

theorem typeListStr_chars (l : List Tag) (s : List Char) (h : typeListStr l = some s) :
    ∀ c ∈ s, c ≠ '/' ∧ c ≠ ']' ∧ c ≠ '1' := by
  rw [typeListStr_eq] at h
  split at h
  · cases h
  · cases h; intro c hc; exact starred_chars _ c ((List.dropLast_sublist _).subset hc)

theorem split_at {c : Char} {a b a' b' : List Char} (ha : c ∉ a) (ha' : c ∉ a') (h : a ++ c :: b = a' ++ c :: b') : a = a' ∧ b = b' := by
  induction a generalizing a' with
  | nil =>
    cases a' with
    | nil => simpa using h
    | cons x a' => simp at h; exact absurd (by simp [h.1]) ha'
  | cons y a ih =>
    cases a' with
    | nil => simp at h; exact absurd (by simp [h.1]) ha
    | cons x a' =>
      simp only [List.cons_append, List.cons.injEq] at h
      obtain ⟨h1, h2⟩ := ih (fun h => ha (by simp [h])) (fun h => ha' (by simp [h])) h.2
      exact ⟨by rw [h.1, h1], h2⟩

/-- the two halves of a unit string -/
theorem typeListStr_none (l : List Tag) (hl : ∀ t, l.count t < 10) : typeListStr l = none ↔ l = [] := by
  have h := typeListStr_inj l [] hl (by simp)
  rw [show typeListStr [] = none by decide] at h
  rw [h]
  constructor
  · intro h
    cases l with
    | nil => rfl
    | cons x l => have := h x; simp at this
  · rintro rfl; simp

/-- C78 (partial): if no base unit occurs ten times or more, the printed units are equal iff the units are. -/
theorem C78_injective_partial (a b : Quantity) (ha : Small a) (hb : Small b) :
    a.unitStr = b.unitStr ↔ isSameFraction a b = true := by
  rw [isSameFraction, Bool.and_eq_true, isSameTypeList_iff, isSameTypeList_iff,
    ← typeListStr_inj a.num b.num (fun t => (ha t).1) (fun t => (hb t).1),
    ← typeListStr_inj a.den b.den (fun t => (ha t).2) (fun t => (hb t).2)]
  have hn := fun (q : Quantity) (h : Small q) => typeListStr_none q.num fun t => (h t).1
  have hd := fun (q : Quantity) (h : Small q) => typeListStr_none q.den fun t => (h t).2
  have slash : ∀ (l : List Tag) (d : List Char), '/' ∉ d → '/' ∉ (typeListStr l).getD d := by
    intro l d h
    cases hs : typeListStr l with
    | none => exact h
    | some s => intro hc; exact (typeListStr_chars l s hs _ hc).1 rfl
  have one : ∀ l, (typeListStr l).getD ['1'] = ['1'] ↔ typeListStr l = none := by
    intro l
    cases hs : typeListStr l with
    | none => simp
    | some s =>
      simp only [Option.getD_some, reduceCtorEq, iff_false]
      rintro rfl
      exact (typeListStr_chars l _ hs '1' (by simp)).2.2 rfl
  have inj1 : ∀ l l', (typeListStr l).getD ['1'] = (typeListStr l').getD ['1'] → typeListStr l = typeListStr l' := by
    intro l l' h
    cases hs : typeListStr l with
    | none => rw [hs] at h; exact ((one l').1 h.symm).symm
    | some s =>
      cases hs' : typeListStr l' with
      | none => rw [hs', Option.getD_none, one] at h; rw [h] at hs; cases hs
      | some s' => rw [hs, hs'] at h; exact congrArg some h
  have ne : ∀ l s, typeListStr l = some s → s ≠ [] := by
    rintro l _ hs rfl
    have hs0 := hs
    rw [typeListStr_eq] at hs
    split at hs
    · cases hs
    · rename_i h
      have h2 : (starred (l.count ·)).dropLast = [] := Option.some.inj hs
      have h3 := dropLast_star _ ((starred_last (l.count ·)).resolve_left h)
      rw [h2] at h3
      unfold starred block at h3
      have := congrArg List.length h3
      have hb : ∀ t c, (block t c).length = 0 ∨ 2 ≤ (block t c).length := by
        intro t c
        unfold block
        split
        · right; cases t <;> simp [Tag.symbol]
        · left; rfl
      change (starred (l.count ·)).length = 1 at this
      unfold starred at this
      simp only [List.length_append, List.length_nil] at this
      have b1 := hb .meter (l.count .meter)
      have b2 := hb .second (l.count .second)
      have b3 := hb .kilogram (l.count .kilogram)
      have b4 := hb .ampere (l.count .ampere)
      omega
  have inj0 : ∀ l l', (typeListStr l).getD [] = (typeListStr l').getD [] → typeListStr l = typeListStr l' := by
    intro l l' h
    cases hs : typeListStr l with
    | none =>
      cases hs' : typeListStr l' with
      | none => rfl
      | some s' => rw [hs, hs'] at h; exact absurd h.symm (ne l' s' hs')
    | some s =>
      cases hs' : typeListStr l' with
      | none => rw [hs, hs'] at h; exact absurd h (ne l s hs)
      | some s' => rw [hs, hs'] at h; exact congrArg some h
  unfold Quantity.unitStr
  by_cases h1 : a.den = [] <;> by_cases h2 : b.den = []
  · rw [if_pos h1, if_pos h2, h1, h2]
    simp only [List.append_cancel_right_eq, List.append_cancel_left_eq, and_true]
    exact ⟨inj0 _ _, fun h => by rw [h]⟩
  · rw [if_pos h1, if_neg h2]
    constructor
    · intro h
      exfalso
      have hm : '/' ∈ ['['] ++ (typeListStr b.num).getD ['1'] ++ ['/'] ++ (typeListStr b.den).getD [] ++ [']'] := by simp
      rw [← h] at hm
      simp only [List.mem_append, List.mem_singleton] at hm
      rcases hm with (hm | hm) | hm
      · exact absurd hm (by decide)
      · exact slash _ [] (by simp) hm
      · exact absurd hm (by decide)
    · rintro ⟨-, h⟩
      rw [(hd a ha).2 h1] at h
      exact absurd ((hd b hb).1 h.symm) h2
  · rw [if_neg h1, if_pos h2]
    constructor
    · intro h
      exfalso
      have hm : '/' ∈ ['['] ++ (typeListStr a.num).getD ['1'] ++ ['/'] ++ (typeListStr a.den).getD [] ++ [']'] := by simp
      rw [h] at hm
      simp only [List.mem_append, List.mem_singleton] at hm
      rcases hm with (hm | hm) | hm
      · exact absurd hm (by decide)
      · exact slash _ [] (by simp) hm
      · exact absurd hm (by decide)
    · rintro ⟨-, h⟩
      rw [(hd b hb).2 h2] at h
      exact absurd ((hd a ha).1 h) h1
  · rw [if_neg h1, if_neg h2]
    constructor
    · intro h
      simp only [List.append_assoc, List.append_cancel_left_eq, List.singleton_append, List.cons_append, List.cons.injEq,
        true_and] at h
      have hh := split_at (c := '/') (slash a.num ['1'] (by decide)) (slash b.num ['1'] (by decide)) h
      refine ⟨inj1 _ _ hh.1, inj0 _ _ ?_⟩
      have := hh.2
      simpa using this
    · rintro ⟨h, h'⟩; rw [h, h']

/-- C78 is false beyond: the tenth power of a metre prints like the unit one, `[]`. -/
theorem C78_negation : ∃ a b : Quantity, Reduced a ∧ Reduced b ∧ isSameFraction a b = false ∧ a.unitStr = b.unitStr := by
  refine ⟨⟨List.replicate 10 .meter, [], 1⟩, ⟨[], [], 1⟩, ?_, ?_, by decide, by decide⟩ <;> (intro t; simp)

example : Small ⟨[.kilogram, .meter], [.second, .second], 1⟩ ∧
    (Quantity.mk [.kilogram, .meter] [.second, .second] 1).unitStr = "[m*kg/s²]".toList := by
  refine ⟨?_, by decide⟩
  intro t; cases t <;> decide

end Soro.Units
