import Verif.Spec.Utls
import Mathlib.Tactic.Ring
import Mathlib.Tactic.Linarith

/-
Properties C59 - C62, C64, C65, C67, C72: utilities.
-/

namespace Soro.Utls
open Spec

/-! ### C59 -/

theorem two_pow_split (b : Nat) (hb : 0 < b) : (2 : Int) ^ (8 * b) = 2 * 2 ^ (8 * b - 1) := by
  rw [show 8 * b = (8 * b - 1) + 1 by omega, Int.pow_succ]
  simp only [Nat.add_sub_cancel]
  ring

theorem two_pow_mono {a b : Nat} (h : a ≤ b) : (2 : Int) ^ a ≤ 2 ^ b := by
  exact_mod_cast Nat.pow_le_pow_right (by omega) h

theorem two_pow_pos (a : Nat) : (0 : Int) < 2 ^ a := by positivity

/-- C59: `fits` decides whether the value of the source type is a value of the target type. -/
theorem C59_fits (out inp : IntTy) (ho : 0 < out.bytes) (hi : 0 < inp.bytes) (v : Int) (hv : Fits inp v) :
    fits out inp v = true ↔ Fits out v := by
  obtain ⟨os, ob⟩ := out
  obtain ⟨is, ib⟩ := inp
  simp only at ho hi
  have h1 := two_pow_split ob ho
  have h2 := two_pow_split ib hi
  have p1 := two_pow_pos (8 * ob - 1)
  have p2 := two_pow_pos (8 * ib - 1)
  unfold Fits IntTy.min IntTy.max at *
  cases os <;> cases is <;> simp only [fits, isNarrowing, Bool.false_eq_true, if_true, if_false, Bool.not_true, Bool.not_false,
    Bool.and_true, Bool.and_false, Bool.true_and, Bool.false_and, IntTy.min, IntTy.max, decide_eq_true_eq, Bool.not_eq_true',
    decide_eq_false_iff_not, Bool.and_eq_true, reduceIte] at *
  · by_cases h : ob < ib
    · simp [h]
    · have := two_pow_mono (show 8 * ib ≤ 8 * ob by omega)
      simp [h]
      omega
  · by_cases h : ob < ib
    · simp [h]
    · have := two_pow_mono (show 8 * ib - 1 ≤ 8 * ob by omega)
      simp [h]
      omega
  · by_cases h : ob ≤ ib
    · simp [h]; omega
    · have := two_pow_mono (show 8 * ib ≤ 8 * ob - 1 by omega)
      simp [h]
      omega
  · by_cases h : ob < ib
    · simp [h]
    · have := two_pow_mono (show 8 * ib - 1 ≤ 8 * ob - 1 by omega)
      simp [h]
      omega

theorem cast_fits (out : IntTy) (ho : 0 < out.bytes) (v : Int) : Fits out (cast out v) ∧ (Fits out v → cast out v = v) := by
  obtain ⟨os, ob⟩ := out
  have h1 := two_pow_split ob ho
  have p1 := two_pow_pos (8 * ob - 1)
  cases os
  · unfold Fits IntTy.min IntTy.max cast IntTy.card IntTy.min
    simp only [Bool.false_eq_true, if_false]
    have a1 := Int.emod_nonneg (v - 0) (show (2 : Int) ^ (8 * ob) ≠ 0 by omega)
    have a2 := Int.emod_lt_of_pos (v - 0) (show (0 : Int) < 2 ^ (8 * ob) by omega)
    refine ⟨by omega, fun h => ?_⟩
    rw [Int.emod_eq_of_lt (by omega) (by omega)]; omega
  · unfold Fits IntTy.min IntTy.max cast IntTy.card IntTy.min
    simp only [if_true]
    have a1 := Int.emod_nonneg (v - -2 ^ (8 * ob - 1)) (show (2 : Int) ^ (8 * ob) ≠ 0 by omega)
    have a2 := Int.emod_lt_of_pos (v - -2 ^ (8 * ob - 1)) (show (0 : Int) < 2 ^ (8 * ob) by omega)
    refine ⟨by omega, fun h => ?_⟩
    rw [Int.emod_eq_of_lt (by omega) (by omega)]; omega

/-- C59 in builds with assertions: the result equals the argument, or the call is rejected, which happens exactly if the
value is not a value of the target type. -/
theorem C59_checked (out inp : IntTy) (ho : 0 < out.bytes) (hi : 0 < inp.bytes) (v : Int) (hv : Fits inp v) :
    (∀ r, narrow true out inp v = some r ↔ r = v ∧ Fits out v) ∧ (narrow true out inp v = none ↔ ¬ Fits out v) := by
  have h1 := C59_fits out inp ho hi v hv
  have h2 := (cast_fits out ho v).2
  unfold narrow
  by_cases hf : Fits out v
  · rw [h1.2 hf, h2 hf]
    simp [hf, eq_comm]
  · have : fits out inp v = false := by
      rw [Bool.eq_false_iff]; exact fun h => hf (h1.1 h)
    simp [this, hf]

/-- C59 in release builds: the result is exact if and only if the value is a value of the target type; nothing is rejected. -/
theorem C59_release_partial (out inp : IntTy) (ho : 0 < out.bytes) (v : Int) :
    ∃ r, narrow false out inp v = some r ∧ Fits out r ∧ (r = v ↔ Fits out v) := by
  obtain ⟨h1, h2⟩ := cast_fits out ho v
  exact ⟨cast out v, rfl, h1, fun h => h ▸ h1, h2⟩

/-- C59 is false in release builds: 256 narrowed to 8 bits is 0. -/
theorem C59_release_negation : ∃ out inp v, Fits inp v ∧ narrow false out inp v = some 0 ∧ v = 256 ∧
    narrow true out inp v = none := by
  refine ⟨⟨false, 1⟩, ⟨true, 4⟩, 256, ⟨by decide, by decide⟩, by decide, rfl, by decide⟩

example : Fits ⟨true, 8⟩ (-1) ∧ fits ⟨false, 4⟩ ⟨true, 8⟩ (-1) = false ∧ fits ⟨true, 2⟩ ⟨false, 2⟩ 32767 = true ∧
    fits ⟨true, 2⟩ ⟨false, 2⟩ 32768 = false := by unfold Fits; decide

/-! ### C60 -/

theorem foldl_value (ds : List Char) (a : Nat) :
    ds.foldl (fun a c => 10 * a + digit c) a = a * 10 ^ ds.length + value ds := by
  induction ds generalizing a with
  | nil => simp [value]
  | cons c ds ih =>
    rw [List.foldl_cons, ih, value, List.length_cons, Nat.pow_succ]
    ring

theorem takeWhile_all {p : Char → Bool} {l : List Char} (h : ∀ c ∈ l, p c = true) : l.takeWhile p = l ∧ l.dropWhile p = [] := by
  induction l with
  | nil => simp
  | cons c l ih =>
    have := ih fun x hx => h x (by simp [hx])
    simp [h c (by simp), this]

theorem all_of_dropWhile {p : Char → Bool} {l : List Char} (h : l.dropWhile p = []) : ∀ c ∈ l, p c = true := by
  induction l with
  | nil => simp
  | cons c l ih =>
    rw [List.dropWhile_cons] at h
    split at h
    · intro x hx
      rcases List.mem_cons.1 hx with rfl | hx
      · assumption
      · exact ih h x hx
    · cases h

theorem minus_not_digit : ('-' : Char).isDigit = false := by decide

/-- C60: a string is accepted iff it is a decimal numeral whose value belongs to the type, and then gives this value. -/
theorem C60_accepts (t : IntTy) (s : List Char) (v : Int) : tryParseInt t s = some v ↔ Numeral t s v ∧ Fits t v := by
  unfold tryParseInt fromChars
  by_cases hneg : (t.signed && decide (s.head? = some '-')) = true
  · rw [hneg]
    simp only [Bool.and_eq_true, decide_eq_true_eq] at hneg
    obtain ⟨hs, hh⟩ := hneg
    obtain ⟨ds, rfl⟩ : ∃ ds, s = '-' :: ds := by
      cases s with
      | nil => cases hh
      | cons c ds => exact ⟨ds, by simp at hh; rw [hh]⟩
    simp only [if_true, List.tail_cons]
    have hnum : Numeral t ('-' :: ds) v ↔ ds ≠ [] ∧ (∀ c ∈ ds, c.isDigit = true) ∧ v = -(value ds : Int) := by
      constructor
      · rintro (⟨-, h, -⟩ | ⟨-, ds', h, h'⟩)
        · have := h '-' (by simp)
          rw [minus_not_digit] at this; cases this
        · cases h; exact h'
      · intro h; exact .inr ⟨hs, ds, rfl, h⟩
    rw [hnum]
    by_cases hall : ∀ c ∈ ds, c.isDigit = true
    · obtain ⟨h1, h2⟩ := takeWhile_all hall
      rw [h1, h2]
      cases ds with
      | nil => simp
      | cons c ds =>
        simp only [List.isEmpty_cons, Bool.false_eq_true, if_false]
        rw [foldl_value, Nat.zero_mul, Nat.zero_add]
        by_cases hf : t.min ≤ -(value (c :: ds) : Int) ∧ -(value (c :: ds) : Int) ≤ t.max
        · rw [if_pos hf]
          simp only [Option.some.injEq, Fits]
          constructor
          · rintro rfl; exact ⟨⟨by simp, hall, rfl⟩, hf⟩
          · rintro ⟨⟨-, -, rfl⟩, -⟩; rfl
        · rw [if_neg hf]
          constructor
          · intro h; cases h
          · rintro ⟨⟨-, -, rfl⟩, h⟩; exact absurd h hf
    · constructor
      · intro h
        exfalso
        split at h
        · rename_i heq
          split at heq
          · cases heq
          · split at heq
            · simp only [Prod.mk.injEq, true_and] at heq
              exact hall (all_of_dropWhile heq.1)
            · cases heq
        · cases h
      · rintro ⟨⟨-, h, -⟩, -⟩; exact absurd h hall
  · rw [Bool.not_eq_true] at hneg
    rw [hneg]
    simp only [Bool.false_eq_true, if_false]
    have hnum : Numeral t s v ↔ s ≠ [] ∧ (∀ c ∈ s, c.isDigit = true) ∧ v = (value s : Int) := by
      constructor
      · rintro (h | ⟨h, ds', rfl, h'⟩)
        · exact h
        · simp [h] at hneg
      · intro h; exact .inl h
    rw [hnum]
    by_cases hall : ∀ c ∈ s, c.isDigit = true
    · obtain ⟨h1, h2⟩ := takeWhile_all hall
      rw [h1, h2]
      cases s with
      | nil => simp
      | cons c ds =>
        simp only [List.isEmpty_cons, Bool.false_eq_true, if_false]
        rw [foldl_value, Nat.zero_mul, Nat.zero_add]
        by_cases hf : t.min ≤ (value (c :: ds) : Int) ∧ (value (c :: ds) : Int) ≤ t.max
        · rw [if_pos hf]
          simp only [Option.some.injEq, Fits]
          constructor
          · rintro rfl; exact ⟨⟨by simp, hall, rfl⟩, hf⟩
          · rintro ⟨⟨-, -, rfl⟩, -⟩; rfl
        · rw [if_neg hf]
          constructor
          · intro h; cases h
          · rintro ⟨⟨-, -, rfl⟩, h⟩; exact absurd h hf
    · constructor
      · intro h
        exfalso
        split at h
        · rename_i heq
          split at heq
          · cases heq
          · split at heq
            · simp only [Prod.mk.injEq, true_and] at heq
              exact hall (all_of_dropWhile heq.1)
            · cases heq
        · cases h
      · rintro ⟨⟨-, h, -⟩, -⟩; exact absurd h hall

theorem value_append (a : List Char) (c : Char) : value (a ++ [c]) = 10 * value a + digit c := by
  induction a with
  | nil => simp [value]
  | cons x a ih =>
    rw [List.cons_append, value, ih, value, List.length_append, List.length_singleton, Nat.pow_succ]
    ring

theorem digit_digitChar (d : Nat) (h : d < 10) : digit (Nat.digitChar d) = d := by
  have : d = 0 ∨ d = 1 ∨ d = 2 ∨ d = 3 ∨ d = 4 ∨ d = 5 ∨ d = 6 ∨ d = 7 ∨ d = 8 ∨ d = 9 := by omega
  rcases this with rfl | rfl | rfl | rfl | rfl | rfl | rfl | rfl | rfl | rfl <;> decide

theorem value_toDigits (n : Nat) : value (Nat.toDigits 10 n) = n := by
  induction n using Nat.strongRecOn with
  | _ n ih =>
    by_cases h : n < 10
    · rw [Nat.toDigits_of_lt_base h]
      simp [value, digit_digitChar n h]
    · rw [Nat.toDigits_of_base_le (by omega) (by omega), value_append, ih _ (by omega), digit_digitChar _ (by omega)]
      omega

theorem toDigits_ne_nil (n : Nat) : Nat.toDigits 10 n ≠ [] := by
  by_cases h : n < 10
  · rw [Nat.toDigits_of_lt_base h]; simp
  · rw [Nat.toDigits_of_base_le (by omega) (by omega)]; simp

/-- C60: parsing the printed value gives the value back. -/
theorem C60_round_trip (t : IntTy) (v : Int) (hv : Fits t v) : tryParseInt t (print v) = some v := by
  rw [C60_accepts]
  refine ⟨?_, hv⟩
  have hd : ∀ c ∈ Nat.toDigits 10 v.natAbs, c.isDigit = true := fun c hc =>
    Nat.isDigit_of_mem_toDigits (by omega) (by omega) hc
  unfold print
  by_cases h : v < 0
  · rw [if_pos h]
    right
    refine ⟨?_, _, rfl, toDigits_ne_nil _, hd, by rw [value_toDigits]; omega⟩
    by_contra hs
    have := hv.1
    rw [IntTy.min, if_neg hs] at this
    omega
  · rw [if_neg h]
    left
    exact ⟨toDigits_ne_nil _, hd, by rw [value_toDigits]; omega⟩

/-- C60 for `parse_int` in release builds: numerals give their value … -/
theorem C60_parse_int (t : IntTy) (s : List Char) (v : Int) (h : Numeral t s v) (hf : Fits t v) : parseInt t s = v := by
  have := (C60_accepts t s v).2 ⟨h, hf⟩
  unfold tryParseInt at this
  unfold parseInt
  generalize fromChars t s = r at this
  obtain ⟨a, b, c⟩ := r
  split at this
  · rename_i heq
    simp only [Prod.mk.injEq] at heq
    simp [heq, this]
  · cases this

/-- … but other strings are not rejected: trailing characters are ignored, and what is no number reads as the maximum. -/
theorem C60_release_garbage : parseInt ⟨false, 4⟩ "12abc".toList = 12 ∧ parseInt ⟨false, 4⟩ "abc".toList = 4294967295 ∧
    parseInt ⟨false, 1⟩ "256".toList = 255 := by decide

example : Numeral ⟨true, 2⟩ "-0120".toList (-120) ∧ Fits ⟨true, 2⟩ (-120) :=
  ⟨.inr ⟨rfl, "0120".toList, by decide, by decide, by decide, by decide⟩, by decide, by decide⟩
example : tryParseInt ⟨false, 1⟩ "255".toList = some 255 ∧ tryParseInt ⟨false, 1⟩ "256".toList = none ∧
    tryParseInt ⟨false, 1⟩ "-1".toList = none ∧ tryParseInt ⟨true, 1⟩ "+1".toList = none := by decide

/-! ### C61 -/

theorem find_some {s d : List Char} {start e : Nat} (h : find s d start = some e) :
    start ≤ e ∧ e + d.length ≤ s.length ∧ d <+: s.drop e ∧ ∀ i, start ≤ i → i < e → ¬ d <+: s.drop i := by
  unfold find at h
  split at h
  · obtain ⟨h1, h2, h3⟩ := List.find?_range'_eq_some.1 h
    rw [List.isPrefixOf_iff_prefix] at h1
    have hmem := List.mem_range'_1.1 h2
    refine ⟨hmem.1, ?_, h1, fun i hi hie hp => ?_⟩
    · have := h1.length_le
      rw [List.length_drop] at this
      omega
    · have := h3 i hi hie
      rw [Bool.not_eq_true', ← Bool.not_eq_true, List.isPrefixOf_iff_prefix] at this
      exact this hp
  · cases h

theorem find_none {s d : List Char} {start : Nat} (h : find s d start = none) :
    ∀ i, start ≤ i → i ≤ s.length → ¬ d <+: s.drop i := by
  unfold find at h
  intro i hi his hp
  rw [if_pos (by omega), List.find?_eq_none] at h
  exact h i (List.mem_range'_1.2 (by omega)) (by rwa [List.isPrefixOf_iff_prefix])

/-- tokens and remainder -/
theorem splitLoop_spec (s d : List Char) (hd : d ≠ []) (fuel start : Nat) (toks : List (List Char)) (hst : start ≤ s.length)
    (hf : s.length - start < fuel) :
    ∃ ts, splitLoop s d fuel start (find s d start) toks = some (toks ++ ts) ∧ ts ≠ [] ∧ d.intercalate ts = s.drop start ∧
      ∀ t ∈ ts, ¬ d <:+: t := by
  induction fuel generalizing start toks with
  | zero => omega
  | succ fuel ih =>
    have hdl : 0 < d.length := List.length_pos_iff.2 hd
    cases hfind : find s d start with
    | none =>
      rw [splitLoop]
      refine ⟨[s.drop start], rfl, by simp, by simp [List.intercalate], ?_⟩
      simp only [List.mem_singleton, forall_eq]
      rintro ⟨a, b, hab⟩
      have := congrArg List.length hab
      simp only [List.length_append, List.length_drop] at this
      refine find_none hfind (start + a.length) (by omega) (by omega) ⟨b, ?_⟩
      rw [← List.drop_drop, ← hab]
      simp
    | some e =>
      rw [splitLoop]
      obtain ⟨h1, h2, h3, h4⟩ := find_some hfind
      obtain ⟨ts, h5, h6, h7, h8⟩ := ih (e + d.length) (toks ++ [(s.drop start).take (e - start)]) h2 (by omega)
      refine ⟨(s.drop start).take (e - start) :: ts, by rw [h5]; simp, by simp, ?_, ?_⟩
      · obtain ⟨b, hb⟩ := h3
        cases ts with
        | nil => exact absurd rfl h6
        | cons t ts =>
          rw [List.intercalate_cons_cons, h7]
          have hb' : b = s.drop (e + d.length) := by
            rw [← List.drop_drop, ← hb]; simp
          rw [← hb', List.append_assoc, hb]
          conv_rhs => rw [← List.take_append_drop (e - start) (s.drop start), List.drop_drop]
          rw [show start + (e - start) = e by omega]
      · intro t ht
        rcases List.mem_cons.1 ht with rfl | ht
        · rintro ⟨a, b, hab⟩
          have hl := congrArg List.length hab
          simp only [List.length_append, List.length_take, List.length_drop] at hl
          refine h4 (start + a.length) (by omega) (by omega) ⟨b ++ s.drop e, ?_⟩
          rw [← List.drop_drop]
          conv_rhs => rw [← List.take_append_drop (e - start) (s.drop start), ← hab, List.drop_drop]
          rw [show start + (e - start) = e by omega]
          simp
        · exact h8 t ht

/-- C61: splitting at a nonempty separator ends, joining the parts gives the string back, and no part contains the
separator. -/
theorem C61_split (s d : List Char) (hd : d ≠ []) (hs : s ≠ []) (fuel : Nat) (hf : s.length < fuel) :
    ∃ ts, split fuel s d = some ts ∧ ts ≠ [] ∧ d.intercalate ts = s ∧ ∀ t ∈ ts, ¬ d <:+: t := by
  obtain ⟨ts, h1, h2, h3, h4⟩ := splitLoop_spec s d hd fuel 0 [] (by omega) (by omega)
  refine ⟨ts, ?_, h2, by simpa using h3, h4⟩
  unfold split
  cases s with
  | nil => exact absurd rfl hs
  | cons c s => simpa using h1

theorem count_intercalate (c : Char) (ts : List (List Char)) (hne : ts ≠ []) (h : ∀ t ∈ ts, c ∉ t) :
    ts.length = (List.intercalate [c] ts).count c + 1 := by
  induction ts with
  | nil => exact absurd rfl hne
  | cons t ts ih =>
    have ht : t.count c = 0 := List.count_eq_zero.2 (h t (by simp))
    cases ts with
    | nil => simp [List.intercalate, ht]
    | cons u ts =>
      have := ih (by simp) fun x hx => h x (by simp [hx])
      rw [List.intercalate_cons_cons, List.count_append, List.count_append, ht]
      simp only [List.length_cons] at this ⊢
      simp
      omega

/-- C61: for a separator of one character the number of parts is one more than the number of separators. -/
theorem C61_count (s : List Char) (c : Char) (hs : s ≠ []) (fuel : Nat) (hf : s.length < fuel) :
    ∃ ts, split fuel s [c] = some ts ∧ ts.length = s.count c + 1 := by
  obtain ⟨ts, h1, h2, h3, h4⟩ := C61_split s [c] (by simp) hs fuel hf
  refine ⟨ts, h1, ?_⟩
  rw [count_intercalate c ts h2 fun t ht hc => h4 t ht ?_, h3]
  obtain ⟨a, b, rfl⟩ := List.append_of_mem hc
  exact ⟨a, b, by simp⟩

/-- C61: the empty string has no parts. -/
theorem C61_empty (d : List Char) (fuel : Nat) : split fuel [] d = some [] := rfl

/-- C61: an empty separator never ends on a nonempty string. -/
theorem C61_empty_separator (s : List Char) (hs : s ≠ []) (fuel : Nat) : split fuel s [] = none := by
  have hfind : find s [] 0 = some 0 := by
    unfold find
    rw [if_pos (by omega), show s.length + 1 - 0 = s.length + 1 by omega, List.range'_succ, List.find?_cons]
    simp
  have loop : ∀ fuel toks, splitLoop s [] fuel 0 (some 0) toks = none := by
    intro fuel
    induction fuel with
    | zero => intro; rfl
    | succ f ih =>
      intro toks
      rw [splitLoop]
      show splitLoop s [] f 0 (find s [] 0) _ = none
      rw [hfind]
      exact ih _
  unfold split
  cases s with
  | nil => exact absurd rfl hs
  | cons c s =>
    simp only [List.isEmpty_cons, Bool.false_eq_true, if_false]
    rw [hfind]
    exact loop fuel []

example : split 10 "a,b,,c".toList ",".toList = some ["a".toList, "b".toList, [], "c".toList] := by decide
example : split 10 "aaa".toList "aa".toList = some [[], "a".toList] := by decide

/-! ### C72: comparison of string views -/

theorem strcmpEq_iff (a b : List Char) (r s : List Char) (ha : '\x00' ∉ a) (hb : '\x00' ∉ b) :
    strcmpEq (a ++ '\x00' :: r) (b ++ '\x00' :: s) = some (decide (a = b)) := by
  induction a generalizing b with
  | nil =>
    cases b with
    | nil => simp [strcmpEq]
    | cons y b =>
      have : '\x00' ≠ y := fun h => hb (h ▸ List.mem_cons_self)
      simp [strcmpEq, this]
  | cons x a ih =>
    have hx : x ≠ '\x00' := by intro h; apply ha; simp [h]
    cases b with
    | nil => simp [strcmpEq, hx]
    | cons y b =>
      rw [List.cons_append, List.cons_append, strcmpEq]
      by_cases hxy : x = y
      · subst hxy
        rw [if_pos rfl, if_neg hx, ih b (fun h => ha (by simp [h])) (fun h => hb (by simp [h]))]
        simp
      · rw [if_neg hxy]; simp [hxy]

/-- C72 (partial): two views compare equal iff their texts are equal, provided both are followed by a zero byte and contain
none. -/
theorem C72_terminated_partial (a b : View) (ra rb : List Char) (ha : a.mem = text a ++ '\x00' :: ra)
    (hb : b.mem = text b ++ '\x00' :: rb) (na : '\x00' ∉ text a) (nb : '\x00' ∉ text b) :
    viewEqual a b = some (decide (text a = text b)) := by
  unfold viewEqual
  rw [ha, hb]
  exact strcmpEq_iff _ _ _ _ na nb

/-- C72 is false: the views "tr" (of "true") and "tr" compare different, and views of different text compare equal. -/
theorem C72_negation : (∃ a b : View, text a = text b ∧ viewEqual a b = some false) ∧
    ∃ a b : View, text a ≠ text b ∧ viewEqual a b = some true := by
  refine ⟨⟨⟨"true\x00".toList, 2⟩, ⟨"tr\x00".toList, 2⟩, by decide, by decide⟩,
    ⟨⟨"true\x00".toList, 2⟩, ⟨"true\x00".toList, 4⟩, by decide, by decide⟩⟩

example : (View.mk "ab\x00x".toList 2).mem = text (View.mk "ab\x00x".toList 2) ++ '\x00' :: "x".toList := by decide

/-! ### C62 -/

section Optional
variable {α β : Type} [DecidableEq α] {inv : α} [DecidableEq β] {invb : β}

/-- C62: a value is present iff one different from the sentinel was stored; storing the sentinel reads as empty. -/
theorem C62_has_value (v : α) : ((Opt.make v : Opt α inv).hasValue = true ↔ v ≠ inv) ∧
    (Opt.make inv : Opt α inv).hasValue = false ∧ (Opt.empty : Opt α inv).hasValue = false := by
  refine ⟨?_, by simp [Opt.make, Opt.hasValue], by simp [Opt.hasValue, Opt.empty]⟩
  unfold Opt.make Opt.hasValue
  exact decide_eq_true_iff

/-- C62: every operation is the one of an ordinary optional. -/
theorem C62_operations (o : Opt α inv) (d : α) (f : α → Opt β invb) (g : α → β) (b : β) (e : Unit → Opt α inv) :
    o.hasValue = (view o).isSome ∧
    o.valueOr d = (view o).getD d ∧
    view (o.andThen Opt.empty f) = (view o).bind (fun v => view (f v)) ∧
    o.transform b g = ((view o).map g).getD b ∧
    view (o.orElse e) = (view o).or (view (e ())) ∧
    o.executeIf = (view o).toList ∧
    view o.reset = none := by
  obtain ⟨v⟩ := o
  by_cases h : v = inv
  · subst h
    simp [Opt.hasValue, Opt.valueOr, Opt.andThen, Opt.transform, Opt.orElse, Opt.executeIf, Opt.reset, view, Opt.empty]
  · simp [Opt.hasValue, Opt.valueOr, Opt.andThen, Opt.transform, Opt.orElse, Opt.executeIf, Opt.reset, view, h]

/-- C62: the monad laws; the left identity needs a value different from the sentinel. -/
theorem C62_monad {γ : Type} {invc : γ} (v : α) (hv : v ≠ inv) (o : Opt α inv) (f : α → Opt β invb) (g : β → Opt γ invc) :
    (Opt.make v : Opt α inv).andThen Opt.empty f = f v ∧
    o.andThen Opt.empty (fun v => (Opt.make v : Opt α inv)) = o ∧
    (o.andThen Opt.empty f).andThen Opt.empty g = o.andThen Opt.empty (fun v => (f v).andThen Opt.empty g) := by
  refine ⟨by simp [Opt.andThen, Opt.make, Opt.hasValue, hv], ?_, ?_⟩
  · obtain ⟨w⟩ := o
    by_cases h : w = inv <;> simp [Opt.andThen, Opt.hasValue, Opt.make, Opt.empty, h]
  · obtain ⟨w⟩ := o
    by_cases h : w = inv <;> simp [Opt.andThen, Opt.hasValue, Opt.empty, h]

/-- C62: for the sentinel the left identity fails. -/
theorem C62_sentinel : ∃ f : Nat → Opt Nat 255, view ((Opt.make 255 : Opt Nat 255).andThen Opt.empty f) = none ∧ view (f 255) = some 0 :=
  ⟨fun _ => ⟨0⟩, by decide, by decide⟩

end Optional

example : (Opt.make 3 : Opt Nat 255).hasValue = true ∧ (Opt.make 3 : Opt Nat 255).valueOr 7 = 3 := by decide

/-! ### C64, C65, C67 -/

theorem horner_fold (fs : List Rat) (x a : Rat) :
    fs.foldl (fun r g => g + r * x) a = a * x ^ fs.length + polyValue x fs := by
  induction fs generalizing a with
  | nil => simp [polyValue]
  | cons f fs ih =>
    rw [List.foldl_cons, ih, polyValue, List.length_cons]
    ring

/-- C64: the value of a polynomial is the sum of its coefficients times the powers of the argument. -/
theorem C64_horner (fs : List Rat) (x : Rat) : horner fs x = polyValue x fs := by
  cases fs with
  | nil => rfl
  | cons f fs => exact horner_fold fs x f

example : horner [2, -3, 5] 4 = 2 * 4 ^ 2 - 3 * 4 + 5 := by norm_num [horner]

theorem adjoining_from_le (ps : List Piece) (p q : Piece) (h : Adjoining (p :: ps)) (hq : q ∈ ps) : p.to ≤ q.frm := by
  induction ps generalizing p with
  | nil => cases hq
  | cons r ps ih =>
    obtain ⟨h1, h2, h3⟩ := h
    rcases List.mem_cons.1 hq with rfl | hq
    · rw [h2]
    · have := ih r h3 hq
      have hr : r.frm < r.to := by
        cases ps with
        | nil => exact h3
        | cons s ps => exact h3.1
      linarith

/-- C65: inside the half open range of a piece this piece is evaluated. -/
theorem C65_inside (ps : List Piece) (h : Adjoining ps) (p : Piece) (hp : p ∈ ps) (x : Rat) (h1 : p.frm ≤ x) (h2 : x < p.to) :
    evalPieces ps x = some (polyValue x p.factors) := by
  have key : ps.find? (fun p => decide (x < p.to)) = some p := by
    induction ps with
    | nil => cases hp
    | cons q ps ih =>
      rw [List.find?_cons]
      rcases List.mem_cons.1 hp with rfl | hp'
      · simp [h2]
      · have := adjoining_from_le ps q p h hp'
        have hn : ¬ x < q.to := by linarith
        simp only [hn, decide_false]
        refine ih ?_ hp'
        cases ps with
        | nil => trivial
        | cons r ps => exact h.2.2
  rw [evalPieces, key, Option.map_some, C64_horner]

/-- C65: every argument between the first and the last bound lies in exactly one piece. -/
theorem C65_unique (ps : List Piece) (h : Adjoining ps) (first last : Piece) (hf : ps.head? = some first)
    (hl : ps.getLast? = some last) (x : Rat) (h1 : first.frm ≤ x) (h2 : x < last.to) :
    ∃ l p r, ps = l ++ p :: r ∧ p.frm ≤ x ∧ x < p.to ∧ ∀ q ∈ l ++ r, ¬ (q.frm ≤ x ∧ x < q.to) := by
  induction ps generalizing first with
  | nil => cases hf
  | cons p ps ih =>
    obtain rfl : p = first := by simpa using hf
    by_cases hx : x < p.to
    · refine ⟨[], p, ps, rfl, h1, hx, ?_⟩
      rintro q hq ⟨h3, h4⟩
      have := adjoining_from_le ps p q h (by simpa using hq)
      linarith
    · cases ps with
      | nil => cases hl; exact absurd h2 hx
      | cons q ps =>
        have hq : p.to = q.frm := h.2.1
        obtain ⟨l, p', r, h3, h4, h5, h6⟩ := ih h.2.2 q rfl (by rw [List.getLast?_cons_cons] at hl; exact hl) (by linarith)
        refine ⟨p :: l, p', r, by rw [h3]; rfl, h4, h5, ?_⟩
        intro y hy
        rw [List.cons_append] at hy
        rcases List.mem_cons.1 hy with rfl | hy
        · rintro ⟨-, h7⟩; exact hx h7
        · exact h6 y hy

/-- C65: arguments at or beyond the last bound are rejected. -/
theorem C65_beyond (ps : List Piece) (h : Adjoining ps) (last : Piece) (hl : ps.getLast? = some last) (x : Rat) (h2 : last.to ≤ x) :
    evalPieces ps x = none := by
  have key : ∀ p ∈ ps, p.to ≤ x := by
    intro p hp
    obtain ⟨l, r, rfl⟩ := List.append_of_mem hp
    rw [List.getLast?_append] at hl
    have had : Adjoining (p :: r) := by
      clear hl hp
      induction l with
      | nil => exact h
      | cons y l ih =>
        apply ih
        cases l with
        | nil => exact h.2.2
        | cons z l => exact h.2.2
    cases r with
    | nil => simp at hl; rw [hl]; exact h2
    | cons q r =>
      have hlast : last ∈ q :: r := by
        rw [List.getLast?_cons_cons] at hl
        cases hg : (q :: r).getLast? with
        | none => simp at hg
        | some z =>
          rw [hg] at hl
          simp at hl
          rw [← hl]
          exact List.mem_of_getLast? hg
      have h3 := adjoining_from_le (q :: r) p last had hlast
      have h4 : last.frm < last.to := by
        clear h3 hl h2
        have had' : Adjoining (q :: r) := had.2.2
        clear had h
        induction r generalizing q with
        | nil => simp at hlast; subst hlast; exact had'
        | cons s r ih =>
          rcases List.mem_cons.1 hlast with rfl | hlast
          · exact had'.1
          · exact ih s (by simp) hlast had'.2.2
      linarith
  rw [evalPieces, List.find?_eq_none.2, Option.map_none]
  intro p hp
  have := key p hp
  simp only [decide_eq_true_eq, not_lt]
  exact this

/-- C65: below the first bound the first piece is extrapolated; nothing is rejected. -/
theorem C65_below (p : Piece) (ps : List Piece) (h : Adjoining (p :: ps)) (x : Rat) (hx : x < p.frm) :
    evalPieces (p :: ps) x = some (polyValue x p.factors) := by
  have : p.frm < p.to := by
    cases ps with
    | nil => exact h
    | cons q ps => exact h.1
  have hx' : x < p.to := by linarith
  rw [evalPieces, List.find?_cons]
  simp [hx', C64_horner]

example : Adjoining [⟨[1], 0, 2⟩, ⟨[1, 0], 2, 5⟩] := ⟨by norm_num, rfl, by norm_num [Adjoining]⟩
example : evalPieces [⟨[1], 0, 2⟩, ⟨[1, 0], 2, 5⟩] 2 = some 2 ∧ evalPieces [⟨[1], 0, 2⟩, ⟨[1, 0], 2, 5⟩] 5 = none := by
  constructor <;> norm_num [evalPieces, horner]

/-- C67: two values are equal iff they differ by less than 0.01. -/
theorem C67_meaning (a b : Rat) : equal a b = true ↔ |a - b| < 1 / 100 := by
  unfold equal
  rw [decide_eq_true_eq]
  split
  · rw [abs_of_neg (by assumption)]
  · rw [abs_of_nonneg (by linarith)]

/-- C67: tolerant equality is reflexive and symmetric. -/
theorem C67_refl_symm (a b : Rat) : equal a a = true ∧ equal a b = equal b a := by
  refine ⟨by rw [C67_meaning]; norm_num, ?_⟩
  rw [Bool.eq_iff_iff, C67_meaning, C67_meaning, abs_sub_comm]

/-- C67: it is not transitive; indeed chains of equal neighbours connect any two numbers. -/
theorem C67_not_transitive (a : Rat) (n : Nat) :
    (∀ i < n, equal (a + i / 200) (a + (i + 1 : Nat) / 200) = true) ∧ (2 ≤ n → equal a (a + n / 200) = false) := by
  constructor
  · intro i _
    rw [C67_meaning]
    push_cast
    rw [show a + (i : Rat) / 200 - (a + (i + 1) / 200) = -(1 / 200) by ring, abs_neg, abs_of_pos (by norm_num)]
    norm_num
  · intro hn
    rw [Bool.eq_false_iff]
    intro h
    rw [C67_meaning] at h
    have h1 : (2 : Rat) ≤ n := by exact_mod_cast hn
    rw [show a - (a + (n : Rat) / 200) = -(n / 200) by ring, abs_neg, abs_of_nonneg (by linarith)] at h
    linarith

example : equal (3 : Rat) (3 + (1 : Nat) / 200) = true := by
  rw [C67_meaning]; norm_num [abs_lt]

/-- C65: the continuity check accepts a list of pieces iff each starts less than 0.01 from where the one before it ends. -/
theorem C65_continuity_check (ps : List Piece) :
    isContinuous ps = true ↔ ∀ (i : Nat) p q, ps[i]? = some p → ps[i + 1]? = some q → |p.to - q.frm| < 1 / 100 := by
  induction ps with
  | nil => simp [isContinuous]
  | cons p ps ih =>
    cases ps with
    | nil => simp [isContinuous]
    | cons q ps =>
      have e : (if p.to - q.frm < 0 then -(p.to - q.frm) else p.to - q.frm) = |p.to - q.frm| := by
        split
        · rw [abs_of_neg (by assumption)]
        · rw [abs_of_nonneg (by linarith)]
      rw [isContinuous, Bool.and_eq_true, ih, e, C67_meaning, sub_zero, abs_abs]
      constructor
      · rintro ⟨h1, h2⟩ i a b ha hb
        cases i with
        | zero => simp at ha hb; subst ha hb; exact h1
        | succ i => exact h2 i a b (by simpa using ha) (by simpa using hb)
      · intro h
        exact ⟨h 0 p q rfl rfl, fun i a b ha hb => h (i + 1) a b (by simpa using ha) (by simpa using hb)⟩

example : isContinuous [⟨[1], 0, 2⟩, ⟨[1, 0], 2 + 1 / 200, 5⟩] = true := by norm_num [isContinuous, equal]

end Soro.Utls
