import Verif.Proof.ParseFp

/-! Properties C139 and C140: decimal numbers and kilometrages in the input files. -/

namespace Soro
open ParseFp Utls Utls.Spec

/-! ### C139 -/

/-- C139: decimal numbers with comma or point are read as the number they write; without replacement of commas, those with a
point. -/
theorem C139_decimal_partial {s : List Char} {q : Rat} :
    (Decimal [',', '.'] s q → parseFp true s = some q) ∧ (Decimal ['.'] s q → parseFp false s = some q) := by
  have hn : Stops [] := fun _ h => by cases h
  refine ⟨fun h => ?_, fun h => ?_⟩
  · simpa using parseFp_core h hn
  · simpa using parseFp_plain h hn

/-- C139: a decimal number writes one number only. -/
theorem C139_unique {s : List Char} {q q' : Rat} (h : Decimal [',', '.'] s q) (h' : Decimal [',', '.'] s q') : q = q' :=
  Option.some.inj ((C139_decimal_partial.1 h).symm.trans (C139_decimal_partial.1 h'))

/-- C139 is false for texts that are no numbers: whatever follows a number is ignored (without replacement of commas also the
decimals after a comma), and a text without a number gives the largest number instead of an error. -/
theorem C139_garbage_negation :
    (∀ s g q, Decimal [',', '.'] s q → Stops g → parseFp true (s ++ g) = some q) ∧
    (∀ s g q, Decimal ['.'] s q → Stops g → parseFp false (s ++ g) = some q) ∧
    (∀ ip fp, ip ≠ [] → AllDigits ip → parseFp false (ip ++ ',' :: fp) = some (value ip : Rat)) ∧
    (∀ c r, c ∈ ['+', ' ', 'x'] → ∀ replace, parseFp replace (c :: r) = none) := by
  refine ⟨fun s g q h hg => parseFp_core h hg, fun s g q h hg => parseFp_plain h hg, fun ip fp hne hip => ?_, ?_⟩
  · obtain ⟨i, is, rfl⟩ := List.exists_cons_of_ne_nil hne
    have hi := digit_ne_minus (hip i (by simp))
    have hnd : ∀ c, (',' :: fp).head? = some c → c.isDigit = false := by
      intro c hc; cases hc; decide
    obtain ⟨h1, h2⟩ := span_digits hip hnd
    have hneg : decide ((i :: is ++ ',' :: fp).head? = some '-') = false := by simp [hi.1]
    have he : exponent (',' :: fp) = (false, [], ',' :: fp) := by simp [exponent]
    unfold parseFp fpFromChars
    simp only [hneg, h1, h2, if_neg Bool.false_ne_true]
    simp [natOf_eq, he, value]
  · intro c r hc replace
    have : c ≠ '-' ∧ c ≠ ',' ∧ c ≠ '.' ∧ c.isDigit = false := by
      simp only [List.mem_cons, List.not_mem_nil, or_false] at hc
      rcases hc with rfl | rfl | rfl <;> decide
    cases replace <;> simp [parseFp, fpFromChars, replaceComma, this]

example : Decimal [',', '.'] "-12,50".toList (-25 / 2) ∧ Stops "km".toList :=
  ⟨⟨true, "12".toList, "50".toList, by decide, by unfold AllDigits; decide, by unfold AllDigits; decide,
    .inr ⟨',', by decide, by decide⟩, by decide +kernel⟩, by
      intro c hc; cases hc; decide⟩

/-! ### C140 -/

/-- C140: a kilometrage is read as the number of metres it writes, in the form of a number as well as of a number and an
excess length. -/
theorem C140_kilometrage {a b : List Char} {x y : Rat} (ha : Decimal [',', '.'] a x) (hb : Decimal [',', '.'] b y) :
    parseKilometrage a = some (1000 * x) ∧ parseKilometrage (a ++ '+' :: b) = some (1000 * (x + y)) := by
  have hp := decimal_no_plus ha (by decide)
  obtain ⟨h1, h2, h3⟩ := span_plus (r := b) hp
  refine ⟨?_, ?_⟩
  · unfold parseKilometrage
    rw [h3]
    simp [C139_decimal_partial.1 ha, fromKm]
    ring
  · unfold parseKilometrage
    rw [h2, h1]
    simp [C139_decimal_partial.1 ha, C139_decimal_partial.1 hb, fromKm, plus]
    ring

/-- C140: the length of a section is the distance of the kilometrages of its ends, in either order. -/
theorem C140_section_length {a b : List Char} {x y : Rat} (ha : Decimal [',', '.'] a x) (hb : Decimal [',', '.'] b y) :
    ∃ l, sectionLength a b = some l ∧ sectionLength b a = some l ∧ 0 ≤ l ∧ (l = 1000 * (x - y) ∨ l = 1000 * (y - x)) := by
  refine ⟨|1000 * x - 1000 * y|, ?_, ?_, abs_nonneg _, ?_⟩
  · unfold sectionLength
    rw [(C140_kilometrage ha ha).1, (C140_kilometrage hb hb).1]
    simp only [Option.some.injEq]
    split
    · rw [abs_of_neg (by assumption)]
    · rw [abs_of_nonneg (not_lt.1 (by assumption))]
  · unfold sectionLength
    rw [(C140_kilometrage ha ha).1, (C140_kilometrage hb hb).1, abs_sub_comm]
    simp only [Option.some.injEq]
    split
    · rw [abs_of_neg (by assumption)]
    · rw [abs_of_nonneg (not_lt.1 (by assumption))]
  · rcases abs_choice (1000 * x - 1000 * y) with h | h <;> rw [h]
    · left; ring
    · right; ring

example : parseKilometrage "12,3+0,45".toList = some 12750 := by decide +kernel

end Soro
