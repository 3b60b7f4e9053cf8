import Verif.Proof.ParseDebug
import Verif.Props.ParseFp

/-! C180: which numbers the assertions of the number parsers accept. -/

namespace Soro.Utls
open Dbg Utls.Spec

/-- C180: with assertions an integer is read iff the whole text is a numeral of the type, and then as in a release build; any
other text is stopped. -/
theorem C180_int (t : IntTy) (s : List Char) :
    (∀ v, Numeral t s v → Fits t v → parseIntD t s = .ok v ∧ parseInt t s = v) ∧
    ((¬ ∃ v, Numeral t s v ∧ Fits t v) → Stops (parseIntD t s)) := by
  refine ⟨fun v h1 h2 => ⟨(parseIntD_ok t s v).2 ⟨h1, h2⟩, C60_parse_int t s v h1 h2⟩, fun h => ?_⟩
  rcases parseIntD_total t s with ⟨v, hv⟩ | h'
  · exact absurd ⟨v, (parseIntD_ok t s v).1 hv⟩ h
  · exact h'

/-- the texts that a release build reads without an error are stopped -/
example : Stops (parseIntD ⟨false, 4⟩ "12abc".toList) ∧ Stops (parseIntD ⟨false, 4⟩ "".toList) ∧
    Stops (parseIntD ⟨false, 1⟩ "256".toList) ∧ parseIntD ⟨true, 1⟩ "-128".toList = .ok (-128) :=
  ⟨⟨48, by decide⟩, ⟨45, by decide⟩, ⟨45, by decide⟩, by decide⟩

end Soro.Utls

namespace Soro.ParseFp
open Utls Utls.Spec

/-- C180: with assertions a number is read iff the whole text is a floating point number, with a comma only where commas are
replaced, and then as in a release build; any other text is stopped. -/
theorem C180_fp (replace : Bool) (s : List Char) :
    (∀ q, Floating (if replace then [',', '.'] else ['.']) s q → parseFpD replace s = .ok (some q) ∧ parseFp replace s = some q) ∧
    ((¬ ∃ q, Floating (if replace then [',', '.'] else ['.']) s q) → Dbg.Stops (parseFpD replace s)) := by
  cases replace with
  | true =>
    simp only [if_true, parseFpD, parseFp, floating_replace]
    refine ⟨fun q h => ⟨(implD_ok _ _).2 ⟨q, rfl, h⟩, by rw [floating_read h]⟩, fun h => ?_⟩
    rcases implD_total (replaceComma s) with ⟨o, ho⟩ | h'
    · obtain ⟨q, -, hq⟩ := (implD_ok _ _).1 ho
      exact absurd ⟨q, hq⟩ h
    · exact h'
  | false =>
    simp only [Bool.false_eq_true, if_false, parseFpD, parseFp]
    refine ⟨fun q h => ?_, fun h => ?_⟩
    · have hc : s.any (· == ',') = false := by
        rw [List.any_eq_false]
        intro c hc
        simpa using floating_no_comma h c hc
      rw [Dbg.check_pos hc, Dbg.ok_bind]
      exact ⟨(implD_ok _ _).2 ⟨q, rfl, h⟩, by rw [floating_read h]⟩
    · by_cases hc : s.any (· == ',') = false
      · rw [Dbg.check_pos hc, Dbg.ok_bind]
        rcases implD_total s with ⟨o, ho⟩ | h'
        · obtain ⟨q, -, hq⟩ := (implD_ok _ _).1 ho
          exact absurd ⟨q, hq⟩ h
        · exact h'
      · rw [Dbg.check_neg hc]; exact ⟨_, rfl⟩

theorem decimal_floating {seps s : List Char} {q : Rat} (h : Decimal seps s q) : Floating seps s q := by
  obtain ⟨neg, ip, fp, h1, h2, h3, h4, rfl⟩ := h
  have hne : ip ++ fp ≠ [] := by simp [h1]
  rcases h4 with ⟨rfl, rfl⟩ | ⟨sep, hs, rfl⟩
  · exact ⟨neg, ip, [], [], [], 0, h2, h3, hne, .inl ⟨rfl, rfl⟩, .none, by simp, by simp⟩
  · exact ⟨neg, ip, fp, sep :: fp, [], 0, h2, h3, hne, .inr ⟨sep, hs, rfl⟩, .none, by simp, by simp⟩

/-- C180: decimal numbers are accepted; so the texts C139 finds to be read without an error by a release build are the only
ones that are not read as numbers, and the debug build is stopped at them: a comma that is not replaced, a number that is followed
by a character that cannot continue it, and a text that begins with something else. -/
theorem C180_garbage :
    (∀ s q, Decimal [',', '.'] s q → parseFpD true s = .ok (some q)) ∧ (∀ s q, Decimal ['.'] s q → parseFpD false s = .ok (some q)) ∧
    (∀ s, ',' ∈ s → Dbg.Stops (parseFpD false s)) ∧
    (∀ s g q, Decimal [',', '.'] s q → Stops g → g ≠ [] → Dbg.Stops (parseFpD true (s ++ g))) ∧
    (∀ c r, c.isDigit = false → c ∉ ['-', '.', ','] → ∀ replace, Dbg.Stops (parseFpD replace (c :: r))) ∧
    ∀ replace, Dbg.Stops (parseFpD replace []) := by
  refine ⟨fun s q h => ((C180_fp true s).1 q (decimal_floating h)).1, fun s q h => ((C180_fp false s).1 q (decimal_floating h)).1,
    fun s hs => ?_, fun s g q hs hg hne => ?_, fun c r hc hn replace => ?_, fun replace => ?_⟩
  · have hc : ¬ s.any (· == ',') = false := by
      rw [List.any_eq_false]
      exact fun h => absurd (h ',' hs) (by simp)
    rw [parseFpD, if_neg Bool.false_ne_true, Dbg.check_neg hc]
    exact ⟨_, rfl⟩
  · have hread : (fpFromChars (replaceComma (s ++ g))).2.1 = replaceComma g := by
      obtain ⟨neg, ip, fp, h1, h2, h3, h4, rfl⟩ := hs
      have hsg : ∀ neg : Bool, replaceComma (if neg then ['-'] else []) = if neg then ['-'] else [] := by decide
      have happ : ∀ a b, replaceComma (a ++ b) = replaceComma a ++ replaceComma b := fun a b => List.map_append
      rcases h4 with ⟨rfl, rfl⟩ | ⟨sep, hsep, rfl⟩
      · have := fromChars_core neg h1 h2 h3 (.inl ⟨rfl, rfl⟩) (stops_replace hg)
        rw [List.append_nil] at this
        rw [happ, happ, hsg, replaceComma_digits h2, this]
      · have := fromChars_core neg h1 h2 h3 (.inr rfl) (stops_replace hg)
        have hc : replaceComma (sep :: fp) = '.' :: fp := by
          rw [← List.singleton_append, happ, replaceComma_digits h3]
          simp only [List.mem_cons, List.not_mem_nil, or_false] at hsep
          rcases hsep with rfl | rfl <;> rfl
        rw [happ, happ, happ, hsg, replaceComma_digits h2, hc, this]
    rw [parseFpD, if_pos rfl]
    rcases implD_total (replaceComma (s ++ g)) with ⟨o, ho⟩ | h'
    · obtain ⟨q', -, hq⟩ := (implD_ok _ _).1 ho
      rw [floating_read hq] at hread
      exact absurd (List.map_eq_nil_iff.1 hread.symm) hne
    · exact h'
  · apply (C180_fp replace (c :: r)).2
    rintro ⟨q, neg, ip, fp, frac, ex, e, h1, h2, h3, h4, h5, h6, -⟩
    have hs : ∀ sep ∈ (if replace = true then [',', '.'] else ['.']), sep = ',' ∨ sep = '.' := by
      cases replace <;> simp
    cases neg with
    | true => cases h6; simp at hn
    | false =>
      cases ip with
      | cons i is => cases h6; rw [h1 _ (by simp)] at hc; cases hc
      | nil =>
        rcases h4 with ⟨rfl, rfl⟩ | ⟨sep, hsep, rfl⟩
        · exact h3 rfl
        · simp only [Bool.false_eq_true, if_false, List.nil_append, List.cons_append] at h6
          injection h6 with h6
          rcases hs sep hsep with rfl | rfl <;> simp [h6] at hn
  · apply (C180_fp replace []).2
    rintro ⟨q, neg, ip, fp, frac, ex, e, h1, h2, h3, h4, h5, h6, -⟩
    have h7 := h6.symm
    simp only [List.append_eq_nil_iff] at h7
    obtain ⟨⟨⟨-, rfl⟩, h8⟩, -⟩ := h7
    rcases h4 with ⟨rfl, rfl⟩ | ⟨sep, hsep, rfl⟩
    · exact h3 rfl
    · cases h8

example : parseFpD true "-2,50".toList = .ok (some (-5 / 2)) ∧ Dbg.Stops (parseFpD false "2,50".toList) ∧
    Dbg.Stops (parseFpD true "2,50km".toList) ∧ parseFpD false "25e-1".toList = .ok (some (5 / 2)) := by
  refine ⟨?_, ⟨63, by decide +kernel⟩, ⟨40, by decide +kernel⟩, ?_⟩ <;> decide +kernel

end Soro.ParseFp
