import Verif.Proof.KssTextDebug
import Verif.Props.Kss

/-! Property C181: the assertions on the times and durations of a timetable. -/

namespace Soro.Kss
open Dbg Utls Utls.Spec ParseFp

theorem digit_fin {c : Char} (h : c.isDigit = true) : ∃ d : Fin 10, c = Nat.digitChar d.val := by
  have h' : 48 ≤ c.toNat ∧ c.toNat ≤ 57 := by
    simp only [Char.isDigit, Bool.and_eq_true, decide_eq_true_eq] at h
    exact ⟨h.1, h.2⟩
  obtain ⟨k, hk⟩ : ∃ k, c.toNat = 48 + k := ⟨c.toNat - 48, by omega⟩
  refine ⟨⟨k, by omega⟩, ?_⟩
  have hc : Char.ofNat c.toNat = c := Char.ofNat_toNat c
  have key : ∀ k : Fin 10, Char.ofNat (48 + k.val) = Nat.digitChar k.val := by decide
  have := key ⟨k, by omega⟩
  rw [hk] at hc
  exact hc.symm.trans this

theorem two_digits {s : List Char} (hl : s.length = 2) {n : Nat} :
    Numeral ⟨false, 8⟩ s n ↔ ∃ a b : Fin 10, s = [Nat.digitChar a.val, Nat.digitChar b.val] ∧ n = 10 * a.val + b.val := by
  constructor
  · intro h
    obtain ⟨-, h2, h3⟩ := numeral_digits h
    match s, hl with
    | [x, y], _ =>
      obtain ⟨a, rfl⟩ := digit_fin (h2 x (by simp))
      obtain ⟨b, rfl⟩ := digit_fin (h2 y (by simp))
      refine ⟨a, b, rfl, ?_⟩
      have : value [Nat.digitChar a.val, Nat.digitChar b.val] = 10 * a.val + b.val := by
        simp only [value, digit_digitChar _ a.isLt, digit_digitChar _ b.isLt, List.length_cons, List.length_nil]
        omega
      rw [this] at h3
      exact_mod_cast h3
  · rintro ⟨a, b, rfl, rfl⟩
    refine .inl ⟨by simp, ?_, ?_⟩
    · intro c hc
      simp only [List.mem_cons, List.not_mem_nil, or_false] at hc
      rcases hc with rfl | rfl
      · exact isDigit_digitChar a
      · exact isDigit_digitChar b
    · simp only [value, digit_digitChar _ a.isLt, digit_digitChar _ b.isLt, List.length_cons, List.length_nil]
      push_cast; ring

theorem time_read {s : List Char} {sec : Nat} (h : TimeText s sec) (leap : Bool) :
    parseTimeOffsetD s leap = .ok (sec + if leap then 86400 else 0) ∧ parseTimeOffset s leap = some (sec + if leap then 86400 else 0) := by
  obtain ⟨h1, h2, m1, m2, s1, s2, a, b, c, d, e, rfl, rfl⟩ := h
  have hD : ∀ x y : Fin 10, parseIntD ⟨false, 8⟩ [Nat.digitChar x.val, Nat.digitChar y.val] = .ok ((10 * x.val + y.val : Nat) : Int) := by
    intro x y
    exact (parseIntD_nat 8 _ _).2 ⟨_, rfl, (two_digits rfl).2 ⟨x, y, rfl, rfl⟩, by omega⟩
  have hR : ∀ x y : Fin 10, parseUInt 64 [Nat.digitChar x.val, Nat.digitChar y.val] = 10 * x.val + y.val := by
    intro x y
    exact parseUInt_numeral (b := 8) ((two_digits rfl).2 ⟨x, y, rfl, rfl⟩) (by omega)
  have := h1.isLt; have := h2.isLt; have := m1.isLt; have := m2.isLt; have := s1.isLt; have := s2.isLt
  have hmod : ((10 * h1.val + h2.val) * 3600 + (10 * m1.val + m2.val) * 60 + (10 * s1.val + s2.val) + if leap then 86400 else 0) % 2 ^ 32 =
      (10 * h1.val + h2.val) * 3600 + (10 * m1.val + m2.val) * 60 + (10 * s1.val + s2.val) + if leap then 86400 else 0 := by
    rw [Nat.mod_eq_of_lt]
    split <;> omega
  constructor
  · unfold parseTimeOffsetD
    rw [check_pos (by rfl), ok_bind]
    simp only [List.take_succ_cons, List.take_zero, List.drop_succ_cons, List.drop_zero, hD, ok_bind, Int.toNat_natCast]
    rw [hmod]; rfl
  · unfold parseTimeOffset
    rw [if_neg (by simp)]
    simp only [List.take_succ_cons, List.take_zero, List.drop_succ_cons, List.drop_zero, hR]
    rw [hmod]

/-- C181 (times). A build with assertions reads a time from exactly the texts with two digits each for hours, minutes and seconds, one
character between and three behind them; both builds return the seconds after midnight, one day later with a night leap. Other texts
are stopped. -/
theorem C181_time (s : List Char) (leap : Bool) :
    (∀ sec, TimeText s sec → parseTimeOffsetD s leap = .ok (sec + if leap then 86400 else 0) ∧
      parseTimeOffset s leap = some (sec + if leap then 86400 else 0)) ∧
    ((¬ ∃ sec, TimeText s sec) → Dbg.Stops (parseTimeOffsetD s leap)) := by
  refine ⟨fun sec h => time_read h leap, fun h => ?_⟩
  by_cases hl : s.length = 11
  · match s, hl with
    | [x1, x2, a, x3, x4, b, x5, x6, c, d, e], hl =>
      unfold parseTimeOffsetD
      rw [check_pos hl, ok_bind]
      simp only [List.take_succ_cons, List.take_zero, List.drop_succ_cons, List.drop_zero]
      rcases parseIntD_total ⟨false, 8⟩ [x1, x2] with ⟨v1, hv1⟩ | ⟨l, hl⟩
      · rcases parseIntD_total ⟨false, 8⟩ [x3, x4] with ⟨v2, hv2⟩ | ⟨l, hl⟩
        · rcases parseIntD_total ⟨false, 8⟩ [x5, x6] with ⟨v3, hv3⟩ | ⟨l, hl⟩
          · exfalso
            obtain ⟨n1, -, e1, -⟩ := (parseIntD_nat 8 _ _).1 hv1
            obtain ⟨n2, -, e2, -⟩ := (parseIntD_nat 8 _ _).1 hv2
            obtain ⟨n3, -, e3, -⟩ := (parseIntD_nat 8 _ _).1 hv3
            obtain ⟨a1, b1, q1, -⟩ := (two_digits rfl).1 e1
            obtain ⟨a2, b2, q2, -⟩ := (two_digits rfl).1 e2
            obtain ⟨a3, b3, q3, -⟩ := (two_digits rfl).1 e3
            simp only [List.cons.injEq, and_true] at q1 q2 q3
            obtain ⟨rfl, rfl⟩ := q1
            obtain ⟨rfl, rfl⟩ := q2
            obtain ⟨rfl, rfl⟩ := q3
            exact h ⟨_, _, _, _, _, _, _, _, _, _, _, _, rfl, rfl⟩
          · rw [hv1, ok_bind, hv2, ok_bind, hl]; exact ⟨_, rfl⟩
        · rw [hv1, ok_bind, hl]; exact ⟨_, rfl⟩
      · rw [hl]; exact ⟨_, rfl⟩
  · unfold parseTimeOffsetD
    rw [check_neg hl]; exact ⟨_, rfl⟩

/-- C181: neither the characters between the numbers nor their ranges are checked. -/
theorem C181_ranges : TimeText "99x99y99abc".toList 362439 ∧ ∀ s sec, TimeText s sec → sec ≤ 362439 := by
  refine ⟨⟨9, 9, 9, 9, 9, 9, 'x', 'y', 'a', 'b', 'c', by decide, by decide⟩, ?_⟩
  rintro s sec ⟨h1, h2, m1, m2, s1, s2, -, -, -, -, -, -, rfl⟩
  omega

example : TimeText "23:59:58.90".toList 86398 ∧ (¬ ∃ sec, TimeText "23:59:58".toList sec) ∧
    ¬ ∃ sec, TimeText "7:05:00.000".toList sec := by
  refine ⟨⟨2, 3, 5, 9, 5, 8, ':', ':', '.', '9', '0', by decide, by decide⟩, ?_, ?_⟩
  · rintro ⟨sec, h1, h2, m1, m2, s1, s2, a, b, c, d, e, h, -⟩
    have h' : 8 = 11 := congrArg List.length h
    omega
  · rintro ⟨sec, h1, h2, m1, m2, s1, s2, a, b, c, d, e, h, -⟩
    have h' : ':' = Nat.digitChar h2.val := (List.cons.inj (List.cons.inj h).2).1
    have : ∀ d : Fin 10, ':' ≠ Nat.digitChar d.val := by decide
    exact this h2 h'

/-- C181 (durations). A build with assertions reads a duration from exactly the texts `PT` followed by texts with units, of which
hours and minutes are preceded by a whole number and seconds by a number; both builds return the same sum. -/
theorem C181_duration (s : List Char) (v : Nat) :
    (parseDurationD s = .ok v ↔ ∃ r m, s = 'P' :: 'T' :: r ∧ Pieces r m ∧ v = m % 2 ^ 32) ∧
    (parseDurationD s = .ok v → parseDuration s = .ok v) := by
  have key : parseDurationD s = .ok v ↔ ∃ r m, s = 'P' :: 'T' :: r ∧ Pieces r m ∧ v = m % 2 ^ 32 := by
    constructor
    · intro h
      by_cases hp : ∃ r, s = 'P' :: 'T' :: r
      · obtain ⟨r, rfl⟩ := hp
        rw [parseDurationD_eq] at h
        obtain ⟨m, hm, rfl⟩ := durLoopD_ok r 0 v (by decide) h
        exact ⟨r, m, rfl, hm, by rw [Nat.zero_add]⟩
      · obtain ⟨l, hl⟩ := parseDurationD_prefix hp
        rw [hl] at h; cases h
    · rintro ⟨r, m, rfl, hm, rfl⟩
      have := (durLoopD_pieces hm [] 0 (by decide)).1
      rw [List.append_nil, Nat.zero_add] at this
      rw [parseDurationD_eq, this, durLoopD_nil]
  refine ⟨key, fun h => ?_⟩
  obtain ⟨r, m, rfl, hm, rfl⟩ := key.1 h
  have := (durLoopD_pieces hm [] 0 (by decide)).2
  rw [List.append_nil, Nat.zero_add] at this
  rw [parseDuration, this, durLoop]

theorem writes_numeral {lead n : Nat} : Numeral ⟨false, 4⟩ (number lead n) n :=
  .inl ⟨number_ne lead n, isDigit_number lead n, by rw [value_number]⟩

theorem not_capital_digit {c : Char} (h : c.isDigit = true) : ¬ Capital c := by
  intro hc
  rw [← isCap_iff] at hc
  have h1 : 48 ≤ c.toNat ∧ c.toNat ≤ 57 := by
    simp only [Char.isDigit, Bool.and_eq_true, decide_eq_true_eq] at h
    exact ⟨h.1, h.2⟩
  have h2 : 65 ≤ c.toNat := by
    simp only [isCap, Bool.and_eq_true, decide_eq_true_eq] at hc
    exact hc.1
  omega

/-- C181: every sequence of fields as in C51 is read as the sum of its fields. -/
theorem C181_fields (fs : List Field) (h : (fs.map Field.seconds).sum < 2 ^ 32) :
    parseDurationD ('P' :: 'T' :: (fs.map Field.text).flatten) = .ok (fs.map Field.seconds).sum := by
  have hp : ∀ fs : List Field, (∀ f ∈ fs, f.seconds < 2 ^ 32) → Pieces (fs.map Field.text).flatten (fs.map Field.seconds).sum := by
    intro fs
    induction fs with
    | nil => intro _; exact .nil
    | cons f fs ih =>
      intro hf
      have hb := hf f (by simp)
      have ih := ih (fun g hg => hf g (by simp [hg]))
      rw [List.map_cons, List.flatten_cons, List.map_cons, List.sum_cons]
      cases f with
      | hours lead n =>
        simp only [Field.seconds] at hb
        have := Pieces.cons (number lead n) 'H' (3600 * n) _ _ (fun x hx => not_capital_digit (isDigit_number lead n x hx))
          (by unfold Capital; decide) (.hours _ n writes_numeral (by omega)) ih
        simpa [Field.text, Field.seconds] using this
      | minutes lead n =>
        simp only [Field.seconds] at hb
        have := Pieces.cons (number lead n) 'M' (60 * n) _ _ (fun x hx => not_capital_digit (isDigit_number lead n x hx))
          (by unfold Capital; decide) (.minutes _ n writes_numeral (by omega)) ih
        simpa [Field.text, Field.seconds] using this
      | secs lead n fr =>
        have hr := parseRounded_secs lead n fr hb
        have hdec : Decimal ['.'] (number lead n ++ fraction fr)
            ((value (number lead n) : Rat) + (value (fr.map fun d => Nat.digitChar d.val) : Rat) / ((10 ^ (fr.map fun d => Nat.digitChar d.val).length : Nat) : Rat)) := by
          refine ⟨false, number lead n, fr.map fun d => Nat.digitChar d.val, number_ne lead n, isDigit_number lead n, ?_, ?_, by simp⟩
          · intro c hc
            obtain ⟨x, -, rfl⟩ := List.mem_map.1 hc
            exact isDigit_digitChar x
          · cases fr with
            | nil => exact .inl ⟨rfl, by simp [fraction]⟩
            | cons d ds => exact .inr ⟨'.', by simp, rfl⟩
        have hfl := decimal_floating hdec
        have hval := ((C180_fp false _).1 _ hfl).2
        rw [parseRounded, hval, Option.bind_some] at hr
        obtain ⟨q1, q2⟩ := (roundTo32_ok _ _).1 hr
        have := Pieces.cons (number lead n ++ fraction fr) 'S' _ _ _ (fun x hx => ?_)
          (by unfold Capital; decide) (.seconds _ _ _ hfl q1 q2) ih
        · simpa [Field.text] using this
        · rcases List.mem_append.1 hx with hx | hx
          · exact not_capital_digit (isDigit_number lead n x hx)
          · exact (notCap_iff x).1 (not_cap_fraction fr x hx)
  have hf : ∀ f ∈ fs, f.seconds < 2 ^ 32 := by
    intro f hf
    have := le_sum fs f hf
    omega
  exact (C181_duration _ _).1.2 ⟨_, _, rfl, hp fs hf, (Nat.mod_eq_of_lt h).symm⟩

/-- C181: texts without the leading `PT` are stopped, also those that a release build reads (see C51_days_dropped); and behind any
texts with units, hours or minutes without a whole number are stopped, and so are seconds without a number. -/
theorem C181_stopped : (∀ s, (¬ ∃ r, s = 'P' :: 'T' :: r) → Dbg.Stops (parseDurationD s)) ∧
    (∀ r m text c rest, Pieces r m → (∀ x ∈ text, ¬ Capital x) → c = 'H' ∨ c = 'M' →
      (¬ ∃ n : Nat, Numeral ⟨false, 4⟩ text n ∧ n < 2 ^ 32) → Dbg.Stops (parseDurationD ('P' :: 'T' :: (r ++ (text ++ c :: rest))))) ∧
    ∀ r m text rest, Pieces r m → (∀ x ∈ text, ¬ Capital x) → (¬ ∃ q, Floating ['.'] text q) →
      Dbg.Stops (parseDurationD ('P' :: 'T' :: (r ++ (text ++ 'S' :: rest)))) := by
  refine ⟨fun s h => parseDurationD_prefix h, fun r m text c rest hr ht hc hn => ?_, fun r m text rest hr ht hn => ?_⟩
  · rw [parseDurationD_eq, (durLoopD_pieces hr _ 0 (by decide)).1,
      durLoopD_field _ _ _ _ ht (by rcases hc with rfl | rfl <;> (unfold Capital; decide))]
    have hst : Dbg.Stops (parseIntD ⟨false, 4⟩ text) := by
      rcases parseIntD_total ⟨false, 4⟩ text with ⟨v, hv⟩ | h
      · obtain ⟨n, -, h1, h2⟩ := (parseIntD_nat 4 _ _).1 hv
        exact absurd ⟨n, h1, h2⟩ hn
      · exact h
    obtain ⟨l, hl⟩ := hst
    refine ⟨l, ?_⟩
    rcases hc with rfl | rfl
    · rw [fieldSecondsD, if_pos rfl, hl]; rfl
    · rw [fieldSecondsD, if_neg (by decide), if_pos rfl, hl]; rfl
  · rw [parseDurationD_eq, (durLoopD_pieces hr _ 0 (by decide)).1, durLoopD_field _ _ _ _ ht (by unfold Capital; decide)]
    obtain ⟨l, hl⟩ := (C180_fp false text).2 hn
    exact ⟨l, by rw [fieldSecondsD, if_neg (by decide), if_neg (by decide), if_pos rfl, hl]; rfl⟩

/-- C181: the assertions do not notice that a text ends without a unit, and behind any texts with units also a build with assertions
reads past the end; units that the parser does not know are dropped together with their numbers. -/
theorem C181_unnoticed : (∀ r m tail, Pieces r m → tail ≠ [] → (∀ x ∈ tail, ¬ Capital x) →
      parseDurationD ('P' :: 'T' :: (r ++ tail)) = .error .undefined) ∧
    ∀ r m text c, Pieces r m → (∀ x ∈ text, ¬ Capital x) → Capital c → c ∉ ['H', 'M', 'S'] →
      parseDurationD ('P' :: 'T' :: (text ++ c :: r)) = parseDurationD ('P' :: 'T' :: r) := by
  refine ⟨fun r m tail hr hn ht => ?_, fun r m text c hr ht hc hn => ?_⟩
  · rw [parseDurationD_eq, (durLoopD_pieces hr _ 0 (by decide)).1, durLoopD_tail _ _ hn ht]
  · simp only [List.mem_cons, List.not_mem_nil, or_false, not_or] at hn
    have h1 := (C181_duration ('P' :: 'T' :: (text ++ c :: r)) _).1.2 ⟨_, _, rfl, .cons text c 0 r m ht hc (.other _ _ hn.1 hn.2.1 hn.2.2) hr, rfl⟩
    have h2 := (C181_duration ('P' :: 'T' :: r) _).1.2 ⟨_, _, rfl, hr, rfl⟩
    rw [h1, h2, Nat.zero_add]

/-- `PT1D5M` is five minutes; `PT15`, `P1DT2H` and `PTxM` are not durations -/
example : Pieces "1D5M".toList 300 ∧ (¬ ∃ r, "P1DT2H".toList = 'P' :: 'T' :: r) ∧ (∀ x ∈ "15".toList, ¬ Capital x) ∧
    ¬ ∃ n : Nat, Numeral ⟨false, 4⟩ "x".toList n ∧ n < 2 ^ 32 := by
  refine ⟨?_, ?_, ?_, ?_⟩
  · refine .cons ['1'] 'D' 0 ['5', 'M'] 300 ?_ (by unfold Capital; decide) (.other _ _ (by decide) (by decide) (by decide))
      (.cons ['5'] 'M' 300 [] 0 ?_ (by unfold Capital; decide) (.minutes _ 5 (.inl ⟨by simp, by decide, by decide⟩) (by decide)) .nil)
    · intro x hx; simp at hx; subst hx; unfold Capital; decide
    · intro x hx; simp at hx; subst hx; unfold Capital; decide
  · rintro ⟨r, h⟩
    exact absurd (List.cons.inj (List.cons.inj h).2).1 (by decide)
  · intro x hx
    refine not_capital_digit ?_
    revert x; decide
  · rintro ⟨n, h, -⟩
    exact absurd ((numeral_digits h).2.1 'x' (by simp)) (by decide)

end Soro.Kss
