import Verif.Spec.ParseFp
import Verif.Props.Utls
import Mathlib.Tactic.Ring
import Mathlib.Tactic.FieldSimp
import Mathlib.Data.Rat.Cast.Order

namespace Soro.ParseFp
open Utls Utls.Spec

theorem natOf_eq (ds : List Char) : natOf ds = value ds := by rw [natOf, foldl_value]; simp

theorem value_append_list (a b : List Char) : value (a ++ b) = value a * 10 ^ b.length + value b := by
  induction a with
  | nil => simp [value]
  | cons c a ih => rw [List.cons_append, value, ih, value, List.length_append, Nat.pow_add]; ring

theorem span_digits {ds rest : List Char} (hd : AllDigits ds) (hr : ∀ c, rest.head? = some c → c.isDigit = false) :
    (ds ++ rest).takeWhile Char.isDigit = ds ∧ (ds ++ rest).dropWhile Char.isDigit = rest := by
  induction ds with
  | nil =>
    cases rest with
    | nil => simp
    | cons c r => simp [hr c rfl]
  | cons d ds ih =>
    have h1 := hd d (by simp)
    have h2 := ih fun c hc => hd c (List.mem_cons_of_mem _ hc)
    simp [h1, h2]

theorem exponent_stops {g : List Char} (hg : Stops g) : exponent g = (false, [], g) := by
  cases g with
  | nil => rfl
  | cons c r =>
    have := hg c rfl
    simp [exponent, this]

theorem digit_ne_minus {c : Char} (h : c.isDigit = true) : c ≠ '-' ∧ c ≠ ',' ∧ c ≠ '.' ∧ c ≠ '+' := by
  refine ⟨?_, ?_, ?_, ?_⟩ <;> (rintro rfl; exact absurd h (by decide))

theorem fromChars_core {ip fp frac g : List Char} (neg : Bool) (hne : ip ≠ []) (hip : AllDigits ip) (hfp : AllDigits fp)
    (hfrac : fp = [] ∧ frac = [] ∨ frac = '.' :: fp) (hg : Stops g) :
    fpFromChars ((if neg then ['-'] else []) ++ ip ++ frac ++ g) =
      (.ok, g, some ((if neg then -1 else 1) * ((value ip : Rat) + (value fp : Rat) / (10 ^ fp.length : Nat)))) := by
  obtain ⟨i, is, rfl⟩ := List.exists_cons_of_ne_nil hne
  have hi := digit_ne_minus (hip i (by simp))
  have hneg : decide (((if neg = true then ['-'] else []) ++ i :: is ++ frac ++ g).head? = some '-') = neg := by
    cases neg <;> simp [hi.1]
  have hbody : (if neg = true then ((if neg = true then ['-'] else []) ++ i :: is ++ frac ++ g).tail
      else (if neg = true then ['-'] else []) ++ i :: is ++ frac ++ g) = i :: is ++ (frac ++ g) := by
    cases neg <;> simp
  have hnd : ∀ c, (frac ++ g).head? = some c → c.isDigit = false := by
    intro c hc
    rcases hfrac with ⟨_, rfl⟩ | rfl
    · exact (hg c hc).1
    · cases hc; decide
  obtain ⟨h1, h2⟩ := span_digits hip hnd
  have h10 : ((10 : Rat) ^ fp.length) ≠ 0 := pow_ne_zero _ (by decide)
  unfold fpFromChars
  simp only [hneg, hbody, h1, h2]
  rcases hfrac with ⟨rfl, rfl⟩ | rfl
  · have hp : decide ((g : List Char).head? = some '.') = false := by
      simp only [decide_eq_false_iff_not]
      exact fun h => (hg _ h).2.1 rfl
    simp only [List.nil_append, hp, if_neg Bool.false_ne_true, exponent_stops hg, natOf_eq]
    cases neg <;> simp [value, natOf]
  · obtain ⟨h3, h4⟩ := span_digits hfp fun c hc => (hg c hc).1
    have hp : decide (('.' :: fp ++ g).head? = some '.') = true := by simp
    have ht : ('.' :: fp ++ g).tail = fp ++ g := rfl
    simp only [hp, ht, if_true, h3, h4, exponent_stops hg, natOf_eq]
    rw [value_append_list (i :: is) fp]
    cases neg <;> simp [value] <;> field_simp <;> ring

theorem replaceComma_digits {ds : List Char} (h : AllDigits ds) : replaceComma ds = ds := by
  unfold replaceComma
  conv => rhs; rw [← List.map_id ds]
  refine List.map_congr_left fun c hc => ?_
  simp [(digit_ne_minus (h c hc)).2.1]

theorem stops_replace {g : List Char} (h : Stops g) : Stops (replaceComma g) := by
  cases g with
  | nil => exact h
  | cons c r =>
    intro c' hc'
    have := h c rfl
    simp only [replaceComma, List.map_cons, List.head?_cons, Option.some.injEq, if_neg this.2.2.1] at hc'
    exact hc' ▸ this

theorem parseFp_core {s g : List Char} {q : Rat} (hs : Decimal [',', '.'] s q) (hg : Stops g) :
    parseFp true (s ++ g) = some q := by
  obtain ⟨neg, ip, fp, h1, h2, h3, h4, rfl⟩ := hs
  have hsg : ∀ neg : Bool, replaceComma (if neg then ['-'] else []) = if neg then ['-'] else [] := by decide
  have happ : ∀ a b, replaceComma (a ++ b) = replaceComma a ++ replaceComma b := fun a b => List.map_append
  unfold parseFp
  rw [if_pos rfl]
  rcases h4 with ⟨rfl, rfl⟩ | ⟨sep, hsep, rfl⟩
  · have := fromChars_core neg h1 h2 h3 (.inl ⟨rfl, rfl⟩) (stops_replace hg)
    rw [List.append_nil] at this
    rw [happ, happ, hsg, replaceComma_digits h2, this]
  · have := fromChars_core neg h1 h2 h3 (.inr rfl) (stops_replace hg)
    have hc : replaceComma (sep :: fp) = '.' :: fp := by
      rw [← List.singleton_append, happ, replaceComma_digits h3]
      simp only [List.mem_cons, List.not_mem_nil, or_false] at hsep
      rcases hsep with rfl | rfl <;> rfl
    rw [happ, happ, happ, hsg, replaceComma_digits h2, hc, this]

theorem parseFp_plain {s g : List Char} {q : Rat} (hs : Decimal ['.'] s q) (hg : Stops g) :
    parseFp false (s ++ g) = some q := by
  obtain ⟨neg, ip, fp, h1, h2, h3, h4, rfl⟩ := hs
  unfold parseFp
  rw [if_neg Bool.false_ne_true]
  rcases h4 with ⟨rfl, rfl⟩ | ⟨sep, hsep, rfl⟩
  · have := fromChars_core neg h1 h2 h3 (.inl ⟨rfl, rfl⟩) hg
    rw [List.append_nil] at this
    rw [this]
  · rw [List.mem_singleton] at hsep
    subst hsep
    rw [fromChars_core neg h1 h2 h3 (.inr rfl) hg]

theorem decimal_no_plus {seps s : List Char} {q : Rat} (hs : Decimal seps s q) (hp : '+' ∉ seps) : ∀ c ∈ s, c ≠ '+' := by
  obtain ⟨neg, ip, fp, _, h2, h3, h4, _⟩ := hs
  have hsg : ∀ neg : Bool, ∀ c ∈ (if neg then ['-'] else [] : List Char), c ≠ '+' := by decide
  rcases h4 with ⟨_, rfl⟩ | ⟨sep, hsep, rfl⟩
  · intro c hc
    rcases List.mem_append.1 hc with hc | hc
    · exact hsg neg c hc
    · exact (digit_ne_minus (h2 c hc)).2.2.2
  · intro c hc
    rw [List.append_assoc] at hc
    rcases List.mem_append.1 hc with hc | hc
    · exact hsg neg c hc
    · rcases List.mem_append.1 hc with hc | hc
      · exact (digit_ne_minus (h2 c hc)).2.2.2
      · rcases List.mem_cons.1 hc with rfl | hc
        · rintro rfl; exact hp hsep
        · exact (digit_ne_minus (h3 c hc)).2.2.2

theorem span_plus {s r : List Char} (hs : ∀ c ∈ s, c ≠ '+') :
    (s ++ '+' :: r).takeWhile (· != '+') = s ∧ (s ++ '+' :: r).dropWhile (· != '+') = '+' :: r ∧
    s.dropWhile (· != '+') = [] := by
  induction s with
  | nil => simp
  | cons c s ih =>
    have h1 := hs c (by simp)
    have h2 := ih fun c hc => hs c (List.mem_cons_of_mem _ hc)
    simp [h1, h2]

end Soro.ParseFp
