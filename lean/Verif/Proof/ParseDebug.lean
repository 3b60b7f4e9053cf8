import Verif.Model.ParseDebug
import Verif.Spec.Debug
import Verif.Proof.Debug
import Verif.Proof.ParseFp

namespace Soro.Utls
open Dbg Utls.Spec

theorem tryParseInt_eq (t : IntTy) (s : List Char) (v : Int) :
    tryParseInt t s = some v ↔ (fromChars t s).1 = .ok ∧ (fromChars t s).2.1 = [] ∧ (fromChars t s).2.2 = some v := by
  unfold tryParseInt
  generalize fromChars t s = r
  obtain ⟨a, b, c⟩ := r
  cases a <;> cases b <;> simp

theorem fromChars_some (t : IntTy) (s : List Char) (h : (fromChars t s).1 = .ok) : ∃ v, (fromChars t s).2.2 = some v := by
  revert h
  unfold fromChars
  dsimp only
  generalize (if (t.signed && decide (s.head? = some '-')) = true then s.tail else s) = body
  split
  · intro h; cases h
  · generalize (if (t.signed && decide (s.head? = some '-')) = true then
      -(((body.takeWhile Char.isDigit).foldl (fun a c => 10 * a + digit c) 0 : Nat) : Int)
      else ((body.takeWhile Char.isDigit).foldl (fun a c => 10 * a + digit c) 0 : Nat)) = v
    split
    · intro _; exact ⟨_, rfl⟩
    · intro h; cases h

theorem parseIntD_ok (t : IntTy) (s : List Char) (v : Int) : parseIntD t s = .ok v ↔ Numeral t s v ∧ Fits t v := by
  rw [← C60_accepts, tryParseInt_eq]
  unfold parseIntD
  constructor
  · intro h
    by_cases h1 : (fromChars t s).1 = .ok
    · rw [check_pos h1, ok_bind] at h
      by_cases h2 : (fromChars t s).2.1 = []
      · rw [check_pos h2, ok_bind] at h
        obtain ⟨w, hw⟩ := fromChars_some t s h1
        rw [hw] at h
        cases h
        exact ⟨h1, h2, hw⟩
      · rw [check_neg h2] at h; cases h
    · rw [check_neg h1] at h; cases h
  · rintro ⟨h1, h2, h3⟩
    rw [check_pos h1, ok_bind, check_pos h2, ok_bind, h3]; rfl

theorem parseIntD_total (t : IntTy) (s : List Char) : (∃ v, parseIntD t s = .ok v) ∨ Stops (parseIntD t s) := by
  unfold parseIntD
  by_cases h1 : (fromChars t s).1 = .ok
  · rw [check_pos h1, ok_bind]
    by_cases h2 : (fromChars t s).2.1 = []
    · rw [check_pos h2, ok_bind]; exact .inl ⟨_, rfl⟩
    · rw [check_neg h2]; exact .inr ⟨_, rfl⟩
  · rw [check_neg h1]; exact .inr ⟨_, rfl⟩

end Soro.Utls

namespace Soro.ParseFp
open Utls Utls.Spec

theorem allDigits_takeWhile (s : List Char) : AllDigits (s.takeWhile Char.isDigit) := by
  intro c h
  have := List.all_takeWhile (p := Char.isDigit) (l := s)
  exact List.all_eq_true.1 this c h

theorem dropWhile_head (s : List Char) : ∀ c, (s.dropWhile Char.isDigit).head? = some c → c.isDigit = false := by
  intro c hc
  have := List.head?_dropWhile_not Char.isDigit s
  rw [hc] at this
  simpa using this

theorem exponent_text {ex : List Char} {e : Int} (h : Exponent ex e) :
    exponent ex = ((exponent ex).1, (exponent ex).2.1, []) ∧
      (if (exponent ex).1 then -(natOf (exponent ex).2.1 : Int) else natOf (exponent ex).2.1) = e := by
  cases h with
  | none => exact ⟨rfl, rfl⟩
  | plain c ds hc hne hd =>
    obtain ⟨d, ds', rfl⟩ := List.exists_cons_of_ne_nil hne
    have hm := digit_ne_minus (hd d (by simp))
    obtain ⟨h1, h2⟩ := takeWhile_all hd
    simp [exponent, hc, hm.1, hm.2.2.2, h1, h2, natOf_eq]
  | plus c ds hc hne hd =>
    obtain ⟨d, ds', rfl⟩ := List.exists_cons_of_ne_nil hne
    obtain ⟨h1, h2⟩ := takeWhile_all hd
    simp [exponent, hc, h1, h2, natOf_eq]
  | minus c ds hc hne hd =>
    obtain ⟨d, ds', rfl⟩ := List.exists_cons_of_ne_nil hne
    obtain ⟨h1, h2⟩ := takeWhile_all hd
    simp [exponent, hc, h1, h2, natOf_eq]

theorem exponent_of {r : List Char} (h : (exponent r).2.2 = []) :
    Exponent r (if (exponent r).1 then -(natOf (exponent r).2.1 : Int) else natOf (exponent r).2.1) := by
  cases r with
  | nil => exact .none
  | cons c r =>
    rw [exponent] at h ⊢
    by_cases hc : c = 'e' ∨ c = 'E'
    · rw [if_pos hc] at h ⊢
      by_cases he : ((if r.head? = some '-' ∨ r.head? = some '+' then r.tail else r).takeWhile Char.isDigit).isEmpty = true
      · simp only [he, if_true] at h
        cases h
      · simp only [if_neg he] at h ⊢
        have had := all_of_dropWhile h
        obtain ⟨h1, -⟩ := takeWhile_all had
        rw [h1] at he ⊢
        have hne : (if r.head? = some '-' ∨ r.head? = some '+' then r.tail else r) ≠ [] := by simpa using he
        rw [natOf_eq]
        cases r with
        | nil => simp at hne
        | cons d r' =>
          by_cases hd : d = '-'
          · subst hd
            simp only [List.head?_cons, true_or, if_true, List.tail_cons, decide_true] at hne had ⊢
            exact .minus c r' hc hne had
          · by_cases hp : d = '+'
            · subst hp
              simp only [List.head?_cons, or_true, if_true, List.tail_cons] at hne had ⊢
              exact .plus c r' hc hne had
            · simp only [List.head?_cons, Option.some.injEq, hd, hp, or_self, if_false, decide_false] at hne had ⊢
              exact .plain c (d :: r') hc hne had
    · rw [if_neg hc] at h
      cases h

theorem exponent_head {ex : List Char} {e : Int} (h : Exponent ex e) : ∀ c, ex.head? = some c → c = 'e' ∨ c = 'E' := by
  intro c hc
  cases h with
  | none => cases hc
  | plain c' ds h1 _ _ => cases hc; exact h1
  | plus c' ds h1 _ _ => cases hc; exact h1
  | minus c' ds h1 _ _ => cases hc; exact h1

theorem scale (m : Rat) (b : Bool) (k : Nat) :
    (if b = true then m / ((10 ^ k : Nat) : Rat) else m * ((10 ^ k : Nat) : Rat)) =
      m * (10 : Rat) ^ (if b = true then -(k : Int) else (k : Int)) := by
  cases b <;> simp [zpow_neg, div_eq_mul_inv]

theorem mantissa (ip fp : List Char) : ((natOf (ip ++ fp) : Nat) : Rat) / ((10 ^ fp.length : Nat) : Rat) =
    (value ip : Rat) + (value fp : Rat) / ((10 ^ fp.length : Nat) : Rat) := by
  have h10 : ((10 : Rat) ^ fp.length) ≠ 0 := pow_ne_zero _ (by decide)
  rw [natOf_eq, value_append_list]
  push_cast
  field_simp

theorem signed (neg : Bool) (x y : Rat) : (if neg = true then -(x * y) else x * y) = (if neg then -1 else 1) * x * y := by
  cases neg <;> simp

theorem floating_read {s : List Char} {q : Rat} (h : Floating ['.'] s q) : fpFromChars s = (.ok, [], some q) := by
  obtain ⟨neg, ip, fp, frac, ex, e, h1, h2, h3, h4, h5, rfl, rfl⟩ := h
  have hexh := exponent_head h5
  have hexd : ∀ c, ex.head? = some c → c.isDigit = false ∧ c ≠ '.' ∧ c ≠ '-' := by
    intro c hc
    rcases hexh c hc with rfl | rfl <;> decide
  have h4' : fp = [] ∧ frac = [] ∨ frac = '.' :: fp := by simpa using h4
  have hhead : ∀ c, (ip ++ frac ++ ex).head? = some c → c ≠ '-' := by
    intro c hc
    cases ip with
    | cons i is => cases hc; exact (digit_ne_minus (h1 _ (by simp))).1
    | nil =>
      rcases h4' with ⟨rfl, rfl⟩ | rfl
      · exact absurd rfl h3
      · cases hc; decide
  have hneg : decide (((if neg = true then ['-'] else []) ++ ip ++ frac ++ ex).head? = some '-') = neg := by
    cases neg with
    | true => simp
    | false =>
      simp only [Bool.false_eq_true, if_false, List.nil_append, decide_eq_false_iff_not]
      exact fun hc => hhead _ hc rfl
  have hbody : (if neg = true then ((if neg = true then ['-'] else []) ++ ip ++ frac ++ ex).tail
      else (if neg = true then ['-'] else []) ++ ip ++ frac ++ ex) = ip ++ (frac ++ ex) := by
    cases neg <;> simp
  have hnd : ∀ c, (frac ++ ex).head? = some c → c.isDigit = false := by
    intro c hc
    rcases h4' with ⟨_, rfl⟩ | rfl
    · exact (hexd c hc).1
    · cases hc; decide
  obtain ⟨a1, a2⟩ := span_digits h1 hnd
  obtain ⟨b1, b2⟩ := exponent_text h5
  unfold fpFromChars
  simp only [hneg, hbody, a1, a2]
  rcases h4' with ⟨rfl, rfl⟩ | rfl
  · have hp : decide ((ex : List Char).head? = some '.') = false := by
      simp only [decide_eq_false_iff_not]
      exact fun h => (hexd _ h).2.1 rfl
    have hie : (ip.isEmpty && ([] : List Char).isEmpty) = false := by
      cases ip with
      | nil => exact absurd rfl h3
      | cons _ _ => rfl
    simp only [List.nil_append, hp, if_neg Bool.false_ne_true, hie, scale]
    rw [mantissa, b2]
    have b3 : (exponent ex).2.2 = [] := by rw [b1]
    rw [b3]
    cases neg <;> simp <;> ring
  · obtain ⟨c1, c2⟩ := span_digits h2 fun c hc => (hexd c hc).1
    have hp : decide (('.' :: fp ++ ex).head? = some '.') = true := by simp
    have ht : ('.' :: fp ++ ex).tail = fp ++ ex := rfl
    have hie : (ip.isEmpty && fp.isEmpty) = false := by
      cases ip with
      | nil =>
        cases fp with
        | nil => exact absurd rfl h3
        | cons _ _ => rfl
      | cons _ _ => rfl
    simp only [hp, ht, if_true, c1, c2, hie, scale]
    rw [if_neg Bool.false_ne_true, mantissa, b2]
    have b3 : (exponent ex).2.2 = [] := by rw [b1]
    rw [b3]
    cases neg <;> simp <;> ring

theorem floating_of {s : List Char} (h1 : (fpFromChars s).1 = .ok) (h2 : (fpFromChars s).2.1 = []) :
    ∃ q, (fpFromChars s).2.2 = some q ∧ Floating ['.'] s q := by
  revert h1 h2
  unfold fpFromChars
  dsimp only
  have hsg : s = (if decide (s.head? = some '-') then ['-'] else []) ++ (if decide (s.head? = some '-') = true then s.tail else s) := by
    cases s with
    | nil => rfl
    | cons c r =>
      by_cases hc : c = '-'
      · subst hc; simp
      · simp [hc]
  generalize decide (s.head? = some '-') = neg at hsg ⊢
  generalize (if neg = true then s.tail else s) = body at hsg ⊢
  have hb := (List.takeWhile_append_dropWhile (p := Char.isDigit) (l := body)).symm
  have hip := allDigits_takeWhile body
  generalize body.takeWhile Char.isDigit = ip at hb hip ⊢
  generalize body.dropWhile Char.isDigit = r1 at hb ⊢
  by_cases hp : r1.head? = some '.'
  · obtain ⟨t, rfl⟩ : ∃ t, r1 = '.' :: t := by
      cases r1 with
      | nil => cases hp
      | cons c t => cases hp; exact ⟨t, rfl⟩
    simp only [List.head?_cons, decide_true, if_true, List.tail_cons]
    have ht := (List.takeWhile_append_dropWhile (p := Char.isDigit) (l := t)).symm
    have hfp := allDigits_takeWhile t
    generalize t.takeWhile Char.isDigit = fp at ht hfp ⊢
    generalize t.dropWhile Char.isDigit = r2 at ht ⊢
    split
    · intro h; cases h
    · rename_i hne
      intro _ h2
      refine ⟨_, rfl, neg, ip, fp, '.' :: fp, r2, _, hip, hfp, ?_, .inr ⟨_, by simp, rfl⟩, exponent_of h2, ?_, ?_⟩
      · intro h; apply hne; simp_all
      · rw [hsg, hb, ht]; simp
      · rw [scale, mantissa, signed]
  · simp only [hp, decide_false, Bool.false_eq_true, if_false]
    split
    · intro h; cases h
    · rename_i hne
      intro _ h2
      refine ⟨_, rfl, neg, ip, [], [], r1, _, hip, (by intro c hc; cases hc), ?_, .inl ⟨rfl, rfl⟩, exponent_of h2, ?_, ?_⟩
      · intro h; apply hne; simp_all
      · rw [hsg, hb]; simp
      · rw [scale, mantissa, signed]

open Dbg in
theorem implD_ok (s : List Char) (o : Option Rat) : parseFpImplD s = .ok o ↔ ∃ q, o = some q ∧ Floating ['.'] s q := by
  unfold parseFpImplD
  constructor
  · intro h
    by_cases h1 : (fpFromChars s).1 = .ok
    · rw [check_pos h1, ok_bind] at h
      by_cases h2 : (fpFromChars s).2.1 = []
      · rw [check_pos h2, ok_bind] at h
        obtain ⟨q, hq, hf⟩ := floating_of h1 h2
        rw [hq] at h
        cases h
        exact ⟨q, rfl, hf⟩
      · rw [check_neg h2] at h; cases h
    · rw [check_neg h1] at h; cases h
  · rintro ⟨q, rfl, hf⟩
    rw [floating_read hf]
    rfl

open Dbg in
theorem implD_total (s : List Char) : (∃ o, parseFpImplD s = .ok o) ∨ Dbg.Stops (parseFpImplD s) := by
  unfold parseFpImplD
  by_cases h1 : (fpFromChars s).1 = .ok
  · rw [check_pos h1, ok_bind]
    by_cases h2 : (fpFromChars s).2.1 = []
    · rw [check_pos h2, ok_bind]; exact .inl ⟨_, rfl⟩
    · rw [check_neg h2]; exact .inr ⟨_, rfl⟩
  · rw [check_neg h1]; exact .inr ⟨_, rfl⟩

theorem exponent_no_comma {ex : List Char} {e : Int} (h : Exponent ex e) : ∀ c ∈ ex, c ≠ ',' := by
  have hd : ∀ {ds : List Char}, AllDigits ds → ∀ c ∈ ds, c ≠ ',' := fun h c hc => (digit_ne_minus (h c hc)).2.1
  have he : ∀ {c : Char}, c = 'e' ∨ c = 'E' → c ≠ ',' := by rintro c (rfl | rfl) <;> decide
  cases h with
  | none => intro c hc; cases hc
  | plain c ds h1 _ h3 =>
    intro x hx
    rcases List.mem_cons.1 hx with rfl | hx
    · exact he h1
    · exact hd h3 x hx
  | plus c ds h1 _ h3 =>
    intro x hx
    rcases List.mem_cons.1 hx with rfl | hx
    · exact he h1
    · rcases List.mem_cons.1 hx with rfl | hx
      · decide
      · exact hd h3 x hx
  | minus c ds h1 _ h3 =>
    intro x hx
    rcases List.mem_cons.1 hx with rfl | hx
    · exact he h1
    · rcases List.mem_cons.1 hx with rfl | hx
      · decide
      · exact hd h3 x hx

theorem replaceComma_none {s : List Char} (h : ∀ c ∈ s, c ≠ ',') : replaceComma s = s := by
  unfold replaceComma
  conv => rhs; rw [← List.map_id s]
  refine List.map_congr_left fun c hc => ?_
  simp [h c hc]

theorem floating_no_comma {s : List Char} {q : Rat} (h : Floating ['.'] s q) : ∀ c ∈ s, c ≠ ',' := by
  obtain ⟨neg, ip, fp, frac, ex, e, h1, h2, h3, h4, h5, rfl, rfl⟩ := h
  intro c hc
  simp only [List.mem_append] at hc
  rcases hc with ((hc | hc) | hc) | hc
  · cases neg <;> simp at hc; subst hc; decide
  · exact (digit_ne_minus (h1 c hc)).2.1
  · rcases h4 with ⟨_, rfl⟩ | ⟨sep, hs, rfl⟩
    · cases hc
    · rcases List.mem_cons.1 hc with rfl | hc
      · simp at hs; subst hs; decide
      · exact (digit_ne_minus (h2 c hc)).2.1
  · exact exponent_no_comma h5 c hc

theorem floating_replace {s : List Char} {q : Rat} : Floating [',', '.'] s q ↔ Floating ['.'] (replaceComma s) q := by
  have happ : ∀ a b, replaceComma (a ++ b) = replaceComma a ++ replaceComma b := fun a b => List.map_append
  have hsg : ∀ neg : Bool, replaceComma (if neg then ['-'] else []) = if neg then ['-'] else [] := by decide
  constructor
  · rintro ⟨neg, ip, fp, frac, ex, e, h1, h2, h3, h4, h5, rfl, rfl⟩
    refine ⟨neg, ip, fp, replaceComma frac, ex, e, h1, h2, h3, ?_, h5, ?_, rfl⟩
    · rcases h4 with ⟨h4, rfl⟩ | ⟨sep, hs, rfl⟩
      · exact .inl ⟨h4, rfl⟩
      · refine .inr ⟨'.', by simp, ?_⟩
        rw [← List.singleton_append, happ, replaceComma_digits h2]
        simp only [List.mem_cons, List.not_mem_nil, or_false] at hs
        rcases hs with rfl | rfl <;> rfl
    · rw [happ, happ, happ, hsg, replaceComma_digits h1, replaceComma_none (exponent_no_comma h5)]
  · rintro ⟨neg, ip, fp, frac, ex, e, h1, h2, h3, h4, h5, h6, rfl⟩
    -- split the original text at the same places
    have hsplit : ∀ (a b t : List Char), replaceComma t = a ++ b → ∃ a' b', t = a' ++ b' ∧ replaceComma a' = a ∧ replaceComma b' = b := by
      intro a b t ht
      obtain ⟨a', b', h, h', h''⟩ := List.map_eq_append_iff.1 ht
      exact ⟨a', b', h, h', h''⟩
    have hback : ∀ (t u : List Char), replaceComma t = u → (∀ c ∈ u, c ≠ '.') → t = u := by
      intro t
      induction t with
      | nil => intro u h _; exact h
      | cons c t ih =>
        intro u h hu
        rw [replaceComma, List.map_cons] at h
        subst h
        by_cases hc : c = ','
        · subst hc
          exact absurd rfl (hu '.' (by simp))
        · simp only [if_neg hc]
          congr 1
          exact ih _ rfl fun x hx => hu x (List.mem_cons_of_mem _ hx)
    obtain ⟨t1, tex, rfl, k1, k2⟩ := hsplit _ _ _ h6
    obtain ⟨t2, tfrac, rfl, k3, k4⟩ := hsplit _ _ _ k1
    obtain ⟨tneg, tip, rfl, k5, k6⟩ := hsplit _ _ _ k3
    have hdig : ∀ {ds : List Char}, AllDigits ds → ∀ c ∈ ds, c ≠ '.' := fun h c hc => (digit_ne_minus (h c hc)).2.2.1
    have hexp : ∀ c ∈ ex, c ≠ '.' := by
      have he : ∀ {c : Char}, c = 'e' ∨ c = 'E' → c ≠ '.' := by rintro c (rfl | rfl) <;> decide
      cases h5 with
      | none => intro c hc; cases hc
      | plain c ds h1 _ h3 =>
        intro x hx
        rcases List.mem_cons.1 hx with rfl | hx
        · exact he h1
        · exact hdig h3 x hx
      | plus c ds h1 _ h3 =>
        intro x hx
        rcases List.mem_cons.1 hx with rfl | hx
        · exact he h1
        · rcases List.mem_cons.1 hx with rfl | hx
          · decide
          · exact hdig h3 x hx
      | minus c ds h1 _ h3 =>
        intro x hx
        rcases List.mem_cons.1 hx with rfl | hx
        · exact he h1
        · rcases List.mem_cons.1 hx with rfl | hx
          · decide
          · exact hdig h3 x hx
    have e1 := hback _ _ k2 hexp
    have e2 := hback _ _ k6 (hdig h1)
    have e3 := hback _ _ k5 (by cases neg <;> simp)
    subst e1 e2 e3
    refine ⟨neg, tip, fp, tfrac, tex, e, h1, h2, h3, ?_, h5, rfl, rfl⟩
    rcases h4 with ⟨h4, rfl⟩ | ⟨sep, hs, rfl⟩
    · exact .inl ⟨h4, List.map_eq_nil_iff.1 k4⟩
    · simp only [List.mem_singleton] at hs
      subst hs
      cases tfrac with
      | nil => cases k4
      | cons c t =>
        rw [replaceComma, List.map_cons] at k4
        injection k4 with k7 k8
        have : t = fp := hback _ _ k8 (hdig h2)
        subst this
        refine .inr ⟨c, ?_, rfl⟩
        by_cases hc : c = ','
        · simp [hc]
        · rw [if_neg hc] at k7; simp [k7]

end Soro.ParseFp
