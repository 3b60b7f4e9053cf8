import Verif.Props.Calendar
import Verif.Spec.Kss
import Verif.Proof.ParseFp
import Mathlib.Tactic.Ring
import Mathlib.Data.Rat.Floor
import Mathlib.Tactic.Linarith

/-! Lemmas for the KSS parser. -/

namespace Soro.Kss
open Soro.Train Soro.Transform Bitfield

/-! ### Service days -/

theorem last_cons (P : Bool → Service → Prop) (s : Service) (ss : List Service) (v : Bool) :
    Last P (s :: ss) v ↔ Last P ss v ∨ (P v s ∧ ∀ t ∈ ss, ∀ w, ¬ P w t) := by
  constructor
  · rintro ⟨pre, t, post, h, hp, hn⟩
    cases pre with
    | nil => simp only [List.nil_append, List.cons.injEq] at h; obtain ⟨rfl, rfl⟩ := h; exact .inr ⟨hp, hn⟩
    | cons a pre =>
      simp only [List.cons_append, List.cons.injEq] at h
      exact .inl ⟨pre, t, post, h.2, hp, hn⟩
  · rintro (⟨pre, t, post, rfl, hp, hn⟩ | ⟨hp, hn⟩)
    · exact ⟨s :: pre, t, post, rfl, hp, hn⟩
    · exact ⟨[], s, ss, rfl, hp, hn⟩

theorem not_last_nil (P : Bool → Service → Prop) (v : Bool) : ¬ Last P [] v := by
  rintro ⟨pre, t, post, h, _⟩; simp at h

theorem says_both (d : Int) (s : Service) (h : Says d false s) : ¬ Says d true s := by
  unfold Says at *
  cases s with
  | mask f l m => simp_all [SpecialOn]
  | special e k => cases k <;> simp_all [SpecialOn, RegularOn]

theorem make_fits (lo hi f l : Int) (m : List Char) (hw : hi - lo < 512) (h : Service.Fits lo hi (.mask f l m)) :
    ∃ b, make f l m = some b ∧ b.WF ∧ b.first = f ∧ b.last = l ∧
      ∀ d, RunsOn b d ↔ RegularOn d (.mask f l m) := by
  obtain ⟨h1, h2, h3, h4, h5⟩ := h
  obtain ⟨b, hb, hwf, hin, hout⟩ := C01_make_answers_mask f l m h3 h4 (by omega) h5
  obtain ⟨e1, e2, _⟩ := make_spec _ _ _ _ h3 h4 hb
  refine ⟨b, hb, hwf, e1, e2, ?_⟩
  intro d
  simp only [RunsOn, RegularOn]
  by_cases hd : f ≤ d ∧ d ≤ l
  · have hi : (d - f).toNat < m.length := by omega
    have := hin (d - f).toNat hi
    rw [show f + ((d - f).toNat : Int) = d by omega] at this
    rw [this, List.getElem?_eq_getElem hi]
    simp [hd.1]
  · rw [hout d (by omega)]
    simp only [reduceCtorEq, false_iff, not_and]
    intro h6 h7
    obtain ⟨h8, _⟩ := List.getElem?_eq_some_iff.1 h7
    omega

theorem ok_of_lt (b : Bitfield) (h1 : b.first < maxDay) (h2 : b.last < maxDay) : ok b = true := by
  simp [ok]; omega

/-- one service on a well-formed calendar -/
theorem step_wf (lo hi : Int) (b : Bitfield) (s : Service) (hw : hi - lo < 512) (hm : hi < maxDay) (hb : b.WF)
    (h1 : lo ≤ b.first) (h2 : b.last ≤ hi) (hs : s.Fits lo hi) :
    ∃ b', step b s = some b' ∧ b'.WF ∧ lo ≤ b'.first ∧ b'.last ≤ hi ∧
      ∀ d, RunsOn b' d ↔ Says d true s ∨ (RunsOn b d ∧ ∀ w, ¬ Says d w s) := by
  have hle := hb.le
  have hset : ∀ (d : Int) (v : Bool), lo ≤ d → d ≤ hi → ∃ b', b.set d v = some b' ∧ b'.WF ∧ lo ≤ b'.first ∧
      b'.last ≤ hi ∧ ∀ e, RunsOn b' e ↔ (d = e ∧ v = true) ∨ (RunsOn b e ∧ d ≠ e) := by
    intro d v hd1 hd2
    obtain ⟨b', hs, hwf, hf, hl, hat, hold, hnew⟩ := C02_set_visible_and_framed b d v hb (by omega)
    refine ⟨b', hs, hwf, by omega, by omega, ?_⟩
    intro e
    simp only [RunsOn]
    by_cases he : d = e
    · subst he; simp [hat]
    · by_cases hr : b.first ≤ e ∧ e ≤ b.last
      · rw [hold e (Ne.symm he) hr.1 hr.2]; simp [he]
      · have hbn : b.at? e = none := by rw [at?, if_neg hr]
        rw [hbn]
        simp only [he, false_and, reduceCtorEq, or_self, iff_false]
        by_cases hr' : b'.first ≤ e ∧ e ≤ b'.last
        · rw [hnew e (Ne.symm he) hr'.1 hr'.2 (by omega)]; simp
        · rw [at?, if_neg hr']; simp
  cases s with
  | mask f l m =>
    obtain ⟨bf, hbf, hwf, e1, e2, hr⟩ := make_fits lo hi f l m hw hs
    obtain ⟨g1, g2, _⟩ := hs
    obtain ⟨u1, u2, u3, u4, _⟩ := C03_union_days b bf hb hwf (by omega)
    refine ⟨b.union bf, ?_, u1, by omega, by omega, ?_⟩
    · simp [step, hbf, ok_of_lt b (by omega) (by omega)]
    · intro d
      rw [u4, hr]
      simp only [Says, SpecialOn, false_or]
      constructor
      · rintro (h | h)
        · by_cases hh : RegularOn d (.mask f l m)
          · exact .inl ⟨hh, trivial⟩
          · exact .inr ⟨h, fun w hw => hh hw.1⟩
        · exact .inl ⟨h, trivial⟩
      · rintro (⟨h, _⟩ | ⟨h, _⟩)
        · exact .inr h
        · exact .inl h
  | special d k =>
    obtain ⟨hd1, hd2⟩ := hs
    cases k with
    | incl =>
      obtain ⟨b', q1, q2, q3, q4, q5⟩ := hset d true hd1 hd2
      refine ⟨b', q1, q2, q3, q4, ?_⟩
      intro e; rw [q5]; simp [Says, SpecialOn, RegularOn]
    | excl =>
      obtain ⟨b', q1, q2, q3, q4, q5⟩ := hset d false hd1 hd2
      refine ⟨b', q1, q2, q3, q4, ?_⟩
      intro e; rw [q5]; simp [Says, SpecialOn, RegularOn]
    | other =>
      refine ⟨b, rfl, hb, h1, h2, ?_⟩
      intro e; simp [Says, SpecialOn, RegularOn]

theorem services_wf (lo hi : Int) (hw : hi - lo < 512) (hm : hi < maxDay) (ss : List Service) :
    ∀ b : Bitfield, b.WF → lo ≤ b.first → b.last ≤ hi → (∀ s ∈ ss, s.Fits lo hi) →
    ∃ b', services b ss = some b' ∧ b'.WF ∧ lo ≤ b'.first ∧ b'.last ≤ hi ∧
      ∀ d, RunsOn b' d ↔ Last (Says d) ss true ∨ (RunsOn b d ∧ ∀ t ∈ ss, ∀ w, ¬ Says d w t) := by
  induction ss with
  | nil =>
    intro b hb h1 h2 _
    refine ⟨b, rfl, hb, h1, h2, ?_⟩
    intro d; simp [not_last_nil]
  | cons s ss ih =>
    intro b hb h1 h2 hf
    obtain ⟨b1, e1, hb1, q1, q2, q3⟩ := step_wf lo hi b s hw hm hb h1 h2 (hf s (by simp))
    obtain ⟨b', e2, hb', r1, r2, r3⟩ := ih b1 hb1 q1 q2 (fun t ht => hf t (by simp [ht]))
    refine ⟨b', by simp [services, e1, e2], hb', r1, r2, ?_⟩
    intro d
    rw [r3, q3, last_cons]
    simp only [List.mem_cons, forall_eq_or_imp]
    constructor
    · rintro (h | ⟨h | ⟨h, h'⟩, h2⟩)
      · exact .inl (.inl h)
      · exact .inl (.inr ⟨h, h2⟩)
      · exact .inr ⟨h, h', h2⟩
    · rintro ((h | ⟨h, h2⟩) | ⟨h, h', h2⟩)
      · exact .inl h
      · exact .inr ⟨.inl h, h2⟩
      · exact .inr ⟨.inr ⟨h, h'⟩, h2⟩

/-- special services before the first mask leave a calendar that does not count as valid -/
theorem step_fresh (lo hi : Int) (b : Bitfield) (s : Service) (hw : hi - lo < 512) (hm : hi < maxDay)
    (hs : s.Fits lo hi) (hn : s.isMask = false) (hb : b = fresh ∨ (lo ≤ b.first ∧ b.first ≤ hi ∧ b.last = maxDay)) :
    ∃ b', step b s = some b' ∧ (b' = fresh ∨ (lo ≤ b'.first ∧ b'.first ≤ hi ∧ b'.last = maxDay)) := by
  cases s with
  | mask f l m => simp [Service.isMask] at hn
  | special d k =>
    obtain ⟨h1, h2⟩ := hs
    have hset : ∀ v, ∃ b', b.set d v = some b' ∧ (lo ≤ b'.first ∧ b'.first ≤ hi ∧ b'.last = maxDay) := by
      intro v
      have hlt : d < b.first ∨ (¬ d < b.first ∧ d ≤ b.last ∧ d - b.first < 512) := by
        rcases hb with rfl | ⟨h3, h4, h5⟩
        · left; simp only [fresh]; omega
        · have : b.last = maxDay := h5
          by_cases hd : d < b.first
          · exact .inl hd
          · exact .inr ⟨hd, by omega, by omega⟩
      have hlast : b.last = maxDay := by rcases hb with rfl | h; rfl; exact h.2.2
      simp only [Bitfield.set]
      rcases hlt with h3 | ⟨h3, h4, h5⟩
      · rw [if_pos h3, if_pos (by simp [dist])]
        exact ⟨_, rfl, h1, h2, hlast⟩
      · have hd : dist b.first d < BITSIZE := by show (d - b.first).toNat < 512; omega
        rw [if_neg h3, if_pos h4, if_pos hd]
        refine ⟨_, rfl, ?_, ?_, hlast⟩
        · rcases hb with rfl | h
          · simp only [fresh] at h3; omega
          · exact h.1
        · rcases hb with rfl | h
          · simp only [fresh] at h3; omega
          · exact h.2.1
    cases k with
    | incl => obtain ⟨b', h3, h4⟩ := hset true; exact ⟨b', h3, .inr h4⟩
    | excl => obtain ⟨b', h3, h4⟩ := hset false; exact ⟨b', h3, .inr h4⟩
    | other => exact ⟨b, rfl, hb⟩

theorem services_fresh (lo hi : Int) (hw : hi - lo < 512) (hm : hi < maxDay) (ss : List Service) :
    ∀ b : Bitfield, (b = fresh ∨ (lo ≤ b.first ∧ b.first ≤ hi ∧ b.last = maxDay)) →
    (∀ s ∈ ss, s.Fits lo hi) → (∃ s ∈ ss, s.isMask = true) →
    ∃ b', services b ss = some b' ∧ b'.WF ∧ lo ≤ b'.first ∧ b'.last ≤ hi ∧
      ∀ d, RunsOn b' d ↔ Last (Says d) (ss.dropWhile fun s => !s.isMask) true := by
  induction ss with
  | nil => intro b _ _ h; simp at h
  | cons s ss ih =>
    intro b hb hf hm'
    cases hk : s.isMask with
    | false =>
      obtain ⟨b1, e1, q⟩ := step_fresh lo hi b s hw hm (hf s (by simp)) hk hb
      obtain ⟨b', e2, r⟩ := ih b1 q (fun t ht => hf t (by simp [ht])) (by simpa [hk] using hm')
      refine ⟨b', by simp [services, e1, e2], ?_⟩
      simpa [List.dropWhile_cons, hk] using r
    | true =>
      cases s with
      | special d k => simp [Service.isMask] at hk
      | mask f l m =>
        have hfit := hf _ (by simp : Service.mask f l m ∈ _)
        obtain ⟨bf, hbf, hwf, e1, e2, hr⟩ := make_fits lo hi f l m hw hfit
        have hok : ok b = false := by
          rcases hb with rfl | h
          · rfl
          · simp [ok, h.2.2]
        obtain ⟨b', e3, r1, r2, r3, r4⟩ := services_wf lo hi hw hm ss bf hwf (by have := hfit.1; omega)
          (by have := hfit.2.1; omega) (fun t ht => hf t (by simp [ht]))
        refine ⟨b', by simp [services, step, hbf, hok, e3], r1, r2, r3, ?_⟩
        intro d
        rw [r4, List.dropWhile_cons, if_neg (by simp [hk]), last_cons, hr]
        simp [Says, SpecialOn]

/-! ### Numbers -/

theorem isDigit_number (lead n : Nat) : ∀ c ∈ number lead n, c.isDigit = true := by
  intro c hc
  rcases List.mem_append.1 hc with h | h
  · rw [List.eq_of_mem_replicate h]; decide
  · exact Nat.isDigit_of_mem_toDigits (by decide) (by decide) h

theorem number_ne (lead n : Nat) : number lead n ≠ [] := by
  simp [number, Nat.toDigits_ne_nil]

theorem ofDigitChars_number (lead n : Nat) : Nat.ofDigitChars 10 (number lead n) 0 = n := by
  simp [number, Nat.ofDigitChars_append, Nat.ofDigitChars_replicate_zero, Nat.ofDigitChars_ten_toDigits]

theorem takeWhile_all {α : Type} (p : α → Bool) (l : List α) (h : ∀ x ∈ l, p x = true) : l.takeWhile p = l := by
  simpa using List.takeWhile_append_of_pos (l₂ := []) h

theorem dropWhile_all {α : Type} (p : α → Bool) (l : List α) (h : ∀ x ∈ l, p x = true) : l.dropWhile p = [] := by
  simpa using List.dropWhile_append_of_pos (l₂ := []) h

theorem parseUInt_number (bits lead n : Nat) (h : n < 2 ^ bits) : parseUInt bits (number lead n) = n := by
  simp only [parseUInt]
  rw [takeWhile_all _ _ (isDigit_number lead n), if_neg (number_ne lead n), ofDigitChars_number, if_pos h]

theorem isDigit_digitChar (d : Fin 10) : (Nat.digitChar d.val).isDigit = true := by
  revert d; decide

theorem floor_of {x : Rat} {n : Int} (h1 : (n : Rat) ≤ x) (h2 : x < n + 1) : x.floor = n := by
  have : ⌊x⌋ = n := Int.floor_eq_iff.2 ⟨h1, h2⟩
  exact this

theorem roundTo32_of {q : Rat} {n : Nat} (h0 : 0 ≤ q) (h1 : (n : Rat) ≤ q + 1 / 2) (h2 : q + 1 / 2 < n + 1) (hn : n < 2 ^ 32) :
    roundTo32 q = some n := by
  have hf : (q + 1 / 2).floor = (n : Int) := floor_of (by exact_mod_cast h1) (by exact_mod_cast h2)
  unfold roundTo32
  simp only [if_pos h0, hf]
  rw [if_pos (by omega), Int.toNat_natCast]

open Utls.Spec in
theorem value_zeros (k : Nat) : value (List.replicate k '0') = 0 := by
  induction k with
  | zero => rfl
  | succ k ih => rw [List.replicate_succ, value, ih]; simp [Utls.digit]

open Utls.Spec in
theorem value_number (lead n : Nat) : value (number lead n) = n := by
  rw [number, ParseFp.value_append_list, value_zeros, Utls.value_toDigits]; simp

open Utls.Spec in
theorem value_digits_lt (ds : List (Fin 10)) : value (ds.map fun d => Nat.digitChar d.val) < 10 ^ ds.length := by
  induction ds with
  | nil => simp [value]
  | cons d ds ih =>
    rw [List.map_cons, value, Utls.digit_digitChar _ d.isLt, List.length_map, List.length_cons, Nat.pow_succ]
    have : d.val * 10 ^ ds.length ≤ 9 * 10 ^ ds.length := Nat.mul_le_mul_right _ (by omega)
    omega

theorem parseRounded_frac (lead n : Nat) (d : Fin 10) (ds : List (Fin 10))
    (h : (if 5 ≤ d.val then n + 1 else n) < 2 ^ 32) :
    parseRounded (number lead n ++ fraction (d :: ds)) = some (if 5 ≤ d.val then n + 1 else n) := by
  have h3 : ParseFp.AllDigits ((d :: ds).map fun d => Nat.digitChar d.val) := by
    intro c hc
    obtain ⟨x, -, rfl⟩ := List.mem_map.1 hc
    exact isDigit_digitChar x
  have hread := ParseFp.parseFp_plain (s := number lead n ++ fraction (d :: ds)) (g := [])
    ⟨false, number lead n, _, number_ne lead n, isDigit_number lead n, h3, .inr ⟨'.', by simp, rfl⟩, rfl⟩ (fun _ h => by cases h)
  rw [List.append_nil] at hread
  unfold parseRounded
  rw [hread, Option.bind_some]
  have hlt := value_digits_lt ds
  simp only [value_number, List.map_cons, Utls.Spec.value, List.length_cons, List.length_map, Utls.digit_digitChar _ d.isLt]
  generalize Utls.Spec.value (ds.map fun d => Nat.digitChar d.val) = r at hlt
  have hp : (0 : Rat) < 10 ^ ds.length := by positivity
  have hr : (r : Rat) < 10 ^ ds.length := by exact_mod_cast hlt
  have hr0 : (0 : Rat) ≤ r := by positivity
  have hq : (((d.val * 10 ^ ds.length + r : Nat) : Rat)) / ((10 ^ (ds.length + 1) : Nat) : Rat) =
      (d.val : Rat) / 10 + (r : Rat) / 10 ^ ds.length / 10 := by
    push_cast
    rw [pow_succ]
    field_simp
  have hr1 : (r : Rat) / 10 ^ ds.length < 1 := by rw [div_lt_one hp]; exact hr
  have hr2 : 0 ≤ (r : Rat) / 10 ^ ds.length := by positivity
  rw [if_neg Bool.false_ne_true, one_mul, hq]
  generalize (r : Rat) / 10 ^ ds.length = t at hr1 hr2
  have hd : (d.val : Rat) ≤ 9 := by exact_mod_cast (by omega : d.val ≤ 9)
  have hn0 : (0 : Rat) ≤ n := by positivity
  have hd0 : (0 : Rat) ≤ d.val := by positivity
  by_cases h5 : 5 ≤ d.val
  · rw [if_pos h5] at h ⊢
    have h5' : (5 : Rat) ≤ d.val := by exact_mod_cast h5
    refine roundTo32_of (by linarith) ?_ ?_ h <;> push_cast <;> linarith
  · rw [if_neg h5] at h ⊢
    have h5' : (d.val : Rat) ≤ 4 := by exact_mod_cast (by omega : d.val ≤ 4)
    refine roundTo32_of (by linarith) ?_ ?_ h <;> linarith

theorem parseRounded_whole (lead n : Nat) (h : n < 2 ^ 32) : parseRounded (number lead n) = some n := by
  have hread := ParseFp.parseFp_plain (s := number lead n) (g := [])
    ⟨false, number lead n, [], number_ne lead n, isDigit_number lead n, (fun c hc => by cases hc), .inl ⟨rfl, rfl⟩, rfl⟩
    (fun _ h => by cases h)
  rw [List.append_nil] at hread
  unfold parseRounded
  rw [hread, Option.bind_some]
  simp only [value_number, Utls.Spec.value]
  have hn0 : (0 : Rat) ≤ n := by positivity
  refine roundTo32_of ?_ ?_ ?_ h <;> simp <;> linarith

theorem parseRounded_secs (lead n : Nat) (fr : List (Fin 10)) (h : (Field.secs lead n fr).seconds < 2 ^ 32) :
    parseRounded (number lead n ++ fraction fr) = some (Field.secs lead n fr).seconds := by
  cases fr with
  | nil => simpa [fraction, Field.seconds] using parseRounded_whole lead n h
  | cons d ds => exact parseRounded_frac lead n d ds h

/-! ### Durations -/

theorem cap_digit (c : Char) (h : c.isDigit = true) : isCap c = false := by
  simp only [Char.isDigit, Bool.and_eq_true, decide_eq_true_eq] at h
  simp only [isCap, Bool.and_eq_false_iff, decide_eq_false_iff_not]
  left
  intro hA
  have h1 : (65 : UInt32) ≤ c.val := hA
  have h2 := h.2
  rw [UInt32.le_iff_toNat_le] at h1 h2
  simp at h1 h2
  omega

/-- the text before the letter of a field has no capital -/
theorem not_cap_number (lead n : Nat) : ∀ c ∈ number lead n, (!isCap c) = true := by
  intro c hc; simp [cap_digit c (isDigit_number lead n c hc)]

theorem not_cap_fraction (fr : List (Fin 10)) : ∀ c ∈ fraction fr, (!isCap c) = true := by
  intro c hc
  cases fr with
  | nil => simp [fraction] at hc
  | cons d ds =>
    simp only [fraction, List.mem_cons] at hc
    rcases hc with rfl | hc
    · decide
    · obtain ⟨x, _, rfl⟩ := List.mem_map.1 hc
      simp [cap_digit _ (isDigit_digitChar x)]

theorem durLoop_field (text : List Char) (cap : Char) (rest : List Char) (acc : Nat)
    (ht : ∀ c ∈ text, (!isCap c) = true) (hc : isCap cap = true) :
    durLoop (text ++ cap :: rest) acc =
      match fieldSeconds cap text with
      | none => .undef
      | some v => durLoop rest ((acc + v) % 2 ^ 32) := by
  have h1 : (text ++ cap :: rest).dropWhile (fun c => !isCap c) = cap :: rest := by
    rw [List.dropWhile_append_of_pos ht, List.dropWhile_cons]; simp [hc]
  have h2 : (text ++ cap :: rest).takeWhile (fun c => !isCap c) = text := by
    rw [List.takeWhile_append_of_pos ht, List.takeWhile_cons]; simp [hc]
  obtain ⟨c, cs, he⟩ : ∃ c cs, text ++ cap :: rest = c :: cs := by
    cases text with
    | nil => exact ⟨_, _, rfl⟩
    | cons a t => exact ⟨_, _, rfl⟩
  rw [he] at h1 h2 ⊢
  rw [durLoop]
  split
  · rename_i h; rw [h1] at h; cases h
  · rename_i a b h; rw [h1] at h; cases h; rw [h2]; cases fieldSeconds cap text <;> rfl

/-- one field of a text -/
theorem durLoop_text (f : Field) (rest : List Char) (acc : Nat) (hf : f.seconds < 2 ^ 32) :
    durLoop (f.text ++ rest) acc = durLoop rest ((acc + f.seconds) % 2 ^ 32) := by
  cases f with
  | hours lead n =>
    simp only [Field.seconds] at hf
    simp only [Field.text, List.append_assoc, List.singleton_append]
    rw [durLoop_field _ _ _ _ (not_cap_number lead n) (by decide)]
    simp only [fieldSeconds, if_true, parseUInt_number 32 lead n (by omega), Field.seconds]
    rw [show n * 3600 % 2 ^ 32 = 3600 * n by omega]
  | minutes lead n =>
    simp only [Field.seconds] at hf
    simp only [Field.text, List.append_assoc, List.singleton_append]
    rw [durLoop_field _ _ _ _ (not_cap_number lead n) (by decide)]
    simp only [fieldSeconds, if_true, parseUInt_number 32 lead n (by omega), Field.seconds, Char.reduceEq, if_false]
    rw [show n * 60 % 2 ^ 32 = 60 * n by omega]
  | secs lead n fr =>
    simp only [Field.text, List.append_assoc, List.singleton_append]
    rw [← List.append_assoc, durLoop_field _ _ _ _ ?_ (by decide)]
    · simp only [fieldSeconds, Char.reduceEq, if_false, if_true, parseRounded_secs lead n fr hf]
    · intro c hc
      rcases List.mem_append.1 hc with h | h
      · exact not_cap_number lead n c h
      · exact not_cap_fraction fr c h

theorem durLoop_texts (fs : List Field) : ∀ (rest : List Char) (acc : Nat), (∀ f ∈ fs, f.seconds < 2 ^ 32) →
    acc < 2 ^ 32 →
    durLoop ((fs.map Field.text).flatten ++ rest) acc = durLoop rest ((acc + (fs.map Field.seconds).sum) % 2 ^ 32) := by
  induction fs with
  | nil =>
    intro rest acc _ ha
    simp only [List.map_nil, List.flatten_nil, List.nil_append, List.sum_nil, Nat.add_zero]
    rw [Nat.mod_eq_of_lt ha]
  | cons f fs ih =>
    intro rest acc h ha
    rw [List.map_cons, List.flatten_cons, List.append_assoc, durLoop_text f _ _ (h f (by simp)),
      ih _ _ (fun g hg => h g (by simp [hg])) (Nat.mod_lt _ (by decide))]
    rw [List.map_cons, List.sum_cons, Nat.mod_add_mod, Nat.add_assoc]

theorem durLoop_tail (tail : List Char) (acc : Nat) (hn : tail ≠ []) (ht : ∀ c ∈ tail, isCap c = false) :
    durLoop tail acc = .pastEnd := by
  cases tail with
  | nil => simp at hn
  | cons c cs =>
    rw [durLoop]
    have := dropWhile_all (fun c => !isCap c) (c :: cs) (fun x hx => by simp [ht x hx])
    split
    · rfl
    · rename_i h; rw [this] at h; cases h

end Soro.Kss
