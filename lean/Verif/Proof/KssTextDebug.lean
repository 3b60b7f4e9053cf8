import Verif.Model.KssTextDebug
import Verif.Spec.KssTextDebug
import Verif.Proof.Kss
import Verif.Props.ParseDebug

/-! Lemmas about times and durations in a build with assertions. -/

namespace Soro.Kss
open Dbg Utls Utls.Spec ParseFp

theorem isCap_iff (c : Char) : isCap c = true ↔ Capital c := by simp [isCap, Capital]

theorem notCap_iff (c : Char) : (!isCap c) = true ↔ ¬ Capital c := by rw [← isCap_iff]; simp

theorem roundTo32_ok (q : Rat) (n : Nat) : roundTo32 q = some n ↔ Rounded q n ∧ n < 2 ^ 32 := by
  constructor
  · intro h
    unfold roundTo32 at h
    dsimp only at h
    generalize hg : (if 0 ≤ q then (q + 1 / 2).floor else -(-q + 1 / 2).floor) = r at h
    by_cases hr : 0 ≤ r ∧ r < 2 ^ 32
    · rw [if_pos hr] at h
      cases h
      subst hg
      by_cases hq : 0 ≤ q
      · rw [if_pos hq] at hr ⊢
        have hf : ((q + 1 / 2).floor : Rat) ≤ q + 1 / 2 := Int.floor_le (q + 1 / 2)
        have hf' : q + 1 / 2 < ((q + 1 / 2).floor : Rat) + 1 := Int.lt_floor_add_one (q + 1 / 2)
        obtain ⟨n, hn⟩ := Int.eq_ofNat_of_zero_le hr.1
        rw [hn] at hf hf' hr ⊢
        rw [Int.toNat_natCast]
        push_cast at hf hf'
        exact ⟨⟨by linarith, by linarith, by linarith⟩, by omega⟩
      · rw [if_neg hq] at hr ⊢
        push Not at hq
        have hf : ((-q + 1 / 2).floor : Rat) ≤ -q + 1 / 2 := Int.floor_le (-q + 1 / 2)
        have hf' : -q + 1 / 2 < ((-q + 1 / 2).floor : Rat) + 1 := Int.lt_floor_add_one (-q + 1 / 2)
        have h0' : ((-1 : Int) : Rat) < ((-q + 1 / 2).floor : Rat) := by push_cast; linarith
        have h0 : -1 < (-q + 1 / 2).floor := by exact_mod_cast h0'
        have hz : (-q + 1 / 2).floor = 0 := by omega
        rw [hz] at hf hf' ⊢
        push_cast at hf hf'
        refine ⟨⟨?_, ?_, ?_⟩, by decide⟩
        · simp; linarith
        · simp; linarith
        · intro h; linarith
    · rw [if_neg hr] at h; cases h
  · rintro ⟨⟨h1, h2, h3⟩, hn⟩
    by_cases hq : 0 ≤ q
    · exact roundTo32_of hq (by linarith) (by linarith) hn
    · push Not at hq
      have h0 : n = 0 := by
        by_contra hne
        have : (1 : Rat) ≤ n := by exact_mod_cast Nat.one_le_iff_ne_zero.2 hne
        linarith
      subst h0
      have h4 : -(1 / 2) < q := lt_of_le_of_ne (by push_cast at h1; linarith) (Ne.symm h3)
      have hf : (-q + 1 / 2).floor = (0 : Int) := floor_of (by push_cast; linarith) (by push_cast; linarith)
      unfold roundTo32
      simp only [if_neg (not_le.2 hq), hf]
      rfl

theorem parseFpD_ok (s : List Char) (o : Option Rat) : parseFpD false s = .ok o ↔ ∃ q, o = some q ∧ Floating ['.'] s q := by
  constructor
  · intro h
    by_cases hq : ∃ q, Floating ['.'] s q
    · obtain ⟨q, hq⟩ := hq
      have := ((C180_fp false s).1 q hq).1
      rw [this] at h; cases h
      exact ⟨q, rfl, hq⟩
    · obtain ⟨l, hl⟩ := (C180_fp false s).2 hq
      rw [hl] at h; cases h
  · rintro ⟨q, rfl, hq⟩
    exact ((C180_fp false s).1 q hq).1

theorem numeral_digits {s : List Char} {b : Nat} {v : Int} (h : Numeral ⟨false, b⟩ s v) :
    s ≠ [] ∧ (∀ c ∈ s, c.isDigit = true) ∧ v = value s := by
  rcases h with h | ⟨h, -⟩
  · exact h
  · cases h

theorem ofDigits_acc {s : List Char} (h : ∀ c ∈ s, c.isDigit = true) : ∀ a, Nat.ofDigitChars 10 s a = a * 10 ^ s.length + value s := by
  induction s with
  | nil => intro a; simp [value, Nat.ofDigitChars]
  | cons c cs ih =>
    intro a
    rw [Nat.ofDigitChars_cons, ih (fun x hx => h x (List.mem_cons_of_mem _ hx)), value, List.length_cons, Nat.pow_succ]
    have : c.toNat - '0'.toNat = digit c := rfl
    rw [this]
    ring

theorem value_ofDigits {s : List Char} (h : ∀ c ∈ s, c.isDigit = true) : Nat.ofDigitChars 10 s 0 = value s := by
  rw [ofDigits_acc h]; simp

theorem parseUInt_numeral {s : List Char} {b n : Nat} (h : Numeral ⟨false, b⟩ s n) (hn : n < 2 ^ (8 * b)) : parseUInt (8 * b) s = n := by
  obtain ⟨h1, h2, h3⟩ := numeral_digits h
  have h3' : n = value s := by exact_mod_cast h3
  have ht : s.takeWhile Char.isDigit = s := by
    have := List.takeWhile_append_of_pos (l₂ := []) h2
    simpa using this
  have hv : Nat.ofDigitChars 10 s 0 = value s := by
    exact value_ofDigits h2
  unfold parseUInt
  simp only [ht]
  rw [if_neg h1, hv, ← h3', if_pos hn]

theorem fits_unsigned {b : Nat} {v : Int} (h : Fits ⟨false, b⟩ v) : ∃ n : Nat, v = n ∧ n < 2 ^ (8 * b) := by
  obtain ⟨h1, h2⟩ := h
  simp only [IntTy.min, IntTy.max, Bool.false_eq_true, if_false] at h1 h2
  have hp : 0 < 2 ^ (8 * b) := Nat.two_pow_pos _
  obtain ⟨n, rfl⟩ := Int.eq_ofNat_of_zero_le h1
  refine ⟨n, rfl, ?_⟩
  have : ((2 ^ (8 * b) : Nat) : Int) = 2 ^ (8 * b) := by push_cast; rfl
  omega

theorem fits_of {b n : Nat} (h : n < 2 ^ (8 * b)) : Fits ⟨false, b⟩ (n : Int) := by
  simp only [Fits, IntTy.min, IntTy.max, Bool.false_eq_true, if_false]
  have : ((2 ^ (8 * b) : Nat) : Int) = 2 ^ (8 * b) := by push_cast; rfl
  omega

theorem parseIntD_nat (b : Nat) (s : List Char) (v : Int) :
    parseIntD ⟨false, b⟩ s = .ok v ↔ ∃ n : Nat, v = n ∧ Numeral ⟨false, b⟩ s n ∧ n < 2 ^ (8 * b) := by
  rw [parseIntD_ok]
  constructor
  · rintro ⟨h1, h2⟩
    obtain ⟨n, rfl, hn⟩ := fits_unsigned h2
    exact ⟨n, rfl, h1, hn⟩
  · rintro ⟨n, rfl, h1, h2⟩
    exact ⟨h1, fits_of h2⟩

theorem bind_ok {α β : Type} {x : Dbg α} {f : α → Dbg β} {b : β} : (x >>= f) = .ok b ↔ ∃ a, x = .ok a ∧ f a = .ok b := by
  cases x with
  | error e => simp [error_bind]
  | ok a => simp [ok_bind]

theorem check_ok {n : Nat} {c : Prop} [Decidable c] {u : Unit} : check n c = .ok u ↔ c := by
  by_cases h : c <;> simp [check, h]

theorem fieldSecondsD_ok (c : Char) (text : List Char) (v : Nat) :
    fieldSecondsD c text = .ok v ↔ ∃ n, Piece text c n ∧ v = n % 2 ^ 32 := by
  unfold fieldSecondsD
  by_cases hH : c = 'H'
  · subst hH
    rw [if_pos rfl, bind_ok]
    constructor
    · rintro ⟨a, h1, h2⟩
      obtain ⟨n, rfl, h3, h4⟩ := (parseIntD_nat 4 _ _).1 h1
      cases h2
      exact ⟨_, .hours _ n h3 h4, by rw [Int.toNat_natCast, Nat.mul_comm]⟩
    · rintro ⟨n, h, rfl⟩
      cases h with
      | hours n h1 h2 => exact ⟨n, (parseIntD_nat 4 _ _).2 ⟨n, rfl, h1, h2⟩, by rw [Int.toNat_natCast, Nat.mul_comm]; rfl⟩
      | other _ h1 _ _ => exact absurd rfl h1
  rw [if_neg hH]
  by_cases hM : c = 'M'
  · subst hM
    rw [if_pos rfl, bind_ok]
    constructor
    · rintro ⟨a, h1, h2⟩
      obtain ⟨n, rfl, h3, h4⟩ := (parseIntD_nat 4 _ _).1 h1
      cases h2
      exact ⟨_, .minutes _ n h3 h4, by rw [Int.toNat_natCast, Nat.mul_comm]⟩
    · rintro ⟨n, h, rfl⟩
      cases h with
      | minutes n h1 h2 => exact ⟨n, (parseIntD_nat 4 _ _).2 ⟨n, rfl, h1, h2⟩, by rw [Int.toNat_natCast, Nat.mul_comm]; rfl⟩
      | other _ _ h1 _ => exact absurd rfl h1
  rw [if_neg hM]
  by_cases hS : c = 'S'
  · subst hS
    rw [if_pos rfl, bind_ok]
    constructor
    · rintro ⟨o, h1, h2⟩
      obtain ⟨q, rfl, hq⟩ := (parseFpD_ok _ _).1 h1
      rw [Option.bind_some] at h2
      cases hr : roundTo32 q with
      | none => rw [hr] at h2; cases h2
      | some n =>
        rw [hr] at h2; cases h2
        obtain ⟨h3, h4⟩ := (roundTo32_ok _ _).1 hr
        exact ⟨v, .seconds _ q v hq h3 h4, (Nat.mod_eq_of_lt h4).symm⟩
    · rintro ⟨n, h, rfl⟩
      cases h with
      | seconds q n h1 h2 h3 =>
        refine ⟨some q, (parseFpD_ok _ _).2 ⟨q, rfl, h1⟩, ?_⟩
        rw [Option.bind_some, (roundTo32_ok _ _).2 ⟨h2, h3⟩, Nat.mod_eq_of_lt h3]
        rfl
      | other _ _ _ h1 => exact absurd rfl h1
  rw [if_neg hS]
  constructor
  · intro h; cases h
    exact ⟨0, .other _ _ hH hM hS, rfl⟩
  · rintro ⟨n, h, rfl⟩
    cases h with
    | hours => exact absurd rfl hH
    | minutes => exact absurd rfl hM
    | seconds => exact absurd rfl hS
    | other => rfl

theorem fieldSeconds_piece {c : Char} {text : List Char} {n : Nat} (h : Piece text c n) : fieldSeconds c text = some (n % 2 ^ 32) := by
  cases h with
  | hours n h1 h2 => rw [fieldSeconds, if_pos rfl, show 32 = 8 * 4 from rfl, parseUInt_numeral h1 h2, Nat.mul_comm]
  | minutes n h1 h2 =>
    rw [fieldSeconds, if_neg (by decide), if_pos rfl, show 32 = 8 * 4 from rfl, parseUInt_numeral h1 h2, Nat.mul_comm]
  | seconds q n h1 h2 h3 =>
    rw [fieldSeconds, if_neg (by decide), if_neg (by decide), if_pos rfl, parseRounded]
    have := ((C180_fp false text).1 q h1).2
    rw [this, Option.bind_some, (roundTo32_ok _ _).2 ⟨h2, h3⟩, Nat.mod_eq_of_lt h3]
  | other _ h1 h2 h3 => rw [fieldSeconds, if_neg h1, if_neg h2, if_neg h3]; rfl

theorem durLoopD_nil (acc : Nat) : durLoopD [] acc = .ok acc := by rw [durLoopD]; rfl

theorem durLoopD_field (text : List Char) (cap : Char) (rest : List Char) (acc : Nat)
    (ht : ∀ c ∈ text, ¬ Capital c) (hc : Capital cap) :
    durLoopD (text ++ cap :: rest) acc = (fieldSecondsD cap text >>= fun v => durLoopD rest ((acc + v) % 2 ^ 32)) := by
  have ht' : ∀ c ∈ text, (!isCap c) = true := fun c hx => (notCap_iff c).2 (ht c hx)
  have hc' : isCap cap = true := (isCap_iff cap).2 hc
  have h1 : (text ++ cap :: rest).dropWhile (fun c => !isCap c) = cap :: rest := by
    rw [List.dropWhile_append_of_pos ht', List.dropWhile_cons]; simp [hc']
  have h2 : (text ++ cap :: rest).takeWhile (fun c => !isCap c) = text := by
    rw [List.takeWhile_append_of_pos ht', List.takeWhile_cons]; simp [hc']
  obtain ⟨c, cs, he⟩ : ∃ c cs, text ++ cap :: rest = c :: cs := by
    cases text with
    | nil => exact ⟨_, _, rfl⟩
    | cons a l => exact ⟨_, _, rfl⟩
  rw [he] at h1 h2 ⊢
  rw [durLoopD]
  split
  · rename_i h; rw [h1] at h; cases h
  · rename_i h
    rw [h1] at h; cases h
    rw [h2]

theorem durLoopD_tail (tail : List Char) (acc : Nat) (hn : tail ≠ []) (ht : ∀ c ∈ tail, ¬ Capital c) :
    durLoopD tail acc = .error .undefined := by
  cases tail with
  | nil => exact absurd rfl hn
  | cons c cs =>
    rw [durLoopD]
    have := dropWhile_all (fun c => !isCap c) (c :: cs) (fun x hx => (notCap_iff x).2 (ht x hx))
    split
    · rfl
    · rename_i h; rw [this] at h; cases h

/-- a text has no capital, or begins with a text that is followed by one -/
theorem split_cap (s : List Char) : (∀ c ∈ s, ¬ Capital c) ∨
    ∃ text cap rest, s = text ++ cap :: rest ∧ (∀ c ∈ text, ¬ Capital c) ∧ Capital cap := by
  induction s with
  | nil => exact .inl (fun c h => by cases h)
  | cons c cs ih =>
    by_cases hc : Capital c
    · exact .inr ⟨[], c, cs, rfl, (fun x h => by cases h), hc⟩
    · rcases ih with ih | ⟨text, cap, rest, rfl, h1, h2⟩
      · left
        intro x hx
        rcases List.mem_cons.1 hx with rfl | hx
        · exact hc
        · exact ih x hx
      · refine .inr ⟨c :: text, cap, rest, rfl, ?_, h2⟩
        intro x hx
        rcases List.mem_cons.1 hx with rfl | hx
        · exact hc
        · exact h1 x hx

theorem durLoopD_pieces {s : List Char} {m : Nat} (h : Pieces s m) : ∀ (tail : List Char) (acc : Nat), acc < 2 ^ 32 →
    durLoopD (s ++ tail) acc = durLoopD tail ((acc + m) % 2 ^ 32) ∧ durLoop (s ++ tail) acc = durLoop tail ((acc + m) % 2 ^ 32) := by
  induction h with
  | nil => intro tail acc ha; rw [Nat.add_zero, Nat.mod_eq_of_lt ha]; exact ⟨rfl, rfl⟩
  | cons text c n rest m h1 h2 h3 _ ih =>
    intro tail acc _
    have e : (text ++ c :: rest) ++ tail = text ++ c :: (rest ++ tail) := by simp
    have hmod : ((acc + n % 2 ^ 32) % 2 ^ 32 + m) % 2 ^ 32 = (acc + (n + m)) % 2 ^ 32 := by omega
    obtain ⟨i1, i2⟩ := ih tail ((acc + n % 2 ^ 32) % 2 ^ 32) (Nat.mod_lt _ (by decide))
    rw [e, durLoopD_field _ _ _ _ h1 h2, (fieldSecondsD_ok _ _ _).2 ⟨n, h3, rfl⟩, ok_bind, i1,
      durLoop_field _ _ _ _ (fun x hx => (notCap_iff x).2 (h1 x hx)) ((isCap_iff c).2 h2), fieldSeconds_piece h3]
    simp only
    rw [i2, hmod]
    exact ⟨rfl, rfl⟩

theorem durLoopD_ok (s : List Char) : ∀ (acc v : Nat), acc < 2 ^ 32 → durLoopD s acc = .ok v →
    ∃ m, Pieces s m ∧ v = (acc + m) % 2 ^ 32 := by
  induction hl : s.length using Nat.strong_induction_on generalizing s with
  | _ k ih =>
    intro acc v ha h
    rcases split_cap s with ht | ⟨text, cap, rest, rfl, h1, h2⟩
    · by_cases hn : s = []
      · subst hn
        rw [durLoopD_nil] at h; cases h
        exact ⟨0, .nil, (Nat.mod_eq_of_lt ha).symm⟩
      · rw [durLoopD_tail s acc hn ht] at h; cases h
    · rw [durLoopD_field _ _ _ _ h1 h2, bind_ok] at h
      obtain ⟨w, h3, h4⟩ := h
      obtain ⟨n, hp, rfl⟩ := (fieldSecondsD_ok _ _ _).1 h3
      obtain ⟨m, hm, rfl⟩ := ih rest.length (by rw [← hl]; simp; omega) rest rfl _ _ (Nat.mod_lt _ (by decide)) h4
      exact ⟨n + m, .cons _ _ _ _ _ h1 h2 hp hm, by omega⟩

theorem parseDurationD_eq (s : List Char) : parseDurationD ('P' :: 'T' :: s) = durLoopD s 0 := rfl

theorem parseDurationD_prefix {s : List Char} (h : ¬ ∃ r, s = 'P' :: 'T' :: r) : Dbg.Stops (parseDurationD s) := by
  unfold parseDurationD
  by_cases h0 : s[0]? = some 'P'
  · rw [check_pos h0, ok_bind]
    by_cases h1 : s[1]? = some 'T'
    · exfalso
      match s, h0, h1 with
      | [], h0, _ => cases h0
      | [_], _, h1 => cases h1
      | a :: b :: r, h0, h1 =>
        simp at h0 h1
        exact h ⟨r, by rw [h0, h1]⟩
    · rw [check_neg h1]; exact ⟨_, rfl⟩
  · rw [check_neg h0]; exact ⟨_, rfl⟩

end Soro.Kss
