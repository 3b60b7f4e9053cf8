import Verif.Spec.Dates
import Verif.Props.Utls
import Verif.Props.Calendar

/-
Properties C158, C159: dates of timetables and points in time.
-/

namespace Soro.Dates
open Utls Utls.Spec Dates.Spec
theorem e400 (y : Int) : (if y ≥ 0 then y else y - 399).tdiv 400 = y / 400 := by
  split
  next h => rw [Int.tdiv_eq_ediv_of_nonneg h]
  next h =>
    have hs : Int.sign 400 = 1 := rfl
    rw [Int.tdiv_eq_ediv, hs]
    split <;> simp_all <;> omega
theorem e146 (y : Int) : (if y ≥ 0 then y else y - 146096).tdiv 146097 = y / 146097 := by
  split
  next h => rw [Int.tdiv_eq_ediv_of_nonneg h]
  next h =>
    have hs : Int.sign 146097 = 1 := rfl
    rw [Int.tdiv_eq_ediv, hs]
    split <;> simp_all <;> omega

/-- first day of a year that begins in March -/
def yearStart (y : Int) : Int := 365 * y + y / 4 - y / 100 + y / 400 - 719468

theorem toDays_eq (x : Ymd) : toDays x = yearStart (if x.m ≤ 2 then x.y - 1 else x.y) +
    ((153 * (if x.m > 2 then (x.m : Int) - 3 else x.m + 9) + 2) / 5 + x.d - 1) := by
  unfold toDays yearStart
  simp only [e400]
  generalize (if x.m ≤ 2 then x.y - 1 else x.y) = y
  generalize (153 * (if x.m > 2 then (x.m : Int) - 3 else x.m + 9) + 2) / 5 + (x.d : Int) - 1 = r
  omega

theorem leap_iff (y : Int) : Leap y ↔ y % 4 = 0 ∧ (y % 100 ≠ 0 ∨ y % 400 = 0) := by unfold Leap; omega

theorem yearStart_succ (y : Int) : yearStart (y + 1) = yearStart y + if Leap (y + 1) then 366 else 365 := by
  have h := leap_iff (y + 1)
  unfold yearStart
  split
  next hl => have := h.1 hl; omega
  next hl =>
    have : ¬ ((y + 1) % 4 = 0 ∧ ((y + 1) % 100 ≠ 0 ∨ (y + 1) % 400 = 0)) := fun h' => hl (h.2 h')
    omega

theorem next_valid {x : Ymd} (h : Valid x) : Valid (next x) := by
  obtain ⟨h1, h2, h3, h4⟩ := h
  have hpos : ∀ y m, 1 ≤ monthDays y m := by
    intro y m
    unfold monthDays
    split
    · split <;> omega
    all_goals omega
  unfold next
  split
  next hd => exact ⟨h1, h2, by simp, hd⟩
  next hd =>
    split
    next hm => exact ⟨by simp, hm, by simp, hpos _ _⟩
    next hm => exact ⟨by simp, by simp, by simp, hpos _ _⟩

theorem toDays_next {x : Ymd} (h : Valid x) : toDays (next x) = toDays x + 1 := by
  obtain ⟨y, m, d⟩ := x
  obtain ⟨h1, h2, h3, h4⟩ := h
  dsimp only at h1 h2 h3 h4
  unfold next
  dsimp only
  have hy := yearStart_succ (y - 1)
  rw [Int.sub_add_cancel] at hy
  split
  next hd => rw [toDays_eq, toDays_eq]; dsimp only; omega
  next hd =>
    have hd : d = monthDays y m := by omega
    split
    next hm =>
      rw [toDays_eq, toDays_eq]
      have : m = 1 ∨ m = 2 ∨ m = 3 ∨ m = 4 ∨ m = 5 ∨ m = 6 ∨ m = 7 ∨ m = 8 ∨ m = 9 ∨ m = 10 ∨ m = 11 := by omega
      rcases this with rfl | rfl | rfl | rfl | rfl | rfl | rfl | rfl | rfl | rfl | rfl <;>
        simp only [monthDays] at hd <;> subst hd <;> simp <;> first | omega | (split <;> simp_all <;> omega)
    next hm =>
      have : m = 12 := by omega
      subst this
      rw [toDays_eq, toDays_eq]
      simp only [monthDays] at hd
      subst hd
      simp
      omega

theorem yearStart_mono {a b : Int} (h : a ≤ b) : yearStart a ≤ yearStart b := by unfold yearStart; omega

/-- day of the year that begins in March -/
def doy (x : Ymd) : Int := (153 * (if x.m > 2 then (x.m : Int) - 3 else x.m + 9) + 2) / 5 + x.d - 1
def marchYear (x : Ymd) : Int := if x.m ≤ 2 then x.y - 1 else x.y

theorem doy_bound {x : Ymd} (h : Valid x) : 0 ≤ doy x ∧ doy x < if Leap (marchYear x + 1) then 366 else 365 := by
  obtain ⟨y, m, d⟩ := x
  obtain ⟨h1, h2, h3, h4⟩ := h
  dsimp only at h1 h2 h3 h4
  unfold doy marchYear
  dsimp only
  have : m = 1 ∨ m = 2 ∨ m = 3 ∨ m = 4 ∨ m = 5 ∨ m = 6 ∨ m = 7 ∨ m = 8 ∨ m = 9 ∨ m = 10 ∨ m = 11 ∨ m = 12 := by omega
  rcases this with rfl | rfl | rfl | rfl | rfl | rfl | rfl | rfl | rfl | rfl | rfl | rfl <;>
    simp only [monthDays] at h4 <;> simp <;> (refine ⟨by omega, ?_⟩) <;> split <;> simp_all <;> omega

theorem before_toDays {a b : Ymd} (ha : Valid a) (hb : Valid b) (h : Before a b) : toDays a < toDays b := by
  have e : ∀ x, toDays x = yearStart (marchYear x) + doy x := toDays_eq
  rw [e, e]
  obtain ⟨h1, h2⟩ := doy_bound ha
  obtain ⟨h3, h4⟩ := doy_bound hb
  have hs := yearStart_succ (marchYear a)
  by_cases hlt : marchYear a < marchYear b
  · have := yearStart_mono (a := marchYear a + 1) (b := marchYear b) (by omega)
    omega
  · have heq : marchYear a = marchYear b := by
      revert hlt h ha hb
      unfold Before marchYear Valid
      intro h ha hb hlt
      split <;> split <;> simp_all <;> omega
    rw [heq]
    have : doy a < doy b := by
      obtain ⟨y, m, d⟩ := a
      obtain ⟨y', m', d'⟩ := b
      obtain ⟨a1, a2, a3, a4⟩ := ha
      obtain ⟨b1, b2, b3, b4⟩ := hb
      unfold marchYear at heq
      unfold Before at h
      dsimp only at a1 a2 a3 a4 b1 b2 b3 b4 heq h
      unfold doy
      dsimp only
      have e1 : m = 1 ∨ m = 2 ∨ m = 3 ∨ m = 4 ∨ m = 5 ∨ m = 6 ∨ m = 7 ∨ m = 8 ∨ m = 9 ∨ m = 10 ∨ m = 11 ∨ m = 12 := by omega
      have hmd : d ≤ 31 ∧ (m = 2 → d ≤ 29) ∧ (m = 4 ∨ m = 6 ∨ m = 9 ∨ m = 11 → d ≤ 30) := by
        rcases e1 with rfl | rfl | rfl | rfl | rfl | rfl | rfl | rfl | rfl | rfl | rfl | rfl <;> simp [monthDays] at a4 ⊢ <;>
          first | omega | (split at a4 <;> omega)
      split at heq <;> split at heq <;> split <;> split <;> omega
    omega

theorem toDays_later {x : Ymd} (h : Valid x) (n : Nat) : Valid (later n x) ∧ toDays (later n x) = toDays x + n := by
  induction n with
  | zero => exact ⟨h, by simp [later]⟩
  | succ n ih => exact ⟨next_valid ih.1, by rw [later, toDays_next ih.1, ih.2]; omega⟩

theorem era_year {doe yoe doy : Int} (hd : 0 ≤ doe ∧ doe ≤ 146096)
    (hyoe : (doe - doe / 1460 + doe / 36524 - doe / 146096) / 365 = yoe)
    (hdoy : doe - (365 * yoe + yoe / 4 - yoe / 100) = doy) : 0 ≤ doy ∧ doy ≤ 365 ∧ (doy = 365 → (yoe + 1) % 4 = 0 ∧ ((yoe + 1) % 100 ≠ 0 ∨ (yoe + 1) % 400 = 0)) := by
  generalize hc : doe / 36524 = c at hyoe
  generalize he : doe / 146096 = e at hyoe
  generalize hb : doe / 1460 = b at hyoe
  have hc4 : c = 0 ∨ c = 1 ∨ c = 2 ∨ c = 3 ∨ c = 4 := by omega
  by_cases hlast : doe = 146096
  · have : yoe = 399 := by omega
    omega
  · have hee : e = 0 := by omega
    have hc3 : c = 0 ∨ c = 1 ∨ c = 2 ∨ c = 3 := by omega
    obtain ⟨q, hq⟩ : ∃ q, (doe - 36524 * c) / 1461 = q := ⟨_, rfl⟩
    obtain ⟨r, hr⟩ : ∃ r, doe - 36524 * c - 1461 * q = r := ⟨_, rfl⟩
    have hq' : 0 ≤ q ∧ q ≤ 24 ∧ 0 ≤ r ∧ r ≤ 1460 := by omega
    obtain ⟨k, hk⟩ : ∃ k, (if r = 1460 then 3 else r / 365) = k := ⟨_, rfl⟩
    have hkk : 0 ≤ k ∧ k ≤ 3 := by split at hk <;> omega
    have hyy : yoe = 100 * c + 4 * q + k := by
      rcases hc3 with rfl | rfl | rfl | rfl <;> split at hk <;> omega
    have hk4 : k = 0 ∨ k = 1 ∨ k = 2 ∨ k = 3 := by omega
    rcases hc3 with rfl | rfl | rfl | rfl <;> split at hk <;> rcases hk4 with rfl | rfl | rfl | rfl <;> omega

theorem era_start {n yoe doy e : Int} (hy : 0 ≤ yoe ∧ yoe ≤ 399)
    (h : n + 719468 - e * 146097 - (365 * yoe + yoe / 4 - yoe / 100) = doy) : yearStart (yoe + e * 400) + doy = n := by
  have h4 : (yoe + e * 400) / 4 = yoe / 4 + e * 100 := by omega
  have h100 : (yoe + e * 400) / 100 = yoe / 100 + e * 4 := by omega
  have h400 : (yoe + e * 400) / 400 = e := by omega
  unfold yearStart
  rw [h4, h100, h400]
  omega

theorem month_day {n y doy mp : Int} (h0 : 0 ≤ doy) (h1 : doy ≤ 365) (hys : yearStart y + doy = n) (hleap : doy = 365 → Leap (y + 1))
    (hmp : (5 * doy + 2) / 153 = mp) (x : Ymd)
    (hx : x = ⟨if (if mp < 10 then mp + 3 else mp - 9) ≤ 2 then y + 1 else y, (if mp < 10 then mp + 3 else mp - 9).toNat,
      (doy - (153 * mp + 2) / 5 + 1).toNat⟩) : Valid x ∧ toDays x = n := by
  have hm : mp = 0 ∨ mp = 1 ∨ mp = 2 ∨ mp = 3 ∨ mp = 4 ∨ mp = 5 ∨ mp = 6 ∨ mp = 7 ∨ mp = 8 ∨ mp = 9 ∨ mp = 10 ∨ mp = 11 := by omega
  rw [toDays_eq]
  subst hx
  rcases hm with rfl | rfl | rfl | rfl | rfl | rfl | rfl | rfl | rfl | rfl | rfl | rfl
  all_goals simp [Valid, monthDays]
  all_goals first
    | omega
    | (refine ⟨⟨by omega, ?_⟩, by omega⟩
       by_cases h : Leap (y + 1)
       · simp only [h, if_true]; omega
       · simp only [h, if_false]
         have : doy ≠ 365 := fun e => h (hleap e)
         omega)

theorem toDays_ofDays (n : Int) : Valid (ofDays n) ∧ toDays (ofDays n) = n := by
  have hd : 0 ≤ n + 719468 - (n + 719468) / 146097 * 146097 ∧ n + 719468 - (n + 719468) / 146097 * 146097 ≤ 146096 := by omega
  obtain ⟨k1, k2, k3⟩ := era_year hd rfl rfl
  refine month_day k1 k2 (era_start (e := (n + 719468) / 146097) (by omega) rfl) ?_ rfl _ ?_
  · intro h
    rw [leap_iff]
    have := k3 h
    omega
  · unfold ofDays
    simp only [e146]

theorem ofDays_toDays {x : Ymd} (h : Valid x) : ofDays (toDays x) = x := by
  obtain ⟨h1, h2⟩ := toDays_ofDays (toDays x)
  generalize ofDays (toDays x) = w at *
  have t1 : ¬ Before w x := fun hb => by have := before_toDays h1 h hb; omega
  have t2 : ¬ Before x w := fun hb => by have := before_toDays h h1 hb; omega
  unfold Before at t1 t2
  obtain ⟨a, b, c⟩ := w
  obtain ⟨a', b', c'⟩ := x
  dsimp only at t1 t2
  have e1 : a = a' := by omega
  have e2 : b = b' := by omega
  have e3 : c = c' := by omega
  rw [e1, e2, e3]

/-! ### C158 -/

/-- C158. Dates are counted from the first of January 1970, one for each day of the calendar. -/
theorem C158_days : toDays epoch = 0 ∧ ∀ (x : Ymd) (n : Nat), Valid x → Valid (later n x) ∧ toDays (later n x) = toDays x + n :=
  ⟨by decide, fun _ n h => toDays_later h n⟩

/-- C158. Earlier dates have smaller numbers; no two dates have the same. -/
theorem C158_order {a b : Ymd} (ha : Valid a) (hb : Valid b) : toDays a < toDays b ↔ Before a b := by
  refine ⟨fun h => ?_, before_toDays ha hb⟩
  by_cases h1 : Before a b
  · exact h1
  · by_cases h2 : Before b a
    · have := before_toDays hb ha h2
      omega
    · exfalso
      unfold Before at h1 h2
      obtain ⟨p, q, r⟩ := a
      obtain ⟨p', q', r'⟩ := b
      dsimp only at h1 h2
      have e1 : p = p' := by omega
      have e2 : q = q' := by omega
      have e3 : r = r' := by omega
      subst e1 e2 e3
      omega

/-- C158. Every number is that of exactly one date, and both conversions undo each other. -/
theorem C158_back : (∀ n, Valid (ofDays n) ∧ toDays (ofDays n) = n) ∧ ∀ x, Valid x → ofDays (toDays x) = x :=
  ⟨toDays_ofDays, fun _ h => ofDays_toDays h⟩

/-- C158. From any date each later one is reached by going on day by day. -/
theorem C158_reach {a b : Ymd} (ha : Valid a) (hb : Valid b) (h : toDays a ≤ toDays b) : later (toDays b - toDays a).toNat a = b := by
  have := toDays_later ha (toDays b - toDays a).toNat
  have e := ofDays_toDays this.1
  rw [this.2] at e
  rw [← e, ← ofDays_toDays hb]
  congr 1
  rw [ofDays_toDays hb]
  omega

example : Valid ⟨2020, 2, 28⟩ ∧ later 2 ⟨2020, 2, 28⟩ = ⟨2020, 3, 1⟩ ∧ later 1 ⟨1900, 2, 28⟩ = ⟨1900, 3, 1⟩ ∧
    later 1 ⟨2021, 12, 31⟩ = ⟨2022, 1, 1⟩ ∧ toDays ⟨2022, 11, 19⟩ = 19315 ∧ ofDays (-1) = ⟨1969, 12, 31⟩ := by decide

theorem value_lt (s : List Char) (h : ∀ c ∈ s, c.isDigit = true) : value s < 10 ^ s.length := by
  induction s with
  | nil => simp [value]
  | cons c cs ih =>
    have h1 := ih fun d hd => h d (List.mem_cons_of_mem _ hd)
    have h2 : digit c ≤ 9 := by
      have := h c List.mem_cons_self
      simp only [Char.isDigit, Bool.and_eq_true, decide_eq_true_eq] at this
      have a := UInt32.le_iff_toNat_le.1 this.2
      unfold digit
      have e : c.val.toNat = c.toNat := rfl
      have f : ('9').val.toNat = 57 := rfl
      have g : ('0').toNat = 48 := rfl
      omega
    simp only [value, List.length_cons, pow_succ]
    have : digit c * 10 ^ cs.length ≤ 9 * 10 ^ cs.length := Nat.mul_le_mul_right _ h2
    omega

/-- C158. A text in the form of a date is read as the date it says. -/
theorem C158_text {s : List Char} {x : Ymd} (h : SaysDate s x) : parseDate s = some x := by
  obtain ⟨ys, ms, ds, rfl, hy, hm, hd, hc, ey, em, ed⟩ := h
  have cy : ∀ c ∈ ys, c.isDigit = true := fun c h => hc c (by simp [h])
  have cm : ∀ c ∈ ms, c.isDigit = true := fun c h => hc c (by simp [h])
  have cd : ∀ c ∈ ds, c.isDigit = true := fun c h => hc c (by simp [h])
  have vy := value_lt ys cy
  have vm := value_lt ms cm
  have vd := value_lt ds cd
  rw [hy] at vy
  rw [hm] at vm
  rw [hd] at vd
  have t1 : (ys ++ '-' :: ms ++ '-' :: ds).take 4 = ys := by
    rw [List.append_assoc, ← hy, List.take_left]
  have t2 : ((ys ++ '-' :: ms ++ '-' :: ds).drop 5).take 2 = ms := by
    have : (ys ++ '-' :: ms ++ '-' :: ds) = (ys ++ ['-']) ++ (ms ++ '-' :: ds) := by simp
    rw [this, show 5 = (ys ++ ['-']).length by simp [hy], List.drop_left, ← hm, List.take_left]
  have t3 : ((ys ++ '-' :: ms ++ '-' :: ds).drop 8).take 2 = ds := by
    have : (ys ++ '-' :: ms ++ '-' :: ds) = (ys ++ '-' :: ms ++ ['-']) ++ ds := by simp
    rw [this, show 8 = (ys ++ '-' :: ms ++ ['-']).length by simp [hy, hm], List.drop_left, ← hd, List.take_length]
  have p1 : parseInt ⟨true, 4⟩ ys = value ys :=
    C60_parse_int _ _ _ (Or.inl ⟨by rintro rfl; simp at hy, cy, rfl⟩) (by simp [Fits, IntTy.min, IntTy.max]; omega)
  have p2 : parseInt ⟨false, 4⟩ ms = value ms :=
    C60_parse_int _ _ _ (Or.inl ⟨by rintro rfl; simp at hm, cm, rfl⟩) (by simp [Fits, IntTy.min, IntTy.max]; omega)
  have p3 : parseInt ⟨false, 4⟩ ds = value ds :=
    C60_parse_int _ _ _ (Or.inl ⟨by rintro rfl; simp at hd, cd, rfl⟩) (by simp [Fits, IntTy.min, IntTy.max]; omega)
  unfold parseDate
  rw [if_neg (by simp [hy, hm, hd]), t1, t2, t3, p1, p2, p3]
  obtain ⟨a, b, c⟩ := x
  dsimp only at ey em ed
  subst ey em ed
  simp only [Utls.cast, IntTy.min, IntTy.card, Option.some.injEq, Ymd.mk.injEq]
  simp
  omega

/-- C158. The mask of a service decides on the days from its first date on, one character for each day of the calendar; other days
are refused. -/
theorem C158_mask {ss es : List Char} {x y : Ymd} {mask : List Char} (hs : SaysDate ss x) (he : SaysDate es y) (hx : Valid x)
    (n : Nat) (hy : y = later n x) (hlen : mask.length = n + 1) (hfit : n < 512) (h01 : ∀ c ∈ mask, c = '0' ∨ c = '1') :
    ∃ a b bf, parseDate ss = some a ∧ parseDate es = some b ∧ Bitfield.make (toDays a) (toDays b) mask = some bf ∧
      (∀ (i : Nat) (hi : i < mask.length), bf.at? (toDays (later i x)) = some (decide (mask[i] = '1'))) ∧
      ∀ z, Valid z → (Before z x ∨ Before y z) → bf.at? (toDays z) = none := by
  have e := (toDays_later hx n).2
  obtain ⟨bf, h1, _, h3, h4⟩ := C01_make_answers_mask (toDays x) (toDays y) mask (by rw [hy]; omega) (by rw [hy]; omega) (by omega) h01
  refine ⟨x, y, bf, C158_text hs, C158_text he, h1, fun i hi => ?_, fun z hz h => h4 _ ?_⟩
  · rw [(toDays_later hx i).2]
    exact h3 i hi
  · rcases h with h | h
    · exact Or.inl (before_toDays hz hx h)
    · refine Or.inr (before_toDays ?_ hz h)
      rw [hy]
      exact (toDays_later hx n).1

theorem says_example : SaysDate ['2', '0', '2', '2', '-', '0', '2', '-', '2', '8'] ⟨2022, 2, 28⟩ ∧
    SaysDate ['2', '0', '2', '2', '-', '0', '3', '-', '0', '2'] ⟨2022, 3, 2⟩ :=
  ⟨⟨['2', '0', '2', '2'], ['0', '2'], ['2', '8'], by decide, by decide, by decide, by decide, by decide, by decide, by decide, by decide⟩,
   ⟨['2', '0', '2', '2'], ['0', '3'], ['0', '2'], by decide, by decide, by decide, by decide, by decide, by decide, by decide, by decide⟩⟩

example : ∃ a b bf, parseDate ['2', '0', '2', '2', '-', '0', '2', '-', '2', '8'] = some a ∧
    parseDate ['2', '0', '2', '2', '-', '0', '3', '-', '0', '2'] = some b ∧
    Bitfield.make (toDays a) (toDays b) ['1', '0', '1'] = some bf ∧
      (∀ (i : Nat) (hi : i < 3), bf.at? (toDays (later i ⟨2022, 2, 28⟩)) = some (decide (['1', '0', '1'][i] = '1'))) ∧
      ∀ z, Valid z → (Before z ⟨2022, 2, 28⟩ ∨ Before ⟨2022, 3, 2⟩ z) → bf.at? (toDays z) = none :=
  C158_mask says_example.1 says_example.2 (by decide) 2 (by decide) (by decide) (by decide) (by decide)

/-- C158 fails for texts that are no dates: in a release build they are accepted. The thirtieth of February is the second of March,
the month 13 the first one of the next year, anything may stand between the numbers, a text without numbers is a date too, and a
text of less than eight characters is read beyond its end. -/
theorem C158_text_negation :
    (∃ x, parseDate ['2', '0', '2', '2', '-', '0', '2', '-', '3', '0'] = some x ∧ ¬ Valid x ∧ toDays x = toDays ⟨2022, 3, 2⟩) ∧
    (∃ x, parseDate ['2', '0', '2', '2', '-', '1', '3', '-', '0', '1'] = some x ∧ ¬ Valid x ∧ toDays x = toDays ⟨2023, 1, 1⟩) ∧
    parseDate ['2', '0', '2', '2', '5', '1', '1', '5', '1', '9'] = some ⟨2022, 11, 19⟩ ∧
    (∃ x, parseDate ['n', 'o', ' ', 'd', 'a', 't', 'e', 's'] = some x ∧ ¬ Valid x) ∧ ∀ s, s.length < 8 → parseDate s = none := by
  refine ⟨⟨⟨2022, 2, 30⟩, by decide +kernel, by decide, by decide⟩, ⟨⟨2022, 13, 1⟩, by decide +kernel, by decide, by decide⟩,
    by decide +kernel, ⟨⟨-1, 255, 255⟩, by decide +kernel, by decide⟩, fun s h => ?_⟩
  unfold parseDate
  rw [if_pos h]

/-! ### C159 -/

/-- C159. Points in time and their distance to an anchor determine each other, over the whole range of both. -/
theorem C159_inverse {anchor t : Nat} (ha : anchor < 2 ^ 32) (ht : t < 2 ^ 32) :
    relToAbs anchor (absToRel anchor t) = t ∧ absToRel anchor (relToAbs anchor t) = t := by
  unfold relToAbs absToRel
  omega

/-- C159. The distance to an earlier anchor is the number of seconds in between. -/
theorem C159_distance {anchor t : Nat} (h : anchor ≤ t) (ht : t < 2 ^ 32) : anchor + absToRel anchor t = t := by
  unfold absToRel
  omega

/-- C159. The midnight of a point in time is the first second of its day, and that of no other day. -/
theorem C159_midnight (t : Nat) (ht : t < 2 ^ 32) :
    midnight t ≤ t ∧ t < midnight t + 86400 ∧ ymdToAbs (ofDays (t / 86400 : Nat)) = midnight t ∧ midnight (midnight t) = midnight t := by
  unfold midnight
  refine ⟨by omega, by omega, ?_, by omega⟩
  unfold ymdToAbs secOf
  rw [(toDays_ofDays _).2]
  omega

/-- C159. Arrivals and departures of a run of a date lie as many seconds after its midnight as the timetable says, for all dates
from 1970 as long as the result is before the end of the time. -/
theorem C159_absolute_partial {x : Ymd} (hx : Valid x) (h0 : 1970 ≤ x.y) {rel : Nat} (h : toDays x * 86400 + rel < 2 ^ 32) :
    (absoluteTime x rel : Int) = toDays x * 86400 + rel ∧ absToRel (ymdToAbs x) (absoluteTime x rel) = rel ∧
      (rel < 86400 → midnight (absoluteTime x rel) = ymdToAbs x) := by
  have hp : 0 ≤ toDays x := by
    by_cases e : x = epoch
    · rw [e]; decide
    · have hb : ¬ Before x epoch := by
        unfold Before epoch
        dsimp only
        have := hx.1
        have := hx.2.2.1
        omega
      rw [← C158_order hx (by decide)] at hb
      have : toDays epoch = 0 := by decide
      omega
  have e : toDays x * 86400 % 2 ^ 32 = toDays x * 86400 := by omega
  unfold absoluteTime absToRel ymdToAbs relToAbs secOf midnight
  rw [e]
  generalize toDays x = t at *
  obtain ⟨k, rfl⟩ := Int.eq_ofNat_of_zero_le hp
  have e' : ((k : Int) * 86400).toNat = k * 86400 := by omega
  have e'' : (k * 86400 + rel) % 2 ^ 32 = k * 86400 + rel := by omega
  rw [e', e'']
  omega

/-- C159. All times of the years 1970 to 2105 with up to a month of travel are covered. -/
theorem C159_range {x : Ymd} (hx : Valid x) (h1 : x.y ≤ 2105) {rel : Nat} (hr : rel ≤ 37 * 86400) : toDays x * 86400 + rel < 2 ^ 32 := by
  have hb : Before x ⟨2106, 1, 1⟩ := by
    unfold Before
    dsimp only
    omega
  have := before_toDays hx (by decide) hb
  have e : toDays ⟨2106, 1, 1⟩ = 49673 := by decide
  omega

example : Valid ⟨2022, 11, 19⟩ ∧ (1970 : Int) ≤ 2022 ∧ toDays ⟨2022, 11, 19⟩ * 86400 + 3600 < 2 ^ 32 ∧
    absoluteTime ⟨2022, 11, 19⟩ 3600 = 1668819600 ∧ midnight 1668819600 = ymdToAbs ⟨2022, 11, 19⟩ := by decide

/-- C159 fails outside of this: the last day of 1969 comes after all days till 2106, and the eighth of February 2106 is one of
January 1970. -/
theorem C159_absolute_negation :
    (∃ x y, Valid x ∧ Valid y ∧ Before x y ∧ absoluteTime y 0 < absoluteTime x 0) ∧ absoluteTime ⟨1969, 12, 31⟩ 0 = 2 ^ 32 - 86400 ∧
    absoluteTime ⟨2106, 2, 8⟩ 0 < 86400 ∧ absoluteTime ⟨2106, 2, 7⟩ 86399 < absoluteTime ⟨2106, 2, 7⟩ 0 := by
  refine ⟨⟨⟨1969, 12, 31⟩, ⟨1970, 1, 1⟩, by decide, by decide, by unfold Before; decide, by decide⟩, by decide, by decide, by decide⟩

end Soro.Dates
