import Verif.Proof.KssTrain
import Verif.Props.Transform

/-! Properties C50, C51, C52, C68, C87 - C90: the KSS timetable parser. -/

namespace Soro.Kss
open Soro.Train Soro.Transform

/-! ### C50 -/

/-- C50, full statement: special services override regular ones, the last one wins. -/
def C50_full : Prop := ∀ (ss : List Service) (lo hi : Int), hi - lo < 512 → hi < maxDay → (∀ s ∈ ss, s.Fits lo hi) →
  (∃ s ∈ ss, s.isMask = true) →
  ∃ b, parseServices ss = some b ∧ ∀ d, RunsOn b d ↔
    Last (SpecialOn d) ss true ∨ ((∀ s ∈ ss, ∀ v, ¬ SpecialOn d v s) ∧ ∃ s ∈ ss, RegularOn d s)

/-- C50, what the code does exactly: special services before the first regular one are forgotten; after that the last
service that has a one for the day, includes or excludes it, decides. -/
theorem C50_last_word_partial (ss : List Service) (lo hi : Int) (hw : hi - lo < 512) (hm : hi < maxDay)
    (hf : ∀ s ∈ ss, s.Fits lo hi) (hk : ∃ s ∈ ss, s.isMask = true) :
    ∃ b, parseServices ss = some b ∧ b.WF ∧ lo ≤ b.first ∧ b.last ≤ hi ∧
      ∀ d, RunsOn b d ↔ Last (Says d) (ss.dropWhile fun s => !s.isMask) true :=
  services_fresh lo hi hw hm ss fresh (.inl rfl) hf hk

/-- a calendar made of special services only -/
structure OnlySpecial (lo hi : Int) (b : Bitfield) : Prop where
  last : b.last = maxDay
  le : b.first ≤ b.last
  low : lo ≤ b.first
  high : b.first ≤ hi ∨ b.bits = 0
  bits : ∀ i, b.test i = true → b.first + (i : Int) ≤ hi

theorem special_set (lo hi : Int) (b : Bitfield) (hw : hi - lo < 512) (hm : hi < maxDay) (h : OnlySpecial lo hi b) (d : Int) (v : Bool)
    (h1 : lo ≤ d) (h2 : d ≤ hi) :
    ∃ b', b.set d v = some b' ∧ OnlySpecial lo hi b' ∧ ∀ e, RunsOn b' e ↔ (d = e ∧ v = true) ∨ (RunsOn b e ∧ d ≠ e) := by
  have hlast := h.last
  have hle := h.le
  have hex : ∃ b', b.set d v = some b' := by
    have hf : d < b.first ∨ d - b.first < 512 := by have := h.low; omega
    simp only [Bitfield.set]
    by_cases hd : d < b.first
    · rw [if_pos hd, if_pos (by simp [Bitfield.dist])]; exact ⟨_, rfl⟩
    · have hi' : Bitfield.dist b.first d < Bitfield.BITSIZE := by show (d - b.first).toNat < 512; omega
      have hd2 : d ≤ b.last := by omega
      rw [if_neg hd, if_pos hd2, if_pos hi']; exact ⟨_, rfl⟩
  obtain ⟨b', hs⟩ := hex
  obtain ⟨q1, q2, q3⟩ := Bitfield.set_spec b b' d v hs hle
  have hlow := h.low
  have hl' : b'.last = maxDay := by rw [q2]; omega
  have hbits : ∀ i, b'.test i = true → b'.first + (i : Int) ≤ hi := by
    intro i hi'
    rw [q3] at hi'
    split at hi'
    · omega
    · simp only [Bool.and_eq_true, decide_eq_true_eq] at hi'
      have := h.bits _ hi'.2
      simp only [Bitfield.dist] at this
      omega
  refine ⟨b', hs, ⟨hl', by omega, by omega, Or.inl (by omega), hbits⟩, ?_⟩
  intro e
  simp only [RunsOn, Bitfield.at?]
  by_cases he : d = e
  · subst he
    rw [if_pos (by omega), q3, if_pos (by simp only [Bitfield.dist]; omega)]
    simp
  · simp only [he, false_and, false_or, ne_eq, not_false_eq_true, and_true]
    by_cases hr : b'.first ≤ e ∧ e ≤ b'.last
    · have hd' : b'.first + (Bitfield.dist b'.first e : Int) = e := by simp only [Bitfield.dist]; omega
      rw [if_pos hr, q3, hd', if_neg (fun q => he q.symm)]
      by_cases hb : b.first ≤ e
      · rw [if_pos ⟨hb, by omega⟩]
        by_cases h5 : Bitfield.dist b'.first e < 512
        · simp [hb, h5]
        · have : b.test (Bitfield.dist b.first e) = false := by
            by_contra hc
            have := h.bits _ (by simpa using hc)
            simp only [Bitfield.dist] at this h5
            omega
          simp [this]
      · rw [if_neg (by omega)]; simp [hb]
    · rw [if_neg hr, if_neg (by omega)]

/-- C50: if there are no regular services, the calendar has exactly the days of which the last special service says that they are
included (it does not count as valid, and the debug build stops). -/
theorem C50_only_special_partial (ss : List Service) (lo hi : Int) (hw : hi - lo < 512) (hm : hi < maxDay)
    (hf : ∀ s ∈ ss, s.Fits lo hi) (hn : ∀ s ∈ ss, s.isMask = false) (hlo : lo ≤ maxDay) :
    ∃ b, parseServices ss = some b ∧ ok b = false ∧ ∀ d, RunsOn b d ↔ Last (SpecialOn d) ss true := by
  have key : ∀ (ss : List Service) (b : Bitfield), (∀ s ∈ ss, s.Fits lo hi) → (∀ s ∈ ss, s.isMask = false) → OnlySpecial lo hi b →
      ∃ b', services b ss = some b' ∧ OnlySpecial lo hi b' ∧
        ∀ d, RunsOn b' d ↔ Last (SpecialOn d) ss true ∨ (RunsOn b d ∧ ∀ t ∈ ss, ∀ w, ¬ SpecialOn d w t) := by
    intro ss
    induction ss with
    | nil => intro b _ _ hb; exact ⟨b, rfl, hb, fun d => by simp [not_last_nil]⟩
    | cons s ss ih =>
      intro b hf hn hb
      have hstep : ∃ b1, step b s = some b1 ∧ OnlySpecial lo hi b1 ∧ ∀ d, RunsOn b1 d ↔ SpecialOn d true s ∨ (RunsOn b d ∧ ∀ w, ¬ SpecialOn d w s) := by
        have hfs := hf s (by simp)
        cases s with
        | mask f l m => have := hn _ (by simp : Service.mask f l m ∈ _); simp [Service.isMask] at this
        | special d k =>
          obtain ⟨h1, h2⟩ := hfs
          cases k with
          | incl =>
            obtain ⟨b1, q1, q2, q3⟩ := special_set lo hi b hw hm hb d true h1 h2
            exact ⟨b1, q1, q2, fun e => by rw [q3]; simp [SpecialOn]⟩
          | excl =>
            obtain ⟨b1, q1, q2, q3⟩ := special_set lo hi b hw hm hb d false h1 h2
            exact ⟨b1, q1, q2, fun e => by rw [q3]; simp [SpecialOn]⟩
          | other => exact ⟨b, rfl, hb, fun e => by simp [SpecialOn]⟩
      obtain ⟨b1, e1, hb1, q3⟩ := hstep
      obtain ⟨b', e2, hb', r3⟩ := ih b1 (fun t ht => hf t (by simp [ht])) (fun t ht => hn t (by simp [ht])) hb1
      refine ⟨b', by simp [services, e1, e2], hb', ?_⟩
      intro d
      rw [r3, q3, last_cons]
      simp only [List.mem_cons, forall_eq_or_imp]
      constructor
      · rintro (h | ⟨h | ⟨h, h'⟩, h2⟩)
        · exact .inl (.inl h)
        · exact .inl (.inr ⟨h, h2⟩)
        · exact .inr ⟨h, h', h2⟩
      · rintro ((h | ⟨h, h2⟩) | ⟨h, h', h2⟩)
        · exact .inl h
        · exact .inr ⟨.inl h, h2⟩
        · exact .inr ⟨.inr ⟨h, h'⟩, h2⟩
  have h0 : ∀ i, fresh.test i = false := by intro i; simp [fresh, Bitfield.test]
  obtain ⟨b, e, hb, hr⟩ := key ss fresh hf hn ⟨rfl, le_refl _, hlo, Or.inr rfl, fun i hi => by rw [h0] at hi; cases hi⟩
  refine ⟨b, e, by simp [ok, hb.last], ?_⟩
  intro d
  rw [hr]
  have : ¬ RunsOn fresh d := by
    unfold RunsOn Bitfield.at?
    split
    · rw [h0]; simp
    · simp
  simp [this]

/-- a day included, another included and excluded again -/
example : (∀ s ∈ [Service.special 105 .incl, .special 101 .incl, .special 105 .excl], s.Fits 99 110 ∧ s.isMask = false) ∧
    Last (SpecialOn 101) [Service.special 105 .incl, .special 101 .incl, .special 105 .excl] true := by
  refine ⟨by simp [Service.Fits, Service.isMask], [_], _, [_], rfl, by simp [SpecialOn], by simp [SpecialOn]⟩

def exServices : List Service :=
  [.mask 100 103 ['1', '0', '1', '1'], .special 101 .incl, .mask 99 100 ['1', '0'], .special 103 .excl]

example : (∀ s ∈ exServices, s.Fits 99 103) ∧ (∃ s ∈ exServices, s.isMask = true) ∧
    Last (Says 101) (exServices.dropWhile fun s => !s.isMask) true := by
  refine ⟨?_, ⟨_, List.mem_cons_self, rfl⟩, ⟨[.mask 100 103 ['1', '0', '1', '1']], .special 101 .incl, _, rfl, ?_, ?_⟩⟩
  · simp [exServices, Service.Fits]
  · simp [Says, SpecialOn]
  · intro t ht w
    simp only [List.mem_cons, List.not_mem_nil, or_false] at ht
    rcases ht with rfl | rfl <;> simp [Says, SpecialOn, RegularOn]

theorem last_append_right (P : Bool → Service → Prop) (a b : List Service) (v : Bool) :
    Last P (a ++ b) v ↔ Last P b v ∨ (Last P a v ∧ ∀ t ∈ b, ∀ w, ¬ P w t) := by
  induction a with
  | nil => simp [not_last_nil]
  | cons s a ih =>
    rw [List.cons_append, last_cons, last_cons, ih]
    simp only [List.mem_append]
    constructor
    · rintro ((h | h) | ⟨h, h'⟩)
      · exact .inl h
      · exact .inr ⟨.inl h.1, h.2⟩
      · exact .inr ⟨.inr ⟨h, fun t ht => h' t (.inl ht)⟩, fun t ht => h' t (.inr ht)⟩
    · rintro (h | ⟨h | ⟨h, h'⟩, h2⟩)
      · exact .inl (.inl h)
      · exact .inl (.inr ⟨h, h2⟩)
      · exact .inr ⟨h, fun t ht => ht.elim (h' t) (h2 t)⟩

theorem last_masks (d : Int) (ms : List Service) (h : ∀ s ∈ ms, s.isMask = true) :
    Last (Says d) ms true ↔ ∃ s ∈ ms, RegularOn d s := by
  induction ms with
  | nil => simp [not_last_nil]
  | cons s ms ih =>
    rw [last_cons, ih (fun t ht => h t (by simp [ht]))]
    have hs : ∀ t ∈ s :: ms, ∀ w, Says d w t ↔ RegularOn d t ∧ w = true := by
      intro t ht w
      have := h t ht
      cases t with
      | mask f l m => simp [Says, SpecialOn]
      | special e k => simp [Service.isMask] at this
    simp only [List.mem_cons, exists_eq_or_imp]
    constructor
    · rintro (h1 | ⟨h1, _⟩)
      · exact .inr h1
      · exact .inl ((hs s (by simp) true).1 h1).1
    · rintro (h1 | h1)
      · by_cases h2 : ∃ t ∈ ms, RegularOn d t
        · exact .inl h2
        · refine .inr ⟨(hs s (by simp) true).2 ⟨h1, rfl⟩, ?_⟩
          intro t ht w hw
          exact h2 ⟨t, ht, ((hs t (by simp [ht]) w).1 hw).1⟩
      · exact .inl h1

/-- C50, the statement itself, for service lists with all regular services first (missing: other orders, for which it is
false). -/
theorem C50_masks_first_partial (ms sp : List Service) (lo hi : Int) (hw : hi - lo < 512) (hm : hi < maxDay)
    (hf : ∀ s ∈ ms ++ sp, s.Fits lo hi) (hne : ms ≠ []) (hms : ∀ s ∈ ms, s.isMask = true)
    (hsp : ∀ s ∈ sp, s.isMask = false) :
    ∃ b, parseServices (ms ++ sp) = some b ∧ ∀ d, RunsOn b d ↔
      Last (SpecialOn d) (ms ++ sp) true ∨
      ((∀ s ∈ ms ++ sp, ∀ v, ¬ SpecialOn d v s) ∧ ∃ s ∈ ms ++ sp, RegularOn d s) := by
  obtain ⟨m, ms, rfl⟩ : ∃ m l, ms = m :: l := by cases ms with | nil => simp at hne | cons m l => exact ⟨m, l, rfl⟩
  obtain ⟨b, h1, _, _, _, h2⟩ := C50_last_word_partial (m :: ms ++ sp) lo hi hw hm hf ⟨m, by simp, hms m (by simp)⟩
  refine ⟨b, h1, ?_⟩
  intro d
  have hmask : ∀ t ∈ m :: ms, ∀ w, ¬ SpecialOn d w t := by
    intro t ht w
    have := hms t ht
    cases t with
    | mask f l b => simp [SpecialOn]
    | special e k => simp [Service.isMask] at this
  have hspec : ∀ t ∈ sp, ∀ w, Says d w t ↔ SpecialOn d w t := by
    intro t ht w
    have := hsp t ht
    cases t with
    | mask f l b => simp [Service.isMask] at this
    | special e k => simp [Says, RegularOn]
  have hreg : ∀ t ∈ sp, ¬ RegularOn d t := by
    intro t ht
    have := hsp t ht
    cases t with
    | mask f l b => simp [Service.isMask] at this
    | special e k => simp [RegularOn]
  have hlast : Last (Says d) sp true ↔ Last (SpecialOn d) sp true := by
    constructor
    · rintro ⟨pre, s, post, rfl, q1, q2⟩
      exact ⟨pre, s, post, rfl, (hspec s (by simp) _).1 q1, fun t ht w hw => q2 t ht w ((hspec t (by simp [ht]) w).2 hw)⟩
    · rintro ⟨pre, s, post, rfl, q1, q2⟩
      exact ⟨pre, s, post, rfl, (hspec s (by simp) _).2 q1, fun t ht w hw => q2 t ht w ((hspec t (by simp [ht]) w).1 hw)⟩
  have hno : ¬ Last (SpecialOn d) (m :: ms) true := by
    rintro ⟨pre, s, post, h3, q1, _⟩
    exact hmask s (h3 ▸ by simp) _ q1
  have hdrop : (m :: ms ++ sp).dropWhile (fun s => !s.isMask) = m :: ms ++ sp := by
    rw [List.cons_append, List.dropWhile_cons, if_neg (by simp [hms m (by simp)])]
  rw [h2, hdrop, last_append_right, last_append_right, hlast, last_masks d _ hms]
  constructor
  · rintro (h | ⟨⟨s, hs, hr⟩, h⟩)
    · exact .inl (.inl h)
    · refine .inr ⟨?_, s, by simp only [List.mem_append]; exact .inl hs, hr⟩
      intro t ht w hw
      rcases List.mem_append.1 ht with ht | ht
      · exact hmask t ht w hw
      · exact h t ht w ((hspec t ht w).2 hw)
  · rintro ((h | ⟨h, _⟩) | ⟨h, s, hs, hr⟩)
    · exact .inl h
    · exact absurd h hno
    · rcases List.mem_append.1 hs with hs | hs
      · exact .inr ⟨⟨s, hs, hr⟩, fun t ht w hw => h t (List.mem_append.2 (.inr ht)) w ((hspec t ht w).1 hw)⟩
      · exact absurd hr (hreg s hs)

example : ∀ s ∈ [Service.mask 100 101 ['1', '0']] ++ [.special 101 .incl, .special 100 .excl, .special 100 .incl],
    s.Fits 100 101 := by simp [Service.Fits]

/-- C50 is false: a regular service after a special one takes the exclusion back. -/
theorem C50_taken_back_negation : ¬ C50_full := by
  intro h
  have e : parseServices [.mask 100 100 ['1'], .special 100 .excl, .mask 100 100 ['1']] = some ⟨100, 100, 1⟩ := by
    decide +kernel
  obtain ⟨b, h1, h2⟩ := h [.mask 100 100 ['1'], .special 100 .excl, .mask 100 100 ['1']] 100 100 (by decide) (by decide)
    (by simp [Service.Fits]) ⟨_, List.mem_cons_self, rfl⟩
  rw [e] at h1; cases h1
  have := (h2 100).1 (by unfold RunsOn; decide +kernel)
  simp [last_cons, not_last_nil, SpecialOn] at this

/-- C50 is false: a special service before the first regular one is forgotten. -/
theorem C50_forgotten_negation : ¬ C50_full := by
  intro h
  have e : parseServices [.special 100 .incl, .mask 101 101 ['1']] = some ⟨101, 101, 1⟩ := by decide +kernel
  obtain ⟨b, h1, h2⟩ := h [.special 100 .incl, .mask 101 101 ['1']] 100 101 (by decide) (by decide)
    (by simp [Service.Fits]) ⟨.mask 101 101 ['1'], by simp, rfl⟩
  rw [e] at h1; cases h1
  have := (h2 100).2 (.inl ⟨[], .special 100 .incl, _, rfl, by simp [SpecialOn], by simp [SpecialOn]⟩)
  exact absurd this (by unfold RunsOn; decide +kernel)

/-! ### C51 -/

/-- C51, full statement: the sum of the fields, and nothing else is accepted. -/
def C51_full : Prop :=
  (∀ fs : List Field, (fs.map Field.seconds).sum < 2 ^ 32 →
    parseDuration ('P' :: 'T' :: (fs.map Field.text).flatten) = .ok (fs.map Field.seconds).sum) ∧
  ∀ s : List Char, (∀ c ∈ s.drop 2, isCap c = false) → s.drop 2 ≠ [] → parseDuration s ≠ .pastEnd

theorem le_sum (fs : List Field) (f : Field) (h : f ∈ fs) : f.seconds ≤ (fs.map Field.seconds).sum := by
  induction fs with
  | nil => simp at h
  | cons g fs ih =>
    rw [List.map_cons, List.sum_cons]
    rcases List.mem_cons.1 h with rfl | h
    · omega
    · have := ih h; omega

/-- C51, the first half: any sequence of fields, in any order and with leading zeros, is added up. -/
theorem C51_sum_partial (fs : List Field) (h : (fs.map Field.seconds).sum < 2 ^ 32) :
    parseDuration ('P' :: 'T' :: (fs.map Field.text).flatten) = .ok (fs.map Field.seconds).sum := by
  have hf : ∀ f ∈ fs, f.seconds < 2 ^ 32 := by
    intro f hf
    have := le_sum fs f hf
    omega
  have := durLoop_texts fs [] 0 hf (by decide)
  rw [List.append_nil, Nat.zero_add, Nat.mod_eq_of_lt h] at this
  rw [parseDuration, this, durLoop]

example : ([Field.minutes 0 15, .secs 0 54 [9, 9]].map Field.seconds).sum = 955 ∧
    ([Field.minutes 0 15, .secs 0 54 [9, 9]].map Field.text).flatten = "15M54.99S".toList := by decide +kernel

/-- C51: a sum that does not fit is reduced modulo 2^32 without any report. -/
theorem C51_sum_wraps (fs : List Field) (hf : ∀ f ∈ fs, f.seconds < 2 ^ 32) :
    parseDuration ('P' :: 'T' :: (fs.map Field.text).flatten) = .ok ((fs.map Field.seconds).sum % 2 ^ 32) := by
  have := durLoop_texts fs [] 0 hf (by decide)
  rw [List.append_nil, Nat.zero_add] at this
  rw [parseDuration, this, durLoop]

example : ∃ fs : List Field, (∀ f ∈ fs, f.seconds < 2 ^ 32) ∧ 2 ^ 32 ≤ (fs.map Field.seconds).sum :=
  ⟨[.hours 0 1000000, .hours 0 1000000], by simp [Field.seconds], by simp [Field.seconds]⟩

/-- C51: behind any fields, a number without a unit makes the parser read past the end of the string. -/
theorem C51_no_unit (fs : List Field) (tail : List Char) (hf : ∀ f ∈ fs, f.seconds < 2 ^ 32) (hn : tail ≠ [])
    (ht : ∀ c ∈ tail, isCap c = false) :
    parseDuration ('P' :: 'T' :: ((fs.map Field.text).flatten ++ tail)) = .pastEnd := by
  rw [parseDuration, durLoop_texts fs tail 0 hf (by decide), durLoop_tail tail _ hn ht]

example : ∀ c ∈ "54.99s".toList, isCap c = false := by decide +kernel

/-- C51: hours or minutes whose text does not begin with a digit count as the largest number of 32 bits, so they take an hour or
a minute from the sum modulo 2^32. -/
theorem C51_no_number (fs : List Field) (text : List Char) (hf : ∀ f ∈ fs, f.seconds < 2 ^ 32)
    (ht : ∀ c ∈ text, isCap c = false) (hd : ∀ c cs, text = c :: cs → c.isDigit = false) :
    parseDuration ('P' :: 'T' :: ((fs.map Field.text).flatten ++ (text ++ ['H']))) =
      .ok (((fs.map Field.seconds).sum + (2 ^ 32 - 3600)) % 2 ^ 32) ∧
    parseDuration ('P' :: 'T' :: ((fs.map Field.text).flatten ++ (text ++ ['M']))) =
      .ok (((fs.map Field.seconds).sum + (2 ^ 32 - 60)) % 2 ^ 32) := by
  have hds : text.takeWhile Char.isDigit = [] := by
    cases text with
    | nil => rfl
    | cons c cs => rw [List.takeWhile_cons, hd c cs rfl]; rfl
  have hu : parseUInt 32 text = 2 ^ 32 - 1 := by
    unfold parseUInt
    rw [hds]; rfl
  have key : ∀ c v, fieldSeconds c text = some v → isCap c = true →
      parseDuration ('P' :: 'T' :: ((fs.map Field.text).flatten ++ (text ++ [c]))) =
        .ok (((fs.map Field.seconds).sum + v) % 2 ^ 32) := by
    intro c v hv hc
    rw [parseDuration, durLoop_texts fs _ 0 hf (by decide), durLoop_field text c [] _ (fun x hx => by rw [ht x hx]; rfl) hc, hv]
    dsimp only
    rw [durLoop, Nat.zero_add, Nat.mod_add_mod]
  refine ⟨key 'H' _ ?_ (by decide), key 'M' _ ?_ (by decide)⟩
  · rw [fieldSeconds, if_pos rfl, hu]; rfl
  · rw [fieldSeconds, if_neg (by decide), if_pos rfl, hu]; rfl

example : (∀ c ∈ "-5".toList, isCap c = false) ∧ ∀ c cs, "-5".toList = c :: cs → c.isDigit = false := by
  refine ⟨by decide +kernel, fun c cs h => ?_⟩
  have : c = '-' := by
    have := congrArg List.head? h
    simpa using this.symm
  subst this; decide

/-- C51 is false: a string without a unit is not rejected, the parser reads past its end. -/
theorem C51_past_end_negation : ¬ C51_full := by
  intro h
  exact h.2 "PT15".toList (by decide +kernel) (by decide +kernel) (C51_no_unit [] ['1', '5'] (by simp) (by simp) (by decide))

/-- C51: units that the parser does not know are dropped, `P1DT2H` is two hours. -/
theorem C51_days_dropped : parseDuration "P1DT2H".toList = .ok 7200 := by
  have h1 := durLoop_field [] 'D' ['T', '2', 'H'] 0 (by simp) (by decide)
  have h2 := durLoop_field [] 'T' ['2', 'H'] 0 (by simp) (by decide)
  have h3 := durLoop_field ['2'] 'H' [] 0 (by decide) (by decide)
  have e1 : fieldSeconds 'D' [] = some 0 := by decide
  have e2 : fieldSeconds 'T' [] = some 0 := by decide
  have e3 : fieldSeconds 'H' ['2'] = some 7200 := by decide +kernel
  rw [e1] at h1; rw [e2] at h2; rw [e3] at h3
  show durLoop ['D', 'T', '2', 'H'] 0 = .ok 7200
  simp only [List.nil_append, List.singleton_append] at h1 h2 h3
  rw [h1, Nat.zero_mod, h2, Nat.zero_mod, h3, durLoop]
  rfl

/-! ### C52 -/

/-- C52, full statement, for all trains. -/
def C52_full : Prop := ∀ ts : List DepTrain, ts ≠ [] → (∀ t ∈ ts, t.InRange) →
  ∃ iv, getInterval ts = some iv ∧
    ∀ t ∈ ts, ∀ d, RunsOn t.days d →
      (iv.start : Int) ≤ d * 86400 + t.firstDeparture ∧ d * 86400 + t.lastArrival ≤ (iv.stop : Int)

/-- C52, for trains with at least one service day each (missing: other trains, for which it is false): the interval contains every run, and both ends
belong to a run. -/
theorem C52_interval_partial (ts : List DepTrain) (hne : ts ≠ []) (h : ∀ t ∈ ts, t.InRange ∧ ∃ d, RunsOn t.days d) :
    ∃ iv, getInterval ts = some iv ∧
      (∀ t ∈ ts, ∀ d, RunsOn t.days d →
        (iv.start : Int) ≤ d * 86400 + t.firstDeparture ∧ d * 86400 + t.lastArrival ≤ (iv.stop : Int)) ∧
      (∃ t ∈ ts, ∃ d, RunsOn t.days d ∧ (iv.start : Int) = d * 86400 + t.firstDeparture) ∧
      (∃ t ∈ ts, ∃ d, RunsOn t.days d ∧ (iv.stop : Int) = d * 86400 + t.lastArrival) := by
  obtain ⟨r, h1, h2, h3, h4, h5, h6⟩ := intervalLoop_spec ts ⟨2 ^ 32 - 1, 0⟩ h
  obtain ⟨t, ht⟩ : ∃ t, t ∈ ts := by cases ts with | nil => simp at hne | cons t l => exact ⟨t, by simp⟩
  obtain ⟨hr, d, hd⟩ := h t ht
  have hin := (Bitfield.at?_eq_true _ _).1 hd
  have q1 := hr.first; have q2 := hr.last; have q3 := hr.order
  obtain ⟨b1, b2⟩ := h4 t ht d hd
  refine ⟨r, h1, h4, ?_, ?_⟩
  · rcases h5 with h5 | h5
    · refine ⟨t, ht, d, hd, ?_⟩
      clear h6
      simp only at h5
      omega
    · exact h5
  · rcases h6 with h6 | h6
    · refine ⟨t, ht, d, hd, ?_⟩
      clear h5
      simp only at h6
      omega
    · exact h6

def exDep : DepTrain := ⟨0, exCal, 3600, 90000⟩

theorem exDep_inRange : exDep.InRange := ⟨exCal_wf, by decide, by decide, by decide⟩

example : exDep.InRange ∧ ∃ d, RunsOn exDep.days d :=
  ⟨exDep_inRange, 100, by unfold RunsOn exDep; decide +kernel⟩

/-- C52: without any train the interval starts after its end. -/
theorem C52_no_trains : ∃ iv, getInterval [] = some iv ∧ iv.stop < iv.start := ⟨_, rfl, by decide⟩

/-- C52 is false: for a train without a service day, for example with the mask `0`, the search for the first service day
runs out of the calendar. -/
theorem C52_no_days_negation : ¬ C52_full := by
  intro h
  have hm : parseServices [.mask 100 100 ['0']] = some ⟨100, 100, 0⟩ := by decide +kernel
  have hwf : (⟨100, 100, 0⟩ : Bitfield).WF := ⟨by decide, by decide, by intro i _; simp [Bitfield.test]⟩
  obtain ⟨iv, h1, _⟩ := h [⟨0, ⟨100, 100, 0⟩, 3600, 90000⟩] (by simp) (by
    intro t ht
    simp only [List.mem_singleton] at ht
    subst ht
    exact ⟨hwf, by decide, by decide, by decide⟩)
  have : getInterval [⟨0, ⟨100, 100, 0⟩, 3600, 90000⟩] = none := by
    have : (⟨100, 100, 0⟩ : Bitfield).firstSetDate = none := by
      simp [Bitfield.firstSetDate, Bitfield.test]
    simp only [getInterval, intervalLoop, firstAbs, this, Option.map_none, Option.bind_none]
  rw [this] at h1; cases h1

/-! ### C68 -/

/-- C68. A train is accepted iff it has none of the defects; the reported error is the defect that comes first. -/
theorem C68_supported (i : Infra) (ctc freight : Bool) (ss : StopSeq)
    (hv : ∀ p ∈ ss.points, ∃ s, i.stops[p.sr]? = some s) :
    (isSupported i ctc freight ss = .ok () ↔ ∀ e k, ¬ Defect i ctc freight ss e k) ∧
    (∀ e, isSupported i ctc freight ss = .err e ↔
      ∃ k, Defect i ctc freight ss e k ∧ ∀ e' k', Defect i ctc freight ss e' k' → k ≤ k') := by
  rcases isSupported_spec i ctc freight ss hv with ⟨h1, h2⟩ | ⟨e, k, h1, h2, h3⟩
  · refine ⟨⟨fun _ => h2, fun _ => h1⟩, ?_⟩
    intro e
    constructor
    · intro h; rw [h1] at h; cases h
    · rintro ⟨k, h, _⟩; exact absurd h (h2 e k)
  · refine ⟨⟨fun h => (by rw [h1] at h; cases h), fun h => absurd h2 (h e k)⟩, ?_⟩
    intro e'
    constructor
    · intro h; rw [h1] at h; cases h; exact ⟨k, h2, h3⟩
    · rintro ⟨k', q1, q2⟩
      have : k = k' := Nat.le_antisymm (h3 _ _ q1) (q2 _ _ h2)
      subst this
      rw [h1, defect_unique _ _ _ _ _ _ _ h2 q1]

def exInfra : Infra := ⟨[], [⟨none, some 2, none⟩, ⟨some 1, some 3, some 4⟩]⟩

example : (∀ p ∈ [(⟨.passenger, true, 0⟩ : SPoint), ⟨.transit, true, 1⟩, ⟨.passenger, true, 0⟩],
      ∃ s, exInfra.stops[p.sr]? = some s) ∧
    isSupported exInfra false false ⟨[⟨.passenger, true, 0⟩, ⟨.transit, true, 1⟩, ⟨.passenger, true, 0⟩], false, false⟩
      = .ok () ∧
    isSupported exInfra false true ⟨[⟨.passenger, true, 1⟩, ⟨.transit, true, 0⟩, ⟨.passenger, true, 0⟩], false, false⟩
      = .err .timeWithoutCheckpoint := by
  refine ⟨?_, by decide, by decide⟩
  intro p hp
  simp only [List.mem_cons, List.not_mem_nil, or_false] at hp
  rcases hp with rfl | rfl | rfl <;> exact ⟨_, rfl⟩

/-! ### C87 -/

/-- C87. A time of day `HH:MM:SS.ss` is its seconds after midnight, one day later with a night leap; the hundredths are
dropped. -/
theorem C87_time_of_day (h1 h2 m1 m2 s1 s2 : Fin 10) (rest : List Char) (leap : Bool) :
    parseTimeOffset (Nat.digitChar h1.val :: Nat.digitChar h2.val :: ':' :: Nat.digitChar m1.val ::
      Nat.digitChar m2.val :: ':' :: Nat.digitChar s1.val :: Nat.digitChar s2.val :: rest) leap =
    some ((10 * h1.val + h2.val) * 3600 + (10 * m1.val + m2.val) * 60 + (10 * s1.val + s2.val) +
      (if leap then 86400 else 0)) := by
  have key : ∀ a b : Fin 10, parseUInt 64 [Nat.digitChar a.val, Nat.digitChar b.val] = 10 * a.val + b.val := by decide +kernel
  have hlen : ¬ (Nat.digitChar h1.val :: Nat.digitChar h2.val :: ':' :: Nat.digitChar m1.val ::
      Nat.digitChar m2.val :: ':' :: Nat.digitChar s1.val :: Nat.digitChar s2.val :: rest).length < 8 := by
    simp
  rw [parseTimeOffset, if_neg hlen]
  simp only [List.take_succ_cons, List.take_zero, List.drop_succ_cons, List.drop_zero, key]
  rw [Nat.mod_eq_of_lt]
  have := h1.isLt; have := h2.isLt; have := m1.isLt; have := m2.isLt; have := s1.isLt; have := s2.isLt
  split <;> omega

example : parseTimeOffset "23:59:58.90".toList true = some (86398 + 86400) := by decide +kernel

/-! ### C88 -/

theorem parseTrain_rejects {α β : Type} (f : α → Res β) (x : Bool × List α) (e : KErr) :
    Rejects f x e ↔ parseTrain f x.1 x.2 = .err e := by
  obtain ⟨r, xs⟩ := x
  unfold Rejects parseTrain
  cases r with
  | false =>
    simp only [Bool.false_eq_true, if_false, false_and, or_false, true_and, Res.err.injEq]
    exact eq_comm
  | true =>
    simp only [Bool.true_eq_false, false_and, if_true, true_and, false_or]
    exact (each_err f xs e).symm

/-- C88 (one train). The construction trains of a train are taken over together, and only if it is released and all of
them are fine; otherwise the error is the first one. -/
theorem C88_train {α β : Type} (f : α → Res β) (x : Bool × List α) :
    (∀ bs, parseTrain f x.1 x.2 = .ok bs ↔ Accepts f x bs) ∧
    (∀ e, parseTrain f x.1 x.2 = .err e ↔ Rejects f x e) := by
  refine ⟨?_, fun e => (parseTrain_rejects f x e).symm⟩
  intro bs
  obtain ⟨r, xs⟩ := x
  unfold Accepts parseTrain
  cases r with
  | false => simp
  | true => simpa using each_ok f xs bs

/-- a stand-in for the construction: even numbers are trains, others errors -/
def exParse (n : Nat) : Res Nat := if n % 2 = 0 then .ok (n / 2) else .err .ctc

example : Accepts exParse (true, [2, 4]) [1, 2] ∧ Rejects exParse (true, [2, 3, 5]) .ctc ∧
    Rejects exParse (false, [2]) .workedOnTrain :=
  ⟨⟨rfl, by decide⟩, .inr ⟨rfl, [2], 3, [5], [1], rfl, by decide, by decide⟩, .inl ⟨rfl, rfl⟩⟩

/-- C88 (a file). A train that is rejected changes nothing but the count of its error, wherever it stands. -/
theorem C88_isolated_partial {α β : Type} (f : α → Res β) (a b : List (Bool × List α)) (x : Bool × List α) (e : KErr)
    (ts : List β) (es : List KErr) (h : parseFile f (a ++ b) = .ok (ts, es)) (hx : Rejects f x e) :
    ∃ e1 e2, es = e1 ++ e2 ∧ parseFile f (a ++ x :: b) = .ok (ts, e1 ++ e :: e2) := by
  induction a generalizing ts es with
  | nil =>
    refine ⟨[], es, rfl, ?_⟩
    rw [parseTrain_rejects] at hx
    simp only [List.nil_append] at h ⊢
    rw [parseFile, hx, h]
  | cons y a ih =>
    obtain ⟨r, ys⟩ := y
    simp only [List.cons_append] at h ⊢
    rw [parseFile] at h ⊢
    cases hy : parseTrain f r ys with
    | ok ts' =>
      rw [hy] at h
      simp only at h ⊢
      cases hr : parseFile f (a ++ b) with
      | ok p =>
        obtain ⟨ts0, es0⟩ := p
        rw [hr] at h
        simp only [Res.ok.injEq, Prod.mk.injEq] at h
        obtain ⟨e1, e2, h1, h2⟩ := ih ts0 es0 hr
        rw [h2]
        refine ⟨e1, e2, ?_, ?_⟩
        · rw [← h.2, h1]
        · rw [← h.1]
      | _ => rw [hr] at h; simp at h
    | err e' =>
      rw [hy] at h
      simp only at h ⊢
      cases hr : parseFile f (a ++ b) with
      | ok p =>
        obtain ⟨ts0, es0⟩ := p
        rw [hr] at h
        simp only [Res.ok.injEq, Prod.mk.injEq] at h
        obtain ⟨e1, e2, h1, h2⟩ := ih ts0 es0 hr
        rw [h2]
        refine ⟨e' :: e1, e2, ?_, ?_⟩
        · rw [← h.2, h1]; rfl
        · rw [← h.1]; rfl
      | _ => rw [hr] at h; simp at h
    | _ => rw [hy] at h; simp at h

example : parseFile exParse ([(true, [2, 4])] ++ [(false, [6]), (true, [8])]) = .ok ([1, 2, 4], [.workedOnTrain]) ∧
    Rejects exParse (true, [2, 3, 5]) .ctc :=
  ⟨by decide, .inr ⟨rfl, [2], 3, [5], [1], rfl, by decide, by decide⟩⟩

/-- C88 (a file), and nothing is lost: if every train is accepted or rejected, the file yields the accepted ones in
order. -/
theorem C88_complete {α β : Type} (f : α → Res β) (xs : List (Bool × List α)) (out : List (List β ⊕ KErr))
    (hlen : out.length = xs.length)
    (h : ∀ (k : Nat) (x : Bool × List α) (o : List β ⊕ KErr), xs[k]? = some x → out[k]? = some o →
      match o with
      | .inl bs => Accepts f x bs
      | .inr e => Rejects f x e) :
    parseFile f xs = .ok ((out.filterMap Sum.getLeft?).flatten, out.filterMap Sum.getRight?) := by
  induction xs generalizing out with
  | nil =>
    have : out = [] := by simpa using hlen
    subst this; rfl
  | cons x xs ih =>
    cases out with
    | nil => simp at hlen
    | cons o out =>
      have h0 := h 0 x o rfl rfl
      have hr := ih out (by simpa using hlen) (fun k y p h1 h2 => h (k + 1) y p (by simpa using h1) (by simpa using h2))
      obtain ⟨r, ys⟩ := x
      cases o with
      | inl bs =>
        have := ((C88_train f (r, ys)).1 bs).2 h0
        simp only at this
        rw [parseFile, this, hr]
        simp [List.filterMap_cons]
      | inr e =>
        have := ((C88_train f (r, ys)).2 e).2 h0
        simp only at this
        rw [parseFile, this, hr]
        simp [List.filterMap_cons]

example : Accepts exParse (true, [2, 4]) [1, 2] ∧ Rejects exParse (false, [2]) .workedOnTrain :=
  ⟨⟨rfl, by decide⟩, .inl ⟨rfl, rfl⟩⟩

/-- C88, full statement: a train with a defect does not keep the other trains from being read. -/
def C88_full : Prop := ∀ (i : Infra) (st : Stations) (tr : StopSeq → Bool → Transform.Outcome)
  (xs : List (Bool × List XTrain)) (x : Bool × List XTrain) (ts : List Parsed) (es : List KErr),
  parseFile (construct i st tr) xs = .ok (ts, es) →
  (∀ y ∈ x.2, ∀ p ∈ y.points, (st.lookup p.ds100).isSome) →
  ∃ ts' es', parseFile (construct i st tr) (x :: xs) = .ok (ts' ++ ts, es')

/-- C88 is false: a stop mode other than 2, 3 and 4 throws an exception out of the parser. -/
theorem C88_stop_mode_negation : ¬ C88_full := by
  intro h
  obtain ⟨ts', es', h1⟩ := h exInfra [("A", [("r", 0)])] (fun _ _ => .undef) []
    (true, [⟨[⟨"A", "r", true, some '1'⟩], false, false, some (false, false)⟩]) [] [] rfl (by simp)
  simp [parseFile, parseTrain, each, construct, parsePoint, stopType] at h1

/-! ### C89 -/

/-- C89. Every train has its position as id, and the trains are those of the files in the order of the directory. -/
theorem C89_ids {α β : Type} (f : α → Res β) (files : List (List (Bool × List α))) (r : List (Nat × β))
    (h : parseTimetable f files = .ok r) :
    (∀ (k : Nat) (p : Nat × β), r[k]? = some p → p.1 = k) ∧
    ∃ parts : List (List β × List KErr), files.map (parseFile f) = parts.map .ok ∧
      r.map (·.2) = (parts.map (·.1)).flatten := by
  unfold parseTimetable at h
  cases he : each (parseFile f) files with
  | ok rs =>
    rw [he] at h
    simp only [Res.ok.injEq] at h
    subst h
    constructor
    · intro k p hp
      rw [List.getElem?_map, List.getElem?_zipIdx] at hp
      simp only [Option.map_map, Option.map_eq_some_iff, Function.comp] at hp
      obtain ⟨q, _, rfl⟩ := hp
      simp
    · refine ⟨rs, (each_ok _ _ _).1 he, ?_⟩
      rw [List.map_map]
      show (List.zipIdx _).map Prod.fst = _
      exact List.zipIdx_map_fst 0 _
  | _ => rw [he] at h; simp at h

example : parseTimetable exParse [[(true, [2, 4])], [(true, [3]), (true, [6])]] = .ok [(0, 1), (1, 2), (2, 3)] := by decide

/-- C89, full statement: the id of a train does not depend on the order in which the directory lists the files. -/
def C89_full : Prop := ∀ (f : Nat → Res Nat) (a b : List (List (Bool × List Nat))) (r s : List (Nat × Nat)), a.Perm b →
  parseTimetable f a = .ok r → parseTimetable f b = .ok s → ∀ p, p ∈ r → p ∈ s

/-- C89 is false: the order of `directory_iterator` is unspecified, and the ids follow it. -/
theorem C89_order_negation : ¬ C89_full := by
  intro h
  have := h exParse [[(true, [2])], [(true, [4])]] [[(true, [4])], [(true, [2])]] [(0, 1), (1, 2)] [(0, 2), (1, 1)]
    (List.Perm.swap _ _ _) (by decide) (by decide) (0, 1) (by simp)
  simp at this

/-- C89, what holds (missing: equal ids): the trains are the same up to order. -/
theorem C89_order_partial {α β : Type} (f : α → Res β) (a b : List (List (Bool × List α))) (r s : List (Nat × β))
    (hp : a.Perm b) (h1 : parseTimetable f a = .ok r) (h2 : parseTimetable f b = .ok s) :
    (r.map (·.2)).Perm (s.map (·.2)) := by
  obtain ⟨_, pa, e1, e2⟩ := C89_ids f a r h1
  obtain ⟨_, pb, e3, e4⟩ := C89_ids f b s h2
  rw [e2, e4]
  have hm : (pa.map Res.ok).Perm (pb.map Res.ok) := by rw [← e1, ← e3]; exact hp.map _
  have hpp : pa.Perm pb := by
    have := hm.filterMap (fun x : Res (List β × List KErr) => match x with | .ok a => some a | _ => none)
    simpa [List.filterMap_map, Function.comp_def] using this
  exact (hpp.map _).flatten

example : [[(true, [2])], [(true, [4])]].Perm [[(true, [4])], [(true, [2])]] := List.Perm.swap _ _ _

/-! ### C90 -/

theorem parsePoint_ok (st : Stations) (x : XPoint) (p : SPoint) : parsePoint st x = .ok p ↔ Reads st x p := by
  obtain ⟨ds, rt, dep, mode⟩ := x
  obtain ⟨ty, hd, sr⟩ := p
  unfold parsePoint Reads
  simp only
  cases h1 : st.lookup ds with
  | none => simp
  | some routes =>
    simp only [Option.some.injEq, exists_eq_left']
    cases h2 : routes.lookup rt with
    | none => simp
    | some s =>
      simp only [Option.some.injEq]
      cases mode with
      | none =>
        simp only [Res.ok.injEq, SPoint.mk.injEq]
        constructor
        · rintro ⟨rfl, rfl, rfl⟩; exact ⟨rfl, rfl, .transit⟩
        · rintro ⟨rfl, rfl, h⟩; cases h; exact ⟨rfl, rfl, rfl⟩
      | some c =>
        simp only
        constructor
        · intro h
          cases ht : stopType c with
          | none => rw [ht] at h; cases h
          | some ty' =>
            rw [ht] at h
            cases h
            refine ⟨rfl, rfl, ?_⟩
            unfold stopType at ht
            split at ht
            · rename_i h; subst h; cases ht; exact .operations
            · split at ht
              · rename_i h; subst h; cases ht; exact .request
              · split at ht
                · rename_i h; subst h; cases ht; exact .passenger
                · cases ht
        · rintro ⟨rfl, rfl, h⟩
          cases h <;> rfl

theorem parsePoint_err (st : Stations) (x : XPoint) (e : KErr) : parsePoint st x = .err e ↔ Unknown st x e := by
  unfold parsePoint Unknown
  cases h1 : st.lookup x.ds100 with
  | none =>
    simp only [Res.err.injEq, true_and, reduceCtorEq, false_and, exists_false, or_false]
    exact eq_comm
  | some routes =>
    simp only [Option.some.injEq, exists_eq_left', reduceCtorEq, false_and, false_or]
    cases h2 : routes.lookup x.route with
    | none =>
      simp only [Res.err.injEq, true_and]
      exact eq_comm
    | some s =>
      simp only [reduceCtorEq, false_and, iff_false]
      cases x.stopMode with
      | none => exact fun h => nomatch h
      | some c =>
        cases hs : stopType c with
        | none => simp only [hs]; exact fun h => nomatch h
        | some ty => simp only [hs]; exact fun h => nomatch h

/-- C90. A construction train is accepted iff all its points are known, its vehicles are known, it has no defect and the
transformation succeeds; the sequence points are those of the file, one by one. -/
theorem C90_accepted (i : Infra) (st : Stations) (tr : StopSeq → Bool → Transform.Outcome) (x : XTrain) (t : Parsed)
    (hst : ∀ ds routes r sr, st.lookup ds = some routes → routes.lookup r = some sr → ∃ s, i.stops[sr]? = some s) :
    construct i st tr x = .ok t ↔
      ∃ (pts : List SPoint) (ctc : Bool),
        (pts.length = x.points.length ∧
          ∀ (k : Nat) (a : XPoint) (p : SPoint), x.points[k]? = some a → pts[k]? = some p → Reads st a p) ∧
        x.characteristic = some (ctc, t.freight) ∧
        (∀ e k, ¬ Defect i ctc t.freight ⟨pts, x.breakIn, x.breakOut⟩ e k) ∧
        tr ⟨pts, x.breakIn, x.breakOut⟩ t.freight = .ok t.path t.points := by
  have hpts : ∀ pts, each (parsePoint st) x.points = .ok pts ↔ (pts.length = x.points.length ∧
      ∀ (k : Nat) (a : XPoint) (p : SPoint), x.points[k]? = some a → pts[k]? = some p → Reads st a p) := by
    intro pts
    rw [each_ok]
    constructor
    · intro h
      refine ⟨by simpa using (congrArg List.length h).symm, ?_⟩
      intro k a p h1 h2
      have := congrArg (fun l : List (Res SPoint) => l[k]?) h
      simp only [List.getElem?_map, h1, h2, Option.map_some, Option.some.injEq] at this
      exact (parsePoint_ok st a p).1 this
    · rintro ⟨h1, h2⟩
      apply List.ext_getElem (by simp [h1])
      intro k q1 q2
      simp only [List.getElem_map]
      simp only [List.length_map] at q1 q2
      exact (parsePoint_ok st _ _).2 (h2 k _ _ (List.getElem?_eq_getElem q1) (List.getElem?_eq_getElem q2))
  have hv : ∀ pts, each (parsePoint st) x.points = .ok pts → ∀ p ∈ pts, ∃ s, i.stops[p.sr]? = some s := by
    intro pts h p hp
    obtain ⟨k, hk, rfl⟩ := List.mem_iff_getElem.1 hp
    obtain ⟨h1, h2⟩ := (hpts pts).1 h
    obtain ⟨⟨routes, q1, q2⟩, _⟩ := h2 k _ _ (List.getElem?_eq_getElem (by omega)) (List.getElem?_eq_getElem hk)
    exact hst _ _ _ _ q1 q2
  unfold construct
  constructor
  · intro h
    cases he : each (parsePoint st) x.points with
    | ok pts =>
      rw [he] at h
      simp only at h
      cases hc : x.characteristic with
      | none => rw [hc] at h; cases h
      | some cf =>
        obtain ⟨ctc, fr⟩ := cf
        rw [hc] at h
        simp only at h
        cases hs : isSupported i ctc fr ⟨pts, x.breakIn, x.breakOut⟩ with
        | ok u =>
          rw [hs] at h
          simp only at h
          cases ht : tr ⟨pts, x.breakIn, x.breakOut⟩ fr with
          | ok path points =>
            rw [ht] at h
            cases h
            exact ⟨pts, ctc, (hpts pts).1 he, rfl, ((C68_supported i ctc fr _ (hv pts he)).1).1 hs, ht⟩
          | _ => rw [ht] at h; cases h
        | _ => rw [hs] at h; cases h
    | _ => rw [he] at h; cases h
  · rintro ⟨pts, ctc, h1, h2, h3, h4⟩
    have he := (hpts pts).2 h1
    have hs := ((C68_supported i ctc t.freight ⟨pts, x.breakIn, x.breakOut⟩ (hv pts he)).1).2 h3
    rw [he, h2]
    simp only [hs, h4]

example : (∀ ds routes r sr, ([("A", [("r", 0)]), ("B", [("r", 1), ("s", 0)])] : Stations).lookup ds = some routes →
      routes.lookup r = some sr → ∃ s, exInfra.stops[sr]? = some s) ∧
    construct exInfra [("A", [("r", 0)]), ("B", [("r", 1), ("s", 0)])] (fun ss _ => .ok [7] ss.points)
      ⟨[⟨"A", "r", true, some '4'⟩, ⟨"B", "r", true, none⟩, ⟨"B", "s", true, some '2'⟩], false, false,
        some (false, false)⟩ =
      .ok ⟨[7], [⟨.passenger, true, 0⟩, ⟨.transit, true, 1⟩, ⟨.operations, true, 0⟩], false⟩ := by
  refine ⟨?_, by decide⟩
  intro ds routes r sr h1 h2
  simp only [List.lookup_cons, List.lookup_nil] at h1
  split at h1
  · cases h1
    simp only [List.lookup_cons, List.lookup_nil] at h2
    split at h2 <;> cases h2
    exact ⟨_, rfl⟩
  · split at h1
    · cases h1
      simp only [List.lookup_cons, List.lookup_nil] at h2
      split at h2
      · cases h2; exact ⟨_, rfl⟩
      · split at h2 <;> cases h2
        exact ⟨_, rfl⟩
    · cases h1

/-- C90 (unknown points). An error about an unknown station or route is reported for the first point that cannot be read,
before vehicles, defects and paths are looked at. -/
theorem C90_unknown (i : Infra) (st : Stations) (tr : StopSeq → Bool → Transform.Outcome) (x : XTrain) (e : KErr)
    (pre post : List XPoint) (a : XPoint) (hx : x.points = pre ++ a :: post) (hpre : ∀ y ∈ pre, ∃ p, Reads st y p)
    (ha : Unknown st a e) : construct i st tr x = .err e := by
  have : each (parsePoint st) x.points = .err e := by
    rw [each_err]
    have hr : ∃ r : List SPoint, pre.map (parsePoint st) = r.map Res.ok := by
      clear hx
      induction pre with
      | nil => exact ⟨[], rfl⟩
      | cons y pre ih =>
        obtain ⟨p, hp⟩ := hpre y (by simp)
        obtain ⟨r, hr⟩ := ih (fun z hz => hpre z (by simp [hz]))
        exact ⟨p :: r, by simp [hr, (parsePoint_ok st y p).2 hp]⟩
    obtain ⟨r, hr⟩ := hr
    exact ⟨pre, a, post, r, hx, hr, (parsePoint_err st a e).2 ha⟩
  unfold construct
  rw [this]

example : Unknown [("A", [("r", 0)])] ⟨"A", "s", true, none⟩ .stationRouteNotFound ∧
    Unknown [("A", [("r", 0)])] ⟨"B", "r", true, none⟩ .stationNotFound ∧
    Reads [("A", [("r", 0)])] ⟨"A", "r", true, none⟩ ⟨.transit, true, 0⟩ :=
  ⟨.inr ⟨_, rfl, rfl, rfl⟩, .inl ⟨rfl, rfl⟩, ⟨_, rfl, rfl⟩, rfl, .transit⟩

/-- C90 (with the transformation). The path of every accepted construction train is a chain of existing interlocking
routes, each starting where its predecessor ends, and its first route uses the station route of the first point of the
file. -/
theorem C90_path_connected (i : Infra) (nodeCount : Nat) (routes : List Route.IR) (k : Ilk)
    (hk : Built i nodeCount routes k) (st : Stations) (fuel : Nat) (x : XTrain) (t : Parsed)
    (hst : ∀ ds rs r sr, st.lookup ds = some rs → rs.lookup r = some sr → ∃ s, i.stops[sr]? = some s)
    (h : construct i st (fun ss freight => transform i k ss freight fuel) x = .ok t) :
    (t.path.IsChain fun a b => ∃ ra rb n, routes[a]? = some ra ∧ routes[b]? = some rb ∧
      ra.lastNode i.routes = some n ∧ rb.firstNode i.routes = some n) ∧
    ∃ a r x0 p, t.path.head? = some a ∧ routes[a]? = some r ∧ x.points.head? = some x0 ∧ Reads st x0 p ∧ p.sr ∈ r.srs := by
  obtain ⟨pts, ctc, ⟨h1, h2⟩, _, _, h4⟩ := (C90_accepted i st _ x t hst).1 h
  obtain ⟨q1, a, r, sp, q2, q3, q4, q5, _⟩ := C49_connected i nodeCount routes k hk _ _ fuel _ _ h4
  refine ⟨q1, a, r, ?_⟩
  cases hx : x.points with
  | nil => simp [hx] at h1; subst h1; simp at q4
  | cons x0 xs =>
    refine ⟨x0, sp, q2, q3, rfl, ?_, q5⟩
    exact h2 0 x0 sp (by simp [hx]) (by rw [← List.head?_eq_getElem?]; exact q4)

example : Built planInfra 40 planRoutes (ilkOf planInfra planRoutes) ∧
    ∃ t, construct planInfra [("A", [("r", 0)]), ("B", [("r", 1)]), ("C", [("r", 2)])]
      (fun ss freight => transform planInfra (ilkOf planInfra planRoutes) ss freight 5)
      ⟨[⟨"A", "r", true, some '4'⟩, ⟨"B", "r", true, none⟩, ⟨"C", "r", true, some '4'⟩], false, false, some (false, false)⟩ =
        .ok t ∧ t.path = [0, 2, 3] :=
  ⟨planBuilt, ⟨[0, 2, 3], planned.points, false⟩, by decide +kernel, rfl⟩

end Soro.Kss
