import Verif.Proof.KssDebug
import Verif.Props.ServiceDays
import Verif.Proof.ParseDebug

/-! Property C174: the assertions on service days of a timetable. -/

namespace Soro
open Dbg Kss Dates Dates.Spec ServiceDays ServiceDays.Spec Utls Utls.Spec

theorem dateOk_iff (x : Ymd) : dateOk x = true ↔ Valid x := by
  have hl : (x.y % 4 = 0 ∧ (x.y % 100 ≠ 0 ∨ x.y % 400 = 0)) ↔ Leap x.y := by unfold Leap; omega
  simp only [dateOk, Bool.and_eq_true, decide_eq_true_eq, Valid, hl]
  have hm : 1 ≤ x.m → x.m ≤ 12 → monthDays x.y x.m = if x.m = 2 then (if Leap x.y then 29 else 28)
      else if x.m = 4 ∨ x.m = 6 ∨ x.m = 9 ∨ x.m = 11 then 30 else 31 := by
    intro h1 h2
    unfold monthDays
    split <;> simp_all
  constructor
  · rintro ⟨⟨h1, h2, h3⟩, h4⟩
    exact ⟨h1, h2, h3, by rw [hm h1 h2]; exact h4⟩
  · rintro ⟨h1, h2, h3, h4⟩
    exact ⟨⟨h1, h2, h3⟩, by rw [hm h1 h2] at h4; exact h4⟩

theorem says_length {s : List Char} {x : Ymd} (h : SaysDate s x) : s.length = 10 := by
  obtain ⟨ys, ms, ds, rfl, hy, hm, hd, -⟩ := h
  simp only [List.length_append, List.length_cons]
  omega

theorem numbers_bound {s : List Char} {v : Int} (h : Numeral ⟨true, 4⟩ s v) (hl : s.length = 4) : -1000 < v ∧ v < 10000 := by
  rcases h with ⟨-, h2, rfl⟩ | ⟨-, ds, rfl, -, h2, rfl⟩
  · have := value_lt s h2
    rw [hl] at this
    omega
  · have := value_lt ds h2
    simp only [List.length_cons] at hl
    rw [show ds.length = 3 by omega] at this
    omega

theorem pair_bound {s : List Char} (h : ∀ c ∈ s, c.isDigit = true) (hl : s.length = 2) : value s < 100 := by
  have := value_lt s h
  rwa [hl] at this

theorem pair_read {s : List Char} (h : ∀ c ∈ s, c.isDigit = true) (hl : s.length = 2) :
    Numeral ⟨false, 4⟩ s (value s) ∧ Fits ⟨false, 4⟩ (value s : Int) := by
  have := pair_bound h hl
  exact ⟨.inl ⟨(by rintro rfl; cases hl), h, rfl⟩, by simp [Fits, IntTy.min, IntTy.max]; omega⟩

theorem date_parts (ys ms ds : List Char) (a b : Char) (hy : ys.length = 4) (hm : ms.length = 2) (hd : ds.length = 2) :
    (ys ++ a :: ms ++ b :: ds).take 4 = ys ∧ ((ys ++ a :: ms ++ b :: ds).drop 5).take 2 = ms ∧
      ((ys ++ a :: ms ++ b :: ds).drop 8).take 2 = ds := by
  refine ⟨?_, ?_, ?_⟩
  · rw [List.append_assoc, ← hy, List.take_left]
  · have : (ys ++ a :: ms ++ b :: ds) = (ys ++ [a]) ++ (ms ++ b :: ds) := by simp
    rw [this, show 5 = (ys ++ [a]).length by simp [hy], List.drop_left, ← hm, List.take_left]
  · have : (ys ++ a :: ms ++ b :: ds) = (ys ++ a :: ms ++ [b]) ++ ds := by simp
    rw [this, show 8 = (ys ++ a :: ms ++ [b]).length by simp [hy, hm], List.drop_left, ← hd, List.take_length]

theorem numbers_read {s : List Char} {x : Ymd} (h : NumbersOf s x) : parseDate s = some x ∧
    parseDateD s = (check 76 (dateOk x = true) >>= fun _ => return x) := by
  obtain ⟨ys, a, ms, b, ds, rfl, hy, hm, hd, hc, ny, em, ed⟩ := h
  have cm : ∀ c ∈ ms, c.isDigit = true := fun c h => hc c (by simp [h])
  have cd : ∀ c ∈ ds, c.isDigit = true := fun c h => hc c (by simp [h])
  have by' := numbers_bound ny hy
  have bm := pair_bound cm hm
  have bd := pair_bound cd hd
  have fy : Fits ⟨true, 4⟩ x.y := by simp [Fits, IntTy.min, IntTy.max]; omega
  obtain ⟨t1, t2, t3⟩ := date_parts ys ms ds a b hy hm hd
  obtain ⟨nm, fm⟩ := pair_read cm hm
  obtain ⟨nd, fd⟩ := pair_read cd hd
  have hx : (⟨Utls.cast ⟨true, 2⟩ x.y, (Utls.cast ⟨false, 1⟩ (value ms : Int)).toNat, (Utls.cast ⟨false, 1⟩ (value ds : Int)).toNat⟩ : Ymd)
      = x := by
    obtain ⟨p, q, r⟩ := x
    dsimp only at by' em ed
    subst em ed
    simp only [Utls.cast, IntTy.min, IntTy.card, Ymd.mk.injEq]
    simp
    omega
  constructor
  · unfold parseDate
    rw [if_neg (by simp [hy, hm, hd]), t1, t2, t3, C60_parse_int _ _ _ ny fy, C60_parse_int _ _ _ nm fm, C60_parse_int _ _ _ nd fd, hx]
  · unfold parseDateD
    rw [check_pos (by simp [hy, hm, hd]), ok_bind, t1, t2, t3, (parseIntD_ok _ _ _).2 ⟨ny, fy⟩, ok_bind,
      (parseIntD_ok _ _ _).2 ⟨nm, fm⟩, ok_bind, (parseIntD_ok _ _ _).2 ⟨nd, fd⟩, ok_bind, hx]

theorem says_numbers {s : List Char} {x : Ymd} (h : SaysDate s x) : NumbersOf s x := by
  obtain ⟨ys, ms, ds, rfl, hy, hm, hd, hc, ey, em, ed⟩ := h
  exact ⟨ys, '-', ms, '-', ds, rfl, hy, hm, hd, fun c h => hc c (by simp only [List.mem_append] at h ⊢; tauto),
    .inl ⟨(by rintro rfl; cases hy), fun c h => hc c (by simp [h]), ey⟩, em, ed⟩

theorem digits_of_unsigned {s : List Char} {v : Int} (h : Numeral ⟨false, 4⟩ s v) : (∀ c ∈ s, c.isDigit = true) ∧ v = value s := by
  rcases h with ⟨-, h2, h3⟩ | ⟨h, -⟩
  · exact ⟨h2, h3⟩
  · cases h

/-- C174. A text is read in the debug build, as in the release build, iff its numbers are those of a date that exists; all other
texts are stopped by an assertion. -/
theorem C174_date (s : List Char) :
    (∀ x, NumbersOf s x → Valid x → SameAs (parseDateD s) (parseDate s)) ∧
    ((¬ ∃ x, NumbersOf s x ∧ Valid x) → Stops (parseDateD s)) := by
  refine ⟨fun x hs hx => ⟨x, (numbers_read hs).1, ?_⟩, fun h => ?_⟩
  · rw [(numbers_read hs).2, check_pos ((dateOk_iff x).2 hx)]; rfl
  · by_cases hl : s.length = 10
    · rcases parseIntD_total ⟨true, 4⟩ (s.take 4) with ⟨y, h1⟩ | ⟨n, h1⟩
      · rcases parseIntD_total ⟨false, 4⟩ ((s.drop 5).take 2) with ⟨m, h2⟩ | ⟨n, h2⟩
        · rcases parseIntD_total ⟨false, 4⟩ ((s.drop 8).take 2) with ⟨d, h3⟩ | ⟨n, h3⟩
          · have ny := ((parseIntD_ok _ _ _).1 h1).1
            obtain ⟨cm, em⟩ := digits_of_unsigned ((parseIntD_ok _ _ _).1 h2).1
            obtain ⟨cd, ed⟩ := digits_of_unsigned ((parseIntD_ok _ _ _).1 h3).1
            have hn : NumbersOf s ⟨y, value ((s.drop 5).take 2), value ((s.drop 8).take 2)⟩ := by
              refine ⟨s.take 4, s[4], (s.drop 5).take 2, s[7], (s.drop 8).take 2, ?_, ?_, ?_, ?_, ?_, ny, rfl, rfl⟩
              · have e1 : s = s.take 4 ++ s.drop 4 := (List.take_append_drop 4 s).symm
                have e2 : s.drop 4 = s[4] :: s.drop 5 := List.drop_eq_getElem_cons (by omega)
                have e3 : s.drop 5 = (s.drop 5).take 2 ++ s.drop 7 := by
                  have := (List.take_append_drop 2 (s.drop 5)).symm
                  rwa [List.drop_drop] at this
                have e4 : s.drop 7 = s[7] :: s.drop 8 := List.drop_eq_getElem_cons (by omega)
                have e5 : (s.drop 8).take 2 = s.drop 8 := List.take_of_length_le (by simp [hl])
                rw [e5]
                conv => lhs; rw [e1, e2, e3, e4]
                simp
              · simp [hl]
              · simp [hl]
              · simp [hl]
              · intro c hc
                rcases List.mem_append.1 hc with hc | hc
                · exact cm c hc
                · exact cd c hc
            have hv : ¬ Valid ⟨y, value ((s.drop 5).take 2), value ((s.drop 8).take 2)⟩ := fun hv => h ⟨_, hn, hv⟩
            rw [(numbers_read hn).2, check_neg (fun h => hv ((dateOk_iff _).1 h))]
            exact ⟨_, rfl⟩
          · exact ⟨n, by unfold parseDateD; rw [check_pos hl, ok_bind, h1, ok_bind, h2, ok_bind, h3]; rfl⟩
        · exact ⟨n, by unfold parseDateD; rw [check_pos hl, ok_bind, h1, ok_bind, h2]; rfl⟩
      · exact ⟨n, by unfold parseDateD; rw [check_pos hl, ok_bind, h1]; rfl⟩
    · exact ⟨67, by unfold parseDateD; rw [check_neg hl]; rfl⟩

/-- C174. The characters between the numbers are not checked. -/
theorem C174_separators : parseDateD ['2', '0', '2', '2', '5', '1', '1', 'x', '1', '9'] = .ok ⟨2022, 11, 19⟩ ∧
    ¬ ∃ x, SaysDate ['2', '0', '2', '2', '5', '1', '1', 'x', '1', '9'] x := by
  refine ⟨by decide +kernel, ?_⟩
  rintro ⟨x, ys, ms, ds, h, hy, -⟩
  have := congrArg (fun l => l[4]?) h
  simp [List.getElem?_append, hy] at this

example : SaysDate d28 ⟨2022, 2, 28⟩ ∧ Valid ⟨2022, 2, 28⟩ ∧
    SaysDate ['2', '0', '2', '2', '-', '0', '2', '-', '3', '0'] ⟨2022, 2, 30⟩ ∧ ¬ Valid ⟨2022, 2, 30⟩ :=
  ⟨says_example.1, by decide, ⟨['2', '0', '2', '2'], ['0', '2'], ['3', '0'], by decide⟩, by decide⟩

theorem parseDateD_ok {s : List Char} {x : Ymd} (hs : SaysDate s x) (hx : Valid x) : parseDateD s = .ok x := by
  obtain ⟨y, h1, h2⟩ := (C174_date s).1 x (says_numbers hs) hx
  rw [C158_text hs] at h1
  cases h1
  exact h2

/-- C174. The debug build makes the same service days as the release build exactly if the first service is a regular one and the
services add as many days that are service days already as they exclude days that are none; otherwise it is stopped by an
assertion. -/
theorem C174_services (ss : List Service) (lo hi : Int) (hw : hi - lo < 512) (hm : hi < maxDay)
    (hf : ∀ s ∈ ss, s.Fits lo hi) (hlen : ss.length < 2 ^ 54) :
    ((∃ s rest, ss = s :: rest ∧ s.isMask = true) ∧ surplus [] ss = 0 → SameAs (parseServicesD ss) (parseServices ss)) ∧
    (¬ ((∃ s rest, ss = s :: rest ∧ s.isMask = true) ∧ surplus [] ss = 0) → Stops (parseServicesD ss)) := by
  have hokf : ok fresh = false := by decide
  cases ss with
  | nil =>
    refine ⟨fun h => ?_, fun _ => ⟨135, ?_⟩⟩
    · obtain ⟨⟨_, _, h, -⟩, -⟩ := h; cases h
    · unfold parseServicesD
      rw [check_pos hokf]; rfl
  | cons s ss =>
    cases s with
    | mask f l m =>
      obtain ⟨h1, h2⟩ := parseServicesD_mask lo hi hw hm f l m ss hf (by simp at hlen; omega)
      exact ⟨fun h => h1 h.2, fun h => h2 fun h0 => h ⟨⟨_, _, rfl, rfl⟩, h0⟩⟩
    | special d k =>
      refine ⟨fun h => ?_, fun _ => ⟨128, ?_⟩⟩
      · obtain ⟨⟨s, rest, h, h'⟩, -⟩ := h
        cases h; cases h'
      · unfold parseServicesD
        rw [check_pos hokf]; rfl

/-- C174. If every included day, and every day of a regular service, is no service day before, and every excluded day is one,
the debug build does what the release build does. -/
theorem C174_plain (ss : List Service) (lo hi : Int) (hw : hi - lo < 512) (hm : hi < maxDay)
    (hf : ∀ s ∈ ss, s.Fits lo hi) (hlen : ss.length < 2 ^ 54) (hfirst : ∃ s rest, ss = s :: rest ∧ s.isMask = true)
    (hp : ∀ pre s post, ss = pre ++ s :: post → ∀ d, (Says d true s → ¬ Running pre d) ∧ (Says d false s → Running pre d)) :
    SameAs (parseServicesD ss) (parseServices ss) := by
  refine (C174_services ss lo hi hw hm hf hlen).1 ⟨hfirst, ?_⟩
  have key : ∀ (post pre : List Service), ss = pre ++ post → surplus pre post = 0 := by
    intro post
    induction post with
    | nil => intro pre _; rfl
    | cons s post ih =>
      intro pre h
      have h1 := hp pre s post h
      have e1 : {d | Says d true s ∧ Running pre d} = ∅ := by
        ext d; simp only [Set.mem_setOf_eq, Set.mem_empty_iff_false, iff_false]; exact fun h => (h1 d).1 h.1 h.2
      have e2 : {d | Says d false s ∧ ¬ Running pre d} = ∅ := by
        ext d; simp only [Set.mem_setOf_eq, Set.mem_empty_iff_false, iff_false]; exact fun h => h.2 ((h1 d).2 h.1)
      rw [surplus, needless, e1, e2, ih (pre ++ [s]) (by simp [h])]
      simp
  exact key ss [] rfl

/-- a regular service, and the day after it instead of its own -/
def exPlain : List Service := [.mask 100 101 ['1', '0'], .special 101 .incl, .special 100 .excl]

example : (∀ s ∈ exPlain, s.Fits 100 101) ∧ (∃ s rest, exPlain = s :: rest ∧ s.isMask = true) ∧
    ∀ pre s post, exPlain = pre ++ s :: post → ∀ d, (Says d true s → ¬ Running pre d) ∧ (Says d false s → Running pre d) := by
  refine ⟨by simp [exPlain, Service.Fits], ⟨_, _, rfl, rfl⟩, ?_⟩
  intro pre s post h d
  have hm : Says d true (.mask 100 101 ['1', '0']) ↔ d = 100 := by
    simp only [Says, SpecialOn, RegularOn, false_or, and_true]
    constructor
    · rintro ⟨h1, h2⟩
      obtain ⟨h3, h4⟩ := List.getElem?_eq_some_iff.1 h2
      by_cases hd : d = 100
      · exact hd
      · rw [show (d - 100).toNat = 1 by simp at h3; omega] at h2
        simp at h2
    · rintro rfl; simp
  have hmf : ∀ w, Says d w (.mask 100 101 ['1', '0']) ↔ w = true ∧ Says d true (.mask 100 101 ['1', '0']) := by
    intro w; cases w <;> simp [Says, SpecialOn]
  unfold exPlain at h
  rcases pre with _ | ⟨p0, _ | ⟨p1, _ | ⟨p2, pre⟩⟩⟩
  · simp only [List.nil_append, List.cons.injEq] at h
    obtain ⟨rfl, -⟩ := h
    simp [Running, not_last_nil, Says, SpecialOn]
  · simp only [List.cons_append, List.nil_append, List.cons.injEq] at h
    obtain ⟨rfl, rfl, -⟩ := h
    simp only [Running, last_cons, not_last_nil, hm]
    simp [Says, SpecialOn, RegularOn]
    omega
  · simp only [List.cons_append, List.nil_append, List.cons.injEq] at h
    obtain ⟨rfl, rfl, rfl, -⟩ := h
    simp only [Running, last_cons, not_last_nil, hm]
    simp [Says, SpecialOn, RegularOn]
    omega
  · simp at h

/-- C174. If no excluded day is one on which the train does not run anyway, but a day is included that is a service day
already, the debug build is stopped. -/
theorem C174_twice (ss : List Service) (lo hi : Int) (hw : hi - lo < 512) (hm : hi < maxDay)
    (hf : ∀ s ∈ ss, s.Fits lo hi) (hlen : ss.length < 2 ^ 54)
    (hp : ∀ pre s post, ss = pre ++ s :: post → ∀ d, Says d false s → Running pre d)
    (ht : ∃ pre s post d, ss = pre ++ s :: post ∧ Says d true s ∧ Running pre d) :
    Stops (parseServicesD ss) := by
  refine (C174_services ss lo hi hw hm hf hlen).2 fun h => ?_
  have hneed : ∀ pre s post, ss = pre ++ s :: post → needless pre s = Set.ncard {d | Says d true s ∧ Running pre d} := by
    intro pre s post h
    have e2 : {d | Says d false s ∧ ¬ Running pre d} = ∅ := by
      ext d; simp only [Set.mem_setOf_eq, Set.mem_empty_iff_false, iff_false]; exact fun h' => h'.2 (hp pre s post h d h'.1)
    rw [needless, e2]; simp
  have nonneg : ∀ (post pre : List Service), ss = pre ++ post → 0 ≤ surplus pre post := by
    intro post
    induction post with
    | nil => intro pre _; exact Int.le_refl 0
    | cons s post ih =>
      intro pre h
      have := ih (pre ++ [s]) (by simp [h])
      rw [surplus, hneed pre s post h]
      omega
  obtain ⟨pre, s, post, d, e, h1, h2⟩ := ht
  have pos : 0 < surplus pre (s :: post) := by
    have h3 := nonneg post (pre ++ [s]) (by simp [e])
    have h4 : 0 < Set.ncard {d | Says d true s ∧ Running pre d} := by
      rw [Set.ncard_pos ((named_finite true s).subset fun d h => h.1)]
      exact ⟨d, h1, h2⟩
    rw [surplus, hneed pre s post e]
    omega
  have mono : ∀ (mid pre' : List Service), ss = pre' ++ mid ++ s :: post → surplus (pre' ++ mid) (s :: post) ≤
      surplus pre' (mid ++ s :: post) := by
    intro mid
    induction mid with
    | nil => intro pre' _; simp
    | cons t mid ih =>
      intro pre' h'
      have := ih (pre' ++ [t]) (by simpa using h')
      have e : surplus pre' (t :: mid ++ s :: post) = needless pre' t + surplus (pre' ++ [t]) (mid ++ s :: post) := rfl
      rw [e, hneed pre' t (mid ++ s :: post) (by simpa using h')]
      rw [List.append_assoc, List.singleton_append] at this
      omega
  have := mono pre [] (by simpa using e)
  rw [List.nil_append, ← e] at this
  omega

/-- C174, an included day that is a service day anyway: the release build makes the right calendar, the debug build is
stopped. -/
theorem C174_twice_witness : parseServices [.mask 100 100 ['1'], .special 100 .incl] = some ⟨100, 100, 1⟩ ∧
    Stops (parseServicesD [.mask 100 100 ['1'], .special 100 .incl]) := by
  refine ⟨by decide +kernel, C174_twice _ 100 100 (by decide) (by decide) (by simp [Service.Fits]) (by decide) ?_
    ⟨[.mask 100 100 ['1']], .special 100 .incl, [], 100, rfl, by simp [Says, SpecialOn], ?_⟩⟩
  · intro pre s post h d hs
    have hm : s ∈ [Service.mask 100 100 ['1'], .special 100 .incl] := by rw [h]; simp
    rcases List.mem_cons.1 hm with rfl | hm
    · simp [Says, SpecialOn] at hs
    · rcases List.mem_singleton.1 hm with rfl
      simp [Says, SpecialOn] at hs
  · exact ⟨[], _, [], rfl, by simp [Says, SpecialOn, RegularOn], by simp⟩

/-- a needless inclusion and a needless exclusion cancel out -/
example : parseServicesD [.mask 100 100 ['1'], .special 100 .incl, .special 101 .excl] = .ok ⟨100, 101, 1⟩ := by
  decide +kernel

/-- C174. The same for the texts of a file. -/
theorem C174_texts {w : Ymd} (hw : Valid w) (hend : toDays w + 511 < maxDay) (es : List Elem)
    (hp : ∀ e ∈ es, Proper w e) (hlen : es.length < 2 ^ 54) :
    ∃ ss, es.mapM readElem = some ss ∧
      ((∃ e rest, es = e :: rest ∧ isMask e = true) ∧ surplus [] ss = 0 → SameAs (parseElemsD es) (parseElems es)) ∧
      (¬ ((∃ e rest, es = e :: rest ∧ isMask e = true) ∧ surplus [] ss = 0) → Stops (parseElemsD es)) := by
  obtain ⟨ss, h1, h2, h3⟩ := readElems_spec hw es hp
  refine ⟨ss, h1, ?_⟩
  have hD : ∀ (es : List Elem) (ss : List Service) (a : Acc), (∀ e ∈ es, Proper w e) → es.mapM readElem = some ss →
      elemsD a es = loopD a ss := by
    intro es
    induction es with
    | nil => intro ss a _ h; simp at h; subst h; rfl
    | cons e es ih =>
      intro ss a hp h
      rw [List.mapM_cons] at h
      cases he : readElem e with
      | none => simp [he] at h
      | some s =>
        cases hes : es.mapM readElem with
        | none => simp [he, hes] at h
        | some ss' =>
          simp only [he, hes, Option.bind_eq_bind, Option.bind_some, Option.pure_def, Option.some.injEq] at h
          subst h
          have hstep : elemD a e = stepD a s := by
            cases e with
            | mask st sp m =>
              obtain ⟨i, n, q1, q2, -⟩ := hp (.mask st sp m) (by simp)
              have v1 := (toDays_later hw i).1
              have v2 := (toDays_later hw (i + n)).1
              simp only [readElem, C158_text q1, C158_text q2, Option.bind_some, Option.map_some, Option.some.injEq] at he
              subst he
              simp only [elemD, stepD]
              rw [parseDateD_ok q1 v1, ok_bind, parseDateD_ok q2 v2, ok_bind]
            | special d ty =>
              obtain ⟨i, -, q1⟩ := hp (.special d ty) (by simp)
              have v1 := (toDays_later hw i).1
              simp only [readElem, C158_text q1, Option.map_some, Option.some.injEq] at he
              subst he
              simp only [elemD, stepD]
              rw [parseDateD_ok q1 v1]; rfl
          simp only [elemsD, loopD]
          rw [hstep]
          congr 1
          funext a'
          exact ih ss' a' (fun e he => hp e (by simp [he])) hes
  have hsame : parseElemsD es = parseServicesD ss := by
    unfold parseElemsD parseServicesD
    rw [hD es ss _ hp h1]
  have hrel : parseElems es = parseServices ss := by simp [parseElems, h1]
  have hfirst : (∃ e rest, es = e :: rest ∧ isMask e = true) ↔ ∃ s rest, ss = s :: rest ∧ s.isMask = true := by
    cases h2 with
    | nil => simp
    | cons ha hr => simp [ha.1]
  rw [hsame, hrel, hfirst]
  refine C174_services ss (toDays w) (toDays w + 511) (by omega) hend h3 ?_
  rw [← h2.length_eq]; exact hlen

example : Valid ⟨2022, 2, 28⟩ ∧ toDays ⟨2022, 2, 28⟩ + 511 < maxDay ∧
    (∀ e ∈ exMasks ++ exSpecials, Proper ⟨2022, 2, 28⟩ e) ∧
    parseElemsD (exMasks ++ exSpecials) = .ok ⟨19051, 19053, 1⟩ :=
  ⟨by decide, by decide, exElems_proper, by decide +kernel⟩

end Soro
