import Verif.Spec.ServiceDays
import Verif.Props.Dates
import Verif.Props.Kss
import Mathlib.Data.List.Forall2

/-
Property C162: a train runs on the dates its services name.
-/

namespace Soro
open Dates Dates.Spec Kss ServiceDays ServiceDays.Spec

/-- the element and what is read from it say the same about every date -/
def Agree (e : Elem) (s : Service) : Prop :=
  isMask e = s.isMask ∧ ∀ z, Valid z → (∀ v, Special z v e ↔ SpecialOn (toDays z) v s) ∧ (Regular z e ↔ RegularOn (toDays z) s)

theorem toDays_inj {a b : Ymd} (ha : Valid a) (hb : Valid b) : toDays a = toDays b ↔ a = b := by
  refine ⟨fun h => ?_, fun h => by rw [h]⟩
  rw [← ofDays_toDays ha, ← ofDays_toDays hb, h]

theorem readElem_spec {w : Ymd} (hw : Valid w) {e : Elem} (h : Proper w e) :
    ∃ s, readElem e = some s ∧ s.Fits (toDays w) (toDays w + 511) ∧ Agree e s := by
  cases e with
  | mask st sp m =>
    obtain ⟨i, n, h1, h2, h3, h4, h5⟩ := h
    obtain ⟨v1, e1⟩ := toDays_later hw i
    obtain ⟨v2, e2⟩ := toDays_later hw (i + n)
    refine ⟨.mask (toDays (later i w)) (toDays (later (i + n) w)) m, ?_, ⟨by omega, by omega, by omega, by omega, h5⟩, rfl, ?_⟩
    · rw [readElem, C158_text h1, C158_text h2]; rfl
    · intro z hz
      refine ⟨fun v => Iff.rfl, ?_⟩
      constructor
      · rintro ⟨x, k, hx, rfl, hk⟩
        have hxe : x = later i w := by
          have a1 := C158_text hx
          have a2 := C158_text h1
          rw [a1] at a2
          exact Option.some.inj a2
        subst hxe
        have e3 := (toDays_later v1 k).2
        refine ⟨by omega, ?_⟩
        rw [e3, show (toDays (later i w) + (k : Int) - toDays (later i w)).toNat = k by omega]
        exact hk
      · rintro ⟨h6, h7⟩
        exact ⟨later i w, _, h1, (C158_reach v1 hz h6).symm, h7⟩
  | special d ty =>
    obtain ⟨i, hi, h1⟩ := h
    obtain ⟨v1, e1⟩ := toDays_later hw i
    refine ⟨.special (toDays (later i w)) (kindOf ty), ?_, ⟨by omega, by omega⟩, rfl, ?_⟩
    · rw [readElem, C158_text h1]; rfl
    · intro z hz
      refine ⟨fun v => ?_, Iff.rfl⟩
      have hd : SaysDate d z ↔ toDays (later i w) = toDays z := by
        rw [toDays_inj v1 hz]
        constructor
        · intro h2
          have a1 := C158_text h1
          rw [C158_text h2] at a1
          exact (Option.some.inj a1).symm
        · rintro rfl; exact h1
      unfold Special kindOf
      dsimp only
      rw [hd]
      have hi1 : ("include".toList : List Char) = ['i', 'n', 'c', 'l', 'u', 'd', 'e'] := by decide
      have hi2 : ("exclude".toList : List Char) = ['e', 'x', 'c', 'l', 'u', 'd', 'e'] := by decide
      rw [← hi1, ← hi2]
      have hne : ("include".toList : List Char) ≠ "exclude".toList := by decide
      by_cases ht : ty = "include".toList
      · rw [if_pos ht, SpecialOn]
        constructor
        · rintro ⟨a, ⟨-, b⟩ | ⟨b, -⟩⟩
          · exact ⟨a, b⟩
          · exact absurd (ht.symm.trans b) hne
        · rintro ⟨a, b⟩; exact ⟨a, .inl ⟨ht, b⟩⟩
      · rw [if_neg ht]
        by_cases ht' : ty = "exclude".toList
        · rw [if_pos ht', SpecialOn]
          constructor
          · rintro ⟨a, ⟨b, -⟩ | ⟨-, b⟩⟩
            · exact absurd b ht
            · exact ⟨a, b⟩
          · rintro ⟨a, b⟩; exact ⟨a, .inr ⟨ht', b⟩⟩
        · rw [if_neg ht', SpecialOn]
          constructor
          · rintro ⟨-, ⟨b, -⟩ | ⟨b, -⟩⟩
            · exact ht b
            · exact ht' b
          · exact fun h => h.elim

theorem readElems_spec {w : Ymd} (hw : Valid w) (es : List Elem) (h : ∀ e ∈ es, Proper w e) :
    ∃ ss, es.mapM readElem = some ss ∧ List.Forall₂ Agree es ss ∧ ∀ s ∈ ss, s.Fits (toDays w) (toDays w + 511) := by
  induction es with
  | nil => exact ⟨[], rfl, .nil, by simp⟩
  | cons e es ih =>
    obtain ⟨s, h1, h2, h3⟩ := readElem_spec hw (h e (by simp))
    obtain ⟨ss, h4, h5, h6⟩ := ih fun x hx => h x (by simp [hx])
    refine ⟨s :: ss, by simp [List.mapM_cons, h1, h4], .cons h3 h5, ?_⟩
    intro t ht
    rcases List.mem_cons.1 ht with rfl | ht
    · exact h2
    · exact h6 t ht

theorem agree_all {es : List Elem} {ss : List Service} (h : List.Forall₂ Agree es ss) {z : Ymd} (hz : Valid z) :
    ((∀ e ∈ es, ∀ w, ¬ Special z w e) ↔ ∀ s ∈ ss, ∀ w, ¬ SpecialOn (toDays z) w s) ∧
    ((∃ e ∈ es, Regular z e) ↔ ∃ s ∈ ss, RegularOn (toDays z) s) := by
  induction h with
  | nil => simp
  | cons ha _ ih =>
    simp only [List.mem_cons, forall_eq_or_imp, exists_eq_or_imp, (ha.2 z hz).1, (ha.2 z hz).2, ih.1, ih.2, and_self]

theorem agree_last {es : List Elem} {ss : List Service} (h : List.Forall₂ Agree es ss) {z : Ymd} (hz : Valid z) :
    (∃ pre e post, es = pre ++ e :: post ∧ Special z true e ∧ ∀ t ∈ post, ∀ w, ¬ Special z w t) ↔
      Last (SpecialOn (toDays z)) ss true := by
  induction h with
  | nil => simp [not_last_nil]
  | @cons e s es ss ha hr ih =>
    rw [last_cons, ← ih, ← (agree_all hr hz).1, ← (ha.2 z hz).1 true]
    constructor
    · rintro ⟨pre, t, post, h1, h2, h3⟩
      cases pre with
      | nil => simp only [List.nil_append, List.cons.injEq] at h1; obtain ⟨rfl, rfl⟩ := h1; exact .inr ⟨h2, h3⟩
      | cons a pre => simp only [List.cons_append, List.cons.injEq] at h1; exact .inl ⟨pre, t, post, h1.2, h2, h3⟩
    · rintro (⟨pre, t, post, rfl, h2, h3⟩ | ⟨h2, h3⟩)
      · exact ⟨e :: pre, t, post, rfl, h2, h3⟩
      · exact ⟨[], e, es, rfl, h2, h3⟩

theorem agree_split {ms sp : List Elem} {ss : List Service} (h : List.Forall₂ Agree (ms ++ sp) ss) :
    ∃ a b, ss = a ++ b ∧ List.Forall₂ Agree ms a ∧ List.Forall₂ Agree sp b := by
  induction ms generalizing ss with
  | nil => exact ⟨[], ss, rfl, .nil, h⟩
  | cons m ms ih =>
    cases h with
    | cons h1 h2 =>
      obtain ⟨a, b, rfl, h3, h4⟩ := ih h2
      exact ⟨_ :: a, b, rfl, .cons h1 h3, h4⟩

theorem agree_mask {es : List Elem} {ss : List Service} (h : List.Forall₂ Agree es ss) {v : Bool}
    (hm : ∀ e ∈ es, isMask e = v) : ∀ s ∈ ss, s.isMask = v := by
  induction h with
  | nil => simp
  | cons ha _ ih =>
    intro s hs
    rcases List.mem_cons.1 hs with rfl | hs
    · rw [← ha.1]; exact hm _ (by simp)
    · exact ih (fun e he => hm e (by simp [he])) s hs

/-- C162: the calendar read from the texts of a file runs exactly on the dates that its services name.
Missing: services with a mask behind special ones (see `C162_order_negation`), texts that are no dates (see C158), more than 512
days (see C50). -/
theorem C162_calendar_partial {w : Ymd} (hw : Valid w) (hend : Before (later 511 w) ⟨2106, 2, 7⟩)
    (ms sp : List Elem) (hp : ∀ e ∈ ms ++ sp, Proper w e) (hne : ms ≠ []) (hms : ∀ e ∈ ms, isMask e = true)
    (hsp : ∀ e ∈ sp, isMask e = false) :
    ∃ b, parseElems (ms ++ sp) = some b ∧ b.WF ∧ toDays w ≤ b.first ∧ b.last ≤ toDays w + 511 ∧
      ∀ z, Valid z → (RunsOn b (toDays z) ↔ Served (ms ++ sp) z) := by
  obtain ⟨v1, e1⟩ := toDays_later hw 511
  have hlast := before_toDays v1 (by decide) hend
  have hday : toDays ⟨2106, 2, 7⟩ = 49710 := by decide
  obtain ⟨ss, h1, h2, h3⟩ := readElems_spec hw _ hp
  obtain ⟨a, b, rfl, h4, h5⟩ := agree_split h2
  have hane : a ≠ [] := by
    rintro rfl
    cases h4
    exact hne rfl
  obtain ⟨s, hs⟩ := List.exists_mem_of_ne_nil a hane
  have hma := agree_mask h4 hms
  obtain ⟨bf, h6, h7⟩ := C50_masks_first_partial a b (toDays w) (toDays w + 511) (by omega) (by unfold maxDay; omega) h3 hane hma
    (agree_mask h5 hsp)
  obtain ⟨bf', h8, h9, h10, h11, -⟩ := C50_last_word_partial (a ++ b) (toDays w) (toDays w + 511) (by omega) (by unfold maxDay; omega)
    h3 ⟨s, by simp [hs], hma s hs⟩
  rw [h6] at h8; cases h8
  refine ⟨bf, by rw [parseElems, h1, Option.bind_some, h6], h9, h10, h11, fun z hz => ?_⟩
  rw [h7, Served, agree_last h2 hz, (agree_all h2 hz).1, (agree_all h2 hz).2]

/-- C162: a train that arrives on the day of its departure departs in an interval exactly on the dates that its services name and
whose run is under way in the interval; what is returned are the midnights of these dates, in increasing order.
Missing: as in `C162_calendar_partial`, and trains that arrive on a later day (see C07). -/
theorem C162_departures_partial {w : Ymd} (hw : Valid w) (hstart : ¬ Before w epoch) (hend : Before (later 511 w) ⟨2106, 2, 7⟩)
    (ms sp : List Elem) (hp : ∀ e ∈ ms ++ sp, Proper w e) (hne : ms ≠ []) (hms : ∀ e ∈ ms, isMask e = true)
    (hsp : ∀ e ∈ sp, isMask e = false) (id first last : Nat) (hfl : first ≤ last) (hday : last < 86400) (iv : TimeInterval)
    (hiv : iv.start ≤ iv.stop) :
    ∃ l, departuresOf id (ms ++ sp) first last iv = some l ∧ l.Pairwise (· < ·) ∧
      (∀ z, Valid z → ¬ Before z epoch → ((toDays z * 86400).toNat ∈ l ↔ Served (ms ++ sp) z ∧ Meets first last iv z)) ∧
      ∀ t ∈ l, ∃ z, Valid z ∧ (t : Int) = toDays z * 86400 := by
  obtain ⟨b, h1, h2, h3, h4, h5⟩ := C162_calendar_partial hw hend ms sp hp hne hms hsp
  have hz0 : toDays epoch = 0 := by decide
  have nonneg : ∀ z, Valid z → ¬ Before z epoch → 0 ≤ toDays z := by
    intro z hz hn
    by_contra hlt
    exact hn ((C158_order hz (by decide)).1 (by omega))
  obtain ⟨v1, e1⟩ := toDays_later hw 511
  have hlast := before_toDays v1 (by decide) hend
  have h2106 : toDays ⟨2106, 2, 7⟩ = 49710 := by decide
  have hw0 := nonneg w hw hstart
  have hir : (DepTrain.mk id b first last).InRange := ⟨h2, by dsimp only; omega, by dsimp only; omega, hfl⟩
  obtain ⟨l, h6, h7, h8⟩ := C07_departures_partial ⟨id, b, first, last⟩ iv hir hiv hday
  obtain ⟨l', h9, -, h10⟩ := C07_departures_characterised ⟨id, b, first, last⟩ iv hir hiv
  rw [h6] at h9; cases h9
  refine ⟨l, by rw [departuresOf, h1, Option.bind_some, h6], h7, fun z hz hn => ?_, fun t ht => ?_⟩
  · rw [h8 _ (nonneg z hz hn)]
    dsimp only
    rw [h5 z hz]
    refine and_congr_right fun _ => ⟨?_, ?_⟩
    · rintro ⟨t, ⟨a, b⟩, c, d⟩; exact ⟨t, a, b, c, d⟩
    · rintro ⟨t, a, b, c, d⟩; exact ⟨t, ⟨a, b⟩, c, d⟩
  · obtain ⟨d, h11, -⟩ := (h10 t).1 ht
    exact ⟨ofDays d, (toDays_ofDays d).1, by rw [(toDays_ofDays d).2]; exact h11⟩

/-! ### Example -/

def d28 : List Char := ['2', '0', '2', '2', '-', '0', '2', '-', '2', '8']
def d02 : List Char := ['2', '0', '2', '2', '-', '0', '3', '-', '0', '2']

/-- runs on the last day of February and on the second of March, the latter is taken back -/
def exMasks : List Elem := [.mask d28 d02 ['1', '0', '1']]
def exSpecials : List Elem := [.special d02 "exclude".toList]

theorem exElems_proper : ∀ e ∈ exMasks ++ exSpecials, Proper ⟨2022, 2, 28⟩ e := by
  intro e he
  have : e = .mask d28 d02 ['1', '0', '1'] ∨ e = .special d02 "exclude".toList := by simpa [exMasks, exSpecials] using he
  rcases this with rfl | rfl
  · exact ⟨0, 2, says_example.1, says_example.2, rfl, by decide, by decide⟩
  · exact ⟨2, by decide, says_example.2⟩

theorem says_d02 {z : Ymd} (h : SaysDate d02 z) : z = ⟨2022, 3, 2⟩ := by
  have a1 := C158_text h
  have a2 : parseDate d02 = some ⟨2022, 3, 2⟩ := C158_text says_example.2
  rw [a2] at a1
  exact (Option.some.inj a1).symm

example : ∃ l, departuresOf 1 (exMasks ++ exSpecials) 36000 72000 ⟨19000 * 86400, 19100 * 86400⟩ = some l ∧
    (toDays ⟨2022, 2, 28⟩ * 86400).toNat ∈ l ∧ (toDays ⟨2022, 3, 2⟩ * 86400).toNat ∉ l := by
  obtain ⟨l, h1, -, h2, -⟩ := C162_departures_partial (w := ⟨2022, 2, 28⟩) (by decide) (by unfold Before; decide)
    (by unfold Before; decide +kernel) exMasks exSpecials exElems_proper (by simp [exMasks]) (by decide) (by decide) 1 36000 72000
    (by decide) (by decide) ⟨19000 * 86400, 19100 * 86400⟩ (by decide)
  refine ⟨l, h1, (h2 _ (by decide) (by unfold Before; decide)).2 ⟨.inr ⟨?_, _, .head _, ⟨2022, 2, 28⟩, 0, says_example.1, rfl, rfl⟩,
    19051 * 86400 + 36000, by decide, by decide, by decide, by decide⟩, fun h => ?_⟩
  · intro e he v hs
    have : e = .mask d28 d02 ['1', '0', '1'] ∨ e = .special d02 "exclude".toList := by simpa [exMasks, exSpecials] using he
    rcases this with rfl | rfl
    · exact hs
    · exact absurd (says_d02 hs.1) (by decide)
  · have h3 := ((h2 _ (by decide) (by unfold Before; decide)).1 h).1
    rcases h3 with ⟨pre, e, post, h3, h4, -⟩ | ⟨h3, -⟩
    · have he : e ∈ exMasks ++ exSpecials := by rw [h3]; simp
      have : e = .mask d28 d02 ['1', '0', '1'] ∨ e = .special d02 "exclude".toList := by simpa [exMasks, exSpecials] using he
      rcases this with rfl | rfl
      · exact h4
      · rcases h4.2 with ⟨h5, -⟩ | ⟨-, h5⟩
        · exact absurd h5 (by decide)
        · cases h5
    · exact h3 (.special d02 "exclude".toList) (by simp [exSpecials]) false ⟨says_example.2, .inr ⟨rfl, rfl⟩⟩

/-- C162 fails if a regular service follows the special one: the excluded date is served again. -/
theorem C162_order_negation : ∃ es b, (∀ e ∈ es, Proper ⟨2022, 2, 28⟩ e) ∧ parseElems es = some b ∧
    RunsOn b (toDays ⟨2022, 2, 28⟩) ∧ ¬ Served es ⟨2022, 2, 28⟩ := by
  refine ⟨[.mask d28 d28 ['1'], .special d28 "exclude".toList, .mask d28 d28 ['1']], ⟨19051, 19051, 1⟩, ?_, by decide +kernel,
    by unfold RunsOn; decide +kernel, ?_⟩
  · intro e he
    have : e = .mask d28 d28 ['1'] ∨ e = .special d28 "exclude".toList := by
      rcases List.mem_cons.1 he with h | h
      · exact .inl h
      · rcases List.mem_cons.1 h with h | h
        · exact .inr h
        · exact .inl (List.mem_singleton.1 h)
    rcases this with rfl | rfl
    · exact ⟨0, 0, says_example.1, says_example.1, rfl, by decide, by decide⟩
    · exact ⟨0, by decide, says_example.1⟩
  · rintro (⟨pre, e, post, h, h1, -⟩ | ⟨h, -⟩)
    · have he : e ∈ [Elem.mask d28 d28 ['1'], .special d28 "exclude".toList, .mask d28 d28 ['1']] := by rw [h]; simp
      rcases List.mem_cons.1 he with rfl | he
      · exact h1
      · rcases List.mem_cons.1 he with rfl | he
        · rcases h1.2 with ⟨h5, -⟩ | ⟨-, h5⟩
          · exact absurd h5 (by decide)
          · cases h5
        · rw [List.mem_singleton.1 he] at h1
          exact h1
    · exact h (.special d28 "exclude".toList) (.tail _ (.head _)) false ⟨says_example.1, .inr ⟨rfl, rfl⟩⟩

end Soro
