import Verif.Proof.Kss

/-! Lemmas for the KSS parser: support check, loops over trains, interval. -/

namespace Soro.Kss
open Soro.Train Soro.Transform Bitfield

/-! ### Support check -/

/-- what is wrong with a single point -/
def Bad (freight : Bool) (p : SPoint) (s : Stops) (e : KErr) : Prop :=
  (e = .haltWithoutHalt ∧ p.ty ≠ .transit ∧ (if freight then s.freight else s.passenger) = none) ∨
  (e = .timeWithoutCheckpoint ∧ p.ty = .transit ∧ p.hasDeparture = true ∧ s.checkpoint = none)

theorem checkPoints_spec (i : Infra) (freight : Bool) (ps : List SPoint) (hv : ∀ p ∈ ps, ∃ s, i.stops[p.sr]? = some s) :
    (checkPoints i freight ps = .ok () ∧
      ∀ (k : Nat) (p : SPoint) (s : Stops) (e : KErr), ps[k]? = some p → i.stops[p.sr]? = some s → ¬ Bad freight p s e) ∨
    ∃ (e : KErr) (k : Nat) (p : SPoint) (s : Stops), checkPoints i freight ps = .err e ∧ ps[k]? = some p ∧
      i.stops[p.sr]? = some s ∧ Bad freight p s e ∧
      ∀ (k' : Nat) (p' : SPoint) (s' : Stops) (e' : KErr), ps[k']? = some p' → i.stops[p'.sr]? = some s' →
        Bad freight p' s' e' → k ≤ k' := by
  induction ps with
  | nil => left; simp [checkPoints]
  | cons p ps ih =>
    obtain ⟨s, hs⟩ := hv p (by simp)
    by_cases hb : ∃ e, Bad freight p s e
    · obtain ⟨e, he⟩ := hb
      right
      refine ⟨e, 0, p, s, ?_, rfl, hs, he, fun _ _ _ _ _ _ _ => Nat.zero_le _⟩
      rcases he with ⟨rfl, h1, h2⟩ | ⟨rfl, h1, h2, h3⟩
      · simp [checkPoints, hs, SPoint.isHalt, h1, Stops.haltIdx, h2]
      · simp [checkPoints, hs, SPoint.isHalt, h1, SPoint.hasTransitTime, h2, h3]
    · have hstep : checkPoints i freight (p :: ps) = checkPoints i freight ps := by
        rw [checkPoints, hs]
        simp only
        rw [if_neg, if_neg]
        · intro h
          simp only [SPoint.hasTransitTime, Bool.and_eq_true, decide_eq_true_eq, Option.isNone_iff_eq_none] at h
          exact hb ⟨_, .inr ⟨rfl, h.1.1, h.1.2, h.2⟩⟩
        · intro h
          simp only [SPoint.isHalt, Stops.haltIdx, Bool.and_eq_true, decide_eq_true_eq, Option.isNone_iff_eq_none] at h
          exact hb ⟨_, .inl ⟨rfl, h.1, h.2⟩⟩
      rw [hstep]
      have h0 : ∀ (p' : SPoint) (s' : Stops) (e' : KErr), (p :: ps)[0]? = some p' → i.stops[p'.sr]? = some s' →
          ¬ Bad freight p' s' e' := by
        intro p' s' e' h1 h2 h3
        simp only [List.getElem?_cons_zero, Option.some.injEq] at h1
        subst h1
        rw [hs] at h2
        cases h2
        exact hb ⟨e', h3⟩
      rcases ih (fun q hq => hv q (by simp [hq])) with ⟨h1, h2⟩ | ⟨e, k, p', s', h1, h2, h3, h4, h5⟩
      · left
        refine ⟨h1, ?_⟩
        intro k q t e hq ht
        cases k with
        | zero => exact h0 q t e hq ht
        | succ k => exact h2 k q t e (by simpa using hq) ht
      · right
        refine ⟨e, k + 1, p', s', h1, by simpa using h2, h3, h4, ?_⟩
        intro k' q t e' hq ht hbad
        cases k' with
        | zero => exact absurd hbad (h0 q t e' hq ht)
        | succ k' => have := h5 k' q t e' (by simpa using hq) ht hbad; omega

theorem isSupported_spec (i : Infra) (ctc freight : Bool) (ss : StopSeq)
    (hv : ∀ p ∈ ss.points, ∃ s, i.stops[p.sr]? = some s) :
    (isSupported i ctc freight ss = .ok () ∧ ∀ e k, ¬ Defect i ctc freight ss e k) ∨
    ∃ e k, isSupported i ctc freight ss = .err e ∧ Defect i ctc freight ss e k ∧
      ∀ e' k', Defect i ctc freight ss e' k' → k ≤ k' := by
  unfold isSupported
  by_cases h0 : ctc = true
  · right; exact ⟨.ctc, 0, by simp [h0], .ctc h0, fun _ _ _ => Nat.zero_le _⟩
  rw [if_neg h0]
  by_cases h1 : ss.points.length < 2
  · right
    refine ⟨.singleStop, 1, by simp [h1], .singleStop (by omega), ?_⟩
    intro e k hd; cases hd <;> first | omega | contradiction
  rw [if_neg h1]
  by_cases h2 : ss.breakIn = true
  · right
    refine ⟨.breakIn, 2, by simp [h2], .breakIn h2, ?_⟩
    intro e k hd; cases hd <;> first | omega | contradiction
  rw [if_neg h2]
  by_cases h3 : ss.breakOut = true
  · right
    refine ⟨.breakOut, 3, by simp [h3], .breakOut h3, ?_⟩
    intro e k hd; cases hd <;> first | omega | contradiction
  rw [if_neg h3]
  obtain ⟨a, ha⟩ : ∃ a, ss.points[0]? = some a := ⟨_, List.getElem?_eq_getElem (by omega)⟩
  obtain ⟨b, hb⟩ : ∃ b, ss.points[ss.points.length - 1]? = some b := ⟨_, List.getElem?_eq_getElem (by omega)⟩
  rw [List.head?_eq_getElem?, List.getLast?_eq_getElem?, ha, hb]
  simp only
  by_cases h4 : a.ty = .transit
  · right
    refine ⟨.firstNoHalt, 4, by simp [SPoint.isHalt, h4], .firstNoHalt a ha h4, ?_⟩
    intro e k hd; cases hd <;> first | omega | contradiction
  have h4' : a.isHalt = true := by simp [SPoint.isHalt, h4]
  rw [if_neg (by simp [h4'])]
  have n4 : ∀ p, ss.points[0]? = some p → p.ty ≠ .transit := by
    intro p hp; rw [ha] at hp; cases hp; exact h4
  by_cases h5 : b.ty = .transit
  · right
    refine ⟨.lastNoHalt, 5, by simp [SPoint.isHalt, h5], .lastNoHalt b hb h5, ?_⟩
    intro e k hd
    cases hd with
    | firstNoHalt p hp ht => exact absurd ht (n4 p hp)
    | _ => first | omega | contradiction
  have h5' : b.isHalt = true := by simp [SPoint.isHalt, h5]
  rw [if_neg (by simp [h5'])]
  have n5 : ∀ p, ss.points[ss.points.length - 1]? = some p → p.ty ≠ .transit := by
    intro p hp; rw [hb] at hp; cases hp; exact h5
  have conv : ∀ e k, Defect i ctc freight ss e k → ∃ j p s, k = 6 + j ∧ ss.points[j]? = some p ∧
      i.stops[p.sr]? = some s ∧ Bad freight p s e := by
    intro e k hd
    cases hd with
    | firstNoHalt p hp ht => exact absurd ht (n4 p hp)
    | lastNoHalt p hp ht => exact absurd ht (n5 p hp)
    | halt j p s q1 q2 q3 q4 => exact ⟨j, p, s, rfl, q1, q2, .inl ⟨rfl, q3, q4⟩⟩
    | checkpoint j p s q1 q2 q3 q4 q5 => exact ⟨j, p, s, rfl, q1, q2, .inr ⟨rfl, q3, q4, q5⟩⟩
    | _ => first | omega | contradiction
  rcases checkPoints_spec i freight ss.points hv with ⟨q1, q2⟩ | ⟨e, k, p, s, q1, q2, q3, q4, q5⟩
  · left
    refine ⟨q1, ?_⟩
    intro e k hd
    obtain ⟨j, p, s, _, h6, h7, h8⟩ := conv e k hd
    exact q2 j p s e h6 h7 h8
  · right
    refine ⟨e, 6 + k, q1, ?_, ?_⟩
    · rcases q4 with ⟨rfl, a1, a2⟩ | ⟨rfl, a1, a2, a3⟩
      · exact .halt k p s q2 q3 a1 a2
      · exact .checkpoint k p s q2 q3 a1 a2 a3
    · intro e' k' hd
      obtain ⟨j, p', s', rfl, h6, h7, h8⟩ := conv e' k' hd
      have := q5 j p' s' e' h6 h7 h8
      omega

/-- there is one defect per position -/
theorem defect_unique (i : Infra) (ctc freight : Bool) (ss : StopSeq) (e e' : KErr) (k : Nat)
    (h : Defect i ctc freight ss e k) (h' : Defect i ctc freight ss e' k) : e = e' := by
  generalize hk : k = k' at h'
  cases h <;> cases h' <;> first | rfl | (exfalso; omega) | skip
  case halt.checkpoint a p s h1 _ h3 _ b q t g1 _ g3 _ _ =>
    have : a = b := by omega
    subst this
    rw [h1] at g1; cases g1
    exact absurd g3 h3
  case checkpoint.halt a p s h1 _ h3 _ _ b q t g1 _ g3 _ =>
    have : a = b := by omega
    subst this
    rw [h1] at g1; cases g1
    exact absurd h3 g3

/-! ### Loops -/

theorem each_ok {α β : Type} (f : α → Res β) (l : List α) (r : List β) :
    each f l = .ok r ↔ l.map f = r.map .ok := by
  induction l generalizing r with
  | nil => cases r <;> simp [each]
  | cons a l ih =>
    simp only [each, List.map_cons]
    cases hf : f a with
    | ok b =>
      cases he : each f l with
      | ok bs =>
        have := (ih bs).1 he
        rw [this]
        cases r with
        | nil => simp
        | cons c r =>
          simp only [Res.ok.injEq, List.cons.injEq, List.map_cons]
          have inj : ∀ x y : List β, x.map Res.ok = y.map Res.ok ↔ x = y := fun x y =>
            ⟨fun h => (List.map_inj_right fun _ _ h => Res.ok.inj h).1 h, fun h => h ▸ rfl⟩
          rw [inj]
      | _ =>
        cases r with
        | nil => simp
        | cons c r =>
          have := (ih r).not.1 (by simp [he])
          simp [this]
    | _ => cases r <;> simp

theorem each_err {α β : Type} (f : α → Res β) (l : List α) (e : KErr) :
    each f l = .err e ↔ ∃ (pre : List α) (a : α) (post : List α) (r : List β), l = pre ++ a :: post ∧ pre.map f = r.map .ok ∧ f a = .err e := by
  induction l with
  | nil => simp [each]
  | cons a l ih =>
    simp only [each]
    cases hf : f a with
    | ok b =>
      have key : (∃ (pre : List α) (c : α) (post : List α) (r : List β), a :: l = pre ++ c :: post ∧ pre.map f = r.map Res.ok ∧ f c = .err e) ↔
          ∃ (pre : List α) (c : α) (post : List α) (r : List β), l = pre ++ c :: post ∧ pre.map f = r.map Res.ok ∧ f c = .err e := by
        constructor
        · rintro ⟨pre, c, post, r, h1, h2, h3⟩
          cases pre with
          | nil =>
            simp only [List.nil_append, List.cons.injEq] at h1
            rw [← h1.1, hf] at h3; cases h3
          | cons x pre =>
            simp only [List.cons_append, List.cons.injEq] at h1
            cases r with
            | nil => simp at h2
            | cons y r =>
              simp only [List.map_cons, List.cons.injEq] at h2
              exact ⟨pre, c, post, r, h1.2, h2.2, h3⟩
        · rintro ⟨pre, c, post, r, h1, h2, h3⟩
          exact ⟨a :: pre, c, post, b :: r, by simp [h1], by simp [hf, h2], h3⟩
      rw [key, ← ih]
      cases each f l <;> simp
    | err e' =>
      simp only [Res.err.injEq]
      constructor
      · rintro rfl; exact ⟨[], a, l, [], rfl, rfl, hf⟩
      · rintro ⟨pre, c, post, r, h1, h2, h3⟩
        cases pre with
        | nil =>
          simp only [List.nil_append, List.cons.injEq] at h1
          rw [← h1.1, hf] at h3; cases h3; rfl
        | cons x pre =>
          simp only [List.cons_append, List.cons.injEq] at h1
          cases r with
          | nil => simp at h2
          | cons y r => simp only [List.map_cons, List.cons.injEq, ← h1.1, hf] at h2; cases h2.1
    | _ =>
      simp only [reduceCtorEq, false_iff]
      rintro ⟨pre, c, post, r, h1, h2, h3⟩
      cases pre with
      | nil =>
        simp only [List.nil_append, List.cons.injEq] at h1
        rw [← h1.1, hf] at h3; cases h3
      | cons x pre =>
        simp only [List.cons_append, List.cons.injEq] at h1
        cases r with
        | nil => simp at h2
        | cons y r => simp only [List.map_cons, List.cons.injEq, ← h1.1, hf] at h2; cases h2.1

/-! ### Interval -/

theorem firstAbs_spec (t : DepTrain) (ht : t.InRange) (hd : ∃ d, RunsOn t.days d) :
    ∃ a : Nat, firstAbs t = some a ∧ a < 2 ^ 32 ∧ (∃ d, RunsOn t.days d ∧ (a : Int) = d * 86400 + t.firstDeparture) ∧
      ∀ d, RunsOn t.days d → (a : Int) ≤ d * 86400 + t.firstDeparture := by
  obtain ⟨l, _, hp, hm, _, _, hf, _⟩ := C04_iteration_exact t.days ht.wf
  obtain ⟨d0, h0⟩ := hd
  cases l with
  | nil => exact absurd ((hm d0).2 h0) (by simp)
  | cons d l =>
    have hr := (hm d).1 (by simp)
    have hin := (at?_eq_true _ _).1 hr
    have h1 := ht.first; have h2 := ht.last; have h3 := ht.order
    have hs : (secOf d : Int) = d * 86400 := DepTrain.secOf_eq d (by omega) (by omega)
    refine ⟨relToAbs (secOf d) t.firstDeparture, by simp [firstAbs, hf], ?_, ⟨d, hr, ?_⟩, ?_⟩
    · rw [DepTrain.relToAbs_eq _ _ (by omega)]; omega
    · rw [DepTrain.relToAbs_eq _ _ (by omega)]; omega
    · intro e he
      have hle : d ≤ e := by
        have := (hm e).2 he
        rcases List.mem_cons.1 this with rfl | h
        · omega
        · have := (List.pairwise_cons.1 hp).1 e h; omega
      rw [DepTrain.relToAbs_eq _ _ (by omega)]; omega

theorem lastAbs_spec (t : DepTrain) (ht : t.InRange) (hd : ∃ d, RunsOn t.days d) :
    ∃ a : Nat, lastAbs t = some a ∧ a < 2 ^ 32 ∧ (∃ d, RunsOn t.days d ∧ (a : Int) = d * 86400 + t.lastArrival) ∧
      ∀ d, RunsOn t.days d → d * 86400 + t.lastArrival ≤ (a : Int) := by
  obtain ⟨l, _, hp, hm, _, _, _, hf⟩ := C04_iteration_exact t.days ht.wf
  obtain ⟨d0, h0⟩ := hd
  have hne : l ≠ [] := by rintro rfl; exact absurd ((hm d0).2 h0) (by simp)
  obtain ⟨l', d, rfl⟩ : ∃ l' d, l = l' ++ [d] := ⟨l.dropLast, l.getLast hne, (List.dropLast_concat_getLast hne).symm⟩
  have hr := (hm d).1 (by simp)
  have hin := (at?_eq_true _ _).1 hr
  have h1 := ht.first; have h2 := ht.last; have h3 := ht.order
  have hs : (secOf d : Int) = d * 86400 := DepTrain.secOf_eq d (by omega) (by omega)
  refine ⟨relToAbs (secOf d) t.lastArrival, by simp [lastAbs, hf], ?_, ⟨d, hr, ?_⟩, ?_⟩
  · rw [DepTrain.relToAbs_eq _ _ (by omega)]; omega
  · rw [DepTrain.relToAbs_eq _ _ (by omega)]; omega
  · intro e he
    have hle : e ≤ d := by
      have := (hm e).2 he
      rcases List.mem_append.1 this with h | h
      · have := (List.pairwise_append.1 hp).2.2 e h d (by simp); omega
      · simp at h; omega
    rw [DepTrain.relToAbs_eq _ _ (by omega)]; omega

theorem intervalLoop_spec (ts : List DepTrain) : ∀ iv : TimeInterval,
    (∀ t ∈ ts, t.InRange ∧ ∃ d, RunsOn t.days d) →
    ∃ r, intervalLoop ts iv = some r ∧ r.start ≤ iv.start ∧ iv.stop ≤ r.stop ∧
      (∀ t ∈ ts, ∀ d, RunsOn t.days d →
        (r.start : Int) ≤ d * 86400 + t.firstDeparture ∧ d * 86400 + t.lastArrival ≤ (r.stop : Int)) ∧
      (r.start = iv.start ∨ ∃ t ∈ ts, ∃ d, RunsOn t.days d ∧ (r.start : Int) = d * 86400 + t.firstDeparture) ∧
      (r.stop = iv.stop ∨ ∃ t ∈ ts, ∃ d, RunsOn t.days d ∧ (r.stop : Int) = d * 86400 + t.lastArrival) := by
  induction ts with
  | nil => intro iv _; exact ⟨iv, rfl, Nat.le_refl _, Nat.le_refl _, by simp, .inl rfl, .inl rfl⟩
  | cons t ts ih =>
    intro iv h
    obtain ⟨ht, hd⟩ := h t (by simp)
    obtain ⟨a, a1, _, ⟨da, a3, a4⟩, a5⟩ := firstAbs_spec t ht hd
    obtain ⟨b, b1, _, ⟨db, b3, b4⟩, b5⟩ := lastAbs_spec t ht hd
    obtain ⟨r, r1, r2, r3, r4, r5, r6⟩ := ih ⟨min iv.start a, max iv.stop b⟩ (fun u hu => h u (by simp [hu]))
    simp only at r2 r3 r5 r6
    refine ⟨r, by simp [intervalLoop, a1, b1, r1], by clear r5 r6; omega, by clear r5 r6; omega, ?_, ?_, ?_⟩
    · clear r5 r6
      intro u hu d hr
      rcases List.mem_cons.1 hu with rfl | hu
      · have := a5 d hr; have := b5 d hr; omega
      · exact r4 u hu d hr
    · clear r6
      rcases r5 with h | ⟨u, hu, d, hr, he⟩
      · by_cases hc : iv.start ≤ a
        · left; omega
        · right; exact ⟨t, by simp, da, a3, by omega⟩
      · right; exact ⟨u, by simp [hu], d, hr, he⟩
    · clear r5
      rcases r6 with h | ⟨u, hu, d, hr, he⟩
      · by_cases hc : b ≤ iv.stop
        · left; omega
        · right; exact ⟨t, by simp, db, b3, by omega⟩
      · right; exact ⟨u, by simp [hu], d, hr, he⟩

end Soro.Kss
