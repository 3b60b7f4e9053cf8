import Verif.Spec.KssXml
import Verif.Proof.TrainSeries
import Verif.Props.ParseFp
import Verif.Props.Kss

/-! Lemmas for the documents of timetables. -/

namespace Soro.KssXml
open Utls Utls.Spec TypeNames ParseFp IssElement IssFiles TrainSeries Soro.Train

/-! ### sequence points with their times -/

theorem stopsOn_map (i : Infra) (freight : Bool) (ir : Route.IR) (ss : List Stop) :
    Transform.seqPoints i freight ir (ss.map Stop.point) = (stopsOn i freight ir ss).map (List.map Stop.point) := by
  induction ss with
  | nil => rfl
  | cons s ss ih =>
    rw [List.map_cons, Transform.seqPoints, stopsOn]
    cases h : s.point.nodeIdx i freight with
    | none => exact ih
    | some idx =>
      simp only
      have : s.point.sr = s.sr := rfl
      rw [this]
      cases ir.contains s.sr idx with
      | none => rfl
      | some b =>
        simp only [Option.bind_some]
        rw [ih]
        cases stopsOn i freight ir ss with
        | none => rfl
        | some r => cases b <;> rfl

theorem stopsRange_map (s : Sequence) (a b : Nat) :
    Transform.pointsRange s.seq a b = (stopsRange s.stops a b).map (List.map Stop.point) := by
  unfold Transform.pointsRange stopsRange Sequence.seq
  dsimp only
  rw [List.length_map]
  split
  · rfl
  · split
    · simp [List.map_drop, List.map_take]
    · rfl

theorem range_on (i : Infra) (freight : Bool) (ir : Route.IR) (s : Sequence) (a b : Nat) :
    (Transform.pointsRange s.seq a b).bind (Transform.seqPoints i freight ir) =
      ((stopsRange s.stops a b).bind (stopsOn i freight ir)).map (List.map Stop.point) := by
  rw [stopsRange_map]
  cases stopsRange s.stops a b with
  | none => rfl
  | some r => simp only [Option.map_some, Option.bind_some, stopsOn_map]

/-- what `Transform` sees of an outcome -/
def Outcome.seen : Outcome → Transform.Outcome
  | .ok p ss => .ok p (ss.map Stop.point)
  | .err e => .err e
  | .undef => .undef
  | .running => .running

theorem loop_seen (i : Infra) (k : Transform.Ilk) (s : Sequence) (freight : Bool) (fuel : Nat) :
    ∀ (cur : Route.IR) (c : Transform.Cover) (path : List Nat) (ss : List Stop),
      Transform.loop i k s.seq freight fuel cur c path (ss.map Stop.point) = (loop i k s freight fuel cur c path ss).seen := by
  induction fuel with
  | zero => intros; rfl
  | succ fuel ih =>
    intro cur c path ss
    rw [Transform.loop, loop]
    cases Transform.covers i s.seq freight c with
    | none => rfl
    | some b =>
      cases b with
      | true => rfl
      | false =>
        dsimp only
        cases (cur.lastNode i.routes).bind fun n => (Transform.candidates i k s.seq freight c (some n)).bind fun cands =>
          Transform.longest k.routes (s.seq.plan.drop c.offset) cands with
        | none => rfl
        | some lp =>
          obtain ⟨ids, p⟩ := lp
          dsimp only
          match ids with
          | [] => rfl
          | _ :: _ :: _ => rfl
          | [id] =>
            dsimp only
            cases k.routes[id]? with
            | none => rfl
            | some ir =>
              dsimp only
              rw [range_on]
              cases (stopsRange s.stops c.offset (c.offset + p)).bind (stopsOn i freight ir) with
              | none => rfl
              | some new =>
                simp only [Option.map_some]
                have hl : s.seq.points.length = s.stops.length := by simp [Sequence.seq]
                rw [hl, ← List.map_append]
                split
                · rfl
                · cases Transform.advance i s.seq c ir p with
                  | none => rfl
                  | some c' => exact ih ir c' _ _

theorem transform_seen (i : Infra) (k : Transform.Ilk) (s : Sequence) (freight : Bool) (fuel : Nat) :
    Transform.transform i k s.seq freight fuel = (transform i k s freight fuel).seen := by
  rw [Transform.transform, transform]
  cases Transform.firstIr i k s.seq freight with
  | none => rfl
  | some r =>
    match r with
    | .inl e => rfl
    | .inr (id, ir, c) =>
      dsimp only
      rw [range_on]
      cases (stopsRange s.stops 0 ((c.offset + 1) % Transform.SIZE)).bind (stopsOn i freight ir) with
      | none => rfl
      | some ss => exact loop_seen i k s freight fuel ir c [id] ss

theorem stopsOn_mem {i : Infra} {freight : Bool} {ir : Route.IR} {ss r : List Stop} (h : stopsOn i freight ir ss = some r) :
    r.Sublist ss := by
  induction ss generalizing r with
  | nil => cases h; exact .slnil
  | cons s ss ih =>
    rw [stopsOn] at h
    split at h
    · exact (ih h).cons s
    · obtain ⟨b, -, h⟩ := Option.bind_eq_some_iff.1 h
      obtain ⟨r', h2, rfl⟩ := Option.map_eq_some_iff.1 h
      cases b
      · exact (ih h2).cons s
      · exact (ih h2).cons_cons s

theorem range_mem {i : Infra} {freight : Bool} {ir : Route.IR} {ss r : List Stop} {a b : Nat}
    (h : (stopsRange ss a b).bind (stopsOn i freight ir) = some r) : r.Sublist ss := by
  obtain ⟨q, h1, h2⟩ := Option.bind_eq_some_iff.1 h
  refine (stopsOn_mem h2).trans ?_
  unfold stopsRange at h1
  split at h1
  · cases h1; exact List.nil_sublist _
  · split at h1
    · cases h1; exact (List.drop_sublist _ _).trans (List.take_sublist _ _)
    · cases h1

theorem loop_mem {i : Infra} {k : Transform.Ilk} {s : Sequence} {freight : Bool} {fuel : Nat} :
    ∀ {cur : Route.IR} {c : Transform.Cover} {path path' : List Nat} {ss ss' : List Stop},
      (∀ x ∈ ss, x ∈ s.stops) → loop i k s freight fuel cur c path ss = .ok path' ss' → ∀ x ∈ ss', x ∈ s.stops := by
  induction fuel with
  | zero => intro cur c path path' ss ss' _ h; cases h
  | succ fuel ih =>
    intro cur c path path' ss ss' hs h
    rw [loop] at h
    split at h
    · cases h
    · cases h; exact hs
    · split at h
      · cases h
      · split at h
        · cases h
        · split at h
          · cases h
          · split at h
            · cases h
            · rename_i new hnew
              have hn : ∀ x ∈ ss ++ new, x ∈ s.stops := by
                intro x hx
                rcases List.mem_append.1 hx with hx | hx
                · exact hs x hx
                · exact (range_mem hnew).subset hx
              split at h
              · cases h; exact hn
              · split at h
                · cases h
                · exact ih hn h
        · cases h

theorem transform_mem {i : Infra} {k : Transform.Ilk} {s : Sequence} {freight : Bool} {fuel : Nat} {path : List Nat} {ss : List Stop}
    (h : transform i k s freight fuel = .ok path ss) : ∀ x ∈ ss, x ∈ s.stops := by
  rw [transform] at h
  split at h
  · cases h
  · cases h
  · split at h
    · cases h
    · rename_i h1
      exact loop_mem (fun x hx => (range_mem h1).subset hx) h

/-! ### what documents say -/

theorem timeOf_says {x : Xml} {n : Text} {t : Option Nat} (h : SaysTime x n t) :
    ∃ v, timeOf (child (some x) n) = some v ∧ Timed v t := by
  cases t with
  | none => exact ⟨NEVER, by rw [child_lacks h]; rfl, .inr ⟨rfl, rfl⟩⟩
  | some t =>
    obtain ⟨k, s, sec, h1, h2, ⟨a, b, c, d, e, f, rest, rfl, rfl⟩, h4⟩ := h
    rw [child_first h1, timeOf, childText_says h2, Kss.C87_time_of_day]
    refine ⟨_, rfl, .inl ?_⟩
    rcases h4 with ⟨h4, rfl⟩ | ⟨⟨l, h4⟩, rfl⟩
    · rw [child_lacks h4]; simp
    · rw [child_first h4]; simp

theorem modeOf_says {x : Xml} {ty : SType} (h : SaysMode x ty) : modeOf (child (some x) "stopMode".toList) = some ty := by
  rcases h with ⟨h, rfl⟩ | ⟨k, c, h1, h2, h3⟩
  · rw [child_lacks h]; rfl
  · rw [child_first h1, modeOf, attr_has h2]
    rcases h3 with ⟨rfl, rfl⟩ | ⟨rfl, rfl⟩ | ⟨rfl, rfl⟩ <;> rfl

theorem minStopOf_says {x : Xml} {d : Nat} (h : SaysMinStop x d) : minStopOf (child (some x) "minStopTime".toList) = .ok d := by
  rcases h with ⟨h, rfl⟩ | ⟨k, fs, h1, h2, rfl, h3⟩
  · rw [child_lacks h]; rfl
  · rw [child_first h1, minStopOf, h2, Kss.C51_sum_partial fs h3]

theorem stop_says {x : Xml} {d : SaidStop} (h : SaysStop x d) (st : Stations) :
    (∀ sr, Known st d sr → ∃ s, stop st x = .ok s ∧ Is st d s) ∧
    ((¬ ∃ sr, Known st d sr) → stop st x = .err .stationNotFound ∨ stop st x = .err .stationRouteNotFound) := by
  obtain ⟨h1, h2, h3, h4, h5, h6⟩ := h
  obtain ⟨a, ha, ta⟩ := timeOf_says h4
  obtain ⟨b, hb, tb⟩ := timeOf_says h5
  rw [stop, childText_says h1, childText_says h2, ha, hb, modeOf_says h3, minStopOf_says h6]
  refine ⟨fun sr ⟨routes, hk1, hk2⟩ => ?_, fun hk => ?_⟩
  · rw [hk1]
    simp only [hk2]
    exact ⟨_, rfl, ⟨routes, hk1, hk2⟩, rfl, ta, tb, rfl⟩
  · cases h7 : st d.station with
    | none => exact .inl rfl
    | some routes =>
      cases h8 : routes d.route with
      | none => right; simp only [h8]
      | some sr => exact absurd ⟨sr, routes, h7, h8⟩ hk

theorem vehicle_says {x : Xml} {u : SaidUnit} (h : SaysUnit x u) (m : Text → Option Series) :
    (∀ v, Found m u v → vehicle m x = .ok v) ∧ ((¬ ∃ v, Found m u v) → vehicle m x = .err .vehicle) ∧
    ∀ v, vehicle m x = .ok v → Found m u v := by
  obtain ⟨s, k, ds, h1, h2, h3, h4, h5, h6, h7, h8, h9⟩ := h
  have hv : getTractionVehicle m (view u.series) (view u.owner) u.variant =
      some ((m (u.series ++ '-' :: u.owner)).bind fun s => s.variants u.variant) := by
    rw [getTractionVehicle, dataText_shows (v := view u.series) ⟨[], rfl⟩ h8, dataText_shows (v := view u.owner) ⟨[], rfl⟩ h9]
  have he : vehicle m x = match getTractionVehicle m (view u.series) (view u.owner) u.variant with
      | none => .undef
      | some none => .err .vehicle
      | some (some v) => .ok v := by
    rw [vehicle, child_first h1, childText_first h2, h3, child_first h2, attr_has h4, childText_says h5, parseInt_writes h6 (by simpa using h7)]
    rfl
  rw [he, hv]
  cases h10 : m (u.series ++ '-' :: u.owner) with
  | none =>
    refine ⟨fun v ⟨s, e, _⟩ => (by rw [h10] at e; cases e), fun _ => rfl, fun v h => (by cases h)⟩
  | some s' =>
    cases h11 : s'.variants u.variant with
    | none =>
      simp only [Option.bind_some, h11]
      exact ⟨fun v ⟨t, e, f⟩ => (by rw [h10] at e; cases e; rw [h11] at f; cases f), fun _ => trivial, fun v h => (by cases h)⟩
    | some v' =>
      simp only [Option.bind_some, h11]
      refine ⟨fun v ⟨t, e, f⟩ => ?_, fun h => absurd ⟨v', s', h10, h11⟩ h, fun v h => ?_⟩
      · rw [h10] at e; cases e; rw [h11] at f; cases f; rfl
      · cases h; exact ⟨s', h10, h11⟩

theorem service_says {x : Xml} {e : ServiceDays.Elem} (h : SaysService x e) : service x = e := by
  cases e with
  | mask s e m =>
    obtain ⟨h1, h2, h3⟩ := h
    have ha : (x.attrs.any fun a => a.1 == "bitMask".toList) = true := by
      obtain ⟨pre, post, h4, -⟩ := h3
      rw [h4]; simp
    rw [service, if_pos ha, attr_has h1, attr_has h2, attr_has h3]
  | special d ty =>
    obtain ⟨h0, k, h1, h2, h3⟩ := h
    have ha : ¬ (x.attrs.any fun a => a.1 == "bitMask".toList) = true := by
      intro h
      obtain ⟨a, h4, h5⟩ := List.any_eq_true.1 h
      exact h0 a h4 (by simpa using h5)
    rw [service, if_neg ha, child_first h1, attr_has h2, attr_has h3]

theorem word_says {x : Xml} {n w : Text} {b : Bool} (h : SaysWord x n w b) : (childText (some x) n == w) = b := by
  obtain ⟨s, h1, h2⟩ := h
  rw [childText_says h1]
  cases b
  · simp only [beq_eq_false_iff_ne]; intro he; cases h2.2 he
  · simp [h2.1 rfl]

theorem nat_says {x : Xml} {n : Text} {v b : Nat} (h : SaysNat x n v (2 ^ (8 * b))) :
    (parseInt ⟨false, b⟩ (childText (some x) n)).toNat = v := by
  obtain ⟨s, h1, h2, h3⟩ := h
  rw [childText_says h1, parseInt_writes h2 h3]

theorem decimal_says {x : Xml} {n : Text} {q : Rat} (h : SaysDecimal x n q) : parseFp false (childText (some x) n) = some q := by
  obtain ⟨k, h1, h2⟩ := h
  rw [childText_first h1, C139_decimal_partial.2 h2]

theorem each_rel {α β γ : Type} {f : α → Kss.Res β} {R : α → γ → Prop} {Q : γ → β → Prop}
    (h : ∀ x d, R x d → (∃ b, f x = .ok b ∧ Q d b) ∨ ∃ e, f x = .err e ∧ ¬ ∃ b, Q d b) {xs : List α} {ds : List γ}
    (hF : List.Forall₂ R xs ds) :
    (∃ bs, Kss.each f xs = .ok bs ∧ List.Forall₂ Q ds bs) ∨ ∃ e, Kss.each f xs = .err e ∧ ¬ ∃ bs, List.Forall₂ Q ds bs := by
  induction hF with
  | nil => exact .inl ⟨[], rfl, .nil⟩
  | cons h1 _ ih =>
    rw [Kss.each]
    rcases h _ _ h1 with ⟨b, h2, h3⟩ | ⟨e, h2, h3⟩
    · rw [h2]
      rcases ih with ⟨bs, h4, h5⟩ | ⟨e, h4, h5⟩
      · exact .inl ⟨b :: bs, by simp only [h4], .cons h3 h5⟩
      · refine .inr ⟨e, by simp only [h4], ?_⟩
        rintro ⟨bs, hb⟩
        cases hb with
        | cons _ hb => exact h5 ⟨_, hb⟩
    · refine .inr ⟨e, by simp only [h2], ?_⟩
      rintro ⟨bs, hb⟩
      cases hb with
      | cons hb _ => exact h3 ⟨_, hb⟩

theorem stops_say {ks : List Xml} {ds : List SaidStop} (h : List.Forall₂ SaysStop ks ds) (st : Stations) :
    (∃ ss, Kss.each (stop st) ks = .ok ss ∧ List.Forall₂ (Is st) ds ss) ∨
      ∃ e, Kss.each (stop st) ks = .err e ∧ ¬ ∃ ss, List.Forall₂ (Is st) ds ss := by
  refine each_rel (fun x d hx => ?_) h
  by_cases hk : ∃ sr, Known st d sr
  · obtain ⟨sr, hk⟩ := hk
    exact .inl ((stop_says hx st).1 sr hk)
  · right
    rcases (stop_says hx st).2 hk with h1 | h1
    · exact ⟨_, h1, fun ⟨s, hs⟩ => hk ⟨_, hs.sr⟩⟩
    · exact ⟨_, h1, fun ⟨s, hs⟩ => hk ⟨_, hs.sr⟩⟩

theorem units_say {ks : List Xml} {us : List SaidUnit} (h : List.Forall₂ SaysUnit ks us) (m : Text → Option Series) :
    (∃ vs, Kss.each (vehicle m) ks = .ok vs ∧ List.Forall₂ (Found m) us vs) ∨
      ∃ e, Kss.each (vehicle m) ks = .err e ∧ ¬ ∃ vs, List.Forall₂ (Found m) us vs := by
  refine each_rel (fun x u hx => ?_) h
  by_cases hk : ∃ v, Found m u v
  · obtain ⟨v, hk⟩ := hk
    exact .inl ⟨v, (vehicle_says hx m).1 v hk, hk⟩
  · exact .inr ⟨_, (vehicle_says hx m).2.1 hk, hk⟩

theorem found_unique {m : Text → Option Series} {us : List SaidUnit} {vs ws : List Vehicle} (h : List.Forall₂ (Found m) us vs)
    (h' : List.Forall₂ (Found m) us ws) : vs = ws := by
  induction h generalizing ws with
  | nil => cases h'; rfl
  | cons h1 _ ih =>
    cases h' with
    | cons h2 h3 =>
      obtain ⟨s, a, b⟩ := h1
      obtain ⟨s', a', b'⟩ := h2
      rw [a] at a'; cases a'
      rw [b] at b'; cases b'
      rw [ih h3]

theorem timed_unique {a b : Nat} {o : Option Nat} (h : Timed a o) (h' : Timed b o) : a = b := by
  rcases h with h | ⟨h, rfl⟩ <;> rcases h' with h' | ⟨h', rfl⟩ <;> simp_all

theorem is_unique {st : Stations} {d : SaidStop} {a b : Stop} (h : Is st d a) (h' : Is st d b) : a = b := by
  obtain ⟨r, q1, q2⟩ := h.sr
  obtain ⟨r', q3, q4⟩ := h'.sr
  rw [q1] at q3; cases q3
  rw [q2] at q4
  cases a; cases b
  simp only [Stop.mk.injEq]
  exact ⟨h.ty.trans h'.ty.symm, timed_unique h.arrival h'.arrival, timed_unique h.departure h'.departure,
    h.minStop.trans h'.minStop.symm, Option.some.inj q4⟩

theorem are_unique {st : Stations} {ds : List SaidStop} {a b : List Stop} (h : List.Forall₂ (Is st) ds a)
    (h' : List.Forall₂ (Is st) ds b) : a = b := by
  induction h generalizing b with
  | nil => cases h'; rfl
  | cons h1 _ ih =>
    cases h' with
    | cons h2 h3 => rw [is_unique h1 h2, ih h3]

/-- what is left to check once the parts of a document are read -/
def finish (d : Data) (fuel : Nat) (t : SaidTrain) (days : Bitfield) (ss : List Stop) (vs : List Vehicle) : Kss.Res KTrain :=
  match Kss.isSupported d.infra t.ctc t.freight (Sequence.seq ⟨ss, t.breakIn, t.breakOut⟩) with
  | .err e => .err e
  | .throws => .throws
  | .undef => .undef
  | .ok () =>
    match transform d.infra d.ilk ⟨ss, t.breakIn, t.breakOut⟩ t.freight fuel with
    | .ok path ss' => .ok ⟨(t.main, t.sub), days, ⟨vs, some (1000 * t.tons), some t.metres, some (t.kmh / (18 / 5)), t.ctc, t.freight⟩,
        t.breakIn, t.breakOut, path, ss'⟩
    | .err e => .err (.transform e)
    | .undef => .undef
    | .running => .undef

theorem train_says {x : Xml} {t : SaidTrain} (h : SaysTrain x t) (d : Data) (fuel : Nat) :
    (∀ days ss vs, ServiceDays.parseElems t.services = some days → List.Forall₂ (Is d.stations) t.stops ss →
      List.Forall₂ (Found d.series) t.units vs → constructionTrain d fuel x = finish d fuel t days ss vs) ∧
    (ServiceDays.parseElems t.services = none → constructionTrain d fuel x = .undef) ∧
    (∀ days, ServiceDays.parseElems t.services = some days →
      ((¬ ∃ ss, List.Forall₂ (Is d.stations) t.stops ss) ∨ ¬ ∃ vs, List.Forall₂ (Found d.series) t.units vs) →
      ∃ e, constructionTrain d fuel x = .err e) := by
  obtain ⟨⟨kn, n1, n2, n3⟩, ⟨kss, s1, s2⟩, ⟨q, ks, q1, q2, q3, q4, q5⟩, ⟨c, us, c1, c2, c3, c4, c5, c6, c7, c8⟩⟩ := h
  have hser : services (child (some x) "services".toList) = ServiceDays.parseElems t.services := by
    rw [services, kids_members s1, filter_beq]
    congr 1
    clear s1
    generalize (kss.filter fun k => decide (k.name = "service".toList)) = l at s2
    generalize t.services = l' at s2
    induction s2 with
    | nil => rfl
    | cons h _ ih => rw [List.map_cons, service_says h, ih]
  have hnum : trainNumber (child (some x) "trainNumber".toList) = (t.main, t.sub) := by
    rw [trainNumber, child_first n1, nat_says (b := 4) n2, nat_says (b := 2) n3]
  have hseq : ∀ r : Kss.Res (List Stop), Kss.each (stop d.stations) ks = r →
      sequence d.stations (child (some x) "sequence".toList) = match r with
        | .ok ss => .ok ⟨ss, t.breakIn, t.breakOut⟩
        | .err e => .err e
        | .throws => .throws
        | .undef => .undef := by
    intro r hr
    rw [sequence, child_first q1, kids_members q2, hr, word_says q4, word_says q5]
    cases r <;> rfl
  have hch : ∀ r : Kss.Res (List Vehicle), Kss.each (vehicle d.series) us = r →
      characteristic d.series (child (some x) "characteristic".toList) = match r with
        | .ok vs => .ok ⟨vs, some (1000 * t.tons), some t.metres, some (t.kmh / (18 / 5)), t.ctc, t.freight⟩
        | .err e => .err e
        | .throws => .throws
        | .undef => .undef := by
    intro r hr
    rw [characteristic, child_first c1, kids_members c2, hr, word_says c7, word_says c8, decimal_says c4, decimal_says c5,
      decimal_says c6, fromKmH_some, fromKm, Option.map_some, mul_comm t.tons]
    cases r <;> rfl
  refine ⟨fun days ss vs h1 h2 h3 => ?_, fun h1 => ?_, fun days h1 h2 => ?_⟩
  · rcases stops_say q3 d.stations with ⟨ss', e1, e2⟩ | ⟨e, -, e2⟩
    · rcases units_say c3 d.series with ⟨vs', e3, e4⟩ | ⟨e, -, e4⟩
      · rw [are_unique h2 e2, found_unique h3 e4]
        rw [constructionTrain, hser, h1, hseq _ e1, hch _ e3, hnum]
        rfl
      · exact absurd ⟨_, h3⟩ e4
    · exact absurd ⟨_, h2⟩ e2
  · rw [constructionTrain, hser, h1]
  · rw [constructionTrain, hser, h1]
    rcases stops_say q3 d.stations with ⟨ss', e1, e2⟩ | ⟨e, e1, e2⟩
    · rcases units_say c3 d.series with ⟨vs', e3, e4⟩ | ⟨e, e3, e4⟩
      · rcases h2 with h2 | h2
        · exact absurd ⟨_, e2⟩ h2
        · exact absurd ⟨_, e4⟩ h2
      · rw [hseq _ e1, hch _ e3]; exact ⟨_, rfl⟩
    · rw [hseq _ e1]; exact ⟨_, rfl⟩

end Soro.KssXml
