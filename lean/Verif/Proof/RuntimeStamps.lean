import Verif.Proof.RuntimeEvents
import Mathlib.Data.Rat.Floor

/-
The timestamps of an interval and of the whole way, without a limit for points in time.
-/

namespace Soro.Runtime

open Soro.Physics Soro.Runtime.Spec

/-- whole seconds -/
def secs (t : Rat) : Nat := t.floor.toNat

theorem secs_mono {t u : Rat} (h : t ≤ u) : secs t ≤ secs u :=
  Int.toNat_le_toNat (Int.floor_mono h)

theorem secs_add {t u : Rat} (ht : 0 ≤ t) (hu : 0 ≤ u) : secs t + secs u ≤ secs (t + u) := by
  unfold secs
  have h1 : t.floor + u.floor ≤ (t + u).floor := Int.le_floor_add t u
  have h2 : 0 ≤ t.floor := Int.floor_nonneg.mpr ht
  have h3 : 0 ≤ u.floor := Int.floor_nonneg.mpr hu
  omega

theorem secs_add_nat {t : Rat} (ht : 0 ≤ t) (n : Nat) : secs (t + n) = secs t + n := by
  unfold secs
  have h1 : (t + (n : Rat)).floor = t.floor + n := Int.floor_add_natCast t n
  have h2 : 0 ≤ t.floor := Int.floor_nonneg.mpr ht
  omega

theorem toRelative_none (t : Rat) : toRelative none t = .done (secs t) := rfl

/-! ### One interval -/

/-- the timestamp of an event -/
def stampOf (prevDist dist : Rat) (startDep endArr endDep : Nat) (p : Phases) (e : Event) : Stamp :=
  if Units.eqVal e.dist dist then { arrival := endArr, departure := endDep, node := e.node }
  else
    { arrival := startDep + secs ((eventTime p (e.dist - prevDist)).getD 0)
      departure := startDep + secs ((eventTime p (e.dist - prevDist)).getD 0)
      node := e.node }

theorem eventStamps_map {prevDist dist : Rat} {startDep endArr endDep : Nat} {p : Phases} {es : List Event} {l : List Stamp}
    (h : eventStamps none prevDist dist startDep endArr endDep p es = .done l) :
    l = es.map (stampOf prevDist dist startDep endArr endDep p) := by
  induction es generalizing l with
  | nil => exact (Outcome.done.inj h).symm
  | cons e es ih =>
    unfold eventStamps at h
    by_cases he : Units.eqVal e.dist dist = true
    · rw [if_pos he] at h
      obtain ⟨m, hm, rfl⟩ := Outcome.map_eq_done h
      rw [List.map_cons, ← ih hm, stampOf, if_pos he]
    · rw [if_neg he] at h
      cases ht : eventTime p (e.dist - prevDist) with
      | none => simp [ht] at h
      | some t =>
        simp only [ht, toRelative_none] at h
        obtain ⟨m, hm, rfl⟩ := Outcome.map_eq_done h
        rw [List.map_cons, ← ih hm, stampOf, if_neg he, ht]
        rfl

theorem eventStamps_done {prevDist dist : Rat} {startDep endArr endDep : Nat} {p : Phases} {es : List Event}
    (h : ∀ e ∈ es, Units.eqVal e.dist dist = false → ∃ t, eventTime p (e.dist - prevDist) = some t) :
    eventStamps none prevDist dist startDep endArr endDep p es
      = .done (es.map (stampOf prevDist dist startDep endArr endDep p)) := by
  induction es with
  | nil => rfl
  | cons e es ih =>
    unfold eventStamps
    rw [ih (fun e he => h e (by simp [he]))]
    by_cases he : Units.eqVal e.dist dist = true
    · rw [if_pos he, List.map_cons, stampOf, if_pos he]
      rfl
    · obtain ⟨t, ht⟩ := h e (by simp) (by simpa using he)
      rw [if_neg he, ht, List.map_cons, stampOf, if_neg he, ht]
      rfl

/-- the events of an interval: in order, none before its start, none beyond its border -/
structure EventsOk (prevDist dist : Rat) (es : List Event) : Prop where
  order : es.Pairwise (fun a b => a.dist ≤ b.dist)
  start : ∀ e ∈ es, prevDist ≤ e.dist
  border : ∀ e ∈ es, e.dist < dist + 1 / 100

theorem far {prevDist dist : Rat} {es : List Event} (h : EventsOk prevDist dist es) {e : Event} (he : e ∈ es)
    (hn : Units.eqVal e.dist dist = false) : e.dist - prevDist ≤ dist - prevDist := by
  have h1 : ¬ Units.eqVal e.dist dist = true := by simp [hn]
  rw [eqVal_iff, abs_lt] at h1
  have h2 := h.border e he
  by_cases h3 : dist < e.dist
  · exact absurd ⟨by linarith, by linarith⟩ h1
  · linarith [not_lt.mp h3]

theorem eventStamps_spec {prevDist dist : Rat} {startDep endArr endDep : Nat} {p : Phases} {es : List Event}
    (hp : PhasesOk (dist - prevDist) p) (hlen : prevDist < dist) (he : EventsOk prevDist dist es)
    (harr : startDep + secs (total p) ≤ endArr) (hdep : endArr ≤ endDep) :
    InOrder (es.map (stampOf prevDist dist startDep endArr endDep p)) ∧
      ∀ s ∈ es.map (stampOf prevDist dist startDep endArr endDep p), startDep ≤ s.arrival ∧ s.departure ≤ endDep := by
  have h0 : 0 < dist - prevDist := by linarith
  have hin : ∀ e ∈ es, Units.eqVal e.dist dist = false →
      ∃ t, eventTime p (e.dist - prevDist) = some t ∧ 0 ≤ t ∧ t ≤ total p :=
    fun e hm hn => eventTime_some hp (far he hm hn) h0
  have hle : ∀ e ∈ es, Units.eqVal e.dist dist = false → startDep + secs ((eventTime p (e.dist - prevDist)).getD 0) ≤ endArr := by
    intro e hm hn
    obtain ⟨t, ht, -, h2⟩ := hin e hm hn
    have := secs_mono h2
    rw [ht, Option.getD_some]
    omega
  refine ⟨⟨?_, ?_⟩, ?_⟩
  · rw [List.pairwise_map]
    refine he.order.imp_of_mem ?_
    intro a b ha hb hab
    unfold Before stampOf
    by_cases h1 : Units.eqVal a.dist dist = true
    · have h2 : Units.eqVal b.dist dist = true := by
        rw [eqVal_iff, abs_lt] at h1 ⊢
        have := he.border b hb
        exact ⟨by linarith, by linarith⟩
      rw [if_pos h1, if_pos h2]
      exact Or.inr ⟨rfl, rfl⟩
    · have h1' : Units.eqVal a.dist dist = false := by simpa using h1
      rw [if_neg h1]
      left
      by_cases h2 : Units.eqVal b.dist dist = true
      · rw [if_pos h2]
        exact hle a ha h1'
      · have h2' : Units.eqVal b.dist dist = false := by simpa using h2
        rw [if_neg h2]
        obtain ⟨t, ht, -⟩ := hin a ha h1'
        obtain ⟨u, hu, -⟩ := hin b hb h2'
        have := secs_mono (eventTime_mono hp (by linarith) (far he hb h2') h0 ht hu)
        simp only [ht, hu, Option.getD_some]
        omega
  · intro s hs
    obtain ⟨e, hm, rfl⟩ := List.mem_map.mp hs
    unfold stampOf
    split
    · exact hdep
    · exact le_refl _
  · intro s hs
    obtain ⟨e, hm, rfl⟩ := List.mem_map.mp hs
    unfold stampOf
    by_cases h1 : Units.eqVal e.dist dist = true
    · rw [if_pos h1]
      exact ⟨by simp only; omega, le_refl _⟩
    · rw [if_neg h1]
      have := hle e hm (by simpa using h1)
      exact ⟨by simp only; omega, by simp only; omega⟩

theorem endDeparture_spec (halt : Option Halt) (arrival : Nat) :
    arrival ≤ endDeparture none halt arrival ∧
      ∀ h, halt = some h → h.departure ≤ endDeparture none halt arrival ∧ arrival + h.minStop ≤ endDeparture none halt arrival := by
  unfold endDeparture wrap
  cases halt with
  | none => exact ⟨le_refl _, by simp⟩
  | some h =>
    simp only
    refine ⟨by omega, ?_⟩
    intro h' hh
    obtain rfl := Option.some.inj hh
    exact ⟨by omega, by omega⟩

/-- an event and its timestamp -/
def Fitting (x : Interval × Event) (s : Stamp) : Prop :=
  s.node = x.2.node ∧ (Units.eqVal x.2.dist x.1.dist = true → ∀ h, x.1.halt = some h → Respected h s)

theorem runInterval_spec {fuel : Nat} {tp : Train} {d speed time prevDist : Rat} {start : Nat} {i : Interval}
    {r : (Rat × Rat) × List Stamp} (ha : tp.deceleration = some d) (hneg : d < 0) (ht : 0 ≤ time) (hlen : prevDist < i.dist)
    (he : EventsOk prevDist i.dist i.events) (h : runInterval fuel tp none start speed time prevDist i = .done r) :
    time ≤ r.1.2 ∧ InOrder r.2 ∧ (∀ s ∈ r.2, start + secs time ≤ s.arrival ∧ s.departure ≤ start + secs r.1.2) ∧
      List.Forall₂ Fitting (i.events.map (fun e => (i, e))) r.2 := by
  unfold runInterval at h
  obtain ⟨p, hp, h⟩ := bind_done h
  simp only [toRelative_none, Outcome.bind, wrap, minus] at h
  obtain ⟨l, hl, h⟩ := bind_done h
  split at h
  · obtain rfl := Outcome.done.inj h
    obtain ⟨left, top, -, -, hok, -⟩ := getPhases_spec ha hneg hlen.le hp
    have htot : 0 ≤ total p := by
      have := accel_nonneg hok
      have := coast_nonneg hok
      have := deaccel_nonneg hok
      unfold total
      linarith
    obtain rfl := eventStamps_map hl
    have htot' : p.accel.time + p.coast.time + p.deaccel.time = total p := rfl
    rw [htot'] at *
    obtain ⟨hd1, hd2⟩ := endDeparture_spec i.halt (start + secs (time + total p))
    have hsecs : start + secs (time + total p + ((endDeparture none i.halt (start + secs (time + total p)) -
        (start + secs (time + total p)) : Nat) : Rat)) = endDeparture none i.halt (start + secs (time + total p)) := by
      rw [secs_add_nat (by linarith)]
      omega
    have hadd := secs_add ht htot
    obtain ⟨h1, h2⟩ := eventStamps_spec hok hlen he (startDep := start + secs time)
      (endArr := start + secs (time + total p)) (endDep := endDeparture none i.halt (start + secs (time + total p)))
      (by omega) hd1
    refine ⟨?_, h1, ?_, ?_⟩
    · have : (0 : Rat) ≤ ((endDeparture none i.halt (start + secs (time + total p)) - (start + secs (time + total p)) : Nat) : Rat) :=
        Nat.cast_nonneg _
      simp only
      linarith
    · simp only
      rw [hsecs]
      exact h2
    · simp only
      rw [List.forall₂_map_left_iff, List.forall₂_map_right_iff, List.forall₂_same]
      intro e _
      refine ⟨?_, ?_⟩
      · unfold stampOf
        split <;> rfl
      · intro heq hh hhalt
        unfold stampOf
        rw [if_pos heq]
        exact hd2 hh hhalt
  · cases h

/-! ### The whole way -/

/-- intervals of some length, with their events inside -/
def GoodFrom (prevDist : Rat) : List Interval → Prop
  | [] => True
  | i :: l => prevDist < i.dist ∧ EventsOk prevDist i.dist i.events ∧ GoodFrom i.dist l

/-- the events with their intervals -/
def allEvents (l : List Interval) : List (Interval × Event) :=
  l.flatMap (fun i => i.events.map (fun e => (i, e)))

theorem runFrom_spec {fuel : Nat} {tp : Train} {d speed time prevDist : Rat} {start : Nat} {l : List Interval}
    {q : Rat × List Stamp} (ha : tp.deceleration = some d) (hneg : d < 0) (ht : 0 ≤ time) (hg : GoodFrom prevDist l)
    (h : runFrom fuel tp none start speed time prevDist l = .done q) :
    time ≤ q.1 ∧ InOrder q.2 ∧ (∀ s ∈ q.2, start + secs time ≤ s.arrival ∧ s.departure ≤ start + secs q.1) ∧
      List.Forall₂ Fitting (allEvents l) q.2 := by
  induction l generalizing speed time prevDist q with
  | nil =>
    obtain rfl := Outcome.done.inj h
    exact ⟨le_refl _, ⟨List.Pairwise.nil, by simp⟩, by simp, List.Forall₂.nil⟩
  | cons i l ih =>
    unfold runFrom at h
    obtain ⟨r, hr, h⟩ := bind_done h
    obtain ⟨q', hq, rfl⟩ := Outcome.map_eq_done h
    obtain ⟨hlen, he, hg'⟩ := hg
    obtain ⟨h1, h2, h3, h4⟩ := runInterval_spec ha hneg ht hlen he hr
    obtain ⟨g1, g2, g3, g4⟩ := ih (ht.trans h1) hg' hq
    have m1 := secs_mono h1
    have m2 := secs_mono g1
    refine ⟨h1.trans g1, ⟨?_, ?_⟩, ?_, ?_⟩
    · refine List.pairwise_append.mpr ⟨h2.1, g2.1, fun a hm b hb => Or.inl ?_⟩
      have := (h3 a hm).2
      have := (g3 b hb).1
      omega
    · intro s hs
      rcases List.mem_append.mp hs with hs | hs
      · exact h2.2 s hs
      · exact g2.2 s hs
    · intro s hs
      simp only
      rcases List.mem_append.mp hs with hs | hs
      · have := h3 s hs
        omega
      · have := g3 s hs
        omega
    · unfold allEvents at g4 ⊢
      rw [List.flatMap_cons]
      exact List.rel_append h4 g4

end Soro.Runtime
