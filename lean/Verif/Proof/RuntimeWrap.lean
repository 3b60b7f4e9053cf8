import Verif.Proof.RuntimeStamps

/-
Points in time modulo 2^32: as long as the last one is below, nothing wraps.
-/

namespace Soro.Runtime

open Soro.Physics Soro.Runtime.Spec

theorem toRelative_some {m : Nat} {t : Rat} (h : secs t < m) : toRelative (some m) t = .done (secs t) := by
  unfold toRelative
  simp only
  rw [if_pos (show t.floor.toNat < m from h)]
  rfl

theorem wrap_some {m t : Nat} (h : t < m) : wrap (some m) t = t := Nat.mod_eq_of_lt h

theorem eventStamps_wrap {m : Nat} {prevDist dist : Rat} {startDep endArr endDep : Nat} {p : Phases} {es : List Event}
    {l : List Stamp} (hb : ∀ e ∈ es, ∀ t, Units.eqVal e.dist dist = false → eventTime p (e.dist - prevDist) = some t →
      startDep + secs t < m)
    (h : eventStamps none prevDist dist startDep endArr endDep p es = .done l) :
    eventStamps (some m) prevDist dist startDep endArr endDep p es = .done l := by
  induction es generalizing l with
  | nil => exact h
  | cons e es ih =>
    unfold eventStamps at h ⊢
    by_cases he : Units.eqVal e.dist dist = true
    · rw [if_pos he] at h ⊢
      obtain ⟨k, hk, rfl⟩ := Outcome.map_eq_done h
      rw [ih (fun e hm => hb e (by simp [hm])) hk]
      rfl
    · rw [if_neg he] at h ⊢
      cases ht : eventTime p (e.dist - prevDist) with
      | none => simp [ht] at h
      | some t =>
        simp only [ht, toRelative_none] at h ⊢
        obtain ⟨k, hk, rfl⟩ := Outcome.map_eq_done h
        have hlt := hb e (by simp) t (by simpa using he) ht
        rw [toRelative_some (by omega), ih (fun e hm => hb e (by simp [hm])) hk]
        simp only [Outcome.bind, Outcome.map, wrap_some hlt]
        rfl

theorem endDeparture_wrap {m : Nat} {halt : Option Halt} {arrival : Nat} (h : endDeparture none halt arrival < m) :
    endDeparture (some m) halt arrival = endDeparture none halt arrival := by
  unfold endDeparture at h ⊢
  cases halt with
  | none => rfl
  | some hh =>
    simp only at h ⊢
    have : wrap none (arrival + hh.minStop) < m := lt_of_le_of_lt (le_max_right _ _) h
    rw [wrap_some (show arrival + hh.minStop < m from this)]
    rfl

theorem runInterval_wrap {m fuel : Nat} {tp : Train} {d speed time prevDist : Rat} {start : Nat} {i : Interval}
    {r : (Rat × Rat) × List Stamp} (ha : tp.deceleration = some d) (hneg : d < 0) (ht : 0 ≤ time) (hlen : prevDist < i.dist)
    (he : EventsOk prevDist i.dist i.events) (h : runInterval fuel tp none start speed time prevDist i = .done r)
    (hm : start + secs r.1.2 < m) : runInterval fuel tp (some m) start speed time prevDist i = .done r := by
  unfold runInterval at h ⊢
  obtain ⟨p, hp, h⟩ := bind_done h
  rw [hp]
  simp only [toRelative_none, Outcome.bind, wrap, minus] at h
  simp only [Outcome.bind]
  obtain ⟨l, hl, h⟩ := bind_done h
  obtain ⟨left, top, -, -, hok, -⟩ := getPhases_spec ha hneg hlen.le hp
  have htot : 0 ≤ total p := by
    have := accel_nonneg hok
    have := coast_nonneg hok
    have := deaccel_nonneg hok
    unfold total
    linarith
  have htot' : p.accel.time + p.coast.time + p.deaccel.time = total p := rfl
  simp only [htot'] at h hl ⊢
  obtain ⟨hd1, -⟩ := endDeparture_spec i.halt (start + secs (time + total p))
  have hadd := secs_add ht htot
  split at h
  · rename_i hsp
    obtain rfl := Outcome.done.inj h
    simp only at hm
    rw [secs_add_nat (by linarith)] at hm
    have hdep : endDeparture none i.halt (start + secs (time + total p)) < m := by omega
    have harr : start + secs (time + total p) < m := by omega
    rw [toRelative_some (show secs time < m by omega), toRelative_some (show secs (time + total p) < m by omega)]
    simp only [wrap_some harr, wrap_some (show start + secs time < m by omega), endDeparture_wrap hdep]
    rw [eventStamps_wrap ?_ hl]
    · simp only [if_pos hsp, minus, if_pos hd1]
    · intro e hme t hn hte
      obtain ⟨t', h1, -, h3⟩ := eventTime_some hok (far he hme hn) (by linarith)
      rw [hte] at h1
      obtain rfl := Option.some.inj h1
      have := secs_mono h3
      omega
  · cases h

theorem runFrom_wrap {m fuel : Nat} {tp : Train} {d speed time prevDist : Rat} {start : Nat} {l : List Interval}
    {q : Rat × List Stamp} (ha : tp.deceleration = some d) (hneg : d < 0) (ht : 0 ≤ time) (hg : GoodFrom prevDist l)
    (h : runFrom fuel tp none start speed time prevDist l = .done q) (hm : start + secs q.1 < m) :
    runFrom fuel tp (some m) start speed time prevDist l = .done q := by
  induction l generalizing speed time prevDist q with
  | nil => exact h
  | cons i l ih =>
    unfold runFrom at h ⊢
    obtain ⟨r, hr, h⟩ := bind_done h
    obtain ⟨q', hq, rfl⟩ := Outcome.map_eq_done h
    obtain ⟨hlen, he, hg'⟩ := hg
    obtain ⟨h1, -⟩ := runInterval_spec ha hneg ht hlen he hr
    have h2 := (runFrom_spec ha hneg (ht.trans h1) hg' hq).1
    have := secs_mono h2
    rw [runInterval_wrap ha hneg ht hlen he hr (by simp only at hm; omega)]
    simp only [Outcome.bind]
    rw [ih (ht.trans h1) hg' hq hm]
    rfl

end Soro.Runtime
