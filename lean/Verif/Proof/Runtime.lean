import Verif.Model.Runtime
import Verif.Proof.IntervalAdjust

/-
The phases of an interval: times, distances and speeds of their results.
-/

namespace Soro.Runtime

open Soro.Physics

theorem bind_done {α β : Type} {o : Outcome α} {f : α → Outcome β} {b : β} (h : o.bind f = .done b) :
    ∃ a, o = .done a ∧ f a = .done b := by
  cases o with
  | done a => exact ⟨a, rfl, h⟩
  | bad => simp [Outcome.bind] at h
  | running => simp [Outcome.bind] at h

/-- the results of a phase are in order of time, none is before the start -/
def Timed (l : List Result) : Prop :=
  l.Pairwise (fun a b => a.time < b.time) ∧ ∀ r ∈ l, 0 ≤ r.time

theorem timed_last {l : List Result} (h : Timed l) {e : Result} (he : l.getLast? = some e) :
    ∀ r ∈ l, r.time ≤ e.time := by
  intro r hr
  have hne : l ≠ [] := List.ne_nil_of_mem hr
  rw [List.getLast?_eq_getLast_of_ne_nil hne] at he
  have hs : l = l.dropLast ++ [e] := by
    rw [← Option.some.inj he, List.dropLast_concat_getLast hne]
  have hp := h.1
  rw [hs, List.pairwise_append] at hp
  rw [hs] at hr
  rcases List.mem_append.mp hr with hr | hr
  · exact (hp.2.2 r hr e (by simp)).le
  · simp only [List.mem_singleton] at hr
    rw [hr]

/-- steps of half a second -/
theorem timed_chain {l : List Result} {s : Result} (hs : 0 ≤ s.time)
    (h : List.IsChain (fun a b : Result => b.time = a.time + 1 / 2) (s :: l)) : Timed (s :: l) := by
  have hch : List.IsChain (fun a b : Result => a.time < b.time) (s :: l) := h.imp (fun a b hab => by linarith)
  have hp : (s :: l).Pairwise (fun a b : Result => a.time < b.time) := by
    have : IsTrans Result (fun a b : Result => a.time < b.time) := ⟨fun _ _ _ h1 h2 => lt_trans h1 h2⟩
    exact List.isChain_iff_pairwise.mp hch
  refine ⟨hp, fun r hr => ?_⟩
  rcases List.mem_cons.mp hr with rfl | hr
  · exact hs
  · exact hs.trans (List.rel_of_pairwise_cons hp hr).le

/-- changing distance and speed of the last result keeps the times -/
theorem timed_change {l : List Result} {f : Result → Result} (hf : ∀ r, (f r).time = r.time) (h : Timed l) :
    Timed (changeLastIf f l) := by
  unfold changeLastIf
  split
  · have hne : l ≠ [] := fun h0 => by simp_all
    obtain ⟨k, a, rfl⟩ : ∃ k a, l = k ++ [a] := ⟨l.dropLast, l.getLast hne, (List.dropLast_concat_getLast hne).symm⟩
    rw [changeLast_concat]
    obtain ⟨h1, h2⟩ := h
    rw [List.pairwise_append] at h1
    refine ⟨List.pairwise_append.mpr ⟨h1.1, List.pairwise_singleton _ _, fun x hx y hy => ?_⟩, fun r hr => ?_⟩
    · simp only [List.mem_singleton] at hy
      subst hy
      rw [hf]
      exact h1.2.2 x hx a (by simp)
    · rcases List.mem_append.mp hr with hr | hr
      · exact h2 r (by simp [hr])
      · simp only [List.mem_singleton] at hr
        subst hr
        rw [hf]
        exact h2 a (by simp)
  · exact h

theorem timed_dropLast {l : List Result} (h : Timed l) : Timed l.dropLast :=
  ⟨h.1.sublist (List.dropLast_sublist l), fun r hr => h.2 r (List.dropLast_subset _ hr)⟩

/-! ### Accelerating -/

theorem accelerate_timed {fuel : Nat} {tp : Train} {v w d : Rat} {l : List Result}
    (h : accelerate fuel tp v w d = .done l) : Timed l := by
  obtain ⟨top, k, -, hch, -, rfl⟩ := accelerate_done h
  have ht : Timed ({ time := 0, dist := 0, speed := v } :: k) := by
    refine timed_chain (le_refl _) (hch.imp fun a b hab => ?_)
    obtain ⟨_, -, ht, -⟩ := accelStep_some hab.2
    exact ht
  unfold cutToDistance
  cases List.getLast? ({ time := 0, dist := 0, speed := v } :: k : List Result) with
  | none => exact ht
  | some r =>
    simp only
    split
    · exact timed_change (fun _ => rfl) (timed_dropLast ht)
    · exact ht

/-- the results of an acceleration: the start first, all but the last below the limits -/
theorem accelerate_shape {fuel : Nat} {tp : Train} {v w d : Rat} {l : List Result} (hd : 0 ≤ d)
    (h : accelerate fuel tp v w d = .done l) :
    (∃ l', l = { time := 0, dist := 0, speed := v } :: l') ∧ (∀ r ∈ l, r.dist ≤ d) ∧
      (∀ r ∈ l.dropLast, r.dist < d ∧ r.speed < w) := by
  obtain ⟨top, k, -, hch, -, rfl⟩ := accelerate_done h
  have hall := chain_dropLast (p := fun r : Result => r.dist < d ∧ r.speed < w) (fun a b hab => ⟨hab.1.2.2, hab.1.2.1⟩) hch
  rcases cut_cases d ({ time := 0, dist := 0, speed := v } :: k) (by simp) with ⟨last, h1, h2, h3⟩ | ⟨a, last, h1, h2, h3⟩ |
    ⟨last, h1, h2, h3⟩ | ⟨m, a, last, h0, h1, h2, h3⟩
  · rw [h3]
    refine ⟨⟨k, rfl⟩, ?_, hall⟩
    intro r hr
    rw [List.getLast?_eq_getLast_of_ne_nil (by simp)] at h1
    rw [← List.dropLast_concat_getLast (l := { time := 0, dist := 0, speed := v } :: k) (by simp)] at hr
    rcases List.mem_append.mp hr with hr | hr
    · exact (hall r hr).1.le
    · simp only [List.mem_singleton] at hr
      rw [hr, Option.some.inj h1]
      exact h2
  · rw [h3]
    simp only [List.cons.injEq] at h1
    obtain ⟨rfl, -⟩ := h1
    refine ⟨⟨[], rfl⟩, ?_, by simp⟩
    intro r hr
    simp only [List.mem_singleton] at hr
    rw [hr]
    exact hd
  · simp only [List.cons.injEq] at h1
    obtain ⟨rfl, -⟩ := h1
    simp only at h2
    linarith
  · rw [h3]
    have hdrop : (m ++ [a, last]).dropLast = m ++ [a] := by
      rw [show m ++ [a, last] = (m ++ [a]) ++ [last] by simp, List.dropLast_concat]
    rw [h1, hdrop] at hall
    obtain ⟨b, m', rfl⟩ := List.exists_cons_of_ne_nil h0
    simp only [List.cons_append, List.cons.injEq] at h1
    obtain ⟨rfl, -⟩ := h1
    refine ⟨⟨_, rfl⟩, ?_, ?_⟩
    · intro r hr
      rcases List.mem_append.mp hr with hr | hr
      · exact (hall r (List.mem_append.mpr (Or.inl hr))).1.le
      · simp only [List.mem_singleton] at hr
        rw [hr]
    · rw [List.dropLast_concat]
      exact fun r hr => hall r (List.mem_append.mpr (Or.inl hr))

/-! ### Braking -/

theorem brake_last {fuel : Nat} {tp : Train} {a v w : Rat} {l : List Result} (ha : tp.deceleration = some a) (hneg : a < 0)
    (h : brake fuel tp v w = .done l) :
    w < v ∧ Timed l ∧ ∃ t, l.getLast? = some { time := t, dist := (v * v - w * w) / (2 * -a), speed := w } ∧ 0 < t := by
  by_cases hv : w < v
  · obtain ⟨m, h1, h2, h3⟩ := brake_runs ha hneg hv
    have h4 := brake_mono h (le_max_left fuel (m + 2))
    rw [h3 _ (by omega)] at h4
    obtain rfl := (Outcome.done.inj h4).symm
    refine ⟨hv, ⟨?_, ?_⟩, (m + 1) / 2, by rw [List.getLast?_concat], by positivity⟩
    · refine pairwise_range_concat (fun k : Nat => _) _ _ ?_ ?_
      · intro i j hij _
        have : (i : Rat) < j := by exact_mod_cast hij
        simp only
        linarith
      · intro i hi
        have : (i : Rat) < m + 1 := by exact_mod_cast hi
        simp only
        linarith
    · intro r hr
      rcases List.mem_append.mp hr with hr | hr
      · obtain ⟨k, -, rfl⟩ := List.mem_map.mp hr
        simp only
        positivity
      · simp only [List.mem_singleton] at hr
        subst hr
        simp only
        positivity
  · unfold brake at h
    rw [if_neg (show ¬ v > w from hv)] at h
    cases h

/-! ### Coasting -/

theorem coast_last {fuel : Nat} {v d : Rat} {l : List Result} (hd : 0 < d) (h : Physics.coast fuel v d = .done l) :
    Timed l ∧ ∃ t, l.getLast? = some { time := t, dist := d, speed := v } ∧ 0 < t := by
  unfold Physics.coast at h
  obtain ⟨k, hk, rfl⟩ := Outcome.map_eq_done h
  obtain ⟨h1, h2⟩ := loop_done hk
  have ht : Timed ({ time := 0, dist := 0, speed := v } :: k) := by
    refine timed_chain (le_refl _) (h1.imp fun a b hab => ?_)
    rw [← Option.some.inj hab.2]
    rfl
  have hsp : ∀ r ∈ ({ time := 0, dist := 0, speed := v } :: k : List Result), r.speed = v := by
    intro r hr
    rcases List.mem_cons.mp hr with rfl | hr
    · rfl
    · obtain ⟨y, -, -, hy⟩ := chain_prev h1 r hr
      rw [← Option.some.inj hy]
      rfl
  refine ⟨timed_change (fun _ => rfl) ht, ?_⟩
  cases hc : k with
  | nil =>
    subst hc
    simp [hd] at h2
  | cons b k' =>
    have hne : k ≠ [] := by rw [hc]; simp
    rw [← hc]
    obtain ⟨m, e, hm⟩ : ∃ m e, k = m ++ [e] := ⟨k.dropLast, k.getLast hne, (List.dropLast_concat_getLast hne).symm⟩
    subst hm
    refine ⟨e.time, ?_, ?_⟩
    · rw [← List.cons_append, changeLastIf_concat _ _ _ (by simp), List.getLast?_concat]
      have := hsp e (by simp)
      rw [← this]
    · have := ht.1
      rw [List.pairwise_cons] at this
      exact this.1 e (by simp)

/-! ### The phases -/

theorem accelPhase_spec {fuel : Nat} {tp : Train} {speed top length : Rat} {a : Result × List Result} (hl : 0 ≤ length)
    (h : accelPhase fuel tp speed top length = .done a) :
    (a = (zeroResult, []) ∧ top ≤ speed) ∨
    (speed < top ∧ accelerate fuel tp speed top length = .done a.2 ∧ a.2 ≠ [] ∧
      ∃ r, a.2.getLast? = some r ∧ a.1.time = r.time ∧ a.1.dist = r.dist ∧ a.1.speed = min r.speed top) := by
  unfold accelPhase at h
  by_cases hs : speed < top
  · rw [if_pos hs] at h
    obtain ⟨l, hacc, h⟩ := bind_done h
    obtain ⟨⟨l', rfl⟩, -, -⟩ := accelerate_shape hl hacc
    rw [List.getLast?_eq_getLast_of_ne_nil (by simp)] at h
    simp only at h
    right
    refine ⟨hs, ?_⟩
    split at h
    · rename_i hgt
      split at h
      · obtain rfl := Outcome.done.inj h
        exact ⟨hacc, by simp, _, List.getLast?_eq_getLast_of_ne_nil (by simp), rfl, rfl, (min_eq_right hgt.le).symm⟩
      · cases h
    · rename_i hgt
      obtain rfl := Outcome.done.inj h
      exact ⟨hacc, by simp, _, List.getLast?_eq_getLast_of_ne_nil (by simp), rfl, rfl, (min_eq_left (not_lt.mp hgt)).symm⟩
  · rw [if_neg hs] at h
    exact Or.inl ⟨(Outcome.done.inj h).symm, not_lt.mp hs⟩

theorem brakePhase_spec {fuel : Nat} {tp : Train} {d speed target length : Rat} {b : Result × List Result}
    (ha : tp.deceleration = some d) (hneg : d < 0) (h : brakePhase fuel tp speed target length = .done b) :
    (b = (zeroResult, []) ∧ speed ≤ target) ∨
    (target < speed ∧ Timed b.2 ∧ b.2.getLast? = some b.1 ∧ b.1.dist = (speed * speed - target * target) / (2 * -d) ∧
      b.1.speed = target ∧ b.1.dist ≤ length) := by
  unfold brakePhase at h
  by_cases hs : speed > target
  · rw [if_pos hs] at h
    obtain ⟨l, hb, h⟩ := bind_done h
    obtain ⟨-, ht, t, hl, -⟩ := brake_last ha hneg hb
    rw [hl] at h
    simp only at h
    split at h
    · rename_i hc
      obtain rfl := Outcome.done.inj h
      exact Or.inr ⟨hs, ht, hl, rfl, rfl, hc.2⟩
    · cases h
  · rw [if_neg hs] at h
    exact Or.inl ⟨(Outcome.done.inj h).symm, not_lt.mp hs⟩

theorem adjustAccel_spec {fuel : Nat} {tp : Train} {d length next : Rat} {l : List Result} {r : Result × List Result}
    (ha : tp.deceleration = some d) (hneg : d < 0) (h : adjustAccel fuel tp length next l = .done r) :
    r.1 ∈ l ∧ ((r.1.speed ≤ next ∧ r.2 = []) ∨
      (next < r.1.speed ∧ Timed r.2 ∧ ∃ e, r.2.getLast? = some e ∧ e.speed = next ∧ e.dist + r.1.dist ≤ length)) := by
  induction l with
  | nil => cases h
  | cons q l ih =>
    unfold adjustAccel at h
    by_cases hq : q.speed ≤ next
    · rw [if_pos hq] at h
      obtain rfl := Outcome.done.inj h
      exact ⟨by simp, Or.inl ⟨hq, rfl⟩⟩
    · rw [if_neg hq] at h
      obtain ⟨b, hb, h⟩ := bind_done h
      obtain ⟨hlt, ht, t, hl, -⟩ := brake_last ha hneg hb
      rw [hl] at h
      simp only at h
      split at h
      · rename_i hc
        obtain rfl := Outcome.done.inj h
        exact ⟨by simp, Or.inr ⟨hlt, ht, _, hl, rfl, hc⟩⟩
      · obtain ⟨h1, h2⟩ := ih h
        exact ⟨by simp [h1], h2⟩

theorem coastPhase_spec {fuel : Nat} {speed distance : Rat} {c : Result × List Result}
    (h : coastPhase fuel speed distance = .done c) :
    (c = (zeroResult, []) ∧ distance ≤ 0) ∨
    (0 < distance ∧ Timed c.2 ∧ c.2.getLast? = some c.1 ∧ c.1.dist = distance ∧ c.1.speed = speed) := by
  unfold coastPhase at h
  by_cases hd : distance > 0
  · rw [if_pos hd] at h
    obtain ⟨l, hc, h⟩ := bind_done h
    obtain ⟨ht, t, hl, -⟩ := coast_last hd hc
    rw [hl] at h
    obtain rfl := Outcome.done.inj h
    exact Or.inr ⟨hd, ht, hl, rfl, rfl⟩
  · rw [if_neg hd] at h
    exact Or.inl ⟨(Outcome.done.inj h).symm, not_lt.mp hd⟩

/-- what the times of the events need to know about the phases of an interval -/
structure PhasesOk (length : Rat) (p : Phases) : Prop where
  accels : Timed p.accels
  accel : (p.accels = [] ∧ p.accel = zeroResult) ∨ ∃ r ∈ p.accels, r.time = p.accel.time ∧ r.dist = p.accel.dist
  coasts : Timed p.coasts
  coast : (p.coasts = [] ∧ p.coast = zeroResult) ∨ p.coast ∈ p.coasts
  deaccels : Timed p.deaccels
  deaccel : (p.deaccels = [] ∧ p.deaccel = zeroResult) ∨ p.deaccel ∈ p.deaccels
  sum : p.accel.dist + p.coast.dist + p.deaccel.dist = length

theorem timed_nil : Timed [] := ⟨List.Pairwise.nil, by simp⟩

/-- what `joinPhases` returns: the acceleration possibly cut short, and braking to the target -/
theorem joinPhases_spec {fuel : Nat} {tp : Train} {d length target speed : Rat} {a b : Result × List Result}
    {j : Result × Rat × Result × List Result} (ha : tp.deceleration = some d) (hneg : d < 0)
    (h : joinPhases fuel tp length target speed a b = .done j) :
    (j = (a.1, speed, b.1, b.2) ∧ (a.1.dist + b.1.dist < length ∨ a.2 = [] ∨ b.2 = [])) ∨
    (a.2 ≠ [] ∧ j.1 ∈ a.2.dropLast ∧ j.2.1 = j.1.speed ∧
      ((j.1.speed ≤ target ∧ j.2.2 = (zeroResult, [])) ∨
        (target < j.1.speed ∧ Timed j.2.2.2 ∧ j.2.2.2.getLast? = some j.2.2.1 ∧ j.2.2.1.speed = target ∧
          j.2.2.1.dist + j.1.dist ≤ length))) := by
  unfold joinPhases at h
  by_cases hc : a.1.dist + b.1.dist ≥ length ∧ a.2 ≠ [] ∧ b.2 ≠ []
  · rw [if_pos hc] at h
    obtain ⟨r, hr, h⟩ := bind_done h
    obtain rfl := Outcome.done.inj h
    obtain ⟨h1, h2⟩ := adjustAccel_spec ha hneg hr
    right
    refine ⟨hc.2.1, ?_, rfl, ?_⟩
    · rw [List.tail_reverse] at h1
      exact List.mem_reverse.mp h1
    · rcases h2 with ⟨h2, h3⟩ | ⟨h2, h3, e, h4, h5, h6⟩
      · left
        refine ⟨h2, ?_⟩
        simp [h3]
      · right
        refine ⟨h2, h3, ?_, ?_, ?_⟩
        · simp [h4]
        · simp [h4, h5]
        · simp only [h4, Option.getD_some]
          exact h6
  · rw [if_neg hc] at h
    left
    refine ⟨(Outcome.done.inj h).symm, ?_⟩
    by_cases h1 : a.1.dist + b.1.dist ≥ length
    · by_cases h2 : a.2 = []
      · exact Or.inr (Or.inl h2)
      · by_cases h3 : b.2 = []
        · exact Or.inr (Or.inr h3)
        · exact absurd ⟨h1, h2, h3⟩ hc
    · exact Or.inl (not_le.mp h1)

/-- the phases of an interval: in order, covering exactly its length, ending with at most the target speed -/
theorem getPhases_spec {fuel : Nat} {tp : Train} {d speed prevDist : Rat} {i : Interval} {p : Phases}
    (ha : tp.deceleration = some d) (hneg : d < 0) (hl : prevDist ≤ i.dist)
    (h : getPhases fuel tp speed prevDist i = .done p) :
    ∃ left top, i.left = some left ∧ tp.topSpeed = some top ∧ PhasesOk (i.dist - prevDist) p ∧
      endSpeed p ≤ i.targetSpeed top := by
  unfold getPhases at h
  cases hleft : i.left with
  | none => simp [hleft] at h
  | some left =>
    cases htop : tp.topSpeed with
    | none => simp [hleft, htop] at h
    | some top =>
      refine ⟨left, top, rfl, rfl, ?_⟩
      simp only [hleft, htop] at h
      have hlen : 0 ≤ i.dist - prevDist := by linarith
      revert h hlen
      generalize i.dist - prevDist = length
      generalize i.targetSpeed top = target
      intro h hlen
      obtain ⟨a, hacc, h⟩ := bind_done h
      obtain ⟨b, hbr, h⟩ := bind_done h
      obtain ⟨j, hj, h⟩ := bind_done h
      split at h
      · rename_i hfit
        obtain ⟨c, hc, h⟩ := bind_done h
        split at h
        · rename_i hany
          obtain rfl := Outcome.done.inj h
          -- the acceleration
          have haT : Timed a.2 ∧ ((a.2 = [] ∧ a.1 = zeroResult) ∨ (∃ r ∈ a.2, r.time = a.1.time ∧ r.dist = a.1.dist)) ∧
              (∀ r ∈ a.2, r.dist ≤ length) := by
            rcases accelPhase_spec hlen hacc with ⟨rfl, -⟩ | ⟨-, h1, -, r, h3, h4, h5, -⟩
            · exact ⟨timed_nil, Or.inl ⟨rfl, rfl⟩, by simp⟩
            · exact ⟨accelerate_timed h1, Or.inr ⟨r, List.mem_of_getLast? h3, h4.symm, h5.symm⟩, (accelerate_shape hlen h1).2.1⟩
          have hjA : ((a.2 = [] ∧ j.1 = zeroResult) ∨ (∃ r ∈ a.2, r.time = j.1.time ∧ r.dist = j.1.dist)) := by
            rcases joinPhases_spec ha hneg hj with ⟨rfl, -⟩ | ⟨-, h1, -⟩
            · exact haT.2.1
            · exact Or.inr ⟨j.1, List.dropLast_subset _ h1, rfl, rfl⟩
          have hbT : Timed j.2.2.2 ∧ ((j.2.2.2 = [] ∧ j.2.2.1 = zeroResult ∧ j.2.1 ≤ target) ∨
              (j.2.2.2.getLast? = some j.2.2.1 ∧ j.2.2.1.speed = target)) ∧ (a.2 = [] → j.2.2.1.dist ≤ length) := by
            rcases joinPhases_spec ha hneg hj with ⟨rfl, -⟩ | ⟨h0, -, h1, h2 | h2⟩
            · rcases brakePhase_spec ha hneg hbr with ⟨rfl, h1⟩ | ⟨-, h1, h2, -, h3, h4⟩
              · exact ⟨timed_nil, Or.inl ⟨rfl, rfl, h1⟩, fun _ => hlen⟩
              · exact ⟨h1, Or.inr ⟨h2, h3⟩, fun _ => h4⟩
            · rw [h2.2]
              exact ⟨timed_nil, Or.inl ⟨rfl, rfl, by rw [h1]; exact h2.1⟩, fun h => absurd h h0⟩
            · exact ⟨h2.2.1, Or.inr ⟨h2.2.2.1, h2.2.2.2.1⟩, fun h => absurd h h0⟩
          have hsum : j.1.dist + j.2.2.1.dist ≤ length := by
            rcases hfit with hfit | hfit | hfit
            · exact hfit
            · rcases hjA with h1 | ⟨r, hr, -⟩
              · rw [h1.2]
                have := hbT.2.2 hfit
                simp only [zeroResult]
                linarith
              · rw [hfit] at hr
                simp at hr
            · rcases hbT.2.1 with h1 | h1
              · rw [h1.2.1]
                rcases hjA with h2 | ⟨r, hr, -, h3⟩
                · rw [h2.2]
                  simpa [zeroResult] using hlen
                · rw [← h3]
                  have := haT.2.2 r hr
                  simp only [zeroResult]
                  linarith
              · rw [hfit] at h1
                simp at h1
          refine ⟨⟨haT.1, hjA, ?_, ?_, hbT.1, ?_, ?_⟩, ?_⟩
          · rcases coastPhase_spec hc with ⟨rfl, -⟩ | h1
            · exact timed_nil
            · exact h1.2.1
          · rcases coastPhase_spec hc with ⟨rfl, -⟩ | h1
            · exact Or.inl ⟨rfl, rfl⟩
            · exact Or.inr (List.mem_of_getLast? h1.2.2.1)
          · rcases hbT.2.1 with h1 | h1
            · exact Or.inl ⟨h1.1, h1.2.1⟩
            · exact Or.inr (List.mem_of_getLast? h1.1)
          · rcases coastPhase_spec hc with ⟨rfl, h1⟩ | h1
            · simp only [zeroResult]
              linarith
            · simp only [h1.2.2.2.1]
              ring
          · unfold endSpeed
            simp only
            rcases hbT.2.1 with h1 | h1
            · rw [if_neg (by simp [h1.1])]
              rcases coastPhase_spec hc with ⟨rfl, h2⟩ | h2
              · rw [if_neg (by simp)]
                -- neither coasting nor braking: the acceleration covers everything
                have hne : a.2 ≠ [] := by
                  rcases hany with h3 | h3 | h3
                  · exact h3
                  · exact absurd rfl h3
                  · exact absurd h1.1 h3
                rcases joinPhases_spec ha hneg hj with ⟨rfl, -⟩ | ⟨-, -, h3, -⟩
                · have := h1.2.2
                  simp only [hne, if_false] at this
                  exact this
                · rw [← h3]
                  exact h1.2.2
              · rw [if_pos (by intro h3; rw [h3] at h2; simp at h2), h2.2.2.2.2]
                exact h1.2.2
            · rw [if_pos (by intro h3; rw [h3] at h1; simp at h1)]
              exact h1.2.le
        · cases h
      · cases h

end Soro.Runtime
