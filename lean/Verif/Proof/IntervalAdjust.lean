import Verif.Proof.IntervalSkeleton

/-
Adjusting the limits to the braking distances.
-/

namespace Soro.Runtime

open Soro.Physics Soro.Runtime.Spec

theorem adjustFrom_cases {fuel : Nat} {tp : Train} {top : Rat} {prev i : Interval} {l : List Interval} {c : Bool}
    {out : List Interval} (h : adjustFrom fuel tp top prev (i :: l) = .done (c, out)) :
    (∃ c' rest, adjustOne fuel tp top prev.dist i = .done none ∧ adjustFrom fuel tp top i l = .done (c', rest) ∧
      c = c' ∧ out = prev :: rest) ∨
    (∃ v c' rest, adjustOne fuel tp top prev.dist i = .done (some v) ∧
      adjustFrom fuel tp top { i with left := some v } l = .done (c', rest) ∧ c = true ∧
      out = { prev with right := v } :: rest) := by
  unfold adjustFrom at h
  cases ho : adjustOne fuel tp top prev.dist i with
  | bad => simp [ho] at h
  | running => simp [ho] at h
  | done o =>
    cases o with
    | none =>
      simp only [ho] at h
      obtain ⟨⟨c', rest⟩, h1, h2⟩ := Outcome.map_eq_done h
      simp only [Prod.mk.injEq] at h2
      exact Or.inl ⟨c', rest, rfl, h1, h2.1.symm, h2.2.symm⟩
    | some v =>
      simp only [ho] at h
      obtain ⟨⟨c', rest⟩, h1, h2⟩ := Outcome.map_eq_done h
      simp only [Prod.mk.injEq] at h2
      exact Or.inr ⟨v, c', rest, rfl, h1, h2.1.symm, h2.2.symm⟩

/-- the head of the result is the previous interval, perhaps with another right limit -/
theorem adjustFrom_head {fuel : Nat} {tp : Train} {top : Rat} {prev : Interval} {l : List Interval} {c : Bool}
    {out : List Interval} (h : adjustFrom fuel tp top prev l = .done (c, out)) :
    ∃ r rest, out = { prev with right := r } :: rest := by
  cases l with
  | nil =>
    simp only [adjustFrom, Outcome.done.injEq, Prod.mk.injEq] at h
    exact ⟨prev.right, [], h.2.symm⟩
  | cons i l =>
    rcases adjustFrom_cases h with ⟨c', rest, -, -, -, rfl⟩ | ⟨v, c', rest, -, -, -, rfl⟩
    · exact ⟨prev.right, rest, rfl⟩
    · exact ⟨v, rest, rfl⟩

theorem adjustFrom_key {fuel : Nat} {tp : Train} {top : Rat} {prev : Interval} {l : List Interval} {c : Bool}
    {out : List Interval} (h : adjustFrom fuel tp top prev l = .done (c, out)) : out.map key = (prev :: l).map key := by
  induction l generalizing prev c out with
  | nil =>
    simp only [adjustFrom, Outcome.done.injEq, Prod.mk.injEq] at h
    rw [← h.2]
  | cons i l ih =>
    rcases adjustFrom_cases h with ⟨c', rest, -, h1, -, rfl⟩ | ⟨v, c', rest, -, h1, -, rfl⟩
    · rw [List.map_cons, ih h1]
      rfl
    · rw [List.map_cons, ih h1]
      rfl

theorem adjustFrom_chain {fuel : Nat} {tp : Train} {top : Rat} {prev : Interval} {l : List Interval} {c : Bool}
    {out : List Interval} (h : adjustFrom fuel tp top prev l = .done (c, out)) (hc : ChainR (prev :: l)) : ChainR out := by
  induction l generalizing prev c out with
  | nil =>
    simp only [adjustFrom, Outcome.done.injEq, Prod.mk.injEq] at h
    rw [← h.2]
    exact hc
  | cons i l ih =>
    unfold ChainR at hc
    rw [List.isChain_cons_cons] at hc
    rcases adjustFrom_cases h with ⟨c', rest, -, h1, -, rfl⟩ | ⟨v, c', rest, -, h1, -, rfl⟩
    · obtain ⟨r, rest', rfl⟩ := adjustFrom_head h1
      exact List.isChain_cons_cons.mpr ⟨hc.1, ih h1 hc.2⟩
    · obtain ⟨r, rest', rfl⟩ := adjustFrom_head h1
      refine List.isChain_cons_cons.mpr ⟨rfl, ih h1 ?_⟩
      have := hc.2
      unfold ChainR
      cases l with
      | nil => exact List.isChain_singleton _
      | cons j l =>
        rw [List.isChain_cons_cons] at this ⊢
        exact this

theorem adjust_key {fuel : Nat} {tp : Train} {l : List Interval} {c : Bool} {out : List Interval}
    (h : adjust fuel tp l = .done (c, out)) : out.map key = l.map key := by
  unfold adjust at h
  cases l with
  | nil =>
    simp only [Outcome.done.injEq, Prod.mk.injEq] at h
    rw [← h.2]
  | cons i l =>
    simp only at h
    cases ht : tp.topSpeed with
    | none =>
      rw [ht] at h
      simp only at h
      split at h
      · rename_i h0
        simp only [Outcome.done.injEq, Prod.mk.injEq] at h
        rw [← h.2, h0]
      · cases h
    | some top =>
      rw [ht] at h
      exact adjustFrom_key h

theorem adjust_chain {fuel : Nat} {tp : Train} {l : List Interval} {c : Bool} {out : List Interval}
    (h : adjust fuel tp l = .done (c, out)) (hc : ChainR l) : ChainR out := by
  unfold adjust at h
  cases l with
  | nil =>
    simp only [Outcome.done.injEq, Prod.mk.injEq] at h
    rw [← h.2]
    exact hc
  | cons i l =>
    simp only at h
    cases ht : tp.topSpeed with
    | none =>
      rw [ht] at h
      simp only at h
      split at h
      · rename_i h0
        simp only [Outcome.done.injEq, Prod.mk.injEq] at h
        rw [← h.2]
        exact List.isChain_singleton _
      · cases h
    | some top =>
      rw [ht] at h
      exact adjustFrom_chain h hc

/-- invariants of one adjustment are invariants of all -/
theorem adjustAll_inv {fuel : Nat} {tp : Train} (P : List Interval → Prop)
    (hstep : ∀ l c out, adjust fuel tp l = .done (c, out) → P l → P out) {n : Nat} {l out : List Interval}
    (h : adjustAll fuel tp n l = .done out) (hl : P l) : P out := by
  induction n generalizing l with
  | zero => simp [adjustAll] at h
  | succ n ih =>
    unfold adjustAll at h
    cases ha : adjust fuel tp l with
    | bad => simp [ha] at h
    | running => simp [ha] at h
    | done r =>
      obtain ⟨c, l'⟩ := r
      rw [ha] at h
      have h' := hstep l c l' ha hl
      cases c with
      | true => exact ih h h'
      | false =>
        simp only [Outcome.done.injEq] at h
        exact h ▸ h'

/-- at the end another adjustment changes nothing -/
theorem adjustAll_stable {fuel : Nat} {tp : Train} {n : Nat} {l out : List Interval}
    (h : adjustAll fuel tp n l = .done out) : ∃ l', adjust fuel tp l' = .done (false, out) := by
  induction n generalizing l with
  | zero => simp [adjustAll] at h
  | succ n ih =>
    unfold adjustAll at h
    cases ha : adjust fuel tp l with
    | bad => simp [ha] at h
    | running => simp [ha] at h
    | done r =>
      obtain ⟨c, l'⟩ := r
      rw [ha] at h
      cases c with
      | true => exact ih h
      | false =>
        simp only [Outcome.done.injEq] at h
        exact ⟨l, h ▸ ha⟩

/-- every interval passes without change -/
def stableFrom (fuel : Nat) (tp : Train) (top : Rat) : Rat → List Interval → Prop
  | _, [] => True
  | d, i :: l => adjustOne fuel tp top d i = .done none ∧ stableFrom fuel tp top i.dist l

theorem adjustFrom_false {fuel : Nat} {tp : Train} {top : Rat} {prev : Interval} {l out : List Interval}
    (h : adjustFrom fuel tp top prev l = .done (false, out)) : out = prev :: l ∧ stableFrom fuel tp top prev.dist l := by
  induction l generalizing prev out with
  | nil =>
    simp only [adjustFrom, Outcome.done.injEq, Prod.mk.injEq] at h
    exact ⟨h.2.symm, trivial⟩
  | cons i l ih =>
    rcases adjustFrom_cases h with ⟨c', rest, h0, h1, hc, rfl⟩ | ⟨v, c', rest, -, -, hc, -⟩
    · subst hc
      obtain ⟨h2, h3⟩ := ih h1
      exact ⟨by rw [h2], h0, h3⟩
    · cases hc

theorem adjustFrom_of_stable {fuel : Nat} {tp : Train} {top : Rat} {prev : Interval} {l : List Interval}
    (h : stableFrom fuel tp top prev.dist l) : adjustFrom fuel tp top prev l = .done (false, prev :: l) := by
  induction l generalizing prev with
  | nil => rfl
  | cons i l ih =>
    unfold adjustFrom
    rw [h.1]
    simp only
    rw [ih h.2]
    rfl

/-! ### What the braking distance says -/

theorem brakeDistance_eq {fuel : Nat} {tp : Train} {a v w d : Rat} (ha : tp.deceleration = some a) (hneg : a < 0)
    (h : brakeDistance fuel tp v w = .done d) : w < v ∧ d = (v * v - w * w) / (2 * -a) := by
  unfold brakeDistance at h
  cases hb : brake fuel tp v w with
  | bad => simp [hb] at h
  | running => simp [hb] at h
  | done l =>
    simp only [hb] at h
    have hv : w < v := by
      by_cases hv : v > w
      · exact hv
      · unfold brake at hb
        rw [if_neg hv] at hb
        cases hb
    obtain ⟨m, -, -, hrun⟩ := brake_runs ha hneg hv
    have h2 := brake_mono hb (m := fuel + m + 2) (by omega)
    rw [hrun _ (by omega), Outcome.done.injEq] at h2
    subst h2
    rw [List.getLast?_concat] at h
    simp only [Outcome.done.injEq] at h
    exact ⟨hv, h.symm⟩

/-- with enough fuel the braking distance is known -/
theorem brakeDistance_done {tp : Train} {a top : Rat} (ha : tp.deceleration = some a) (hneg : a < 0) :
    ∃ bound : Nat, ∀ fuel, bound < fuel → ∀ v w, w < v → v ≤ top → 0 ≤ w →
      brakeDistance fuel tp v w = .done ((v * v - w * w) / (2 * -a)) := by
  obtain ⟨n, hn⟩ := exists_nat_gt (top / (-a) * 2)
  refine ⟨n + 2, fun fuel hf v w hv hvt hw => ?_⟩
  obtain ⟨m, hlt, -, hrun⟩ := brake_runs ha hneg hv
  have hpos : 0 < -a := by linarith
  have hm : m < n + 1 := by
    have h1 : (v - w) / (-a) ≤ top / (-a) := div_le_div_of_nonneg_right (by linarith) hpos.le
    have h2 : (m : Rat) < n := by linarith
    have : m < n := by exact_mod_cast h2
    omega
  unfold brakeDistance
  rw [hrun fuel (by omega)]
  simp only [List.getLast?_concat]

/-- lowering the speed -/
theorem lowerSpeed_spec {fuel : Nat} {tp : Train} {a target length : Rat} (ha : tp.deceleration = some a) (hneg : a < 0)
    {n : Nat} {v r : Rat} (h : lowerSpeed fuel tp target length n v = .done r) :
    r ≤ v ∧ (target < r → (r * r - target * target) / (2 * -a) < length) := by
  induction n generalizing v with
  | zero => simp [lowerSpeed] at h
  | succ n ih =>
    unfold lowerSpeed at h
    by_cases hv : v > target
    · rw [if_pos hv] at h
      cases hb : brakeDistance fuel tp v target with
      | bad => simp [hb] at h
      | running => simp [hb] at h
      | done d =>
        simp only [hb] at h
        split at h
        · obtain ⟨h1, h2⟩ := ih h
          exact ⟨by linarith, h2⟩
        · rename_i hd
          simp only [Outcome.done.injEq] at h
          subst h
          obtain ⟨-, rfl⟩ := brakeDistance_eq ha hneg hb
          exact ⟨le_refl _, fun _ => not_le.mp hd⟩
    · rw [if_neg hv] at h
      simp only [Outcome.done.injEq] at h
      subst h
      exact ⟨le_refl _, fun h => absurd h hv⟩

theorem lowerSpeed_done {fuel : Nat} {tp : Train} {a target length top : Rat}
    (hd : ∀ v w, w < v → v ≤ top → 0 ≤ w → brakeDistance fuel tp v w = .done ((v * v - w * w) / (2 * -a)))
    (ht : 0 ≤ target) (n : Nat) (v : Rat) (hv : v ≤ top) (hn : v < target + n) :
    ∃ r, lowerSpeed fuel tp target length (n + 1) v = .done r := by
  induction n generalizing v with
  | zero =>
    refine ⟨v, ?_⟩
    unfold lowerSpeed
    rw [if_neg]
    simp at hn
    linarith
  | succ n ih =>
    unfold lowerSpeed
    by_cases hvt : v > target
    · rw [if_pos hvt, hd v target hvt hv ht]
      simp only
      split
      · exact ih (v - 1) (by linarith) (by push_cast at hn; linarith)
      · exact ⟨v, rfl⟩
    · rw [if_neg hvt]
      exact ⟨v, rfl⟩

theorem lowerSpeed_mono {fuel : Nat} {tp : Train} {target length : Rat} {n m : Nat} {v r : Rat}
    (h : lowerSpeed fuel tp target length n v = .done r) (hm : n ≤ m) : lowerSpeed fuel tp target length m v = .done r := by
  induction n generalizing v m with
  | zero => simp [lowerSpeed] at h
  | succ n ih =>
    obtain ⟨m, rfl⟩ : ∃ k, m = k + 1 := ⟨m - 1, by omega⟩
    unfold lowerSpeed at h ⊢
    by_cases hv : v > target
    · rw [if_pos hv] at h ⊢
      cases hb : brakeDistance fuel tp v target with
      | bad => simp [hb] at h
      | running => simp [hb] at h
      | done d =>
        simp only [hb] at h ⊢
        split
        · rename_i hd
          rw [if_pos hd] at h
          exact ih h (by omega)
        · rename_i hd
          rw [if_neg hd] at h
          exact h
    · rw [if_neg hv] at h ⊢
      exact h

theorem checkSpeed_cases (initial target v : Rat) :
    checkSpeed initial target v = .bad ∨
    ∃ w, checkSpeed initial target v = .done (some w) ∧ w < initial ∧ 0 < w ∧ target ≤ w ∧ (target < w → w = v ∧ target < v) := by
  unfold checkSpeed
  by_cases hv : v ≤ target
  · simp only [hv, if_true]
    by_cases h1 : target < initial
    · by_cases h2 : target > 0
      · exact Or.inr ⟨target, by simp [h1, h2], h1, h2, le_refl _, fun h => absurd h (lt_irrefl _)⟩
      · exact Or.inl (by simp [h1, h2])
    · exact Or.inl (by simp [h1])
  · simp only [hv, if_false]
    by_cases h1 : v < initial
    · by_cases h2 : v > 0
      · exact Or.inr ⟨v, by simp [h1, h2], h1, h2, (not_le.mp hv).le, fun _ => ⟨rfl, not_le.mp hv⟩⟩
      · exact Or.inl (by simp [h1, h2])
    · exact Or.inl (by simp [h1])

/-- the interval is long enough to brake to its target speed -/
def Fits (a top prevDist : Rat) (i : Interval) : Prop :=
  ∀ left, i.left = some left → i.targetSpeed top < min left top →
    (min left top * min left top - i.targetSpeed top * i.targetSpeed top) / (2 * -a) ≤ i.dist - prevDist

theorem targetSpeed_le (i : Interval) (top : Rat) : i.targetSpeed top ≤ top := min_le_right _ _

theorem adjustOne_none {fuel : Nat} {tp : Train} {a top prevDist : Rat} {i : Interval} (ha : tp.deceleration = some a)
    (hneg : a < 0) (h : adjustOne fuel tp top prevDist i = .done none) : Fits a top prevDist i := by
  intro left hleft hlt
  unfold adjustOne at h
  rw [hleft] at h
  simp only at h
  by_cases hc : (decide (i.right ≥ min left top) && !i.halt.isSome) = true
  · exfalso
    simp only [Bool.and_eq_true, decide_eq_true_eq, Bool.not_eq_true', Option.isSome_eq_false_iff, Option.isNone_iff_eq_none] at hc
    unfold Interval.targetSpeed at hlt
    rw [hc.2] at hlt
    simp only [Option.isSome_none, Bool.false_eq_true, if_false] at hlt
    have h1 : min left top ≤ min i.right top := le_min hc.1 (min_le_right _ _)
    linarith
  · simp only [hc, Bool.false_eq_true, if_false] at h
    cases hb : brakeDistance fuel tp (min left top) (i.targetSpeed top) with
    | bad => simp [hb] at h
    | running => simp [hb] at h
    | done d =>
      obtain ⟨-, rfl⟩ := brakeDistance_eq ha hneg hb
      simp only [hb] at h
      split at h
      · rename_i hge
        exact hge
      · cases hl : lowerSpeed fuel tp (i.targetSpeed top) (i.dist - prevDist) fuel (min left top - 1) with
        | bad => simp [hl] at h
        | running => simp [hl] at h
        | done v =>
          simp only [hl] at h
          rcases checkSpeed_cases (min left top) (i.targetSpeed top) v with hcs | ⟨w, hcs, -⟩
          · rw [hcs] at h
            cases h
          · rw [hcs] at h
            cases h

/-- a new limit is lower, positive, and the interval is then left alone -/
theorem adjustOne_some {fuel : Nat} {tp : Train} {a top prevDist : Rat} {i : Interval} {v : Rat} (ha : tp.deceleration = some a)
    (hneg : a < 0) (h : adjustOne fuel tp top prevDist i = .done (some v)) :
    ∃ left, i.left = some left ∧ v < left ∧ v < top ∧ 0 < v ∧ i.targetSpeed top ≤ v ∧
      (i.targetSpeed top < v → (v * v - i.targetSpeed top * i.targetSpeed top) / (2 * -a) < i.dist - prevDist) ∧
      i.dist - prevDist < (min left top * min left top - i.targetSpeed top * i.targetSpeed top) / (2 * -a) := by
  unfold adjustOne at h
  cases hleft : i.left with
  | none => simp [hleft] at h
  | some left =>
    simp only [hleft] at h
    split at h
    · cases h
    · cases hb : brakeDistance fuel tp (min left top) (i.targetSpeed top) with
      | bad => simp [hb] at h
      | running => simp [hb] at h
      | done d =>
        obtain ⟨-, rfl⟩ := brakeDistance_eq ha hneg hb
        simp only [hb] at h
        split at h
        · cases h
        · rename_i hge
          cases hl : lowerSpeed fuel tp (i.targetSpeed top) (i.dist - prevDist) fuel (min left top - 1) with
          | bad => simp [hl] at h
          | running => simp [hl] at h
          | done r =>
            simp only [hl] at h
            obtain ⟨h1, h2⟩ := lowerSpeed_spec ha hneg hl
            rcases checkSpeed_cases (min left top) (i.targetSpeed top) r with hcs | ⟨w, hcs, hlt, hpos, hge', hw⟩
            · rw [hcs] at h
              cases h
            · rw [hcs] at h
              simp only [Outcome.done.injEq, Option.some.injEq] at h
              subst h
              refine ⟨left, rfl, lt_of_lt_of_le hlt (min_le_left _ _), lt_of_lt_of_le hlt (min_le_right _ _), hpos, hge', ?_,
                not_le.mp hge⟩
              intro hv
              obtain ⟨rfl, hr⟩ := hw hv
              exact h2 hr

theorem adjustOne_again {fuel : Nat} {tp : Train} {a top prevDist : Rat} {i : Interval} {v : Rat} (ha : tp.deceleration = some a)
    (hneg : a < 0) (hd : ∀ v w, w < v → v ≤ top → 0 ≤ w → brakeDistance fuel tp v w = .done ((v * v - w * w) / (2 * -a)))
    (ht : 0 ≤ i.targetSpeed top) (h : adjustOne fuel tp top prevDist i = .done (some v)) :
    adjustOne fuel tp top prevDist { i with left := some v } = .done none := by
  obtain ⟨left, -, -, hvt, hpos, hge, hfit, -⟩ := adjustOne_some ha hneg h
  have htarget : ({ i with left := some v } : Interval).targetSpeed top = i.targetSpeed top := rfl
  unfold adjustOne
  simp only [htarget, min_eq_left hvt.le]
  by_cases hc : (decide (i.right ≥ v) && !i.halt.isSome) = true
  · rw [if_pos hc]
  · rw [if_neg hc]
    have hlt : i.targetSpeed top < v := by
      rcases lt_or_eq_of_le hge with h1 | h1
      · exact h1
      · exfalso
        apply hc
        unfold Interval.targetSpeed at h1
        cases hh : i.halt with
        | some x =>
          rw [hh] at h1
          simp only [Option.isSome_some, if_true] at h1
          have := min_le_left (0 : Rat) top
          linarith
        | none =>
          rw [hh] at h1
          simp only [Option.isSome_none, Bool.false_eq_true, if_false] at h1
          have := min_le_left i.right top
          simp
          linarith
    rw [hd v _ hlt hvt.le ht]
    simp only
    rw [if_pos (hfit hlt).le]

/-! ### The adjustment ends -/

/-- all intervals but the first k are left alone -/
def TailStable (fuel : Nat) (tp : Train) (top : Rat) : Nat → Interval → List Interval → Prop
  | 0, p, l => stableFrom fuel tp top p.dist l
  | _ + 1, _, [] => True
  | k + 1, _, i :: l => TailStable fuel tp top k i l

theorem tailStable_all (fuel : Nat) (tp : Train) (top : Rat) (p : Interval) (l : List Interval) :
    TailStable fuel tp top l.length p l := by
  induction l generalizing p with
  | nil => trivial
  | cons i l ih => exact ih i

/-- all right limits are at least zero -/
def RightNonneg (l : List Interval) : Prop :=
  ∀ i ∈ l, 0 ≤ i.right

theorem target_nonneg {i : Interval} {top : Rat} (hi : 0 ≤ i.right) (ht : 0 ≤ top) : 0 ≤ i.targetSpeed top := by
  unfold Interval.targetSpeed
  refine le_min ?_ ht
  split
  · exact le_refl _
  · exact hi

theorem adjustFrom_nonneg {fuel : Nat} {tp : Train} {a top : Rat} (ha : tp.deceleration = some a) (hneg : a < 0)
    {prev : Interval} {l : List Interval} {c : Bool} {out : List Interval}
    (h : adjustFrom fuel tp top prev l = .done (c, out)) (hn : RightNonneg (prev :: l)) : RightNonneg out := by
  induction l generalizing prev c out with
  | nil =>
    simp only [adjustFrom, Outcome.done.injEq, Prod.mk.injEq] at h
    rw [← h.2]
    exact hn
  | cons i l ih =>
    have hn' : RightNonneg (i :: l) := fun j hj => hn j (by simp at hj ⊢; exact Or.inr hj)
    rcases adjustFrom_cases h with ⟨c', rest, -, h1, -, rfl⟩ | ⟨v, c', rest, h0, h1, -, rfl⟩
    · intro j hj
      rcases List.mem_cons.mp hj with rfl | hj
      · exact hn _ (by simp)
      · exact ih h1 hn' j hj
    · obtain ⟨left, -, -, -, hpos, -⟩ := adjustOne_some ha hneg h0
      intro j hj
      rcases List.mem_cons.mp hj with rfl | hj
      · exact hpos.le
      · refine ih h1 (fun k hk => ?_) j hj
        rcases List.mem_cons.mp hk with rfl | hk
        · exact hn' i (by simp)
        · exact hn' k (by simp [hk])

theorem adjustFrom_tail {fuel : Nat} {tp : Train} {a top : Rat} (ha : tp.deceleration = some a) (hneg : a < 0) (ht : 0 ≤ top)
    (hd : ∀ v w, w < v → v ≤ top → 0 ≤ w → brakeDistance fuel tp v w = .done ((v * v - w * w) / (2 * -a)))
    {k : Nat} {prev : Interval} {l : List Interval} {c : Bool} {p' : Interval} {l' : List Interval}
    (hn : RightNonneg (prev :: l)) (h : adjustFrom fuel tp top prev l = .done (c, p' :: l'))
    (hs : TailStable fuel tp top (k + 1) prev l) : TailStable fuel tp top k p' l' := by
  induction k generalizing prev l c p' l' with
  | zero =>
    cases l with
    | nil =>
      simp only [adjustFrom, Outcome.done.injEq, Prod.mk.injEq, List.cons.injEq] at h
      rw [← h.2.2]
      trivial
    | cons i l =>
      have hs' : stableFrom fuel tp top i.dist l := hs
      rcases adjustFrom_cases h with ⟨c', rest, h0, h1, -, h2⟩ | ⟨v, c', rest, h0, h1, -, h2⟩
      · rw [adjustFrom_of_stable hs'] at h1
        simp only [Outcome.done.injEq, Prod.mk.injEq] at h1
        simp only [List.cons.injEq] at h2
        rw [h2.2, h2.1, ← h1.2]
        exact ⟨h0, hs'⟩
      · rw [adjustFrom_of_stable (prev := { i with left := some v }) hs'] at h1
        simp only [Outcome.done.injEq, Prod.mk.injEq] at h1
        simp only [List.cons.injEq] at h2
        rw [h2.2, h2.1, ← h1.2]
        exact ⟨adjustOne_again ha hneg hd (target_nonneg (hn i (by simp)) ht) h0, hs'⟩
  | succ k ih =>
    cases l with
    | nil =>
      simp only [adjustFrom, Outcome.done.injEq, Prod.mk.injEq, List.cons.injEq] at h
      rw [← h.2.2]
      trivial
    | cons i l =>
      have hs' : TailStable fuel tp top (k + 1) i l := hs
      rcases adjustFrom_cases h with ⟨c', rest, h0, h1, -, h2⟩ | ⟨v, c', rest, h0, h1, -, h2⟩
      · obtain ⟨r, rest', rfl⟩ := adjustFrom_head h1
        simp only [List.cons.injEq] at h2
        rw [h2.2]
        exact ih (fun j hj => hn j (by simp at hj ⊢; exact Or.inr hj)) h1 hs'
      · obtain ⟨r, rest', rfl⟩ := adjustFrom_head h1
        simp only [List.cons.injEq] at h2
        rw [h2.2]
        refine ih (fun j hj => ?_) h1 (by cases l <;> exact hs')
        rcases List.mem_cons.mp hj with rfl | hj
        · exact hn i (by simp)
        · exact hn j (by simp [hj])

theorem adjustOne_ends {fuel : Nat} {tp : Train} {a top prevDist : Rat} {i : Interval}
    (hd : ∀ v w, w < v → v ≤ top → 0 ≤ w → brakeDistance fuel tp v w = .done ((v * v - w * w) / (2 * -a)))
    (ht : 0 ≤ i.targetSpeed top) (hf : ∃ n : Nat, top < n ∧ n + 1 ≤ fuel) :
    adjustOne fuel tp top prevDist i ≠ .running := by
  intro h
  unfold adjustOne at h
  cases hleft : i.left with
  | none => simp [hleft] at h
  | some left =>
    simp only [hleft] at h
    split at h
    · cases h
    · by_cases hlt : i.targetSpeed top < min left top
      · rw [hd _ _ hlt (min_le_right _ _) ht] at h
        simp only at h
        split at h
        · cases h
        · obtain ⟨n, hn, hnf⟩ := hf
          obtain ⟨r, hr⟩ := lowerSpeed_done (length := i.dist - prevDist) hd ht n (min left top - 1)
            (by have := min_le_right left top; linarith) (by have := min_le_right left top; linarith)
          rw [lowerSpeed_mono hr hnf] at h
          simp only at h
          rcases checkSpeed_cases (min left top) (i.targetSpeed top) r with hcs | ⟨w, hcs, -⟩
          · rw [hcs] at h
            cases h
          · rw [hcs] at h
            cases h
      · have hbad : brakeDistance fuel tp (min left top) (i.targetSpeed top) = .bad := by
          unfold brakeDistance brake
          rw [if_neg hlt]
        rw [hbad] at h
        cases h

theorem adjustFrom_ends {fuel : Nat} {tp : Train} {a top : Rat} (ht : 0 ≤ top)
    (hd : ∀ v w, w < v → v ≤ top → 0 ≤ w → brakeDistance fuel tp v w = .done ((v * v - w * w) / (2 * -a)))
    (hf : ∃ n : Nat, top < n ∧ n + 1 ≤ fuel) {prev : Interval} {l : List Interval} (hn : RightNonneg (prev :: l)) :
    adjustFrom fuel tp top prev l ≠ .running := by
  induction l generalizing prev with
  | nil => intro h; cases h
  | cons i l ih =>
    intro h
    unfold adjustFrom at h
    have hn' : RightNonneg (i :: l) := fun j hj => hn j (by simp at hj ⊢; exact Or.inr hj)
    cases ho : adjustOne fuel tp top prev.dist i with
    | bad => simp [ho] at h
    | running => exact adjustOne_ends hd (target_nonneg (hn' i (by simp)) ht) hf ho
    | done o =>
      cases o with
      | none =>
        simp only [ho] at h
        cases hr : adjustFrom fuel tp top i l with
        | bad => simp [hr, Outcome.map] at h
        | done r => simp [hr, Outcome.map] at h
        | running => exact ih hn' hr
      | some v =>
        simp only [ho] at h
        cases hr : adjustFrom fuel tp top { i with left := some v } l with
        | bad => simp [hr, Outcome.map] at h
        | done r => simp [hr, Outcome.map] at h
        | running =>
          refine ih (fun j hj => ?_) hr
          rcases List.mem_cons.mp hj with rfl | hj
          · exact hn' i (by simp)
          · exact hn' j (by simp [hj])

theorem adjustAll_ends {fuel : Nat} {tp : Train} {a top : Rat} (ha : tp.deceleration = some a) (hneg : a < 0) (ht : 0 ≤ top)
    (htop : tp.topSpeed = some top)
    (hd : ∀ v w, w < v → v ≤ top → 0 ≤ w → brakeDistance fuel tp v w = .done ((v * v - w * w) / (2 * -a)))
    (hf : ∃ n : Nat, top < n ∧ n + 1 ≤ fuel) (k n : Nat) (p : Interval) (l : List Interval) (hn : RightNonneg (p :: l))
    (hs : TailStable fuel tp top k p l) (hk : k < n) : adjustAll fuel tp n (p :: l) ≠ .running := by
  induction n generalizing k p l with
  | zero => omega
  | succ n ih =>
    intro h
    unfold adjustAll adjust at h
    rw [htop] at h
    simp only at h
    cases ho : adjustFrom fuel tp top p l with
    | bad => simp [ho] at h
    | running => exact adjustFrom_ends ht hd hf hn ho
    | done r =>
      obtain ⟨c, out⟩ := r
      rw [ho] at h
      cases c with
      | false => simp at h
      | true =>
        simp only at h
        obtain ⟨r, rest, rfl⟩ := adjustFrom_head ho
        cases k with
        | zero =>
          rw [adjustFrom_of_stable hs] at ho
          simp at ho
        | succ k => exact ih k _ _ (adjustFrom_nonneg ha hneg ho hn) (adjustFrom_tail ha hneg ht hd hn ho hs) (by omega) h

/-! ### Limits are only lowered -/

theorem adjustFrom_lower {fuel : Nat} {tp : Train} {a top : Rat} (ha : tp.deceleration = some a) (hneg : a < 0)
    {prev : Interval} {l : List Interval} {c : Bool} {out : List Interval}
    (h : adjustFrom fuel tp top prev l = .done (c, out)) (hc : ChainR (prev :: l)) :
    List.Forall₂ (fun old new : Interval => new.right ≤ old.right) (prev :: l) out := by
  induction l generalizing prev c out with
  | nil =>
    simp only [adjustFrom, Outcome.done.injEq, Prod.mk.injEq] at h
    rw [← h.2]
    exact List.Forall₂.cons (le_refl _) List.Forall₂.nil
  | cons i l ih =>
    unfold ChainR at hc
    rw [List.isChain_cons_cons] at hc
    rcases adjustFrom_cases h with ⟨c', rest, -, h1, -, rfl⟩ | ⟨v, c', rest, h0, h1, -, rfl⟩
    · exact List.Forall₂.cons (le_refl _) (ih h1 hc.2)
    · obtain ⟨left, hleft, hlt, -⟩ := adjustOne_some ha hneg h0
      rw [hc.1] at hleft
      refine List.Forall₂.cons (by rw [← Option.some.inj hleft] at hlt; exact hlt.le) ?_
      have hc' : ChainR ({ i with left := some v } :: l) := by
        have := hc.2
        unfold ChainR
        cases l with
        | nil => exact List.isChain_singleton _
        | cons j l =>
          rw [List.isChain_cons_cons] at this ⊢
          exact this
      have := ih h1 hc'
      cases this with
      | cons h2 h3 => exact List.Forall₂.cons h2 h3

theorem adjust_lower {fuel : Nat} {tp : Train} {a : Rat} (ha : tp.deceleration = some a) (hneg : a < 0) {l : List Interval}
    {c : Bool} {out : List Interval} (h : adjust fuel tp l = .done (c, out)) (hc : ChainR l) :
    List.Forall₂ (fun old new : Interval => new.right ≤ old.right) l out := by
  unfold adjust at h
  cases l with
  | nil =>
    simp only [Outcome.done.injEq, Prod.mk.injEq] at h
    rw [← h.2]
    exact List.Forall₂.nil
  | cons i l =>
    simp only at h
    cases ht : tp.topSpeed with
    | none =>
      rw [ht] at h
      simp only at h
      split at h
      · rename_i h0
        simp only [Outcome.done.injEq, Prod.mk.injEq] at h
        rw [← h.2, h0]
        exact List.Forall₂.cons (le_refl _) List.Forall₂.nil
      · cases h
    | some top =>
      rw [ht] at h
      exact adjustFrom_lower ha hneg h hc

theorem forall₂_trans {α : Type} {R : α → α → Prop} (ht : ∀ a b c, R a b → R b c → R a c) {l m n : List α}
    (h1 : List.Forall₂ R l m) (h2 : List.Forall₂ R m n) : List.Forall₂ R l n := by
  induction h1 generalizing n with
  | nil => exact h2
  | cons hab _ ih =>
    cases h2 with
    | cons hbc h3 => exact List.Forall₂.cons (ht _ _ _ hab hbc) (ih h3)

theorem adjustAll_lower {fuel : Nat} {tp : Train} {a : Rat} (ha : tp.deceleration = some a) (hneg : a < 0) {n : Nat}
    {l out : List Interval} (h : adjustAll fuel tp n l = .done out) (hc : ChainR l) :
    List.Forall₂ (fun old new : Interval => new.right ≤ old.right) l out := by
  refine (adjustAll_inv (fun m => ChainR m ∧ List.Forall₂ (fun old new : Interval => new.right ≤ old.right) l m) ?_ h
    ⟨hc, List.forall₂_same.mpr (fun _ _ => le_refl _)⟩).2
  rintro m c out' hm ⟨h1, h2⟩
  exact ⟨adjust_chain hm h1, forall₂_trans (R := fun old new : Interval => new.right ≤ old.right)
    (fun a b c h1 h2 => le_trans h2 h1) h2 (adjust_lower ha hneg hm h1)⟩

theorem adjustAll_key {fuel : Nat} {tp : Train} {n : Nat} {l out : List Interval} (h : adjustAll fuel tp n l = .done out) :
    out.map key = l.map key :=
  adjustAll_inv (fun m => m.map key = l.map key) (fun _ _ _ hm h1 => (adjust_key hm).trans h1) h rfl

/-! ### Limits are not negative -/

/-- all right limits have a property -/
def RightAll (P : Rat → Prop) (l : List Interval) : Prop :=
  ∀ i ∈ l, P i.right

variable {P : Rat → Prop}

theorem rewrite_all (new rep : Rat) (next : Bool) (l : List Interval) (hn : P new) (h : RightAll P l) :
    RightAll P (rewriteLimits new rep next l).1 := by
  induction l generalizing next with
  | nil => exact h
  | cons i l ih =>
    rw [rewrite_cons]
    have h' : RightAll P l := fun j hj => h j (by simp [hj])
    split
    · intro j hj
      rcases List.mem_cons.mp hj with rfl | hj
      · exact hn
      · exact ih true h' j hj
    · intro j hj
      rcases List.mem_cons.mp hj with rfl | hj
      · exact h i (by simp)
      · exact h' j hj

theorem insert_all (new : Rat) (l : List Interval) (k : Nat) (hn : P new) (h : RightAll P l) :
    RightAll P (insertLastSignal new l k).1 := by
  unfold insertLastSignal
  cases l[k]? with
  | none => exact h
  | some i =>
    simp only
    intro j hj
    rcases List.mem_append.mp hj with hj | hj
    · exact h j (List.mem_of_mem_take hj)
    · exact rewrite_all _ _ _ _ hn (fun j hj => h j (List.mem_of_mem_drop hj)) j hj

/-- all limits of the nodes have a property -/
def LimitsAll (P : Rat → Prop) (nodes : List TNode) : Prop :=
  ∀ n ∈ nodes, ∀ l : Limit, n.spl = some l ∨ n.extra = some l → P l.limit

/-- no limit of a node is negative -/
def LimitsNonneg (nodes : List TNode) : Prop :=
  ∀ n ∈ nodes, ∀ l : Limit, n.spl = some l ∨ n.extra = some l → 0 ≤ l.limit

theorem duo_all (n : TNode) (h : ∀ l : Limit, n.spl = some l ∨ n.extra = some l → P l.limit) :
    (∀ v, (getSpeedLimit n).here = some v → P v) ∧ (∀ v, (getSpeedLimit n).lastSignal = some v → P v) := by
  have hh : ∀ (l : Limit) (d : Duo), P l.limit → ((∀ v, d.here = some v → P v) ∧ (∀ v, d.lastSignal = some v → P v)) →
      ((∀ v, (d.handle l).here = some v → P v) ∧ (∀ v, (d.handle l).lastSignal = some v → P v)) := by
    intro l d hl hd
    unfold Duo.handle
    split
    · split
      · exact ⟨fun v hv => by simp at hv; exact hv ▸ hl, hd.2⟩
      · exact ⟨hd.1, fun v hv => by simp at hv; exact hv ▸ hl⟩
    · exact hd
  unfold getSpeedLimit
  cases hs : n.spl with
  | none =>
    cases he : n.extra with
    | none => simp
    | some e => exact hh e _ (h e (Or.inr he)) (by simp)
  | some l =>
    cases he : n.extra with
    | none => exact hh l _ (h l (Or.inl hs)) (by simp)
    | some e => exact hh e _ (h e (Or.inr he)) (hh l _ (h l (Or.inl hs)) (by simp))

theorem pushInterval_all (l : List Interval) (i : Interval) (h : RightAll P l) (hi : P i.right) :
    RightAll P (pushInterval l i) := by
  unfold pushInterval
  cases l.getLast? with
  | none =>
    intro j hj
    simp only [List.mem_singleton] at hj
    exact hj ▸ hi
  | some b =>
    simp only
    split
    · intro j hj
      rcases List.mem_append.mp hj with hj | hj
      · exact h j (List.dropLast_subset _ hj)
      · simp only [List.mem_singleton] at hj
        subst hj
        exact hi
    · intro j hj
      rcases List.mem_append.mp hj with hj | hj
      · exact h j hj
      · simp only [List.mem_singleton] at hj
        subst hj
        exact hi

theorem nodeStep_all (s : State) (n : TNode) (h : ∀ l : Limit, n.spl = some l ∨ n.extra = some l → P l.limit)
    (hs : RightAll P s.list ∧ P s.cur) : RightAll P (nodeStep s n).list ∧ P (nodeStep s n).cur := by
  obtain ⟨hh, hl⟩ := duo_all n h
  unfold nodeStep
  simp only
  split
  · exact hs
  · have h1 : RightAll P (applyLastSignal { s with dist := s.dist + n.gap } (getSpeedLimit n)).list ∧
        P (applyLastSignal { s with dist := s.dist + n.gap } (getSpeedLimit n)).cur := by
      unfold applyLastSignal
      cases hv : (getSpeedLimit n).lastSignal with
      | none => exact hs
      | some v =>
        simp only
        split
        · exact ⟨insert_all _ _ _ (hl v hv) hs.1, hl v hv⟩
        · exact ⟨insert_all _ _ _ (hl v hv) hs.1, hs.2⟩
    revert h1
    generalize applyLastSignal { s with dist := s.dist + n.gap } (getSpeedLimit n) = t
    intro h1
    have h2 : RightAll P (applyHere t (getSpeedLimit n)).list ∧ P (applyHere t (getSpeedLimit n)).cur := by
      unfold applyHere
      cases hv : (getSpeedLimit n).here with
      | none => exact h1
      | some v => exact ⟨h1.1, hh v hv⟩
    revert h2
    generalize applyHere t (getSpeedLimit n) = u
    intro h2
    unfold closeInterval
    split
    · exact ⟨pushInterval_all _ _ h2.1 h2.2, h2.2⟩
    · exact h2

theorem adjustOne_pos {fuel : Nat} {tp : Train} {top prevDist v : Rat} {i : Interval}
    (h : adjustOne fuel tp top prevDist i = .done (some v)) : 0 < v := by
  unfold adjustOne at h
  cases hl : i.left with
  | none => simp [hl] at h
  | some left =>
    simp only [hl] at h
    split at h
    · cases h
    · cases hb : brakeDistance fuel tp (min left top) (i.targetSpeed top) with
      | bad => simp [hb] at h
      | running => simp [hb] at h
      | done d =>
        simp only [hb] at h
        split at h
        · cases h
        · cases hw : lowerSpeed fuel tp (i.targetSpeed top) (i.dist - prevDist) fuel (min left top - 1) with
          | bad => simp [hw] at h
          | running => simp [hw] at h
          | done w =>
            simp only [hw] at h
            rcases checkSpeed_cases (min left top) (i.targetSpeed top) w with hc | ⟨u, hc, -, hu, -⟩
            · rw [hc] at h
              cases h
            · rw [hc] at h
              rw [← Option.some.inj (Outcome.done.inj h)]
              exact hu

theorem rawIntervals_all (initial : Rat) (nodes : List TNode) (hi : P initial) (h : LimitsAll P nodes) :
    RightAll P (rawIntervals initial nodes).list ∧ P (rawIntervals initial nodes).cur := by
  induction nodes using List.reverseRecOn with
  | nil => exact ⟨fun i hi => by simp [rawIntervals] at hi, hi⟩
  | append_singleton pre n ih =>
    rw [rawIntervals_concat]
    exact nodeStep_all _ _ (h n (by simp)) (ih (fun m hm => h m (by simp [hm])))

theorem rawIntervals_nonneg (initial : Rat) (nodes : List TNode) (hi : 0 ≤ initial) (h : LimitsNonneg nodes) :
    RightNonneg (rawIntervals initial nodes).list :=
  (rawIntervals_all (P := fun v => 0 ≤ v) initial nodes hi h).1

theorem adjustFrom_pos {fuel : Nat} {tp : Train} {top : Rat} {prev : Interval} {l : List Interval} {c : Bool}
    {out : List Interval} (h : adjustFrom fuel tp top prev l = .done (c, out)) (hn : RightAll (fun v => 0 < v) (prev :: l)) :
    RightAll (fun v => 0 < v) out := by
  induction l generalizing prev c out with
  | nil =>
    simp only [adjustFrom, Outcome.done.injEq, Prod.mk.injEq] at h
    rw [← h.2]
    exact hn
  | cons i l ih =>
    rcases adjustFrom_cases h with ⟨c', rest, h0, h1, hc, rfl⟩ | ⟨v, c', rest, h0, h1, hc, rfl⟩
    · have := ih h1 (fun j hj => hn j (by simp at hj ⊢; right; exact hj))
      intro j hj
      rcases List.mem_cons.mp hj with rfl | hj
      · exact hn _ (by simp)
      · exact this j hj
    · have := ih h1 (fun j hj => by
        rcases List.mem_cons.mp hj with rfl | hj
        · exact hn i (by simp)
        · exact hn j (by simp [hj]))
      intro j hj
      rcases List.mem_cons.mp hj with rfl | hj
      · exact adjustOne_pos h0
      · exact this j hj

theorem adjust_pos {fuel : Nat} {tp : Train} {l : List Interval} {c : Bool} {out : List Interval}
    (h : adjust fuel tp l = .done (c, out)) (hn : RightAll (fun v => 0 < v) l) : RightAll (fun v => 0 < v) out := by
  unfold adjust at h
  cases l with
  | nil =>
    simp only [Outcome.done.injEq, Prod.mk.injEq] at h
    rw [← h.2]
    exact hn
  | cons i l =>
    simp only at h
    cases ht : tp.topSpeed with
    | none =>
      rw [ht] at h
      simp only at h
      split at h
      · rename_i h0
        simp only [Outcome.done.injEq, Prod.mk.injEq] at h
        rw [← h.2, ← h0]
        exact hn
      · cases h
    | some top =>
      rw [ht] at h
      exact adjustFrom_pos h hn

end Soro.Runtime
