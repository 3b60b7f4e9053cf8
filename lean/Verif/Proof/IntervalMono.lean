import Verif.Proof.IntervalAdjust

/-
More fuel does not change the list of intervals.
-/

namespace Soro.Runtime

open Soro.Physics

variable {tp : Train} {f g : Nat}

theorem brakeDistance_mono {v w d : Rat} (h : brakeDistance f tp v w = .done d) (hfg : f ≤ g) :
    brakeDistance g tp v w = .done d := by
  unfold brakeDistance at h ⊢
  cases hb : brake f tp v w with
  | bad => simp [hb] at h
  | running => simp [hb] at h
  | done l =>
    rw [hb] at h
    rw [brake_mono hb hfg]
    exact h

theorem lowerSpeed_fuel {target length v r : Rat} {n : Nat} (h : lowerSpeed f tp target length n v = .done r) (hfg : f ≤ g) :
    lowerSpeed g tp target length n v = .done r := by
  induction n generalizing v with
  | zero => simp [lowerSpeed] at h
  | succ n ih =>
    unfold lowerSpeed at h ⊢
    by_cases hv : v > target
    · rw [if_pos hv] at h ⊢
      cases hb : brakeDistance f tp v target with
      | bad => simp [hb] at h
      | running => simp [hb] at h
      | done d =>
        rw [hb] at h
        rw [brakeDistance_mono hb hfg]
        simp only at h ⊢
        split
        · rename_i hd
          rw [if_pos hd] at h
          exact ih h
        · rename_i hd
          rw [if_neg hd] at h
          exact h
    · rw [if_neg hv] at h ⊢
      exact h

theorem adjustOne_mono {top prevDist : Rat} {i : Interval} {o : Option Rat} (h : adjustOne f tp top prevDist i = .done o)
    (hfg : f ≤ g) : adjustOne g tp top prevDist i = .done o := by
  unfold adjustOne at h ⊢
  cases hl : i.left with
  | none => simp [hl] at h
  | some left =>
    rw [hl] at h
    simp only at h ⊢
    by_cases hc : (decide (i.right ≥ min left top) && !i.halt.isSome) = true
    · rw [if_pos hc] at h ⊢
      exact h
    · rw [if_neg hc] at h ⊢
      cases hb : brakeDistance f tp (min left top) (i.targetSpeed top) with
      | bad => simp [hb] at h
      | running => simp [hb] at h
      | done d =>
        rw [hb] at h
        rw [brakeDistance_mono hb hfg]
        simp only at h ⊢
        by_cases hd : i.dist - prevDist ≥ d
        · rw [if_pos hd] at h ⊢
          exact h
        · rw [if_neg hd] at h ⊢
          cases hs : lowerSpeed f tp (i.targetSpeed top) (i.dist - prevDist) f (min left top - 1) with
          | bad => simp [hs] at h
          | running => simp [hs] at h
          | done v =>
            rw [hs] at h
            rw [lowerSpeed_mono (lowerSpeed_fuel hs hfg) hfg]
            exact h

theorem adjustFrom_mono {top : Rat} {prev : Interval} {l : List Interval} {r : Bool × List Interval}
    (h : adjustFrom f tp top prev l = .done r) (hfg : f ≤ g) : adjustFrom g tp top prev l = .done r := by
  induction l generalizing prev r with
  | nil => exact h
  | cons i l ih =>
    unfold adjustFrom at h ⊢
    cases ho : adjustOne f tp top prev.dist i with
    | bad => simp [ho] at h
    | running => simp [ho] at h
    | done o =>
      rw [ho] at h
      rw [adjustOne_mono ho hfg]
      cases o with
      | none =>
        simp only at h ⊢
        exact Outcome.map_mono h (fun a ha => ih ha)
      | some v =>
        simp only at h ⊢
        exact Outcome.map_mono h (fun a ha => ih ha)

theorem adjust_mono {l : List Interval} {r : Bool × List Interval} (h : adjust f tp l = .done r) (hfg : f ≤ g) :
    adjust g tp l = .done r := by
  unfold adjust at h ⊢
  cases l with
  | nil => exact h
  | cons i l =>
    simp only at h ⊢
    cases ht : tp.topSpeed with
    | none =>
      rw [ht] at h
      exact h
    | some top =>
      rw [ht] at h
      exact adjustFrom_mono h hfg

theorem adjustAll_mono {n m : Nat} {l out : List Interval} (h : adjustAll f tp n l = .done out) (hfg : f ≤ g) (hnm : n ≤ m) :
    adjustAll g tp m l = .done out := by
  induction n generalizing m l with
  | zero => simp [adjustAll] at h
  | succ n ih =>
    obtain ⟨m, rfl⟩ : ∃ k, m = k + 1 := ⟨m - 1, by omega⟩
    unfold adjustAll at h ⊢
    cases ha : adjust f tp l with
    | bad => simp [ha] at h
    | running => simp [ha] at h
    | done r =>
      obtain ⟨c, l'⟩ := r
      rw [ha] at h
      rw [adjust_mono ha hfg]
      cases c with
      | true => exact ih h (by omega)
      | false => exact h

theorem getIntervalList_mono {initial : Rat} {nodes : List TNode} {l : List Interval}
    (h : getIntervalList f tp initial nodes = .done l) (hfg : f ≤ g) : getIntervalList g tp initial nodes = .done l :=
  adjustAll_mono h hfg hfg

end Soro.Runtime
