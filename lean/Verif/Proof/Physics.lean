import Verif.Spec.Physics
import Mathlib.Algebra.Order.Ring.Rat
import Mathlib.Algebra.Order.Archimedean.Basic
import Mathlib.Data.List.Chain
import Mathlib.Logic.Function.Iterate
import Mathlib.Tactic.Linarith
import Mathlib.Tactic.Ring
import Mathlib.Tactic.FieldSimp

/-
The loops of `runtime_physics.cc`: what they append, when they end.
-/

namespace Soro.Physics

open Soro.Physics.Spec

section Loop

variable {S : Type} {c : S → Bool} {f : S → Option S}

theorem Outcome.map_eq_done {α β : Type} {g : α → β} {o : Outcome α} {b : β} (h : o.map g = .done b) :
    ∃ a, o = .done a ∧ g a = b := by
  cases o with
  | done a => exact ⟨a, rfl, by simpa [Outcome.map] using h⟩
  | bad => simp [Outcome.map] at h
  | running => simp [Outcome.map] at h

theorem loop_done {n : Nat} {s : S} {l : List S} (h : loop c f n s = .done l) :
    List.IsChain (fun a b => c a = true ∧ f a = some b) (s :: l) ∧ c ((s :: l).getLast (by simp)) = false := by
  induction n generalizing s l with
  | zero => simp [loop] at h
  | succ n ih =>
    unfold loop at h
    by_cases hc : c s = true
    · simp only [hc, if_true] at h
      cases hf : f s with
      | none => simp [hf] at h
      | some s' =>
        simp only [hf] at h
        obtain ⟨l', hl', rfl⟩ := Outcome.map_eq_done h
        obtain ⟨h1, h2⟩ := ih hl'
        refine ⟨List.isChain_cons_cons.mpr ⟨⟨hc, hf⟩, h1⟩, ?_⟩
        rw [List.getLast_cons (by simp)]
        exact h2
    · simp only [hc] at h
      simp only [Bool.false_eq_true, if_false, Outcome.done.injEq] at h
      subst h
      exact ⟨List.isChain_singleton _, by simpa using hc⟩

/-- more fuel changes nothing -/
theorem loop_mono {n m : Nat} {s : S} {l : List S} (h : loop c f n s = .done l) (hm : n ≤ m) :
    loop c f m s = .done l := by
  induction n generalizing s l m with
  | zero => simp [loop] at h
  | succ n ih =>
    obtain ⟨m, rfl⟩ : ∃ k, m = k + 1 := ⟨m - 1, by omega⟩
    unfold loop at h ⊢
    by_cases hc : c s = true
    · simp only [hc, if_true] at h ⊢
      cases hf : f s with
      | none => simp [hf] at h
      | some s' =>
        simp only [hf] at h ⊢
        obtain ⟨l', hl', rfl⟩ := Outcome.map_eq_done h
        rw [ih hl' (by omega)]
        rfl
    · simp only [hc] at h ⊢
      exact h

/-- the loop ends after exactly m rounds -/
theorem loop_iterate {g : S → S} (m : Nat) {s : S} (hf : ∀ a, f a = some (g a)) (ht : ∀ k, k < m → c (g^[k] s) = true)
    (he : c (g^[m] s) = false) : loop c f (m + 1) s = .done ((List.range m).map (fun k => g^[k + 1] s)) := by
  induction m generalizing s with
  | zero =>
    have h : c s = false := by simpa using he
    simp [loop, h]
  | succ m ih =>
    have h0 : c s = true := by simpa using ht 0 (by omega)
    unfold loop
    simp only [h0, if_true, hf s]
    rw [ih (s := g s) (fun k hk => by simpa [Function.iterate_succ_apply] using ht (k + 1) (by omega))
      (by simpa [Function.iterate_succ_apply] using he)]
    simp only [Outcome.map, List.range_succ_eq_map, List.map_cons, List.map_map]
    rfl

theorem loop_endless {g : S → S} {s : S} (hf : ∀ a, f a = some (g a)) (ht : ∀ k, c (g^[k] s) = true) (n : Nat) :
    loop c f n s = .running := by
  induction n generalizing s with
  | zero => rfl
  | succ n ih =>
    unfold loop
    simp only [show c s = true from ht 0, if_true, hf s]
    rw [ih (s := g s) (fun k => by simpa [Function.iterate_succ_apply] using ht (k + 1))]
    rfl

end Loop

theorem changeLast_concat {S : Type} (g : S → S) (l : List S) (a : S) : changeLast g (l ++ [a]) = l ++ [g a] := by
  induction l with
  | nil => rfl
  | cons b l ih =>
    cases l with
    | nil => rfl
    | cons d l =>
      simp only [List.cons_append, changeLast] at ih ⊢
      rw [ih]

theorem changeLastIf_concat {S : Type} (g : S → S) (l : List S) (a : S) (h : l ≠ []) :
    changeLastIf g (l ++ [a]) = l ++ [g a] := by
  unfold changeLastIf
  have : 0 < l.length := List.length_pos_iff.mpr h
  rw [if_pos (by simp; omega), changeLast_concat]

/-- the first n of the values f 0, f 1, … and another one, as a list, are ordered if the values are -/
theorem pairwise_range_concat {S : Type} {R : S → S → Prop} (g : Nat → S) (b : S) (m : Nat)
    (h : ∀ i j, i < j → j < m → R (g i) (g j)) (hb : ∀ i, i < m → R (g i) b) :
    ((List.range m).map g ++ [b]).Pairwise R := by
  rw [List.pairwise_append]
  refine ⟨?_, List.pairwise_singleton _ _, ?_⟩
  · rw [List.pairwise_map, List.pairwise_iff_getElem]
    intro i j hi hj hij
    simp only [List.getElem_range]
    simp at hj
    exact h i j hij hj
  · intro a ha b' hb'
    simp at ha hb'
    obtain ⟨i, hi, rfl⟩ := ha
    subst hb'
    exact hb i hi

/-- the least number for which a test fails -/
theorem exists_least_false (p : Nat → Bool) (h : ∃ n, p n = false) :
    ∃ m, p m = false ∧ ∀ k, k < m → p k = true := by
  obtain ⟨n, hn⟩ := h
  induction n using Nat.strong_induction_on with
  | _ n ih =>
    by_cases hk : ∃ k, k < n ∧ p k = false
    · obtain ⟨k, h1, h2⟩ := hk
      exact ih k h1 h2
    · refine ⟨n, hn, fun k hlt => ?_⟩
      by_cases hp : p k = true
      · exact hp
      · exact absurd ⟨k, hlt, by simpa using hp⟩ hk

/-- results g 0, …, g m, the last of them changed -/
theorem changed_range {g : Nat → Result} (h : Result → Result) (m : Nat) :
    changeLastIf h (g 0 :: (List.range (m + 1)).map (fun k => g (k + 1)))
      = (List.range (m + 1)).map g ++ [h (g (m + 1))] := by
  have : g 0 :: (List.range (m + 1)).map (fun k => g (k + 1)) = (List.range (m + 1)).map g ++ [g (m + 1)] := by
    have h1 : (List.range (m + 1)).map g ++ [g (m + 1)] = (List.range (m + 2)).map g := by
      rw [List.range_succ (n := m + 1), List.map_append]
      rfl
    rw [h1, List.range_succ_eq_map (n := m + 1)]
    simp [List.map_map, Function.comp_def]
  rw [this, changeLastIf_concat _ _ _ (by simp)]

/-! ### Coasting -/

theorem coastStep_iterate (v : Rat) (k : Nat) :
    (coastStep v)^[k] { time := 0, dist := 0, speed := v } = { time := k / 2, dist := v * (k / 2), speed := v } := by
  induction k with
  | zero => simp
  | succ k ih =>
    rw [Function.iterate_succ_apply', ih]
    simp only [coastStep, deltaT, Result.mk.injEq, and_true]
    push_cast
    constructor <;> ring

theorem coast_runs {v distance : Rat} (hv : 0 < v) (hd : 0 < distance) :
    ∃ m : Nat, v * (m / 2) < distance ∧ distance ≤ v * ((m + 1) / 2) ∧
      ∀ fuel, m + 1 < fuel → coast fuel v distance = .done
        ((List.range (m + 1)).map (fun k : Nat => ({ time := k / 2, dist := v * (k / 2), speed := v } : Result))
          ++ [{ time := (m + 1) / 2, dist := distance, speed := v }]) := by
  obtain ⟨m, hm, hlt⟩ := exists_least_false (fun k : Nat => decide (v * ((k : Rat) / 2) < distance)) (by
    obtain ⟨n, hn⟩ := exists_nat_gt (distance / v * 2)
    refine ⟨n, ?_⟩
    simp only [decide_eq_false_iff_not, not_lt]
    have h1 : distance / v ≤ n / 2 := by linarith
    have h2 : distance / v * v ≤ n / 2 * v := mul_le_mul_of_nonneg_right h1 hv.le
    rw [div_mul_cancel₀ _ hv.ne'] at h2
    linarith)
  cases m with
  | zero => simp at hm; linarith
  | succ m =>
    refine ⟨m, by simpa using hlt m (by omega), by simpa using hm, fun fuel hf => ?_⟩
    unfold coast
    have h := loop_iterate (c := fun r : Result => decide (r.dist < distance)) (f := fun r => some (coastStep v r))
      (g := coastStep v) (m + 1) (s := { time := 0, dist := 0, speed := v }) (fun _ => rfl)
      (fun k hk => by rw [coastStep_iterate]; exact hlt k hk) (by rw [coastStep_iterate]; exact hm)
    dsimp only
    rw [loop_mono h (by omega)]
    simp only [Outcome.map, coastStep_iterate]
    congr 1
    have := changed_range (g := fun k : Nat => ({ time := k / 2, dist := v * (k / 2), speed := v } : Result))
      (fun r => { r with dist := distance }) m
    simp only [Nat.cast_zero, zero_div, mul_zero] at this
    rw [this]
    push_cast
    rfl

/-! ### Braking -/

theorem brakeStep_iterate (a v : Rat) (k : Nat) :
    (brakeStep a)^[k] { time := 0, dist := 0, speed := v }
      = { time := k / 2, dist := v * (k / 2) + a * (k * (k - 1) / 8), speed := v + a * (k / 2) } := by
  induction k with
  | zero => simp
  | succ k ih =>
    rw [Function.iterate_succ_apply', ih]
    simp only [brakeStep, deltaT, Result.mk.injEq]
    push_cast
    refine ⟨?_, ?_, ?_⟩ <;> ring

theorem brake_runs {tp : Train} {a v w : Rat} (ha : tp.deceleration = some a) (hneg : a < 0) (hv : w < v) :
    ∃ m : Nat, (m : Rat) / 2 < (v - w) / (-a) ∧ (v - w) / (-a) ≤ (m + 1) / 2 ∧
      ∀ fuel, m + 1 < fuel → brake fuel tp v w = .done
        ((List.range (m + 1)).map (fun k : Nat =>
            ({ time := k / 2, dist := v * (k / 2) + a * (k * (k - 1) / 8), speed := v + a * (k / 2) } : Result))
          ++ [{ time := (m + 1) / 2, dist := (v * v - w * w) / (2 * -a), speed := w }]) := by
  have ht : -(v - w) / a = (v - w) / (-a) := by
    rw [neg_div, div_neg]
  have hpos : 0 < (v - w) / (-a) := div_pos (by linarith) (by linarith)
  obtain ⟨m, hm, hlt⟩ := exists_least_false (fun k : Nat => decide ((k : Rat) / 2 < (v - w) / (-a))) (by
    obtain ⟨n, hn⟩ := exists_nat_gt ((v - w) / (-a) * 2)
    refine ⟨n, ?_⟩
    simp only [decide_eq_false_iff_not, not_lt]
    linarith)
  cases m with
  | zero => simp at hm; linarith
  | succ m =>
    refine ⟨m, by simpa using hlt m (by omega), by simpa using hm, fun fuel hf => ?_⟩
    unfold brake
    rw [if_pos hv, ha]
    simp only [ht, if_neg hneg.ne]
    have h := loop_iterate (c := fun r : Result => decide (r.time < (v - w) / (-a))) (f := fun r => some (brakeStep a r))
      (g := brakeStep a) (m + 1) (s := { time := 0, dist := 0, speed := v }) (fun _ => rfl)
      (fun k hk => by rw [brakeStep_iterate]; exact hlt k hk) (by rw [brakeStep_iterate]; exact hm)
    rw [loop_mono h (by omega)]
    simp only [Outcome.map, brakeStep_iterate]
    congr 1
    have hdist : 1 / 2 * a * ((v - w) / (-a) * ((v - w) / (-a))) + v * ((v - w) / (-a)) = (v * v - w * w) / (2 * -a) := by
      have : a ≠ 0 := hneg.ne
      field_simp
      ring
    rw [hdist]
    have := changed_range (g := fun k : Nat =>
        ({ time := k / 2, dist := v * (k / 2) + a * (k * (k - 1) / 8), speed := v + a * (k / 2) } : Result))
      (fun r => { r with dist := (v * v - w * w) / (2 * -a), speed := w }) m
    simp only [Nat.cast_zero, zero_div, mul_zero, zero_mul, add_zero] at this
    rw [this]
    push_cast
    rfl

theorem Outcome.map_mono {α β : Type} {g : α → β} {o o' : Outcome α} {b : β} (h : o.map g = .done b)
    (ho : ∀ a, o = .done a → o' = .done a) : o'.map g = .done b := by
  obtain ⟨a, ha, rfl⟩ := Outcome.map_eq_done h
  rw [ho a ha]
  rfl

theorem coast_mono {n m : Nat} {v d : Rat} {l : List Result} (h : coast n v d = .done l) (hm : n ≤ m) :
    coast m v d = .done l :=
  Outcome.map_mono h (fun _ ha => loop_mono ha hm)

theorem brake_mono {n m : Nat} {tp : Train} {v w : Rat} {l : List Result} (h : brake n tp v w = .done l) (hm : n ≤ m) :
    brake m tp v w = .done l := by
  unfold brake at h ⊢
  by_cases hv : v > w
  · rw [if_pos hv] at h ⊢
    cases ha : tp.deceleration with
    | none => simp [ha] at h
    | some a =>
      simp only [ha] at h ⊢
      by_cases h0 : a = 0
      · simp [h0] at h
      · rw [if_neg h0] at h ⊢
        exact Outcome.map_mono h (fun _ ha => loop_mono ha hm)
  · rw [if_neg hv] at h
    cases h

theorem accelerate_mono {n m : Nat} {tp : Train} {v w d : Rat} {l : List Result} (h : accelerate n tp v w d = .done l)
    (hm : n ≤ m) : accelerate m tp v w d = .done l := by
  unfold accelerate at h ⊢
  cases ht : tp.topSpeed with
  | none => simp [ht] at h
  | some top =>
    simp only [ht] at h ⊢
    exact Outcome.map_mono h (fun _ ha => loop_mono ha hm)

/-! ### Accelerating -/

theorem accelStep_some {tp : Train} {r r' : Result} (h : accelStep tp r = some r') :
    ∃ a, tp.acceleration r.speed = some a ∧ r'.time = r.time + 1 / 2 ∧ r'.speed = r.speed + a * (1 / 2) ∧
      r'.dist = r.dist + (r.speed + r'.speed) / 4 := by
  unfold accelStep at h
  cases ha : tp.acceleration r.speed with
  | none => simp [ha] at h
  | some a =>
    simp only [ha, Option.some.injEq] at h
    subst h
    refine ⟨a, rfl, by simp [deltaT], by simp [deltaT], ?_⟩
    simp only [deltaT]
    ring

/-- how two results of accelerating, one after the other, are related -/
def Later (a b : Result) : Prop :=
  a.time < b.time ∧ a.dist ≤ b.dist ∧ a.speed ≤ b.speed

theorem later_trans {a b c : Result} (h1 : Later a b) (h2 : Later b c) : Later a c :=
  ⟨lt_trans h1.1 h2.1, le_trans h1.2.1 h2.2.1, le_trans h1.2.2 h2.2.2⟩

theorem accel_chain {tp : Train} {c : Result → Bool} {l : List Result} {s : Result} (hs : 0 ≤ s.speed)
    (hacc : ∀ v a, s.speed ≤ v → tp.acceleration v = some a → 0 ≤ a)
    (h : List.IsChain (fun a b => c a = true ∧ accelStep tp a = some b) (s :: l)) :
    (s :: l).Pairwise Later := by
  have hch : List.IsChain Later (s :: l) := by
    induction l generalizing s with
    | nil => exact List.isChain_singleton _
    | cons b l ih =>
      rw [List.isChain_cons_cons] at h ⊢
      obtain ⟨a, ha, ht, hv, hd⟩ := accelStep_some h.1.2
      have h0 := hacc s.speed a (le_refl _) ha
      have hsb : s.speed ≤ b.speed := by linarith
      refine ⟨⟨by linarith, by linarith, hsb⟩, ih (by linarith) (fun v a hv => hacc v a (le_trans hsb hv)) h.2⟩
  haveI : IsTrans Result Later := ⟨fun _ _ _ => later_trans⟩
  exact List.isChain_iff_pairwise.mp hch

theorem chain_dropLast {S : Type} {R : S → S → Prop} {p : S → Prop} {l : List S} (hR : ∀ a b, R a b → p a)
    (h : List.IsChain R l) : ∀ x ∈ l.dropLast, p x := by
  induction l with
  | nil => simp
  | cons a l ih =>
    cases l with
    | nil => simp
    | cons b l =>
      rw [List.isChain_cons_cons] at h
      intro x hx
      rw [List.dropLast_cons_of_ne_nil (by simp)] at hx
      rcases List.mem_cons.mp hx with rfl | hx
      · exact hR _ _ h.1
      · exact ih h.2 x hx

/-- the successor relation reaches every element but the first -/
theorem chain_prev {S : Type} {R : S → S → Prop} {l : List S} {s : S} (h : List.IsChain R (s :: l)) :
    ∀ x ∈ l, ∃ y ∈ (s :: l).dropLast, R y x := by
  induction l generalizing s with
  | nil => simp
  | cons b l ih =>
    rw [List.isChain_cons_cons] at h
    intro x hx
    rw [List.dropLast_cons_of_ne_nil (by simp)]
    rcases List.mem_cons.mp hx with rfl | hx
    · exact ⟨s, by simp, h.1⟩
    · obtain ⟨y, hy, hR⟩ := ih h.2 x hx
      exact ⟨y, List.mem_cons_of_mem _ hy, hR⟩

theorem accelerate_done {fuel : Nat} {tp : Train} {initial target maxD : Rat} {l : List Result}
    (h : accelerate fuel tp initial target maxD = .done l) :
    ∃ top k, tp.topSpeed = some top ∧
      List.IsChain (fun a b => (a.speed < top ∧ a.speed < target ∧ a.dist < maxD) ∧ accelStep tp a = some b)
        ({ time := 0, dist := 0, speed := initial } :: k) ∧
      (∀ last, ({ time := 0, dist := 0, speed := initial } :: k).getLast? = some last →
        ¬ (last.speed < top ∧ last.speed < target ∧ last.dist < maxD)) ∧
      l = cutToDistance maxD ({ time := 0, dist := 0, speed := initial } :: k) := by
  unfold accelerate at h
  cases ht : tp.topSpeed with
  | none => simp [ht] at h
  | some top =>
    simp only [ht] at h
    obtain ⟨k, hk, rfl⟩ := Outcome.map_eq_done h
    obtain ⟨h1, h2⟩ := loop_done hk
    refine ⟨top, k, rfl, ?_, ?_, rfl⟩
    · refine h1.imp ?_
      intro a b hab
      simpa [and_assoc] using hab
    · intro last hl hc
      rw [List.getLast?_eq_getLast_of_ne_nil (by simp)] at hl
      simp only [Option.some.injEq] at hl
      rw [hl] at h2
      simp [hc.1, hc.2.1, hc.2.2] at h2

/-- the results after the cut: as they were, or without the last one and the then last one moved to the end -/
theorem cut_cases (maxD : Rat) (l : List Result) (hl : l ≠ []) :
    (∃ last, l.getLast? = some last ∧ last.dist ≤ maxD ∧ cutToDistance maxD l = l) ∨
    (∃ a last, l = [a, last] ∧ maxD < last.dist ∧ cutToDistance maxD l = [a]) ∨
    (∃ last, l = [last] ∧ maxD < last.dist ∧ cutToDistance maxD l = []) ∨
    (∃ k a last, k ≠ [] ∧ l = k ++ [a, last] ∧ maxD < last.dist ∧
      cutToDistance maxD l = k ++ [{ a with dist := maxD }]) := by
  unfold cutToDistance
  obtain ⟨k, last, rfl⟩ : ∃ k last, l = k ++ [last] := ⟨l.dropLast, l.getLast hl, (List.dropLast_concat_getLast hl).symm⟩
  simp only [List.getLast?_concat, List.dropLast_concat]
  by_cases hd : last.dist > maxD
  · right
    rw [if_pos hd]
    by_cases hk : k = []
    · subst hk
      right; left
      exact ⟨last, rfl, hd, rfl⟩
    · obtain ⟨k, a, rfl⟩ : ∃ k' a, k = k' ++ [a] := ⟨k.dropLast, k.getLast hk, (List.dropLast_concat_getLast hk).symm⟩
      by_cases hk' : k = []
      · subst hk'
        left
        exact ⟨a, last, rfl, hd, rfl⟩
      · right; right
        refine ⟨k, a, last, hk', by simp, hd, ?_⟩
        rw [changeLastIf_concat _ _ _ hk']
  · left
    exact ⟨last, rfl, not_lt.mp hd, if_neg hd⟩

/-- the loop of accelerating ends if every step gains some speed -/
theorem accel_ends {tp : Train} {c : Result → Bool} {gain limit : Rat} (hg : 0 < gain) (n : Nat) (s : Result)
    (hc : ∀ r, c r = true → r.speed < limit)
    (hacc : ∀ v, s.speed ≤ v → v < limit → ∃ a, tp.acceleration v = some a ∧ gain ≤ a)
    (hn : limit ≤ s.speed + n * (gain / 2)) : ∃ l, loop c (accelStep tp) (n + 1) s = .done l := by
  induction n generalizing s with
  | zero =>
    have : ¬ c s = true := fun h => by
      have := hc s h
      simp at hn
      linarith
    exact ⟨[], by simp [loop, this]⟩
  | succ n ih =>
    unfold loop
    by_cases h : c s = true
    · obtain ⟨a, ha, hga⟩ := hacc s.speed (le_refl _) (hc s h)
      cases hst : accelStep tp s with
      | none => simp [accelStep, ha] at hst
      | some s' =>
        obtain ⟨a', ha', -, hv, -⟩ := accelStep_some hst
        have : a = a' := by
          rw [ha] at ha'
          exact Option.some.inj ha'
        subst this
        have h1 : s.speed + gain / 2 ≤ s'.speed := by linarith
        obtain ⟨l, hl⟩ := ih s' (fun v hv => hacc v (by linarith)) (by push_cast at hn; linarith)
        simp only [h, if_true, hst, hl]
        exact ⟨s' :: l, rfl⟩
    · exact ⟨[], by simp [h]⟩

end Soro.Physics
