import Verif.Model.Disruption
import Verif.Props.Dpd
import Mathlib.Tactic.FieldSimp
import Mathlib.Tactic.IntervalCases
import Mathlib.Algebra.Order.BigOperators.Group.List

/-
Property C160: distributions of halts and travel times.
-/

namespace Soro.Dpd
open Spec

/-- geometric distribution: the `k`-th trial is the first that succeeds, `k` counted from 0 -/
def Spec.geometric (p : Rat) (k : Nat) : Rat := (1 - p) ^ k * p

theorem delayProb_eq (k : Nat) : delayProb k = 4 * geometric (3 / 4) k := by
  unfold delayProb geometric
  rw [zpow_sub₀ (by norm_num), zpow_natCast]
  norm_num
  ring

theorem sum_geometric (p : Rat) (n : Nat) : ((List.range n).map (geometric p)).sum = 1 - (1 - p) ^ n := by
  induction n with
  | zero => simp
  | succ n ih =>
    rw [List.range_succ, List.map_append, List.sum_append, ih]
    simp [geometric, pow_succ]
    ring

theorem round_mono {a b : Int} (h : a ≤ b) :
    roundToNearestMultiple a timeGranularity ≤ roundToNearestMultiple b timeGranularity := by
  unfold roundToNearestMultiple timeGranularity
  simp only [show ¬ ((6 : Int) = 0 ∨ (6 : Int) = 1) by decide, if_false]
  have e : (6 : Int).tdiv 2 = 3 := rfl
  rw [e]
  have ha := Int.tmod_def a 6
  have hb := Int.tmod_def b 6
  by_cases h1 : 0 ≤ a
  · rw [Int.tmod_eq_emod_of_nonneg h1, Int.tmod_eq_emod_of_nonneg (by omega)]
    split <;> split <;> omega
  · have ea : a.tmod 6 = -((-a) % 6) := by rw [← Int.tmod_eq_emod_of_nonneg (by omega), Int.neg_tmod]; omega
    rw [ea]
    by_cases h2 : 0 ≤ b
    · rw [Int.tmod_eq_emod_of_nonneg h2]
      split <;> split <;> omega
    · have eb : b.tmod 6 = -((-b) % 6) := by rw [← Int.tmod_eq_emod_of_nonneg (by omega), Int.neg_tmod]; omega
      rw [eb]
      split <;> split <;> omega

/-- C160. The distribution of halts is defined; it is four times the geometric distribution of delays below five minutes, on the
grid of six seconds. -/
theorem C160_halt_partial : ∃ d, haltDistribution = some d ∧
    ∀ f, expect d.entries f =
      4 * ((List.range 300).map fun k : Nat => f (roundToNearestMultiple k timeGranularity) * geometric (3 / 4) k).sum := by
  have hr : List.range 300 = 0 :: (List.range 299).map (· + 1) := by
    rw [show 300 = 299 + 1 from rfl, List.range_succ_eq_map]
  obtain ⟨d, h1, h2⟩ := C66_history_partial 0 (delayProb 0)
    (((List.range 299).map (· + 1)).map fun k : Nat => ((k : Int), delayProb k)) (by
      intro e he
      obtain ⟨k, _, rfl⟩ := List.mem_map.1 he
      exact round_mono (by omega))
  have hl : ((0 : Int), delayProb 0) :: (((List.range 299).map (· + 1)).map fun k : Nat => ((k : Int), delayProb k)) =
      (List.range 300).map fun k : Nat => ((k : Int), delayProb k) := by
    rw [hr]; rfl
  rw [hl] at h1 h2
  refine ⟨d, ?_, fun f => ?_⟩
  · unfold haltDistribution
    rw [← h1, List.foldlM_map]
  · rw [h2]
    unfold expect
    rw [List.map_map, List.map_map, ← List.sum_map_mul_left]
    refine congrArg List.sum (List.map_congr_left fun k _ => ?_)
    simp only [Function.comp, delayProb_eq]
    ring

/-- C160 is false: the probabilities of the distribution of halts add up to four (but for the delays of five minutes and more), and
that of no delay alone is greater than one. -/
theorem C160_halt_negation : ∃ d, haltDistribution = some d ∧ total d.entries = 4 * (1 - (1 / 4) ^ 300) ∧ 3 ≤ massAt d.entries 0 := by
  obtain ⟨d, h1, h2⟩ := C160_halt_partial
  refine ⟨d, h1, ?_, ?_⟩
  · unfold total
    rw [h2]
    have := sum_geometric (3 / 4) 300
    simp only [one_mul] at this ⊢
    rw [show (fun k : Nat => geometric (3 / 4) k) = geometric (3 / 4) from rfl, this]
    norm_num
  · unfold massAt
    rw [h2, show 300 = 299 + 1 from rfl, List.range_succ_eq_map, List.map_cons, List.sum_cons]
    have e : roundToNearestMultiple ((0 : Nat) : Int) timeGranularity = 0 := by decide
    rw [if_pos e]
    have : 0 ≤ ((List.map Nat.succ (List.range 299)).map fun k : Nat =>
        (if roundToNearestMultiple k timeGranularity = 0 then (1 : Rat) else 0) * geometric (3 / 4) k).sum := by
      refine List.sum_nonneg ?_
      intro x hx
      obtain ⟨k, _, rfl⟩ := List.mem_map.1 hx
      refine mul_nonneg (by split <;> norm_num) ?_
      unfold geometric
      positivity
    have e2 : geometric (3 / 4) 0 = 3 / 4 := by norm_num [geometric]
    rw [e2]
    linarith

/-- state of the loops: no time but from `t` on, at the first one speeds from `s0` to at most `s` -/
def Low (t : Int) (s0 s : Nat) (d : TimeSpeedDist) : Prop :=
  d.Wf ∧ (d.first = none ∧ s = s0 ∨ d.first = some t ∧ ∃ x, d.ds[0]? = some x ∧ x.ps ≠ [] ∧ x.first = s0 ∧ s0 + x.ps.length ≤ s + 1) ∧
    ∀ x ∈ d.ds, x.ps ≠ [] → x.first ≤ s

theorem insert_first {x x' : SpeedDist} {s : Nat} {p : Rat} (h : x.insert s p = some x') (hs : s < 65536)
    (hx : x.ps ≠ [] → x.first ≤ s) :
    x'.ps ≠ [] ∧ x'.first ≤ s ∧ (x.ps = [] → x'.first = s ∧ x'.ps.length = 1) ∧
      (x.ps ≠ [] → x'.first = x.first ∧ (x.first + x.ps.length ≤ s + 1 → x.first + x'.ps.length ≤ s + 1)) := by
  unfold SpeedDist.insert at h
  split at h
  · rename_i e
    cases h
    have := (by simpa using e : x.ps = [])
    simp [this]
  · rename_i e
    have e : x.ps ≠ [] := by simpa using e
    split at h
    · cases h
    · cases h
      have h1 := hx e
      dsimp only
      refine ⟨modify_ne_nil _ _ _ ?_, h1, fun h => absurd h e, fun _ => ⟨rfl, fun h2 => ?_⟩⟩
      · split
        · rw [grow]; simp [e]
        · exact e
      · rw [List.length_modify, show (s + 65536 - x.first) % 65536 = s - x.first by omega]
        split
        · rw [grow, List.length_append, List.length_replicate]; omega
        · exact h2

theorem low_insert {t : Int} {s0 s : Nat} {d : TimeSpeedDist} (h : Low t s0 s d) (hs : s < 65536) {time : Int}
    (ht : (d.first = none ∧ t = roundToNearestMultiple time timeGranularity) ∨
      (d.first = some t ∧ t ≤ roundToNearestMultiple time timeGranularity)) (p : Rat) :
    ∃ d', d.insert time s p = some d' ∧ Low t s0 s d' ∧ d'.first = some t ∧
      ∀ f, expect (pairs d'.entries) f = expect (pairs d.entries) f + f (roundToNearestMultiple time timeGranularity, s) * p := by
  obtain ⟨hw, hf, hl⟩ := h
  have hne : d.insert time s p ≠ none := by
    rw [Ne, C66_defined d hw time s hs p]
    rintro ⟨f, e, h⟩
    rcases ht with ⟨e1, _⟩ | ⟨e1, h1⟩
    · rw [e1] at e; cases e
    · rw [e1] at e; cases e
      rcases h with h | ⟨i, x, _, hx, h2, h3, _⟩
      · omega
      · have := hl x (List.mem_of_getElem? hx) h2
        omega
  obtain ⟨d', hd'⟩ := Option.ne_none_iff_exists'.1 hne
  obtain ⟨w, e⟩ := C66_insert_time_speed_partial d hw time s hs p d' hd'
  suffices hh : d'.first = some t ∧ (∃ x, d'.ds[0]? = some x ∧ x.ps ≠ [] ∧ x.first = s0 ∧ s0 + x.ps.length ≤ s + 1) ∧
      ∀ x ∈ d'.ds, x.ps ≠ [] → x.first ≤ s from
    ⟨d', hd', ⟨w, Or.inr ⟨hh.1, hh.2.1⟩, hh.2.2⟩, hh.1, e⟩
  unfold TimeSpeedDist.insert at hd'
  rcases ht with ⟨e1, e2⟩ | ⟨e1, h1⟩
  · have es : s = s0 := by
      rcases hf with h | h
      · exact h.2
      · rw [e1] at h; cases h.1
    have ed := hw.2.1 e1
    rw [e1, ed] at hd'
    dsimp only at hd'
    obtain ⟨x, hx, rfl⟩ := Option.map_eq_some_iff.1 hd'
    obtain ⟨a1, a2, a3, _⟩ := insert_first hx hs (by simp [SpeedDist.init])
    obtain ⟨a3, a4⟩ := a3 rfl
    refine ⟨by rw [e2], ⟨x, rfl, a1, by omega, by omega⟩, ?_⟩
    intro y hy _
    rw [List.nil_append, List.mem_singleton] at hy
    rw [hy]
    exact a2
  · obtain ⟨_, x0, b1, b2, b3, b4⟩ : d.first = some t ∧ ∃ x, d.ds[0]? = some x ∧ x.ps ≠ [] ∧ x.first = s0 ∧ s0 + x.ps.length ≤ s + 1 := by
      rcases hf with h | h
      · rw [e1] at h; cases h.1
      · exact h
    rw [e1] at hd'
    dsimp only at hd'
    rw [if_neg (by omega)] at hd'
    generalize ((roundToNearestMultiple time timeGranularity - t).tdiv timeGranularity).toNat = i at hd'
    generalize hds : (if d.ds.length ≤ i then grow SpeedDist.init d.ds (i + 1) else d.ds) = ds at hd'
    have hl' : ∀ x ∈ ds, x.ps ≠ [] → x.first ≤ s := by
      rw [← hds]
      split
      · intro x hx
        rcases List.mem_append.1 hx with hx | hx
        · exact hl x hx
        · rw [(List.mem_replicate.1 hx).2]
          simp [SpeedDist.init]
      · exact hl
    have hz : ds[0]? = some x0 := by
      rw [← hds]
      split
      · rw [grow, List.getElem?_append_left (List.getElem?_eq_some_iff.1 b1).1]
        exact b1
      · exact b1
    split at hd'
    · cases hd'
    · rename_i x hx
      obtain ⟨x', hx', rfl⟩ := Option.map_eq_some_iff.1 hd'
      obtain ⟨a1, a2, _, a4⟩ := insert_first hx' hs (hl' x (List.mem_of_getElem? hx))
      refine ⟨rfl, ?_, ?_⟩
      · by_cases hi : i = 0
        · subst hi
          rw [hz] at hx
          cases hx
          obtain ⟨c1, c2⟩ := a4 b2
          refine ⟨x', by rw [List.getElem?_set_self (List.getElem?_eq_some_iff.1 hz).1], a1, by omega, ?_⟩
          have := c2 (by omega)
          omega
        · exact ⟨x0, by rw [List.getElem?_set_ne hi]; exact hz, b2, b3, b4⟩
      · intro y hy
        rcases List.mem_or_eq_of_mem_set hy with hy | rfl
        · exact hl' y hy
        · exact fun _ => a2

theorem delays_low {arrival : Int} {v s0 s : Nat} (hs : s < 65536) {d : TimeSpeedDist}
    (h : Low (roundToNearestMultiple arrival timeGranularity) s0 s d) :
    ∃ d', delays arrival v s d = some d' ∧ Low (roundToNearestMultiple arrival timeGranularity) s0 s d' ∧
      d'.first = some (roundToNearestMultiple arrival timeGranularity) ∧
      ∀ f, expect (pairs d'.entries) f = expect (pairs d.entries) f +
        ((List.range 300).map fun k : Nat => f (roundToNearestMultiple (arrival + k) timeGranularity, s) * (delayProb k / v * 2)).sum := by
  have rest : ∀ (ks : List Nat) (d : TimeSpeedDist), Low (roundToNearestMultiple arrival timeGranularity) s0 s d →
      d.first = some (roundToNearestMultiple arrival timeGranularity) →
      ∃ d', ks.foldlM (fun (d : TimeSpeedDist) k => d.insert (arrival + (k : Nat)) s (delayProb k / v * 2)) d = some d' ∧
        Low (roundToNearestMultiple arrival timeGranularity) s0 s d' ∧
        d'.first = some (roundToNearestMultiple arrival timeGranularity) ∧
        ∀ f, expect (pairs d'.entries) f = expect (pairs d.entries) f +
          (ks.map fun k : Nat => f (roundToNearestMultiple (arrival + k) timeGranularity, s) * (delayProb k / v * 2)).sum := by
    intro ks
    induction ks with
    | nil => intro d h hf; exact ⟨d, rfl, h, hf, fun f => by simp⟩
    | cons k ks ih =>
      intro d h hf
      obtain ⟨d1, a1, a2, a3, a4⟩ := low_insert h hs (time := arrival + (k : Nat)) (Or.inr ⟨hf, round_mono (by omega)⟩) (delayProb k / v * 2)
      obtain ⟨d2, b1, b2, b3, b4⟩ := ih d1 a2 a3
      refine ⟨d2, ?_, b2, b3, fun f => ?_⟩
      · rw [List.foldlM_cons, a1]; exact b1
      · rw [b4, a4, List.map_cons, List.sum_cons]; ring
  unfold delays
  rw [show 300 = 299 + 1 from rfl, List.range_succ_eq_map]
  have h0 : (d.first = none ∧ roundToNearestMultiple arrival timeGranularity = roundToNearestMultiple (arrival + (0 : Nat)) timeGranularity) ∨
      (d.first = some (roundToNearestMultiple arrival timeGranularity) ∧
        roundToNearestMultiple arrival timeGranularity ≤ roundToNearestMultiple (arrival + (0 : Nat)) timeGranularity) := by
    rw [Nat.cast_zero, add_zero]
    rcases h.2.1 with e | e
    · exact Or.inl ⟨e.1, rfl⟩
    · exact Or.inr ⟨e.1, le_refl _⟩
  obtain ⟨d1, a1, a2, a3, a4⟩ := low_insert h hs h0 (delayProb 0 / v * 2)
  obtain ⟨d2, b1, b2, b3, b4⟩ := rest (List.map Nat.succ (List.range 299)) d1 a2 a3
  refine ⟨d2, ?_, b2, b3, fun f => ?_⟩
  · rw [List.foldlM_cons, a1]; exact b1
  · rw [b4, a4, List.map_cons, List.sum_cons]; ring

theorem loop_run {arrival : Int} {v stop s0 : Nat} (hstop : stop ≤ 65535) : ∀ (n fuel cur : Nat) (d : TimeSpeedDist),
    cur + n = stop → Low (roundToNearestMultiple arrival timeGranularity) s0 cur d →
    ∃ d', speedLoop arrival v stop (fuel + (n + 1)) cur d = speedLoop arrival v stop fuel ((stop + 1) % 65536) d' ∧
      Low (roundToNearestMultiple arrival timeGranularity) s0 stop d' ∧
      d'.first = some (roundToNearestMultiple arrival timeGranularity) ∧
      ∀ f, expect (pairs d'.entries) f = expect (pairs d.entries) f + ((List.range (n + 1)).map fun j =>
        ((List.range 300).map fun k : Nat =>
          f (roundToNearestMultiple (arrival + k) timeGranularity, cur + j) * (delayProb k / v * 2)).sum).sum := by
  intro n
  induction n with
  | zero =>
    intro fuel cur d hc h
    obtain ⟨d1, a1, a2, a3, a4⟩ := delays_low (v := v) (by omega) h
    refine ⟨d1, ?_, ?_, a3, fun f => ?_⟩
    · show speedLoop arrival v stop (fuel + 1) cur d = _
      rw [speedLoop, if_pos (by omega), a1, Option.bind_some, show cur = stop by omega]
    · rw [show stop = cur by omega]; exact a2
    · rw [a4]; simp
  | succ n ih =>
    intro fuel cur d hc h
    obtain ⟨d1, a1, a2, a3, a4⟩ := delays_low (v := v) (by omega) h
    have h1 : Low (roundToNearestMultiple arrival timeGranularity) s0 (cur + 1) d1 := by
      refine ⟨a2.1, Or.inr ?_, fun x hx hp => Nat.le_succ_of_le (a2.2.2 x hx hp)⟩
      rcases a2.2.1 with h | ⟨h, x, b1, b2, b3, b4⟩
      · rw [a3] at h; cases h.1
      · exact ⟨h, x, b1, b2, b3, by omega⟩
    obtain ⟨d2, b1, b2, b3, b4⟩ := ih fuel (cur + 1) d1 (by omega) h1
    refine ⟨d2, ?_, b2, b3, fun f => ?_⟩
    · rw [show fuel + (n + 1 + 1) = (fuel + (n + 1)) + 1 by omega, speedLoop, if_pos (by omega), a1, Option.bind_some,
        Nat.mod_eq_of_lt (by omega)]
      exact b1
    · rw [b4, a4, List.range_succ_eq_map (n := n + 1), List.map_cons, List.sum_cons, List.map_map, Nat.add_zero, add_assoc]
      congr 2
      refine congrArg List.sum (List.map_congr_left fun j _ => ?_)
      simp only [Function.comp, Nat.succ_eq_add_one]
      rw [show cur + 1 + j = cur + (j + 1) by omega]

theorem low_init (t : Int) (s : Nat) : Low t s s TimeSpeedDist.init := by
  refine ⟨⟨?_, ?_, ?_⟩, Or.inl ⟨rfl, rfl⟩, ?_⟩ <;> simp [TimeSpeedDist.init]

/-- C160. For a speed of 1 to 65529 km/h the distribution of travel times is defined: up to a factor it is the product of the
uniform distribution of speeds that differ by at most the variance and the geometric distribution of delays. -/
theorem C160_runtime_partial (arrival : Int) (speed fuel : Nat) (h1 : 1 ≤ speed) (h2 : speed ≤ 65529) (hf : 12 ≤ fuel) :
    ∃ d, runtimeDistribution fuel arrival speed = some d ∧ ∀ f, expect (pairs d.entries) f =
      8 / (min speed 5 : Nat) * ((List.range (2 * min speed 5 + 1)).map fun j => ((List.range 300).map fun k : Nat =>
        f (roundToNearestMultiple (arrival + k) timeGranularity, speed - min speed 5 + j) * geometric (3 / 4) k).sum).sum := by
  unfold runtimeDistribution speedVariance
  dsimp only
  rw [if_neg (by omega), Nat.mod_eq_of_lt (show speed + min speed 5 < 65536 by omega),
    show (speed + 65536 - min speed 5) % 65536 = speed - min speed 5 by omega]
  obtain ⟨d, a1, _, _, a2⟩ := loop_run (arrival := arrival) (v := min speed 5) (stop := speed + min speed 5) (by omega)
    (2 * min speed 5) (fuel - (2 * min speed 5 + 1)) (speed - min speed 5) TimeSpeedDist.init (by omega) (low_init _ _)
  rw [show fuel - (2 * min speed 5 + 1) + (2 * min speed 5 + 1) = fuel by omega] at a1
  refine ⟨d, ?_, fun f => ?_⟩
  · rw [a1, show fuel - (2 * min speed 5 + 1) = (fuel - (2 * min speed 5 + 2)) + 1 by omega, speedLoop, if_neg (by omega)]
  have hv : ((min speed 5 : Nat) : Rat) ≠ 0 := by
    have : min speed 5 ≠ 0 := by omega
    exact_mod_cast this
  rw [a2]
  have e0 : expect (pairs TimeSpeedDist.init.entries) f = 0 := by simp [TimeSpeedDist.init, TimeSpeedDist.entries, pairs, expect]
  rw [e0, zero_add, ← List.sum_map_mul_left]
  refine congrArg List.sum (List.map_congr_left fun j _ => ?_)
  rw [← List.sum_map_mul_left]
  refine congrArg List.sum (List.map_congr_left fun k _ => ?_)
  rw [delayProb_eq]
  field_simp
  ring

example : ∃ d, runtimeDistribution 12 1000 80 = some d ∧ ∀ f, expect (pairs d.entries) f =
    8 / (min 80 5 : Nat) * ((List.range (2 * min 80 5 + 1)).map fun j => ((List.range 300).map fun k : Nat =>
      f (roundToNearestMultiple (1000 + k) timeGranularity, 80 - min 80 5 + j) * geometric (3 / 4) k).sum).sum :=
  C160_runtime_partial 1000 80 12 (by decide) (by decide) (le_refl _)

/-- C160 is false: the probabilities add up to more than seventeen, whatever the speed; at speed zero they are infinite, at 65530
km/h the loop over the speeds never ends and reads out of bounds, above there is no probability at all. -/
theorem C160_runtime_negation (arrival : Int) (fuel : Nat) (hf : 12 ≤ fuel) :
    (∀ speed, 1 ≤ speed → speed ≤ 65529 → ∃ d, runtimeDistribution fuel arrival speed = some d ∧ 17 < total (pairs d.entries)) ∧
    runtimeDistribution fuel arrival 0 = none ∧ runtimeDistribution fuel arrival 65530 = none ∧
    (∀ speed, 65531 ≤ speed → speed ≤ 65535 → runtimeDistribution fuel arrival speed = some TimeSpeedDist.init) := by
  refine ⟨fun speed h1 h2 => ?_, rfl, ?_, fun speed h1 h2 => ?_⟩
  · obtain ⟨d, a1, a2⟩ := C160_runtime_partial arrival speed fuel h1 h2 hf
    refine ⟨d, a1, ?_⟩
    unfold total
    rw [a2]
    have := sum_geometric (3 / 4) 300
    simp only [one_mul]
    rw [show (fun k : Nat => geometric (3 / 4) k) = geometric (3 / 4) from rfl, this, List.map_const', List.sum_replicate,
      List.length_range, nsmul_eq_mul]
    have hv : 1 ≤ min speed 5 ∧ min speed 5 ≤ 5 := by omega
    obtain ⟨g1, g2⟩ := hv
    generalize min speed 5 = v at *
    have hs : (1 / 4 : Rat) ^ 300 ≤ 1 / 1000 :=
      le_trans (pow_le_pow_of_le_one (by norm_num) (by norm_num) (show 10 ≤ 300 by omega)) (by norm_num)
    rw [show (1 : Rat) - 3 / 4 = 1 / 4 by norm_num]
    generalize (1 / 4 : Rat) ^ 300 = ε at hs
    interval_cases v <;> norm_num <;> linarith
  · unfold runtimeDistribution speedVariance
    dsimp only
    rw [if_neg (by decide), show (65530 + min 65530 5) % 65536 = 65535 from rfl, show (65530 + 65536 - min 65530 5) % 65536 = 65525 from rfl,
      show min 65530 5 = 5 from rfl]
    obtain ⟨d, a1, a2, a3, _⟩ := loop_run (arrival := arrival) (v := 5) (stop := 65535) (by omega) 10 (fuel - 11) 65525
      TimeSpeedDist.init (by omega) (low_init _ _)
    rw [show fuel - 11 + (10 + 1) = fuel by omega] at a1
    rw [a1, show fuel - 11 = (fuel - 12) + 1 by omega, speedLoop, if_pos (by omega)]
    obtain ⟨_, x, b1, b2, b3, b4⟩ : d.first = some (roundToNearestMultiple arrival timeGranularity) ∧
        ∃ x, d.ds[0]? = some x ∧ x.ps ≠ [] ∧ x.first = 65525 ∧ 65525 + x.ps.length ≤ 65535 + 1 := by
      rcases a2.2.1 with h | h
      · rw [a3] at h; cases h.1
      · exact h
    have : d.insert (arrival + (0 : Nat)) ((65535 + 1) % 65536) (delayProb 0 / (5 : Nat) * 2) = none := by
      rw [C66_defined d a2.1 _ _ (by decide)]
      refine ⟨_, a3, Or.inr ⟨0, x, ?_, b1, b2, ?_, ?_⟩⟩
      · simp
      · rw [b3]; decide
      · rw [b3]; omega
    unfold delays
    rw [show 300 = 299 + 1 from rfl, List.range_succ_eq_map, List.foldlM_cons, this]
    rfl
  · obtain ⟨n, rfl⟩ := Nat.exists_eq_add_of_lt (show 0 < fuel by omega)
    unfold runtimeDistribution speedVariance
    dsimp only
    rw [if_neg (by omega), Nat.zero_add]
    unfold speedLoop
    rw [if_neg (by omega)]

end Soro.Dpd
