import Verif.Model.Dpd
import Verif.Spec.Dpd
import Mathlib.Tactic.Ring
import Mathlib.Tactic.Linarith
import Mathlib.Algebra.BigOperators.Ring.List

/-
Properties C66, C74 - C77: delay distributions.
-/

namespace Soro.Dpd
open Spec

/-! ### entries of a list of probabilities -/

section Lists
variable {α : Type}

/-- entries with points `pt`, first index `k` -/
def ent (pt : Nat → α) (k : Nat) (ps : List Rat) : List (α × Rat) := (ps.zipIdx k).map fun x => (pt x.2, x.1)

theorem expect_append (a b : List (α × Rat)) (f : α → Rat) : expect (a ++ b) f = expect a f + expect b f := by
  simp [expect]

theorem ent_cons (pt : Nat → α) (k : Nat) (p : Rat) (ps : List Rat) : ent pt k (p :: ps) = (pt k, p) :: ent pt (k + 1) ps := by
  simp [ent]

theorem ent_append (pt : Nat → α) (k : Nat) (ps qs : List Rat) : ent pt k (ps ++ qs) = ent pt k ps ++ ent pt (k + ps.length) qs := by
  simp [ent, List.zipIdx_append, Nat.add_comm]

theorem expect_cons (e : α × Rat) (es : List (α × Rat)) (f : α → Rat) : expect (e :: es) f = f e.1 * e.2 + expect es f := by
  simp [expect]

theorem expect_modify (pt : Nat → α) (k : Nat) (ps : List Rat) (i : Nat) (hi : i < ps.length) (p : Rat) (f : α → Rat) :
    expect (ent pt k (ps.modify i (· + p))) f = expect (ent pt k ps) f + f (pt (k + i)) * p := by
  induction ps generalizing i k with
  | nil => cases hi
  | cons q ps ih =>
    cases i with
    | zero =>
      rw [List.modify_zero_cons, ent_cons, ent_cons, expect_cons, expect_cons]
      simp only [Nat.add_zero]
      ring
    | succ i =>
      rw [List.modify_succ_cons, ent_cons, ent_cons, expect_cons, expect_cons, ih (k + 1) i (by simpa using hi)]
      rw [show k + 1 + i = k + (i + 1) by omega]
      ring

theorem expect_zeros (pt : Nat → α) (k n : Nat) (f : α → Rat) : expect (ent pt k (List.replicate n 0)) f = 0 := by
  induction n generalizing k with
  | zero => simp [ent, expect]
  | succ n ih => rw [List.replicate_succ, ent_cons, expect_cons, ih]; simp

theorem expect_grow (pt : Nat → α) (ps : List Rat) (n : Nat) (f : α → Rat) :
    expect (ent pt 0 (grow 0 ps n)) f = expect (ent pt 0 ps) f := by
  rw [grow, ent_append, expect_append, expect_zeros, add_zero]

/-- growing if needed, then adding `p` at index `i` -/
theorem expect_add (pt : Nat → α) (ps : List Rat) (i : Nat) (p : Rat) (f : α → Rat) :
    expect (ent pt 0 ((if ps.length ≤ i then grow 0 ps (i + 1) else ps).modify i (· + p))) f =
      expect (ent pt 0 ps) f + f (pt i) * p := by
  split
  · rw [expect_modify _ _ _ _ (by rw [grow, List.length_append, List.length_replicate]; omega), expect_grow, Nat.zero_add]
  · rw [expect_modify _ _ _ _ (by omega), Nat.zero_add]

end Lists

theorem TimeDist.entries_eq (d : TimeDist) : d.entries = ent (fun i => d.first + timeGranularity * i) 0 d.ps := rfl
theorem SpeedDist.entries_eq (d : SpeedDist) : d.entries = ent (fun i => (d.first + i) % 65536) 0 d.ps := rfl

/-! ### C74: rounding -/

/-- C74 (partial): numbers that are not negative are rounded to a nearest multiple. -/
theorem C74_nearest_partial (n g : Int) (hn : 0 ≤ n) (hg : 0 < g) : Nearest g n (roundToNearestMultiple n g) := by
  unfold roundToNearestMultiple
  rw [Int.tmod_eq_emod_of_nonneg hn, Int.tdiv_eq_ediv_of_nonneg (by omega)]
  by_cases h1 : g = 0 ∨ g = 1
  · rw [if_pos h1]
    refine ⟨?_, fun m' _ => by simp⟩
    rcases h1 with rfl | rfl
    · omega
    · exact one_dvd _
  rw [if_neg h1]
  have hr := Int.emod_nonneg n (show g ≠ 0 by omega)
  have hr' := Int.emod_lt_of_pos n hg
  have hd : g ∣ n - n % g := Int.dvd_self_sub_emod
  obtain ⟨k, hk⟩ := hd
  dsimp only
  generalize n % g = r at *
  have gap : ∀ m', g ∣ m' → m' ≤ n - r ∨ n - r + g ≤ m' := by
    rintro m' ⟨c, rfl⟩
    rw [hk]
    rcases lt_trichotomy c k with h | h | h
    · left; nlinarith
    · left; rw [h]
    · right; nlinarith
  split
  · rename_i hle
    refine ⟨⟨k, hk⟩, fun m' hm' => ?_⟩
    rw [show n - (n - r) = r by ring, abs_of_nonneg hr]
    rcases gap m' hm' with h | h
    · rw [abs_of_nonneg (by omega)]; omega
    · rw [abs_of_nonpos (by omega)]; omega
  · rename_i hle
    refine ⟨⟨k + 1, by rw [hk]; ring⟩, fun m' hm' => ?_⟩
    rw [show n - (n - r + g) = -(g - r) by ring, abs_neg, abs_of_nonneg (by omega)]
    rcases gap m' hm' with h | h
    · rw [abs_of_nonneg (by omega)]; omega
    · rw [abs_of_nonpos (by omega)]; omega

/-- C74 is false for negative numbers: -5 is rounded to 0 although -6 is nearer. -/
theorem C74_negative_negation : roundToNearestMultiple (-5) 6 = 0 ∧ ¬ Nearest 6 (-5) 0 := by
  refine ⟨by decide, fun h => ?_⟩
  have := h.2 (-6) ⟨-1, by norm_num⟩
  norm_num at this

/-- C74: the result is always a multiple, multiples are kept, and negative numbers are rounded towards zero. -/
theorem C74_multiple (n g : Int) (hg : 0 < g) : g ∣ roundToNearestMultiple n g ∧ (g ∣ n → roundToNearestMultiple n g = n) ∧
    (n < 0 → n ≤ roundToNearestMultiple n g ∧ roundToNearestMultiple n g ≤ 0 ∧ roundToNearestMultiple n g < n + g) := by
  unfold roundToNearestMultiple
  by_cases h1 : g = 0 ∨ g = 1
  · rw [if_pos h1]
    refine ⟨?_, fun _ => rfl, fun h => ⟨le_refl _, by omega, by omega⟩⟩
    rcases h1 with rfl | rfl
    · omega
    · exact one_dvd _
  rw [if_neg h1, Int.tdiv_eq_ediv_of_nonneg (by omega)]
  have hd : g ∣ n - n.tmod g := by
    have := Int.tmod_add_mul_tdiv n g
    exact ⟨n.tdiv g, by omega⟩
  refine ⟨?_, fun h => ?_, fun h => ?_⟩
  · dsimp only
    split
    · exact hd
    · exact (Int.dvd_add_right hd).2 (dvd_refl g)
  · rw [Int.tmod_eq_zero_of_dvd h]
    simp; omega
  · have h2 : n.tmod g = -((-n) % g) := by
      rw [← Int.tmod_eq_emod_of_nonneg (by omega), Int.neg_tmod]; omega
    have h3 := Int.emod_nonneg (-n) (show g ≠ 0 by omega)
    have h4 := Int.emod_lt_of_pos (-n) hg
    have h5 : (-n) % g ≤ -n := by
      have := Int.mul_ediv_add_emod (-n) g
      have := Int.ediv_nonneg (show 0 ≤ -n by omega) (le_of_lt hg)
      nlinarith
    rw [h2]
    dsimp only
    rw [if_pos (by omega)]
    omega

example : roundToNearestMultiple 16 6 = 18 ∧ roundToNearestMultiple 15 6 = 12 ∧ roundToNearestMultiple (-7) 6 = -6 := by decide

/-! ### C66: insertion -/

/-- stored points are multiples of the granularity -/
def TimeDist.Wf (d : TimeDist) : Prop := d.ps ≠ [] → timeGranularity ∣ d.first

theorem TimeDist.wf_init : TimeDist.init.Wf := by simp [TimeDist.Wf, TimeDist.init]

theorem modify_ne_nil (l : List Rat) (i : Nat) (f : Rat → Rat) (h : l ≠ []) : l.modify i f ≠ [] := by
  intro h'
  have := congrArg List.length h'
  rw [List.length_modify] at this
  exact h (List.length_eq_zero_iff.1 this)

/-- C66 (partial): inserting at a point whose granular point is not before the first one adds the probability exactly there. -/
theorem C66_insert_time_partial (d : TimeDist) (hd : d.Wf) (head : Int) (p : Rat)
    (h : d.ps ≠ [] → d.first ≤ roundToNearestMultiple head timeGranularity) :
    ∃ d', d.insert head p = some d' ∧ d'.Wf ∧ d'.ps ≠ [] ∧
      (d'.first = if d.ps = [] then roundToNearestMultiple head timeGranularity else d.first) ∧
      ∀ f, expect d'.entries f = expect d.entries f + f (roundToNearestMultiple head timeGranularity) * p := by
  have hm := (C74_multiple head timeGranularity (by decide)).1
  unfold TimeDist.insert TimeDist.toIdx
  generalize roundToNearestMultiple head timeGranularity = g at *
  dsimp only
  by_cases he : d.ps = []
  · rw [he]
    simp only [List.isEmpty_nil, if_true]
    refine ⟨_, rfl, fun _ => hm, by simp, rfl, fun f => ?_⟩
    simp [TimeDist.entries, he, expect]
  · have he' : d.ps.isEmpty = false := by simpa using he
    rw [he', if_neg (by decide), if_neg (by have := h he; omega), if_neg he]
    refine ⟨_, rfl, fun _ => hd he, ?_, rfl, fun f => ?_⟩
    · apply modify_ne_nil
      split
      · rw [grow]; simp [he]
      · exact he
    · rw [TimeDist.entries_eq, TimeDist.entries_eq, expect_add]
      have h1 := h he
      have h2 := hd he
      congr 3
      have h3 : timeGranularity ∣ g - d.first := Int.dvd_sub hm h2
      obtain ⟨c, hc⟩ := h3
      rw [hc, Int.mul_tdiv_cancel_left _ (by decide)]
      have : 0 ≤ c := by simp only [timeGranularity] at hc; omega
      rw [Int.toNat_of_nonneg this]
      simp only [timeGranularity] at *
      omega

/-- C66 is false: inserting before the first point is undefined or throws. -/
theorem C66_before_first_negation (d : TimeDist) (hne : d.ps ≠ []) (head : Int) (p : Rat)
    (h : roundToNearestMultiple head timeGranularity < d.first) : d.insert head p = none := by
  have he' : d.ps.isEmpty = false := by simpa using hne
  unfold TimeDist.insert
  simp [he', h]

/-- C66 (partial), histories: if no inserted point is before the first inserted one, the mass at every point is the sum of the
probabilities inserted there. -/
theorem C66_history_partial (h0 : Int) (p0 : Rat) (rest : List (Int × Rat))
    (h : ∀ e ∈ rest, roundToNearestMultiple h0 timeGranularity ≤ roundToNearestMultiple e.1 timeGranularity) :
    ∃ d, ((h0, p0) :: rest).foldlM (fun (r : TimeDist) e => r.insert e.1 e.2) TimeDist.init = some d ∧
      ∀ f, expect d.entries f = expect (((h0, p0) :: rest).map fun e => (roundToNearestMultiple e.1 timeGranularity, e.2)) f := by
  obtain ⟨d0, h1, h2, h3, h4, h5⟩ := C66_insert_time_partial TimeDist.init TimeDist.wf_init h0 p0 (by simp [TimeDist.init])
  rw [if_pos (by simp [TimeDist.init])] at h4
  have step : ∀ (rest : List (Int × Rat)) (d : TimeDist), d.Wf → d.ps ≠ [] → d.first = roundToNearestMultiple h0 timeGranularity →
      (∀ e ∈ rest, roundToNearestMultiple h0 timeGranularity ≤ roundToNearestMultiple e.1 timeGranularity) →
      ∃ d', rest.foldlM (fun (r : TimeDist) e => r.insert e.1 e.2) d = some d' ∧
        ∀ f, expect d'.entries f = expect d.entries f +
          expect (rest.map fun e => (roundToNearestMultiple e.1 timeGranularity, e.2)) f := by
    intro rest
    induction rest with
    | nil => intro d _ _ _ _; exact ⟨d, rfl, fun f => by simp [expect]⟩
    | cons e rest ih =>
      intro d hw hn hf hall
      obtain ⟨d1, a1, a2, a3, a4, a5⟩ := C66_insert_time_partial d hw e.1 e.2 (fun _ => hf ▸ hall e (by simp))
      rw [if_neg hn] at a4
      obtain ⟨d2, b1, b2⟩ := ih d1 a2 a3 (a4.trans hf) fun x hx => hall x (by simp [hx])
      refine ⟨d2, ?_, fun f => ?_⟩
      · rw [List.foldlM_cons, a1]; exact b1
      · rw [b2, a5, List.map_cons, expect_cons]; ring
  obtain ⟨d, b1, b2⟩ := step rest d0 h2 h3 h4 h
  refine ⟨d, ?_, fun f => ?_⟩
  · rw [List.foldlM_cons, h1]; exact b1
  · rw [b2, h5, List.map_cons, expect_cons]
    simp [TimeDist.init, TimeDist.entries, expect]

/-- C74: the points of a distribution of times are multiples of six seconds, and a time that is not negative is stored at a nearest one
when it is inserted into an empty distribution. -/
theorem C74_six_seconds (d : TimeDist) (hd : d.Wf) :
    (∀ e ∈ d.entries, (6 : Int) ∣ e.1) ∧
    ∀ (head : Int) (p : Rat), 0 ≤ head → ∃ d' m, TimeDist.init.insert head p = some d' ∧ d'.entries = [(m, p)] ∧ Nearest 6 head m := by
  refine ⟨fun e he => ?_, fun head p hh => ?_⟩
  · unfold TimeDist.entries at he
    obtain ⟨⟨q, i⟩, hq, rfl⟩ := List.mem_map.1 he
    have hne : d.ps ≠ [] := by rintro h; rw [h] at hq; cases hq
    exact Int.dvd_add (hd hne) (Int.dvd_mul_right 6 _)
  · refine ⟨_, roundToNearestMultiple head 6, rfl, ?_, C74_nearest_partial head 6 hh (by decide)⟩
    show [(roundToNearestMultiple head 6 + 6 * ((0 : Nat) : Int), p)] = _
    simp

/-- a distribution with two points, and a time between them -/
example : (⟨12, [1 / 2, 0, 1 / 2]⟩ : TimeDist).Wf ∧ (⟨12, [1 / 2, 0, 1 / 2]⟩ : TimeDist).entries = [(12, 1 / 2), (18, 0), (24, 1 / 2)] :=
  ⟨fun _ => by decide, by decide +kernel⟩

/-- well-formed speed distributions -/
def SpeedDist.Wf (d : SpeedDist) : Prop := d.first < 65536 ∧ d.ps.length ≤ 65536

/-- C66 for speeds: insertion either adds the probability exactly at the point or is undefined, the latter iff the point lies
before the first one by at least the number of stored points. -/
theorem C66_insert_speed_partial (d : SpeedDist) (hd : d.Wf) (head : Nat) (hh : head < 65536) (p : Rat) :
    (d.insert head p = none ↔ d.ps ≠ [] ∧ head < d.first ∧ d.ps.length ≤ d.first - head) ∧
    ∀ d', d.insert head p = some d' → d'.Wf ∧ d'.ps ≠ [] ∧ ∀ f, expect d'.entries f = expect d.entries f + f head * p := by
  unfold SpeedDist.insert
  by_cases he : d.ps = []
  · rw [he]
    simp only [List.isEmpty_nil, if_true]
    refine ⟨by simp, ?_⟩
    rintro d' h
    cases h
    refine ⟨⟨hh, by simp⟩, by simp, fun f => ?_⟩
    simp [SpeedDist.entries, he, expect, Nat.mod_eq_of_lt hh]
  · have he' : d.ps.isEmpty = false := by simpa using he
    rw [he', if_neg (by decide)]
    dsimp only
    constructor
    · split <;> simp_all
    · intro d' h
      split at h
      · cases h
      cases h
      obtain ⟨hd1, hd2⟩ := hd
      have hidx : (head + 65536 - d.first) % 65536 < 65536 := Nat.mod_lt _ (by omega)
      refine ⟨⟨hd1, ?_⟩, ?_, fun f => ?_⟩
      · dsimp only
        rw [List.length_modify]
        split
        · rw [grow, List.length_append, List.length_replicate]; omega
        · omega
      · apply modify_ne_nil
        split
        · rw [grow]; simp [he]
        · exact he
      · rw [SpeedDist.entries_eq, SpeedDist.entries_eq, expect_add]
        congr 3
        show (d.first + _) % 65536 = head
        omega

/-! #### two levels -/

/-- entries with time and speed as one point -/
def pairs (es : List (Int × Nat × Rat)) : List ((Int × Nat) × Rat) := es.map fun e => ((e.1, e.2.1), e.2.2)

/-- well-formed two level distributions -/
def TimeSpeedDist.Wf (d : TimeSpeedDist) : Prop :=
  (∀ x ∈ d.ds, x.Wf) ∧ (d.first = none → d.ds = []) ∧ ∀ f, d.first = some f → timeGranularity ∣ f

theorem TimeSpeedDist.wf_init : TimeSpeedDist.init.Wf := by simp [TimeSpeedDist.Wf, TimeSpeedDist.init]

theorem speed_init_wf : SpeedDist.init.Wf := by simp [SpeedDist.Wf, SpeedDist.init]

/-- expectation over a list of inner distributions, first index `k` -/
def exp2 (first : Int) (k : Nat) (ds : List SpeedDist) (f : Int × Nat → Rat) : Rat :=
  expect (pairs ((ds.zipIdx k).flatMap fun x => x.1.entries.map fun e => (first + timeGranularity * x.2, e.1, e.2))) f

theorem exp2_nil (first : Int) (k : Nat) (f : Int × Nat → Rat) : exp2 first k [] f = 0 := rfl

theorem exp2_cons (first : Int) (k : Nat) (x : SpeedDist) (ds : List SpeedDist) (f : Int × Nat → Rat) :
    exp2 first k (x :: ds) f = expect x.entries (fun v => f (first + timeGranularity * k, v)) + exp2 first (k + 1) ds f := by
  simp [exp2, pairs, expect, Function.comp_def]

theorem exp2_append (first : Int) (k : Nat) (as bs : List SpeedDist) (f : Int × Nat → Rat) :
    exp2 first k (as ++ bs) f = exp2 first k as f + exp2 first (k + as.length) bs f := by
  induction as generalizing k with
  | nil => simp [exp2_nil]
  | cons x as ih => 
    rw [List.cons_append, exp2_cons, exp2_cons, ih, List.length_cons, show k + 1 + as.length = k + (as.length + 1) by omega]
    ring

theorem exp2_empty (first : Int) (k n : Nat) (f : Int × Nat → Rat) : exp2 first k (List.replicate n SpeedDist.init) f = 0 := by
  induction n generalizing k with
  | zero => rfl
  | succ n ih =>
    rw [List.replicate_succ, exp2_cons, ih]
    simp [SpeedDist.init, SpeedDist.entries, expect]

theorem exp2_set (first : Int) (k : Nat) (ds : List SpeedDist) (i : Nat) (x x' : SpeedDist) (h : ds[i]? = some x) (v : Nat) (p : Rat)
    (hx : ∀ f, expect x'.entries f = expect x.entries f + f v * p) (f : Int × Nat → Rat) :
    exp2 first k (ds.set i x') f = exp2 first k ds f + f (first + timeGranularity * (k + i : Nat), v) * p := by
  induction ds generalizing i k with
  | nil => simp at h
  | cons y ds ih =>
    cases i with
    | zero =>
      simp at h
      subst h
      rw [List.set_cons_zero, exp2_cons, exp2_cons, hx, Nat.add_zero]; ring_nf
    | succ i =>
      rw [List.set_cons_succ, exp2_cons, exp2_cons, ih (k + 1) i (by simpa using h), show k + 1 + i = k + (i + 1) by omega]
      ring

theorem TimeSpeedDist.entries_exp (d : TimeSpeedDist) (f : Int × Nat → Rat) :
    expect (pairs d.entries) f = exp2 (d.first.getD (2 ^ 63 - 1)) 0 d.ds f := rfl

/-- C66 (partial) for times and speeds: if the call is defined, the probability is added exactly at the granular time and the
speed, and the distribution stays well-formed. -/
theorem C66_insert_time_speed_partial (d : TimeSpeedDist) (hd : d.Wf) (time : Int) (speed : Nat) (hs : speed < 65536) (p : Rat)
    (d' : TimeSpeedDist) (h : d.insert time speed p = some d') :
    d'.Wf ∧ ∀ f, expect (pairs d'.entries) f =
      expect (pairs d.entries) f + f (roundToNearestMultiple time timeGranularity, speed) * p := by
  have hm := (C74_multiple time timeGranularity (by decide)).1
  obtain ⟨w1, w2, w3⟩ := id hd
  unfold TimeSpeedDist.insert at h
  generalize roundToNearestMultiple time timeGranularity = g at *
  dsimp only at h
  cases hf : d.first with
  | none =>
    rw [hf] at h
    have hds := w2 hf
    rw [hds] at h
    cases hi : SpeedDist.init.insert speed p with
    | none => rw [hi] at h; cases h
    | some x =>
      rw [hi] at h
      simp only [Option.map_some, Option.some.injEq, List.nil_append] at h
      subst h
      obtain ⟨hx, -, hx2⟩ := (C66_insert_speed_partial _ speed_init_wf speed hs p).2 x hi
      refine ⟨⟨by simpa using hx, by simp, by rintro f ⟨⟩; exact hm⟩, fun f => ?_⟩
      rw [TimeSpeedDist.entries_exp, TimeSpeedDist.entries_exp, hds, exp2_cons, hx2]
      simp [exp2_nil, SpeedDist.init, SpeedDist.entries, expect]
  | some f0 =>
    rw [hf] at h
    dsimp only at h
    split at h
    · cases h
    rename_i hge
    obtain ⟨c, hc⟩ : timeGranularity ∣ g - f0 := Int.dvd_sub hm (w3 f0 hf)
    have hc0 : 0 ≤ c := by simp only [timeGranularity] at hc; omega
    rw [hc, Int.mul_tdiv_cancel_left _ (by decide)] at h
    obtain ⟨i, rfl⟩ := Int.eq_ofNat_of_zero_le hc0
    simp only [Int.toNat_natCast] at h
    have hds : ∀ f, exp2 f0 0 (if d.ds.length ≤ i then grow SpeedDist.init d.ds (i + 1) else d.ds) f = exp2 f0 0 d.ds f := by
      intro f
      split
      · rw [grow, exp2_append, exp2_empty, add_zero]
      · rfl
    have hwf : ∀ x ∈ (if d.ds.length ≤ i then grow SpeedDist.init d.ds (i + 1) else d.ds), x.Wf := by
      intro x hx
      split at hx
      · rw [grow, List.mem_append, List.mem_replicate] at hx
        rcases hx with hx | ⟨-, rfl⟩
        · exact w1 x hx
        · exact speed_init_wf
      · exact w1 x hx
    generalize (if d.ds.length ≤ i then grow SpeedDist.init d.ds (i + 1) else d.ds) = ds at *
    split at h
    · cases h
    rename_i x hx
    cases hi : x.insert speed p with
    | none => rw [hi] at h; cases h
    | some x' =>
      rw [hi] at h
      simp only [Option.map_some, Option.some.injEq] at h
      subst h
      obtain ⟨hx1, -, hx2⟩ := (C66_insert_speed_partial x (hwf x (List.mem_of_getElem? hx)) speed hs p).2 x' hi
      refine ⟨⟨?_, by simp, by rintro f ⟨⟩; exact w3 _ hf⟩, fun f => ?_⟩
      · intro y hy
        rcases List.mem_or_eq_of_mem_set hy with hy | rfl
        · exact hwf y hy
        · exact hx1
      · rw [TimeSpeedDist.entries_exp, TimeSpeedDist.entries_exp, hf]
        show exp2 f0 0 (ds.set i x') f = exp2 f0 0 d.ds f + _
        rw [exp2_set f0 0 ds i x x' hx speed p hx2, hds, Nat.zero_add, ← hc]
        congr 3
        ring_nf

/-- C66 for times and speeds: when the call is defined. -/
theorem C66_defined (d : TimeSpeedDist) (hd : d.Wf) (time : Int) (speed : Nat) (hs : speed < 65536) (p : Rat) :
    d.insert time speed p = none ↔ ∃ f, d.first = some f ∧
      (roundToNearestMultiple time timeGranularity < f ∨
       ∃ (i : Nat) (x : SpeedDist), roundToNearestMultiple time timeGranularity = f + timeGranularity * i ∧ d.ds[i]? = some x ∧
         x.ps ≠ [] ∧ speed < x.first ∧ x.ps.length ≤ x.first - speed) := by
  have hm := (C74_multiple time timeGranularity (by decide)).1
  obtain ⟨w1, w2, w3⟩ := id hd
  unfold TimeSpeedDist.insert
  generalize roundToNearestMultiple time timeGranularity = g at *
  dsimp only
  cases hf : d.first with
  | none =>
    simp only [Option.map_eq_none_iff, reduceCtorEq, false_and, exists_false, iff_false]
    rw [(C66_insert_speed_partial _ speed_init_wf speed hs p).1]
    simp [SpeedDist.init]
  | some f0 =>
    dsimp only
    by_cases hlt : g < f0
    · simp [hlt]
    rw [if_neg hlt]
    obtain ⟨c, hc⟩ : timeGranularity ∣ g - f0 := Int.dvd_sub hm (w3 f0 hf)
    have hc0 : 0 ≤ c := by simp only [timeGranularity] at hc; omega
    rw [hc, Int.mul_tdiv_cancel_left _ (by decide)]
    obtain ⟨i, rfl⟩ := Int.eq_ofNat_of_zero_le hc0
    simp only [Int.toNat_natCast]
    have hi : ∀ j : Nat, g = f0 + timeGranularity * j ↔ j = i := by
      intro j
      simp only [timeGranularity] at *
      omega
    simp only [Option.some.injEq, exists_eq_left', hlt, false_or, hi, exists_and_left, exists_eq_left]
    by_cases hl : d.ds.length ≤ i
    · rw [if_pos hl]
      have : (grow SpeedDist.init d.ds (i + 1))[i]? = some SpeedDist.init := by
        rw [grow, List.getElem?_append_right hl, List.getElem?_replicate, if_pos (by omega)]
      rw [this]
      simp only [Option.map_eq_none_iff]
      rw [(C66_insert_speed_partial _ speed_init_wf speed hs p).1, List.getElem?_eq_none hl]
      simp [SpeedDist.init]
    · rw [if_neg hl]
      cases hx : d.ds[i]? with
      | none => rw [List.getElem?_eq_none_iff] at hx; omega
      | some x =>
        simp only [Option.map_eq_none_iff]
        rw [(C66_insert_speed_partial x (w1 x (List.mem_of_getElem? hx)) speed hs p).1]
        simp

example : (TimeDist.insert ⟨6, [1 / 2]⟩ 20 (1 / 4)).map (·.ps) = some [1 / 2, 0, 1 / 4] := by decide +kernel
example : TimeDist.Wf ⟨6, [1 / 2]⟩ ∧ (6 : Int) ≤ roundToNearestMultiple 20 timeGranularity := by
  unfold TimeDist.Wf; decide
example : ((SpeedDist.mk 80 [1 / 2, 1 / 4]).insert 79 (1 / 4)).map (fun d => (d.ps.length, d.entries.getLast?)) =
    some (65536, some (79, 1 / 4)) := by decide +kernel
example : ((TimeSpeedDist.init.insert 12 80 (1 / 2)).bind fun d => d.insert 16 80 (1 / 2)).map (·.entries) =
    some [(12, 80, 1 / 2), (18, 80, 1 / 2)] := by decide +kernel

/-! ### C75: the total -/

/-- C75: `sum` is the total probability. -/
theorem C75_sum (d : TimeSpeedDist) : d.sum = total (pairs d.entries) := by
  have inner : ∀ (es : List (Nat × Rat)) (a : Rat), es.foldl (fun q e => q + e.2) a = a + (es.map (·.2)).sum := by
    intro es
    induction es with
    | nil => simp
    | cons e es ih => intro a; rw [List.foldl_cons, ih]; simp [add_assoc]
  have outer : ∀ (ds : List SpeedDist) (k : Nat) (a : Rat),
      ds.foldl (fun p x => p + x.entries.foldl (fun q e => q + e.2) 0) a = a + exp2 (d.first.getD (2 ^ 63 - 1)) k ds fun _ => 1 := by
    intro ds
    induction ds with
    | nil => simp [exp2_nil]
    | cons x ds ih =>
      intro k a
      rw [List.foldl_cons, ih (k + 1), exp2_cons, inner]
      simp [expect, add_assoc]
  have := outer d.ds 0 0
  rw [zero_add] at this
  exact this

example : ((TimeSpeedDist.init.insert 12 80 (1 / 2)).bind fun d => d.insert 16 80 (1 / 4)).map (·.sum) = some (3 / 4) := by decide +kernel

/-! ### C76: iterate -/

/-- C76 (partial): iterating a time distribution reports exactly the entries of at least 0.01. -/
theorem C76_time_partial (d : TimeDist) : d.iterate = d.entries.filter fun e => decide (1 / 100 ≤ |e.2|) := by
  unfold TimeDist.iterate TimeDist.entries
  generalize d.ps.zipIdx = l
  have hz : ∀ p : Rat, isZero p = !decide (1 / 100 ≤ |p|) := by
    intro p
    unfold isZero
    rw [Bool.eq_iff_iff]
    simp only [decide_eq_true_eq, Bool.not_eq_true', decide_eq_false_iff_not, not_le]
    split
    · rw [abs_of_nonneg (by linarith)]; simp
    · rw [abs_of_nonpos (by linarith)]; simp
  induction l with
  | nil => rfl
  | cons x l ih =>
    rw [List.flatMap_cons, ih, List.map_cons, List.filter_cons, hz]
    by_cases h : 1 / 100 ≤ |x.1|
    · simp only [h, decide_true, Bool.not_true, Bool.false_eq_true, if_false, if_true, List.singleton_append]
    · simp only [h, decide_false, Bool.not_false, Bool.false_eq_true, if_false, if_true, List.nil_append]

/-- C76 is false: a distribution of 200 points of probability 1/200 reports nothing; its total is 1. -/
theorem C76_lost_mass_negation : ∃ d : TimeDist, total d.entries = 1 ∧ d.iterate = [] := by
  refine ⟨⟨0, List.replicate 200 (1 / 200)⟩, ?_, ?_⟩
  · have : ∀ n k : Nat, expect (ent (fun i => (0 : Int) + timeGranularity * i) k (List.replicate n (1 / 200))) (fun _ => 1) = n / 200 := by
      intro n
      induction n with
      | zero => intro k; simp [ent, expect]
      | succ n ih => intro k; rw [List.replicate_succ, ent_cons, expect_cons, ih]; push_cast; ring
    show expect (ent (fun i => (0 : Int) + timeGranularity * i) 0 (List.replicate 200 (1 / 200))) (fun _ => 1) = 1
    rw [this]; norm_num
  · rw [C76_time_partial, List.filter_eq_nil_iff]
    intro e he
    rw [TimeDist.entries, List.mem_map] at he
    obtain ⟨⟨p, i⟩, hp, rfl⟩ := he
    have : p = 1 / 200 := List.eq_of_mem_replicate (List.fst_mem_of_mem_zipIdx hp)
    rw [this, abs_of_pos (by norm_num), decide_eq_true_iff]
    norm_num

/-- C76 (partial): iterating a time and speed distribution reports the entries of at least 0.01 with a speed that is one too
high. -/
theorem C76_time_speed_partial (d : TimeSpeedDist) :
    d.iterate = (d.entries.filter fun e => decide (1 / 100 ≤ |e.2.2|)).map fun e => (e.1, (e.2.1 + 1) % 65536, e.2.2) := by
  have hz : ∀ p : Rat, isZero p = !decide (1 / 100 ≤ |p|) := by
    intro p
    unfold isZero
    rw [Bool.eq_iff_iff]
    simp only [decide_eq_true_eq, Bool.not_eq_true', decide_eq_false_iff_not, not_le]
    split
    · rw [abs_of_nonneg (by linarith)]; simp
    · rw [abs_of_nonpos (by linarith)]; simp
  unfold TimeSpeedDist.iterate TimeSpeedDist.entries
  generalize d.ds.zipIdx = l
  generalize d.first.getD (2 ^ 63 - 1) = t0
  induction l with
  | nil => rfl
  | cons x l ih =>
    rw [List.flatMap_cons, List.flatMap_cons, List.filter_append, List.map_append, ih]
    congr 1
    unfold SpeedDist.entries
    generalize x.1.ps.zipIdx = q
    induction q with
    | nil => rfl
    | cons y q ihq =>
      rw [List.flatMap_cons, ihq, List.map_cons, List.map_cons, List.filter_cons, hz]
      have e : ((x.1.first + 1) % 65536 + y.2 % 65536) % 65536 = ((x.1.first + y.2) % 65536 + 1) % 65536 := by omega
      by_cases h : 1 / 100 ≤ |y.1|
      · simp only [h, decide_true, Bool.not_true, Bool.false_eq_true, if_false, if_true, List.map_cons, List.singleton_append, e]
      · simp only [h, decide_false, Bool.not_false, Bool.false_eq_true, if_false, if_true, List.nil_append]

/-- C76 is false: a single point of speed 80 is reported with speed 81. -/
theorem C76_speed_negation : ∃ d, TimeSpeedDist.init.insert 0 80 1 = some d ∧ d.entries = [(0, 80, 1)] ∧ d.iterate = [(0, 81, 1)] :=
  ⟨_, rfl, by decide +kernel, by decide +kernel⟩

/-! ### C77: the maximum of two distributions -/

theorem ent_mem (d : TimeDist) (hw : d.Wf) (e : Int × Rat) (he : e ∈ d.entries) :
    timeGranularity ∣ e.1 ∧ d.first ≤ e.1 ∧ d.ps ≠ [] := by
  unfold TimeDist.entries at he
  obtain ⟨⟨p, i⟩, hp, rfl⟩ := List.mem_map.1 he
  have hne : d.ps ≠ [] := by rintro h; rw [h] at hp; cases hp
  refine ⟨(Int.dvd_add_right (hw hne)).2 (Int.dvd_mul_right _ _), ?_, hne⟩
  simp only [timeGranularity]
  omega

theorem max_dvd {g a b : Int} (ha : g ∣ a) (hb : g ∣ b) : g ∣ max a b := by
  rcases max_choice a b with h | h <;> rw [h] <;> assumption

theorem round_mult {a : Int} (h : timeGranularity ∣ a) : roundToNearestMultiple a timeGranularity = a :=
  (C74_multiple a timeGranularity (by decide)).2.1 h

theorem expect_product (as bs : List (Int × Rat)) (f : Int → Rat) :
    expect (as.flatMap fun x => bs.map fun y => (max x.1 y.1, x.2 * y.2)) f =
      (as.map fun x => (bs.map fun y => f (max x.1 y.1) * (x.2 * y.2)).sum).sum := by
  induction as with
  | nil => rfl
  | cons a as ih => rw [List.flatMap_cons, expect_append, ih, List.map_cons, List.sum_cons]; simp [expect, Function.comp_def]

/-- C77: `fold_max` is defined for all well-formed distributions and is the distribution of the maximum of two independent
quantities: each pair of entries contributes its product at the later of the two points. -/
theorem C77_fold_max (a b : TimeDist) (ha : a.Wf) (hb : b.Wf) :
    ∃ d, foldMax a b = some d ∧ ∀ f, expect d.entries f =
      (a.entries.map fun x => (b.entries.map fun y => f (max x.1 y.1) * (x.2 * y.2)).sum).sum := by
  have hmem : ∀ e ∈ a.entries.flatMap (fun x => b.entries.map fun y => (max x.1 y.1, x.2 * y.2)),
      timeGranularity ∣ e.1 ∧ max a.first b.first ≤ e.1 := by
    intro e he
    obtain ⟨x, hx, he⟩ := List.mem_flatMap.1 he
    obtain ⟨y, hy, rfl⟩ := List.mem_map.1 he
    obtain ⟨h1, h2, -⟩ := ent_mem a ha x hx
    obtain ⟨h3, h4, -⟩ := ent_mem b hb y hy
    exact ⟨max_dvd h1 h3, max_le_max h2 h4⟩
  have hhead : ∀ e l, a.entries.flatMap (fun x => b.entries.map fun y => (max x.1 y.1, x.2 * y.2)) = e :: l →
      e.1 = max a.first b.first := by
    intro e l h
    have hz : ∀ d : TimeDist, ∀ z zs, d.entries = z :: zs → z.1 = d.first := by
      intro d z zs hz
      rw [TimeDist.entries_eq] at hz
      cases hps : d.ps with
      | nil => rw [hps] at hz; cases hz
      | cons p ps => rw [hps, ent_cons] at hz; cases hz; simp
    cases hae : a.entries with
    | nil => rw [hae] at h; cases h
    | cons x xs =>
      cases hbe : b.entries with
      | nil => rw [hbe] at h; simp [List.flatMap_eq_nil_iff.2] at h
      | cons y ys =>
        rw [hae, hbe] at h
        simp only [List.flatMap_cons, List.map_cons, List.cons_append] at h
        injection h with h _
        rw [← h, ← hz a x xs hae, ← hz b y ys hbe]
  have hprod := expect_product a.entries b.entries
  unfold foldMax
  generalize a.entries.flatMap (fun x => b.entries.map fun y => (max x.1 y.1, x.2 * y.2)) = l at *
  cases l with
  | nil =>
    refine ⟨TimeDist.init, rfl, fun f => ?_⟩
    rw [← hprod]; rfl
  | cons e l =>
    have he := hhead e l rfl
    have hr : ∀ x ∈ e :: l, roundToNearestMultiple x.1 timeGranularity = x.1 := fun x hx => round_mult (hmem x hx).1
    obtain ⟨d, h1, h2⟩ := C66_history_partial e.1 e.2 l (by
      intro x hx
      rw [hr e (by simp), hr x (by simp [hx]), he]
      exact (hmem x (by simp [hx])).2)
    refine ⟨d, h1, fun f => ?_⟩
    rw [h2, ← hprod]
    congr 1
    conv_rhs => rw [← List.map_id (e :: l)]
    apply List.map_congr_left
    intro x hx
    rw [hr x hx]; rfl

theorem sum_mul_sum (as bs : List (Int × Rat)) (f g : Int → Rat) :
    (as.map fun x => (bs.map fun y => f x.1 * x.2 * (g y.1 * y.2)).sum).sum = expect as f * expect bs g := by
  induction as with
  | nil => simp [expect]
  | cons a as ih =>
    rw [List.map_cons, List.sum_cons, ih, expect_cons, add_mul, List.sum_map_mul_left]
    rfl

/-- C77: the probability of the maximum being at most `t` is the product of the probabilities, and the total is the product of
the totals. -/
theorem C77_up_to (a b : TimeDist) (ha : a.Wf) (hb : b.Wf) :
    ∃ d, foldMax a b = some d ∧ (∀ t, upTo d.entries t = upTo a.entries t * upTo b.entries t) ∧
      total d.entries = total a.entries * total b.entries := by
  obtain ⟨d, h1, h2⟩ := C77_fold_max a b ha hb
  refine ⟨d, h1, fun t => ?_, ?_⟩
  · rw [upTo, h2, upTo, upTo, ← sum_mul_sum]
    congr 2
    funext x
    congr 2
    funext y
    by_cases hx : x.1 ≤ t <;> by_cases hy : y.1 ≤ t <;> simp [hx, hy]
  · rw [total, h2, total, total, ← sum_mul_sum]
    congr 2
    funext x
    congr 2
    funext y
    ring

example : TimeDist.Wf ⟨-6, [1 / 2, 1 / 2]⟩ ∧ TimeDist.Wf ⟨0, [1 / 4, 3 / 4]⟩ := by unfold TimeDist.Wf; decide
example : (foldMax ⟨-6, [1 / 2, 1 / 2]⟩ ⟨0, [1 / 4, 3 / 4]⟩).map (·.entries) = some [(0, 1 / 4), (6, 3 / 4)] := by decide +kernel

end Soro.Dpd
