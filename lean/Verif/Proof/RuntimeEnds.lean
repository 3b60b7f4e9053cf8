import Verif.Proof.RuntimeList
import Verif.Props.Physics

/-
Driving ends if there is some room behind every stop.
-/

namespace Soro.Runtime

open Soro.Physics Soro.Physics.Spec Soro.Runtime.Spec

/-- the call ends in the same way, however much fuel beyond some bound it gets -/
def Settles {α : Type} (f : Nat → Outcome α) : Prop :=
  ∃ (bound : Nat) (o : Outcome α), o ≠ .running ∧ ∀ fuel, bound < fuel → f fuel = o

theorem settles_const {α : Type} {o : Outcome α} (h : o ≠ .running) : Settles (fun _ => o) :=
  ⟨0, o, h, fun _ _ => rfl⟩

theorem settles_returns {α : Type} {f : Nat → Outcome α} {a : α} (h : Returns f a) : Settles f := by
  obtain ⟨b, hb⟩ := h
  exact ⟨b, .done a, by simp, hb⟩

theorem settles_bind {α β : Type} {f : Nat → Outcome α} {g : Nat → α → Outcome β} (hf : Settles f)
    (hg : ∀ a, Returns f a → Settles (fun n => g n a)) : Settles (fun n => (f n).bind (g n)) := by
  obtain ⟨b, o, ho, hb⟩ := hf
  cases o with
  | running => exact absurd rfl ho
  | bad =>
    refine ⟨b, .bad, by simp, fun n hn => ?_⟩
    show (f n).bind (g n) = .bad
    rw [hb n hn]
    rfl
  | done a =>
    obtain ⟨b', o', ho', hb'⟩ := hg a ⟨b, hb⟩
    refine ⟨max b b', o', ho', fun n hn => ?_⟩
    show (f n).bind (g n) = o'
    rw [hb n (by omega)]
    exact hb' n (by omega)

theorem settles_map {α β : Type} {f : Nat → Outcome α} {g : α → β} (hf : Settles f) : Settles (fun n => (f n).map g) := by
  obtain ⟨b, o, ho, hb⟩ := hf
  refine ⟨b, o.map g, ?_, fun n hn => by show (f n).map g = _; rw [hb n hn]⟩
  cases o with
  | running => exact absurd rfl ho
  | bad => simp [Outcome.map]
  | done a => simp [Outcome.map]

theorem returns_at {α : Type} {f : Nat → Outcome α} {a : α} (h : Returns f a) : ∃ n, f n = .done a := by
  obtain ⟨b, hb⟩ := h
  exact ⟨b + 1, hb _ (by omega)⟩

variable {tp : Train} {d top gain most : Rat}

/-- the train accelerates with at least `gain` and at most `most` below its top speed -/
def Strong (tp : Train) (top gain most : Rat) : Prop :=
  ∀ v, 0 ≤ v → v < top → ∃ x, tp.acceleration v = some x ∧ gain ≤ x ∧ x ≤ most

theorem pulls_of_strong (hg : 0 < gain) (h : Strong tp top gain most) : Pulls tp top := by
  intro v h0 h1
  obtain ⟨x, hx, h2, -⟩ := h v h0 h1
  exact ⟨x, hx, hg.le.trans h2⟩

theorem chain_speeds (hp : Pulls tp top) {v w length : Rat} (hv : 0 ≤ v) (k : List Result) (s : Result) (hs : v ≤ s.speed)
    (hc : List.IsChain (fun a b : Result => (a.speed < top ∧ a.speed < w ∧ a.dist < length) ∧ accelStep tp a = some b) (s :: k)) :
    ∀ r ∈ s :: k, v ≤ r.speed := by
  induction k generalizing s with
  | nil =>
    intro r hr
    simp only [List.mem_singleton] at hr
    rw [hr]
    exact hs
  | cons b k ih =>
    intro r hr
    rw [List.isChain_cons_cons] at hc
    obtain ⟨r', h1, h2⟩ := accelStep_pulls hp (hv.trans hs) hc.1.1.1
    rw [hc.1.2] at h1
    obtain rfl := Option.some.inj h1
    rcases List.mem_cons.mp hr with rfl | hr
    · exact hs
    · exact ih _ (hs.trans h2) hc.2 r hr

/-- the first step from standing -/
theorem accelerate_first {fuel : Nat} {w length : Rat} {l : List Result} (htop : tp.topSpeed = some top) (hg : 0 < gain)
    (hs : Strong tp top gain most) (h0 : 0 < top) (hw : 0 < w) (h1 : most / 2 < length)
    (h : accelerate fuel tp 0 w length = .done l) :
    ∃ r1 rest, l = { time := 0, dist := 0, speed := 0 } :: r1 :: rest ∧ r1.dist ≤ most / 8 ∧ r1.speed ≤ most / 2 ∧
      ∀ r ∈ r1 :: rest, 0 < r.speed := by
  obtain ⟨top', k, htop', hch, hend, rfl⟩ := accelerate_done h
  rw [htop] at htop'
  obtain rfl := Option.some.inj htop'
  obtain ⟨a0, ha0, hga, hma⟩ := hs 0 (le_refl _) h0
  have hmost : 0 < most := by linarith
  cases k with
  | nil =>
    exfalso
    exact hend _ rfl ⟨h0, hw, show (0 : Rat) < length by linarith⟩
  | cons r1 k =>
    rw [List.isChain_cons_cons] at hch
    obtain ⟨x, hx, -, hsp, hdist⟩ := accelStep_some hch.1.2
    simp only at hx hsp hdist
    rw [ha0] at hx
    obtain rfl := Option.some.inj hx
    have hs1 : 0 < r1.speed := by linarith
    have hs2 : r1.speed ≤ most / 2 := by linarith
    have hd1 : r1.dist ≤ most / 8 := by linarith
    have hall := chain_speeds (pulls_of_strong hg hs) hs1.le k r1 (le_refl _) hch.2
    rcases cut_cases length ({ time := 0, dist := 0, speed := 0 } :: r1 :: k) (by simp) with
      ⟨last, -, -, h3⟩ | ⟨a, last, h2, h4, -⟩ | ⟨last, h2, -⟩ | ⟨m, a, last, hm, h2, h4, h3⟩
    · rw [h3]
      exact ⟨r1, k, rfl, hd1, hs2, fun r hr => lt_of_lt_of_le hs1 (hall r hr)⟩
    · exfalso
      simp only [List.cons.injEq] at h2
      rw [← h2.2.1] at h4
      linarith
    · simp at h2
    · rw [h3]
      cases m with
      | nil => exact absurd rfl hm
      | cons s m =>
        simp only [List.cons_append, List.cons.injEq] at h2
        obtain ⟨rfl, h2⟩ := h2
        cases m with
        | nil =>
          exfalso
          simp only [List.nil_append, List.cons.injEq] at h2
          obtain ⟨rfl, rfl⟩ := h2
          rw [List.isChain_cons_cons] at hch
          obtain ⟨x, hx, -, hsp', hdist'⟩ := accelStep_some hch.2.1.2
          obtain ⟨y, hy, -, hmy⟩ := hs r1.speed hs1.le hch.2.1.1.1
          rw [hx] at hy
          obtain rfl := Option.some.inj hy
          linarith
        | cons b m =>
          simp only [List.cons_append, List.cons.injEq] at h2
          obtain ⟨rfl, h2⟩ := h2
          refine ⟨r1, m ++ [{ a with dist := length }], by simp, hd1, hs2, ?_⟩
          intro r hr
          rcases List.mem_cons.mp hr with rfl | hr
          · exact hs1
          · rcases List.mem_append.mp hr with hr | hr
            · exact lt_of_lt_of_le hs1 (hall r (by rw [h2]; simp [hr]))
            · simp only [List.mem_singleton] at hr
              subst hr
              exact lt_of_lt_of_le hs1 (hall a (by rw [h2]; simp))

/-- going back stops at the latest at a result from which the train can brake -/
theorem adjustAccel_stops {fuel : Nat} {length next : Rat} (ha : tp.deceleration = some d) (hneg : d < 0) {xs ys : List Result}
    {s : Result} {r : Result × List Result} (hfit : s.speed ≤ next ∨ brakeDist d s.speed next + s.dist ≤ length)
    (h : adjustAccel fuel tp length next (xs ++ s :: ys) = .done r) : r.1 = s ∨ r.1 ∈ xs := by
  induction xs with
  | nil =>
    left
    rw [List.nil_append] at h
    unfold adjustAccel at h
    split at h
    · rw [← Outcome.done.inj h]
    · rename_i hs
      obtain ⟨b, hb, h⟩ := bind_done h
      obtain ⟨-, -, t, hl, -⟩ := brake_last ha hneg hb
      rw [hl] at h
      simp only at h
      rw [if_pos] at h
      · rw [← Outcome.done.inj h]
      · rcases hfit with hfit | hfit
        · exact absurd hfit hs
        · exact hfit
  | cons q xs ih =>
    rw [List.cons_append] at h
    unfold adjustAccel at h
    split at h
    · rw [← Outcome.done.inj h]
      simp
    · obtain ⟨b, hb, h⟩ := bind_done h
      obtain ⟨-, -, t, hl, -⟩ := brake_last ha hneg hb
      rw [hl] at h
      simp only at h
      split at h
      · rw [← Outcome.done.inj h]
        simp
      · rcases ih h with h | h
        · exact Or.inl h
        · exact Or.inr (by simp [h])

/-- the train moves, or it stands and there is some room -/
def Room (d most length speed : Rat) : Prop :=
  0 < speed ∨ (speed = 0 ∧ most / 2 < length ∧ most / 8 + most * most / (8 * -d) < length)

/-- after accelerating the train moves -/
theorem moves {fa fb fj : Nat} {speed w target length : Rat} {a b : Result × List Result}
    {j : Result × Rat × Result × List Result} (ha : tp.deceleration = some d) (hneg : d < 0) (htop : tp.topSpeed = some top)
    (hg : 0 < gain) (hs : Strong tp top gain most) (h0 : 0 < top) (hw : 0 < w) (hlen : 0 < length)
    (htarget : 0 ≤ target) (hroom : Room d most length speed)
    (hacc : accelPhase fa tp speed w length = .done a)
    (hb : brakePhase fb tp (if a.2 = [] then speed else a.1.speed) target length = .done b)
    (hj : joinPhases fj tp length target (if a.2 = [] then speed else a.1.speed) a b = .done j) :
    0 < j.2.1 ∧ (a.2 ≠ [] → j.1.speed = j.2.1) := by
  have hp := pulls_of_strong hg hs
  have hmost : 0 < most := by
    obtain ⟨x, -, h1, h2⟩ := hs 0 (le_refl _) h0
    linarith
  -- the speed without joining
  have hspeed : 0 < (if a.2 = [] then speed else a.1.speed) := by
    rcases accelPhase_spec hlen.le hacc with ⟨rfl, h1⟩ | ⟨h1, h2, h3, r, h4, -, -, h5⟩
    · simp only [if_true]
      linarith
    · rw [if_neg h3, h5]
      refine lt_min ?_ hw
      rcases hroom with hpos | ⟨rfl, hr1, hr2⟩
      · exact lt_of_lt_of_le hpos (accelerate_speeds htop hp hpos.le h2 r (List.mem_of_getLast? h4))
      · obtain ⟨r1, rest, hl, -, -, hall⟩ := accelerate_first htop hg hs h0 hw hr1 h2
        rw [hl, List.getLast?_cons_cons] at h4
        exact hall r (List.mem_of_getLast? h4)
  unfold joinPhases at hj
  split at hj
  · rename_i hc
    obtain ⟨r, hr, hj⟩ := bind_done hj
    obtain rfl := Outcome.done.inj hj
    refine ⟨?_, fun _ => rfl⟩
    simp only
    rcases accelPhase_spec hlen.le hacc with ⟨rfl, h1⟩ | ⟨h1, h2, h3, r', h4, -, h6, h5⟩
    · exact absurd rfl hc.2.1
    · rcases hroom with hpos | ⟨rfl, hr1, hr2⟩
      · have hm := (adjustAccel_spec ha hneg hr).1
        rw [List.tail_reverse, List.mem_reverse] at hm
        exact lt_of_lt_of_le hpos (accelerate_speeds htop hp hpos.le h2 _ (List.dropLast_subset _ hm))
      · obtain ⟨r1, rest, hl, hd1, hs1, hall⟩ := accelerate_first htop hg hs h0 hw hr1 h2
        have hdist : ∀ v, 0 ≤ v → v ≤ most / 2 → brakeDist d v target ≤ most * most / (8 * -d) := by
          intro v hv1 hv2
          unfold brakeDist
          rw [div_le_div_iff₀ (by linarith) (by linarith)]
          have h7 : v * v ≤ most / 2 * (most / 2) := mul_le_mul hv2 hv2 hv1 (by linarith)
          have h8 : v * v - target * target ≤ most * most / 4 := by nlinarith
          nlinarith
        have hr1pos := hall r1 (by simp)
        cases hrest : rest with
        | nil =>
          exfalso
          rw [hl, hrest] at h4
          simp only [List.getLast?_cons_cons, List.getLast?_singleton, Option.some.injEq] at h4
          subst h4
          rcases brakePhase_spec ha hneg hb with ⟨rfl, -⟩ | ⟨-, -, -, h9, -⟩
          · exact hc.2.2 rfl
          · rw [if_neg h3] at h9
            have h10 := hdist a.1.speed (by rw [h5]; exact le_min hr1pos.le hw.le) (by rw [h5]; exact (min_le_left _ _).trans hs1)
            unfold brakeDist at h10
            rw [← h9] at h10
            have := hc.1
            rw [h6] at this
            linarith
        | cons q rest' =>
          have hne : rest ≠ [] := by rw [hrest]; simp
          have hrev : a.2.reverse.tail = rest.dropLast.reverse ++ r1 :: [{ time := 0, dist := 0, speed := 0 }] := by
            rw [hl, List.tail_reverse]
            rw [List.dropLast_cons_of_ne_nil (by simp), List.dropLast_cons_of_ne_nil hne]
            simp
          rw [hrev] at hr
          have hfit : r1.speed ≤ target ∨ brakeDist d r1.speed target + r1.dist ≤ length := by
            right
            have := hdist r1.speed hr1pos.le hs1
            linarith
          rcases adjustAccel_stops ha hneg hfit hr with h | h
          · rw [h]; exact hr1pos
          · rw [List.mem_reverse] at h
            exact hall _ (by simp [List.dropLast_subset _ h])
  · obtain rfl := Outcome.done.inj hj
    refine ⟨hspeed, fun hne => ?_⟩
    simp only
    rw [if_neg hne]

/-! ### Every phase ends -/

theorem accelPhase_settles (htop : tp.topSpeed = some top) (hg : 0 < gain) (hs : Strong tp top gain most) {speed w length : Rat}
    (h0 : 0 ≤ speed) : Settles (fun fuel => accelPhase fuel tp speed w length) := by
  unfold accelPhase
  by_cases h : speed < w
  · simp only [if_pos h]
    refine settles_bind ?_ ?_
    · obtain ⟨l, hl⟩ := Physics.Props.C55_ends tp speed w length (min top w) gain ⟨top, htop, rfl⟩ hg (by
        intro v h1 h2
        obtain ⟨x, hx, hgx, -⟩ := hs v (h0.trans h1) (lt_of_lt_of_le h2 (min_le_left _ _))
        exact ⟨x, hx, hgx⟩)
      exact settles_returns hl
    · intro l _
      refine settles_const ?_
      split
      · simp
      · split
        · split <;> simp
        · simp
  · simp only [if_neg h]
    exact settles_const (by simp)

theorem brake_settles (ha : tp.deceleration = some d) (hneg : d < 0) {v w : Rat} : Settles (fun fuel => brake fuel tp v w) := by
  by_cases h : w < v
  · obtain ⟨m, -, -, hrun⟩ := brake_runs ha hneg h
    exact ⟨m + 1, _, by simp, hrun⟩
  · refine ⟨0, .bad, by simp, fun fuel _ => ?_⟩
    show brake fuel tp v w = .bad
    unfold brake
    rw [if_neg (show ¬ v > w from h)]

theorem brakePhase_settles (ha : tp.deceleration = some d) (hneg : d < 0) {speed w length : Rat} :
    Settles (fun fuel => brakePhase fuel tp speed w length) := by
  unfold brakePhase
  by_cases h : speed > w
  · simp only [if_pos h]
    refine settles_bind (brake_settles ha hneg) ?_
    intro l _
    refine settles_const ?_
    split
    · simp
    · split <;> simp
  · simp only [if_neg h]
    exact settles_const (by simp)

theorem adjustAccel_settles (ha : tp.deceleration = some d) (hneg : d < 0) {length next : Rat} (l : List Result) :
    Settles (fun fuel => adjustAccel fuel tp length next l) := by
  induction l with
  | nil => exact settles_const (by simp)
  | cons r l ih =>
    unfold adjustAccel
    by_cases h : r.speed ≤ next
    · simp only [if_pos h]
      exact settles_const (by simp)
    · simp only [if_neg h]
      refine settles_bind (brake_settles ha hneg) ?_
      intro b _
      cases b.getLast? with
      | none => exact settles_const (by simp)
      | some e =>
        simp only
        by_cases hc : e.dist + r.dist ≤ length
        · simp only [if_pos hc]
          exact settles_const (by simp)
        · simp only [if_neg hc]
          exact ih

theorem joinPhases_settles (ha : tp.deceleration = some d) (hneg : d < 0) {length target speed : Rat} (a b : Result × List Result) :
    Settles (fun fuel => joinPhases fuel tp length target speed a b) := by
  unfold joinPhases
  by_cases h : a.1.dist + b.1.dist ≥ length ∧ a.2 ≠ [] ∧ b.2 ≠ []
  · simp only [if_pos h]
    exact settles_bind (adjustAccel_settles ha hneg _) (fun r _ => settles_const (by simp))
  · simp only [if_neg h]
    exact settles_const (by simp)

theorem coastPhase_settles {speed distance : Rat} (h0 : 0 < speed) : Settles (fun fuel => coastPhase fuel speed distance) := by
  unfold coastPhase
  by_cases h : distance > 0
  · simp only [if_pos h]
    refine settles_bind ?_ ?_
    · obtain ⟨l, _, hl, -⟩ := Physics.Props.C54_coast speed distance h0 h.le
      exact settles_returns hl
    · intro l _
      refine settles_const ?_
      split <;> simp
  · simp only [if_neg h]
    exact settles_const (by simp)

variable {prevDist left speed : Rat} {i : Interval}

theorem getPhases_settles (ha : tp.deceleration = some d) (hneg : d < 0) (htop : tp.topSpeed = some top)
    (hg : 0 < gain) (hs : Strong tp top gain most) (h0 : 0 < top) (hl : 0 < left) (hi : Drivable d top prevDist left i)
    (hv : 0 ≤ speed) (hroom : Room d most (i.dist - prevDist) speed) :
    Settles (fun fuel => getPhases fuel tp speed prevDist i) := by
  unfold getPhases
  simp only [hi.left, htop]
  refine settles_bind (accelPhase_settles htop hg hs hv) ?_
  intro a hacc
  refine settles_bind (brakePhase_settles ha hneg) ?_
  intro b hb
  refine settles_bind (joinPhases_settles ha hneg a b) ?_
  intro j hj
  obtain ⟨_, hacc⟩ := returns_at hacc
  obtain ⟨_, hb⟩ := returns_at hb
  obtain ⟨_, hj⟩ := returns_at hj
  have hm := moves ha hneg htop hg hs h0 (lt_min hl h0) (by linarith [hi.longer]) (target_nonneg hi.right h0.le) hroom hacc hb hj
  by_cases hc : j.1.dist + j.2.2.1.dist ≤ i.dist - prevDist ∨ a.2 = [] ∨ j.2.2.2 = []
  · simp only [if_pos hc]
    refine settles_bind (coastPhase_settles hm.1) ?_
    intro c _
    refine settles_const ?_
    split <;> simp
  · simp only [if_neg hc]
    exact settles_const (by simp)

/-- the train still moves at the end of an interval without a halt -/
theorem endSpeed_pos {fuel : Nat} (ha : tp.deceleration = some d) (hneg : d < 0) (htop : tp.topSpeed = some top)
    (hg : 0 < gain) (hs : Strong tp top gain most) (h0 : 0 < top) (hl : 0 < left) (hi : Drivable d top prevDist left i)
    (hr : 0 < i.right) (hroom : Room d most (i.dist - prevDist) speed) (hh : i.halt.isSome = false) {p : Phases}
    (h : getPhases fuel tp speed prevDist i = .done p) : 0 < endSpeed p := by
  have hlen : 0 < i.dist - prevDist := by linarith [hi.longer]
  have htarget : 0 < i.targetSpeed top := by
    unfold Interval.targetSpeed
    rw [hh]
    simp only [Bool.false_eq_true, if_false]
    exact lt_min hr h0
  unfold getPhases at h
  simp only [hi.left, htop] at h
  obtain ⟨a, hacc, h⟩ := bind_done h
  obtain ⟨b, hb, h⟩ := bind_done h
  obtain ⟨j, hj, h⟩ := bind_done h
  have hm := moves ha hneg htop hg hs h0 (lt_min hl h0) hlen htarget.le hroom hacc hb hj
  split at h
  · obtain ⟨c, hc, h⟩ := bind_done h
    split at h
    · rename_i h1
      obtain rfl := Outcome.done.inj h
      unfold endSpeed
      simp only
      split
      · rename_i hne
        clear h1
        rcases joinPhases_spec ha hneg hj with ⟨rfl, -⟩ | ⟨-, -, -, h1 | h1⟩
        · rcases brakePhase_spec ha hneg hb with ⟨rfl, -⟩ | h1
          · exact absurd rfl hne
          · simp only
            rw [h1.2.2.2.2.1]
            exact htarget
        · rw [h1.2] at hne
          exact absurd rfl hne
        · rw [h1.2.2.2.1]
          exact htarget
      · split
        · rename_i hne
          rcases coastPhase_spec hc with ⟨rfl, -⟩ | h1
          · exact absurd rfl hne
          · rw [h1.2.2.2.2]
            exact hm.1
        · rename_i h2 h3
          have hne : a.2 ≠ [] := by
            rcases h1 with h1 | h1 | h1
            · exact h1
            · exact absurd h1 h3
            · exact absurd h1 h2
          rw [hm.2 hne]
          exact hm.1
    · cases h
  · cases h

/-! ### The whole way -/

/-- behind every stop there is some room -/
def RoomFrom (d most : Rat) : Bool → Rat → List Interval → Prop
  | _, _, [] => True
  | stopped, prevDist, i :: l =>
    (stopped = true → most / 2 < i.dist - prevDist ∧ most / 8 + most * most / (8 * -d) < i.dist - prevDist) ∧
      RoomFrom d most i.halt.isSome i.dist l

theorem toRelative_not_running {limit : Option Nat} {t : Rat} : toRelative limit t ≠ .running := by
  unfold toRelative
  split
  · simp
  · split <;> simp

theorem eventStamps_not_running {limit : Option Nat} {dist : Rat} {startDep endArr endDep : Nat} {p : Phases} {es : List Event} :
    eventStamps limit prevDist dist startDep endArr endDep p es ≠ .running := by
  induction es with
  | nil => simp [eventStamps]
  | cons e es ih =>
    have hmap : ∀ f : List Stamp → List Stamp, (eventStamps limit prevDist dist startDep endArr endDep p es).map f ≠ .running := by
      intro f
      cases h : eventStamps limit prevDist dist startDep endArr endDep p es with
      | done a => simp [Outcome.map]
      | bad => simp [Outcome.map]
      | running => exact absurd h ih
    unfold eventStamps
    split
    · exact hmap _
    · split
      · simp
      · rename_i t _
        cases h : toRelative limit t with
        | done r => exact hmap _
        | bad => simp [Outcome.bind]
        | running => exact absurd h toRelative_not_running

theorem runInterval_settles {limit : Option Nat} {start : Nat} {time : Rat}
    (hph : Settles (fun fuel => getPhases fuel tp speed prevDist i)) :
    Settles (fun fuel => runInterval fuel tp limit start speed time prevDist i) := by
  unfold runInterval
  refine settles_bind hph ?_
  intro p _
  refine settles_bind (settles_const toRelative_not_running) ?_
  intro x _
  refine settles_bind (settles_const toRelative_not_running) ?_
  intro y _
  refine settles_bind (settles_const eventStamps_not_running) ?_
  intro z _
  refine settles_const ?_
  split <;> simp

theorem runFrom_settles {limit : Option Nat} {start : Nat} (ha : tp.deceleration = some d) (hneg : d < 0)
    (htop : tp.topSpeed = some top) (hg : 0 < gain) (hs : Strong tp top gain most) (h0 : 0 < top) (l : List Interval)
    (stopped : Bool) (speed time prevDist left : Rat) (hd : DrivableFrom d top prevDist left l) (hl : 0 < left)
    (hr : ∀ i ∈ l, 0 < i.right) (hroom : RoomFrom d most stopped prevDist l) (hsp : speed ≤ min left top)
    (hv : if stopped then speed = 0 else 0 < speed) :
    Settles (fun fuel => runFrom fuel tp limit start speed time prevDist l) := by
  induction l generalizing stopped speed time prevDist left with
  | nil =>
    unfold runFrom
    exact settles_const (by simp)
  | cons i l ih =>
    obtain ⟨hdi, -, hdl⟩ := hd
    have hv0 : 0 ≤ speed := by
      cases stopped with
      | true => simp at hv; rw [hv]
      | false => simp at hv; exact hv.le
    have hrm : Room d most (i.dist - prevDist) speed := by
      cases stopped with
      | true => simp at hv; exact Or.inr ⟨hv, hroom.1 rfl⟩
      | false => simp at hv; exact Or.inl hv
    have hp := pulls_of_strong hg hs
    unfold runFrom
    refine settles_bind (runInterval_settles (getPhases_settles ha hneg htop hg hs h0 hl hdi hv0 hrm)) ?_
    intro r hret
    obtain ⟨n, hret⟩ := returns_at hret
    obtain ⟨e0, e1⟩ := runInterval_speed ha hneg htop hp h0.le hdi hv0 hsp hret
    refine settles_map (ih i.halt.isSome r.1.1 r.1.2 i.dist i.right hdl (hr i (by simp)) (fun k hk => hr k (by simp [hk]))
      hroom.2 (e1.trans (targetSpeed_right hdi.right)) ?_)
    cases hh : i.halt.isSome with
    | true =>
      simp only [if_true]
      have : i.targetSpeed top ≤ 0 := by
        unfold Interval.targetSpeed
        rw [hh]
        exact min_le_left _ _
      linarith
    | false =>
      simp only [Bool.false_eq_true, if_false]
      unfold runInterval at hret
      obtain ⟨p, hph, hret⟩ := bind_done hret
      obtain ⟨_, -, hret⟩ := bind_done hret
      obtain ⟨_, -, hret⟩ := bind_done hret
      obtain ⟨_, -, hret⟩ := bind_done hret
      split at hret
      · obtain rfl := Outcome.done.inj hret
        exact endSpeed_pos ha hneg htop hg hs h0 hl hdi (hr i (by simp)) hrm hh hph
      · cases hret

end Soro.Runtime
