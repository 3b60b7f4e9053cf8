import Verif.Proof.RuntimeStamps

/-
On intervals that are long enough to brake no phase is refused.
-/

namespace Soro.Runtime

open Soro.Physics Soro.Runtime.Spec

theorem bind_not_bad {α β : Type} {o : Outcome α} {f : α → Outcome β} (h1 : o ≠ .bad) (h2 : ∀ a, o = .done a → f a ≠ .bad) :
    o.bind f ≠ .bad := by
  cases o with
  | done a => exact h2 a rfl
  | bad => exact absurd rfl h1
  | running => simp [Outcome.bind]

theorem map_not_bad {α β : Type} {o : Outcome α} {f : α → β} (h1 : o ≠ .bad) : o.map f ≠ .bad := by
  cases o with
  | done a => simp [Outcome.map]
  | bad => exact absurd rfl h1
  | running => simp [Outcome.map]

theorem loop_not_bad {S : Type} {c : S → Bool} {f : S → Option S} (I : S → Prop)
    (hstep : ∀ s, I s → c s = true → ∃ s', f s = some s' ∧ I s') (n : Nat) (s : S) (hs : I s) : loop c f n s ≠ .bad := by
  induction n generalizing s with
  | zero => simp [loop]
  | succ n ih =>
    unfold loop
    by_cases hc : c s = true
    · obtain ⟨s', h1, h2⟩ := hstep s hs hc
      simp only [hc, if_true, h1]
      exact map_not_bad (ih s' h2)
    · simp [hc]

/-- the train can accelerate at every speed below its top speed -/
def Pulls (tp : Train) (top : Rat) : Prop :=
  ∀ v, 0 ≤ v → v < top → ∃ x, tp.acceleration v = some x ∧ 0 ≤ x

variable {tp : Train} {d top : Rat}

theorem accelStep_pulls (hp : Pulls tp top) {r : Result} (h0 : 0 ≤ r.speed) (h1 : r.speed < top) :
    ∃ r', accelStep tp r = some r' ∧ r.speed ≤ r'.speed := by
  obtain ⟨x, hx, hx0⟩ := hp r.speed h0 h1
  refine ⟨_, by unfold accelStep; rw [hx], ?_⟩
  simp only [deltaT]
  linarith

theorem accelerate_not_bad (htop : tp.topSpeed = some top) (hp : Pulls tp top) {fuel : Nat} {v w length : Rat} (hv : 0 ≤ v) :
    accelerate fuel tp v w length ≠ .bad := by
  unfold accelerate
  rw [htop]
  simp only
  refine map_not_bad (loop_not_bad (fun r => 0 ≤ r.speed) ?_ _ _ hv)
  intro s hs hc
  simp only [Bool.and_eq_true, decide_eq_true_eq] at hc
  obtain ⟨r', h1, h2⟩ := accelStep_pulls hp hs hc.1.1
  exact ⟨r', h1, hs.trans h2⟩

/-- all speeds of an acceleration are at least the first one -/
theorem accelerate_speeds (htop : tp.topSpeed = some top) (hp : Pulls tp top) {fuel : Nat} {v w length : Rat} (hv : 0 ≤ v)
    {l : List Result} (h : accelerate fuel tp v w length = .done l) : ∀ r ∈ l, v ≤ r.speed := by
  obtain ⟨top', k, htop', hch, -, rfl⟩ := accelerate_done h
  rw [htop] at htop'
  obtain rfl := Option.some.inj htop'
  have hall : ∀ r ∈ ({ time := 0, dist := 0, speed := v } :: k : List Result), v ≤ r.speed := by
    have key : ∀ (k : List Result) (s : Result), v ≤ s.speed →
        List.IsChain (fun a b : Result => (a.speed < top ∧ a.speed < w ∧ a.dist < length) ∧ accelStep tp a = some b) (s :: k) →
        ∀ r ∈ s :: k, v ≤ r.speed := by
      intro k
      induction k with
      | nil =>
        intro s hs _ r hr
        simp only [List.mem_singleton] at hr
        rw [hr]
        exact hs
      | cons b k ih =>
        intro s hs hc r hr
        rw [List.isChain_cons_cons] at hc
        obtain ⟨r', h1, h2⟩ := accelStep_pulls hp (hv.trans hs) hc.1.1.1
        rw [hc.1.2] at h1
        obtain rfl := Option.some.inj h1
        rcases List.mem_cons.mp hr with rfl | hr
        · exact hs
        · exact ih _ (hs.trans h2) hc.2 r hr
    exact key k _ (le_refl _) hch
  rcases cut_cases length ({ time := 0, dist := 0, speed := v } :: k) (by simp) with ⟨last, h1, h2, h3⟩ | ⟨a, last, h1, h2, h3⟩ |
    ⟨last, h1, h2, h3⟩ | ⟨m, a, last, h0, h1, h2, h3⟩
  · rw [h3]; exact hall
  · rw [h3, ]
    rw [h1] at hall
    intro r hr
    exact hall r (by simp at hr; simp [hr])
  · rw [h3]; simp
  · rw [h3]
    rw [h1] at hall
    intro r hr
    rcases List.mem_append.mp hr with hr | hr
    · exact hall r (by simp [hr])
    · simp only [List.mem_singleton] at hr
      subst hr
      exact hall a (by simp)

theorem brake_not_bad (ha : tp.deceleration = some d) (hneg : d < 0) {fuel : Nat} {v w : Rat} (h : w < v) :
    brake fuel tp v w ≠ .bad := by
  unfold brake
  rw [if_pos (show v > w from h), ha]
  simp only
  rw [if_neg (by linarith)]
  exact map_not_bad (loop_not_bad (fun _ => True) (fun s _ _ => ⟨_, rfl, trivial⟩) _ _ trivial)

theorem coastPhase_not_bad {fuel : Nat} {v distance : Rat} : coastPhase fuel v distance ≠ .bad := by
  unfold coastPhase
  by_cases hd : distance > 0
  · rw [if_pos hd]
    refine bind_not_bad ?_ ?_
    · unfold Physics.coast
      exact map_not_bad (loop_not_bad (fun _ => True) (fun s _ _ => ⟨_, rfl, trivial⟩) _ _ trivial)
    · intro l hl
      obtain ⟨-, t, hl, -⟩ := coast_last hd hl
      rw [hl]
      simp
  · rw [if_neg hd]
    simp

theorem accelPhase_not_bad (htop : tp.topSpeed = some top) (hp : Pulls tp top) {fuel : Nat} {v w length : Rat} (hv : 0 ≤ v)
    (hl : 0 ≤ length) : accelPhase fuel tp v w length ≠ .bad := by
  unfold accelPhase
  by_cases hvw : v < w
  · rw [if_pos hvw]
    refine bind_not_bad (accelerate_not_bad htop hp hv) ?_
    intro l h
    obtain ⟨⟨l', rfl⟩, -, -⟩ := accelerate_shape hl h
    rw [List.getLast?_eq_getLast_of_ne_nil (by simp)]
    simp only
    split
    · rw [if_pos (by linarith)]
      simp
    · simp
  · rw [if_neg hvw]
    simp

/-- what braking from a speed takes -/
def brakeDist (d v w : Rat) : Rat := (v * v - w * w) / (2 * -d)

theorem brakeDist_mono (hneg : d < 0) {u v w : Rat} (h0 : 0 ≤ u) (h : u ≤ v) : brakeDist d u w ≤ brakeDist d v w := by
  unfold brakeDist
  refine div_le_div_of_nonneg_right ?_ (by linarith)
  nlinarith

theorem brakeDist_strict (hneg : d < 0) {u v w : Rat} (h0 : 0 ≤ u) (h : u < v) : brakeDist d u w < brakeDist d v w := by
  unfold brakeDist
  refine div_lt_div_of_pos_right ?_ (by linarith)
  nlinarith

theorem brakePhase_not_bad (ha : tp.deceleration = some d) (hneg : d < 0) {fuel : Nat} {v w length : Rat}
    (h : w < v → brakeDist d v w ≤ length) : brakePhase fuel tp v w length ≠ .bad := by
  unfold brakePhase
  by_cases hv : v > w
  · rw [if_pos hv]
    refine bind_not_bad (brake_not_bad ha hneg hv) ?_
    intro l hb
    obtain ⟨-, -, t, hl, ht⟩ := brake_last ha hneg hb
    rw [hl]
    simp only
    rw [if_pos ⟨ht, h hv⟩]
    simp
  · rw [if_neg hv]
    simp

/-- going back ends with a result from which the train can brake, if there is one -/
theorem adjustAccel_not_bad (ha : tp.deceleration = some d) (hneg : d < 0) {fuel : Nat} {length next : Rat} {l : List Result}
    {s : Result} (hs : s ∈ l) (hfit : s.speed ≤ next ∨ brakeDist d s.speed next + s.dist ≤ length) :
    adjustAccel fuel tp length next l ≠ .bad := by
  induction l with
  | nil => simp at hs
  | cons r l ih =>
    unfold adjustAccel
    by_cases hr : r.speed ≤ next
    · rw [if_pos hr]; simp
    · rw [if_neg hr]
      refine bind_not_bad (brake_not_bad ha hneg (not_le.mp hr)) ?_
      intro b hb
      obtain ⟨-, -, t, hl, ht⟩ := brake_last ha hneg hb
      rw [hl]
      simp only
      split
      · simp
      · rename_i hc
        rcases List.mem_cons.mp hs with rfl | hs
        · rcases hfit with hfit | hfit
          · exact absurd hfit hr
          · exact absurd hfit hc
        · exact ih hs

theorem joinPhases_not_bad (ha : tp.deceleration = some d) (hneg : d < 0) {fuel : Nat} {length target speed : Rat}
    {a b : Result × List Result} {s : Result} (hs : s ∈ a.2.dropLast ∨ a.1.dist + b.1.dist < length ∨ a.2 = [])
    (hfit : s.speed ≤ target ∨ brakeDist d s.speed target + s.dist ≤ length) :
    joinPhases fuel tp length target speed a b ≠ .bad := by
  unfold joinPhases
  by_cases hc : a.1.dist + b.1.dist ≥ length ∧ a.2 ≠ [] ∧ b.2 ≠ []
  · rw [if_pos hc]
    refine bind_not_bad (adjustAccel_not_bad ha hneg (s := s) ?_ hfit) (fun _ _ => by simp)
    rw [List.tail_reverse, List.mem_reverse]
    rcases hs with hs | hs | hs
    · exact hs
    · exact absurd hc.1 (not_le.mpr hs)
    · exact absurd hs hc.2.1
  · rw [if_neg hc]
    simp

/-- an interval the train can drive through when it enters with at most the limit -/
structure Drivable (d top prevDist left : Rat) (i : Interval) : Prop where
  left : i.left = some left
  longer : prevDist < i.dist
  right : 0 ≤ i.right
  fits : Fits d top prevDist i

variable {prevDist left speed : Rat} {i : Interval} {fuel : Nat}

theorem drivable_fits (hneg : d < 0) (hi : Drivable d top prevDist left i) {v : Rat} (h0 : 0 ≤ v) (hv : v ≤ min left top)
    (ht : i.targetSpeed top < v) : brakeDist d v (i.targetSpeed top) ≤ i.dist - prevDist :=
  (brakeDist_mono hneg h0 hv).trans (hi.fits left hi.left (lt_of_lt_of_le ht hv))

theorem getPhases_not_bad (ha : tp.deceleration = some d) (hneg : d < 0) (htop : tp.topSpeed = some top) (hp : Pulls tp top)
    (hi : Drivable d top prevDist left i) (h0 : 0 ≤ speed) (hsp : speed ≤ min left top) :
    getPhases fuel tp speed prevDist i ≠ .bad := by
  have hlen : 0 < i.dist - prevDist := by linarith [hi.longer]
  have hfits : ∀ v, 0 ≤ v → v ≤ min left top → i.targetSpeed top < v → brakeDist d v (i.targetSpeed top) ≤ i.dist - prevDist :=
    fun v h1 h2 h3 => drivable_fits hneg hi h1 h2 h3
  have hstrict : speed < min left top → i.targetSpeed top < speed → brakeDist d speed (i.targetSpeed top) < i.dist - prevDist :=
    fun h1 h2 => lt_of_lt_of_le (brakeDist_strict hneg h0 h1) (hfits _ (h0.trans hsp) (le_refl _) (h2.trans h1))
  unfold getPhases
  rw [hi.left, htop]
  simp only
  revert hlen hfits hstrict
  generalize i.dist - prevDist = length
  generalize i.targetSpeed top = target
  intro hlen hfits hstrict
  refine bind_not_bad (accelPhase_not_bad htop hp h0 hlen.le) ?_
  intro a hacc
  -- the speed after accelerating
  have hv : 0 ≤ (if a.2 = [] then speed else a.1.speed) ∧ (if a.2 = [] then speed else a.1.speed) ≤ min left top := by
    rcases accelPhase_spec hlen.le hacc with ⟨rfl, -⟩ | ⟨h1, h2, h3, r, h4, -, -, h5⟩
    · exact ⟨h0, hsp⟩
    · rw [if_neg h3, h5]
      have := accelerate_speeds htop hp h0 h2 r (List.mem_of_getLast? h4)
      exact ⟨le_min (h0.trans this) (h0.trans hsp), min_le_right _ _⟩
  refine bind_not_bad (brakePhase_not_bad ha hneg (fun h => hfits _ hv.1 hv.2 h)) ?_
  intro b hb
  refine bind_not_bad ?_ ?_
  · refine joinPhases_not_bad ha hneg (s := { time := 0, dist := 0, speed := speed }) ?_ ?_
    · rcases accelPhase_spec hlen.le hacc with ⟨rfl, -⟩ | ⟨h1, h2, h3, r, h4, -, h6, h5⟩
      · exact Or.inr (Or.inr rfl)
      · obtain ⟨⟨l', hl'⟩, -, -⟩ := accelerate_shape hlen.le h2
        cases l' with
        | cons q l' =>
          left
          rw [hl']
          simp
        | nil =>
          right; left
          have h7 : r = { time := 0, dist := 0, speed := speed } := by
            rw [hl'] at h4
            simpa using h4.symm
          rw [h6, h7]
          simp only [zero_add]
          rw [h7] at h5
          simp only [min_eq_left h1.le] at h5
          rcases brakePhase_spec ha hneg hb with ⟨rfl, -⟩ | ⟨h8, -, -, h9, -⟩
          · simpa [zeroResult] using hlen
          · rw [if_neg h3, h5] at h8 h9
            rw [h9]
            exact hstrict h1 h8
    · by_cases h : speed ≤ target
      · exact Or.inl h
      · right
        have := hfits speed h0 hsp (not_le.mp h)
        simpa using this
  · intro j hj
    have hfit : j.1.dist + j.2.2.1.dist ≤ length ∨ a.2 = [] ∨ j.2.2.2 = [] := by
      rcases joinPhases_spec ha hneg hj with ⟨rfl, h1 | h1 | h1⟩ | ⟨-, -, -, h1 | h1⟩
      · exact Or.inl h1.le
      · exact Or.inr (Or.inl h1)
      · exact Or.inr (Or.inr h1)
      · rw [h1.2]
        exact Or.inr (Or.inr rfl)
      · left
        linarith [h1.2.2.2.2]
    rw [if_pos hfit]
    refine bind_not_bad coastPhase_not_bad ?_
    intro c hc
    rw [if_pos ?_]
    · simp
    · by_cases h1 : a.2 = []
      · by_cases h2 : j.2.2.2 = []
        · right; left
          have hj1 : j.1 = zeroResult ∧ j.2.2.1 = zeroResult := by
            rcases joinPhases_spec ha hneg hj with ⟨rfl, -⟩ | ⟨h3, -⟩
            · refine ⟨?_, ?_⟩
              · rcases accelPhase_spec hlen.le hacc with ⟨rfl, -⟩ | ⟨-, -, h3, -⟩
                · rfl
                · exact absurd h1 h3
              · rcases brakePhase_spec ha hneg hb with ⟨rfl, -⟩ | ⟨-, -, h3, -⟩
                · rfl
                · simp only at h2
                  rw [h2] at h3
                  simp at h3
            · exact absurd h1 h3
          rcases coastPhase_spec hc with ⟨-, h3⟩ | h3
          · rw [hj1.1, hj1.2] at h3
            simp only [zeroResult] at h3
            linarith
          · intro h4
            rw [h4] at h3
            simp at h3
        · exact Or.inr (Or.inr h2)
      · exact Or.inl h1

/-- the speed at the end of an interval is not negative -/
theorem endSpeed_nonneg (ha : tp.deceleration = some d) (hneg : d < 0) (htop : tp.topSpeed = some top) (hp : Pulls tp top)
    (h0top : 0 ≤ top) (hi : Drivable d top prevDist left i) (h0 : 0 ≤ speed) (hsp : speed ≤ min left top) {p : Phases}
    (h : getPhases fuel tp speed prevDist i = .done p) : 0 ≤ endSpeed p := by
  have hlen : 0 ≤ i.dist - prevDist := by linarith [hi.longer]
  have htarget := target_nonneg hi.right h0top
  unfold getPhases at h
  rw [hi.left, htop] at h
  simp only at h
  revert hlen h htarget
  generalize i.dist - prevDist = length
  generalize i.targetSpeed top = target
  intro h hlen htarget
  obtain ⟨a, hacc, h⟩ := bind_done h
  obtain ⟨b, hb, h⟩ := bind_done h
  obtain ⟨j, hj, h⟩ := bind_done h
  have hspeeds : ∀ r ∈ a.2, 0 ≤ r.speed := by
    rcases accelPhase_spec hlen hacc with ⟨rfl, -⟩ | ⟨-, h2, -⟩
    · simp
    · exact fun r hr => h0.trans (accelerate_speeds htop hp h0 h2 r hr)
  have ha1 : 0 ≤ a.1.speed := by
    rcases accelPhase_spec hlen hacc with ⟨rfl, -⟩ | ⟨h1, h2, h3, r, h4, -, -, h5⟩
    · exact le_refl _
    · rw [h5]
      exact le_min (hspeeds r (List.mem_of_getLast? h4)) (h0.trans hsp)
  have hj2 : 0 ≤ j.2.1 ∧ 0 ≤ j.1.speed := by
    rcases joinPhases_spec ha hneg hj with ⟨rfl, -⟩ | ⟨-, h1, h2, -⟩
    · refine ⟨?_, ha1⟩
      simp only
      split
      · exact h0
      · exact ha1
    · have := hspeeds _ (List.dropLast_subset _ h1)
      rw [h2]
      exact ⟨this, this⟩
  split at h
  · obtain ⟨c, hc, h⟩ := bind_done h
    split at h
    · obtain rfl := Outcome.done.inj h
      unfold endSpeed
      simp only
      split
      · rename_i hne
        rcases joinPhases_spec ha hneg hj with ⟨rfl, -⟩ | ⟨-, -, -, h1 | h1⟩
        · rcases brakePhase_spec ha hneg hb with ⟨rfl, -⟩ | h1
          · exact absurd rfl hne
          · simp only
            rw [h1.2.2.2.2.1]
            exact htarget
        · rw [h1.2] at hne
          exact absurd rfl hne
        · rw [h1.2.2.2.1]
          exact htarget
      · split
        · rename_i hne
          rcases coastPhase_spec hc with ⟨rfl, -⟩ | h1
          · exact absurd rfl hne
          · rw [h1.2.2.2.2]
            exact hj2.1
        · exact hj2.2
    · cases h
  · cases h

/-- all intervals can be driven through -/
def DrivableFrom (d top : Rat) : Rat → Rat → List Interval → Prop
  | _, _, [] => True
  | prevDist, left, i :: l =>
    Drivable d top prevDist left i ∧ EventsOk prevDist i.dist i.events ∧ DrivableFrom d top i.dist i.right l

theorem targetSpeed_right {i : Interval} {top : Rat} (h : 0 ≤ i.right) : i.targetSpeed top ≤ min i.right top := by
  unfold Interval.targetSpeed
  refine min_le_min ?_ (le_refl _)
  split
  · exact h
  · exact le_refl _

theorem runInterval_not_bad (ha : tp.deceleration = some d) (hneg : d < 0) (htop : tp.topSpeed = some top) (hp : Pulls tp top)
    (hi : Drivable d top prevDist left i) (h0 : 0 ≤ speed) (hsp : speed ≤ min left top)
    (he : EventsOk prevDist i.dist i.events) (start : Nat) (time : Rat) :
    runInterval fuel tp none start speed time prevDist i ≠ .bad := by
  unfold runInterval
  refine bind_not_bad (getPhases_not_bad ha hneg htop hp hi h0 hsp) ?_
  intro p hph
  obtain ⟨_, top', -, htop', hok, hend⟩ := getPhases_spec ha hneg hi.longer.le hph
  rw [htop] at htop'
  obtain rfl := Option.some.inj htop'
  simp only [toRelative_none, Outcome.bind]
  rw [eventStamps_done ?_]
  · simp only
    rw [if_pos (hend.trans ((targetSpeed_right hi.right).trans (min_le_left _ _)))]
    simp
  · intro e hm hn
    obtain ⟨t, ht, -⟩ := eventTime_some hok (far he hm hn) (by linarith [hi.longer])
    exact ⟨t, ht⟩

/-- what holds for the speed behind an interval -/
theorem runInterval_speed (ha : tp.deceleration = some d) (hneg : d < 0) (htop : tp.topSpeed = some top) (hp : Pulls tp top)
    (h0top : 0 ≤ top) (hi : Drivable d top prevDist left i) (h0 : 0 ≤ speed) (hsp : speed ≤ min left top) {limit : Option Nat}
    {start : Nat} {time : Rat} {r : (Rat × Rat) × List Stamp}
    (h : runInterval fuel tp limit start speed time prevDist i = .done r) :
    0 ≤ r.1.1 ∧ r.1.1 ≤ i.targetSpeed top := by
  unfold runInterval at h
  obtain ⟨p, hph, h⟩ := bind_done h
  obtain ⟨_, -, h⟩ := bind_done h
  obtain ⟨_, -, h⟩ := bind_done h
  obtain ⟨_, -, h⟩ := bind_done h
  split at h
  · obtain rfl := Outcome.done.inj h
    obtain ⟨_, top', -, htop', -, hend⟩ := getPhases_spec ha hneg hi.longer.le hph
    rw [htop] at htop'
    obtain rfl := Option.some.inj htop'
    exact ⟨endSpeed_nonneg ha hneg htop hp h0top hi h0 hsp hph, hend⟩
  · cases h

theorem runFrom_not_bad (ha : tp.deceleration = some d) (hneg : d < 0) (htop : tp.topSpeed = some top) (hp : Pulls tp top)
    (h0top : 0 ≤ top) (start : Nat) {l : List Interval} {time : Rat} (hd : DrivableFrom d top prevDist left l) (h0 : 0 ≤ speed)
    (hsp : speed ≤ min left top) : runFrom fuel tp none start speed time prevDist l ≠ .bad := by
  induction l generalizing speed time prevDist left with
  | nil => simp [runFrom]
  | cons i l ih =>
    obtain ⟨h1, h2, h3⟩ := hd
    unfold runFrom
    refine bind_not_bad (runInterval_not_bad ha hneg htop hp h1 h0 hsp h2 start time) ?_
    intro r hr
    obtain ⟨h4, h5⟩ := runInterval_speed ha hneg htop hp h0top h1 h0 hsp hr
    exact map_not_bad (ih h3 h4 (h5.trans (targetSpeed_right h1.right)))

end Soro.Runtime
