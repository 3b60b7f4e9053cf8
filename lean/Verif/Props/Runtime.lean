import Verif.Proof.RuntimeEnds
import Verif.Proof.IntervalMono
import Verif.Props.Interval

/-
C56, C98-C100: the timestamps of a train.
-/

namespace Soro.Runtime.Props

open Soro.Physics Soro.Runtime Soro.Runtime.Spec

/-- the calculation in unbounded numbers ends with these timestamps, and none of its points in time needs more than 32 bits -/
def Calculated (fuel : Nat) (tp : Train) (start : Nat) (initial : Rat) (nodes : List TNode) (l : List Interval)
    (stamps : List Stamp) : Prop :=
  ∃ t : Rat, getIntervalList fuel tp initial nodes = .done l ∧ runIntervals fuel tp none start l = .done (t, stamps) ∧
    start + t < 2 ^ 32

theorem secs_bound {start : Nat} {t : Rat} (h : start + t < 2 ^ 32) (h0 : start < 2 ^ 32) : start + secs t < bits32 := by
  unfold secs bits32
  have h1 : (t.floor : Rat) ≤ t := Int.floor_le t
  have h2 : ((start : Int) : Rat) + (t.floor : Rat) < ((2 ^ 32 : Int) : Rat) := by
    push_cast
    linarith
  have h3 : (start : Int) + t.floor < 2 ^ 32 := by exact_mod_cast h2
  omega

variable {fuel : Nat} {tp : Train} {d : Rat} {start : Nat} {initial : Rat} {nodes : List TNode} {l : List Interval}
  {stamps : List Stamp}

/-- C56 as long as 32 bits suffice: the timestamps are those of the calculation in unbounded numbers, in order of time, and
none is before the start. Missing: longer times (see the negation). -/
theorem C56_order_partial (ha : tp.deceleration = some d) (hneg : d < 0) (hf : Forward nodes) (h0 : start < 2 ^ 32)
    (h : Calculated fuel tp start initial nodes l stamps) :
    runtime fuel tp start initial nodes = .done stamps ∧ InOrder stamps ∧ ∀ s ∈ stamps, start ≤ s.arrival := by
  obtain ⟨t, h1, h2, h3⟩ := h
  cases l with
  | nil => cases h2
  | cons p l =>
    have hg := good_of_list hf h1
    obtain ⟨g1, g2, -⟩ := runIntervals_spec ha hneg hg h2
    refine ⟨?_, g1, fun s hs => (g2 s hs).1⟩
    unfold runtime
    rw [h1]
    simp only [Outcome.bind]
    rw [runIntervals_wrap ha hneg hg h2 (secs_bound h3 h0)]
    rfl

/-- C56 for borders at least a centimetre apart: at every halt that is recorded the train leaves no earlier than planned and
not before the stop time is over. At the first border it leaves at the start. The timestamp of a node is the one at the
place of its event. Missing: borders that are closer (see C95). -/
theorem C56_halts_partial (ha : tp.deceleration = some d) (hneg : d < 0) (hf : Forward nodes) (hb : BordersApart nodes)
    (h : Calculated fuel tp start initial nodes l stamps) (k : Nat) (n : TNode) (hk : nodes[k]? = some n) (hn : Border n)
    (he : n.isEvent = true) :
    ∃ s, stamps[(eventsOf 0 (nodes.take k)).length]? = some s ∧ s.node = n.id ∧
      ((∃ (j : Nat) (m : TNode), j < k ∧ nodes[j]? = some m ∧ Border m) → ∀ halt, n.stop = some halt → Respected halt s) ∧
      ((¬ ∃ (j : Nat) (m : TNode), j < k ∧ nodes[j]? = some m ∧ Border m) → s.arrival = start ∧ s.departure = start) := by
  obtain ⟨t, h1, h2, -⟩ := h
  cases l with
  | nil => cases h2
  | cons p l =>
    have hg := good_of_list hf h1
    obtain ⟨-, -, s1, s2, rfl, hs1, hs2⟩ := runIntervals_spec ha hneg hg h2
    have hkeys := getIntervalList_keys h1
    have hat := (skelRun_at nodes hb k n hk hn).2 he
    have hord := pairwise_key hkeys (skelRun_order nodes hf).1
    rw [List.pairwise_cons] at hord
    rw [← hkeys, ← allEvents_flat, List.getElem?_map] at hat
    have hall : allEvents (p :: l) = p.events.map (fun e => (p, e)) ++ allEvents l := rfl
    rw [hall] at hat
    have hlen : s1.length = p.events.length := hs1.length_eq.symm
    -- the border stands where its interval ends
    have hfirst : ∀ (j : Nat) (m : TNode), nodes[j]? = some m → Border m → p.dist ≤ pos nodes j := by
      intro j m hm hbm
      obtain ⟨i, hi, hp⟩ := (skelRun_at nodes hb j m hm hbm).1
      rw [← hkeys] at hi
      obtain ⟨x, hx, rfl⟩ := List.mem_map.mp hi
      rw [← hp]
      rcases List.mem_cons.mp hx with rfl | hx
      · exact le_refl _
      · have : p.dist + 1 / 100 ≤ x.dist := hord.1 x hx
        show p.dist ≤ x.dist
        linarith
    by_cases hlt : (eventsOf 0 (nodes.take k)).length < p.events.length
    · rw [List.getElem?_append_left (by simpa using hlt), List.getElem?_map, List.getElem?_eq_getElem hlt] at hat
      simp only [Option.map_some, Option.some.injEq, Prod.mk.injEq] at hat
      rw [List.getElem?_append_left (by omega), List.getElem?_eq_getElem (by omega)]
      refine ⟨_, rfl, ?_⟩
      obtain ⟨g1, g2, g3⟩ := List.Forall₂.get hs1 hlt (by omega)
      simp only [List.get_eq_getElem] at g1 g2 g3
      rw [g1, hat.2.2]
      refine ⟨rfl, ?_, fun _ => ⟨g2, g3⟩⟩
      rintro ⟨j, m, hjk, hm, hbm⟩
      exfalso
      have hp := hfirst j m hm hbm
      have := hb j k m n hjk hm hk hbm hn
      rw [hat.1] at hp
      linarith
    · rw [List.getElem?_append_right (by simpa using hlt)] at hat
      simp only [List.length_map] at hat
      rw [List.getElem?_append_right (by omega), hlen]
      generalize (eventsOf 0 (nodes.take k)).length - p.events.length = x at hat
      cases hx : (allEvents l)[x]? with
      | none =>
        rw [hx] at hat
        simp at hat
      | some y =>
        rw [hx] at hat
        simp only [Option.map_some, Option.some.injEq, Prod.mk.injEq] at hat
        obtain ⟨hx1, hx2⟩ := List.getElem?_eq_some_iff.mp hx
        have hx3 : x < s2.length := by rw [← hs2.length_eq]; exact hx1
        rw [List.getElem?_eq_getElem hx3]
        refine ⟨_, rfl, ?_⟩
        have hfit := List.Forall₂.get hs2 hx1 hx3
        simp only [List.get_eq_getElem, hx2] at hfit
        refine ⟨?_, ?_, ?_⟩
        · rw [hfit.1, hat.2.2]
        · intro _ halt hh
          refine hfit.2 ?_ halt (by rw [hat.2.1, hh])
          rw [hat.2.2, hat.1]
          simp [eqVal_iff]
        · intro hno
          exfalso
          -- the first interval stands at an earlier border
          obtain ⟨j, m, hm, hbm, hp⟩ := skelRun_borders nodes (key p) (by rw [← hkeys]; simp)
          have hy : y.1 ∈ l := by
            have := List.mem_of_getElem? hx
            unfold allEvents at this
            obtain ⟨i, hi, hmem⟩ := List.mem_flatMap.mp this
            obtain ⟨e, -, rfl⟩ := List.mem_map.mp hmem
            exact hi
          have hlt' : p.dist + 1 / 100 ≤ y.1.dist := hord.1 y.1 hy
          rw [hat.1] at hlt'
          have hp' : p.dist = pos nodes j := hp
          rcases lt_trichotomy j k with hjk | hjk | hjk
          · exact hno ⟨j, m, hjk, hm, hbm⟩
          · rw [hjk] at hp'
            linarith
          · have := hb k j n m hjk hk hm hn hbm
            linarith

/-- C98: if the path ends at a border, there is exactly one timestamp for every recorded node, in order of the path. -/
theorem C98_nodes (ha : tp.deceleration = some d) (hneg : d < 0) (hf : Forward nodes) (n : TNode)
    (hl : nodes.getLast? = some n) (hn : Border n) (h : Calculated fuel tp start initial nodes l stamps) :
    stamps.map Stamp.node = (eventsOf 0 nodes).map Event.node := by
  obtain ⟨t, h1, h2, -⟩ := h
  rw [← C94_events fuel tp initial nodes l n hl hn h1]
  cases l with
  | nil => cases h2
  | cons p l =>
    obtain ⟨-, -, s1, s2, rfl, hs1, hs2⟩ := runIntervals_spec ha hneg (good_of_list hf h1) h2
    rw [List.flatMap_cons, List.map_append, List.map_append]
    congr 1
    · clear h1 h2 hs2
      generalize p.events = es at hs1
      induction hs1 with
      | nil => rfl
      | cons hx _ ih => simp [hx.1, ih]
    · have hflat : l.flatMap Interval.events = (allEvents l).map Prod.snd := by
        unfold allEvents
        rw [List.map_flatMap]
        congr 1
        funext i
        simp
      rw [hflat]
      clear h1 h2 hs1 hflat
      generalize allEvents l = es at hs2
      induction hs2 with
      | nil => rfl
      | cons hx _ ih => simp [hx.1, ih]

/-- C98: the halt indices are exactly the positions of the timestamps at halts, in order. -/
theorem C98_halt_indices (isHalt : Nat → Bool) (stamps : List Stamp) :
    haltIndices isHalt stamps = (List.range stamps.length).filter (fun k => (stamps[k]?.map (fun s => isHalt s.node)).getD false) := by
  unfold haltIndices
  have key : (stamps.foldl (fun acc s => (if isHalt s.node then acc.1 ++ [acc.2] else acc.1, acc.2 + 1)) (([] : List Nat), 0))
      = ((List.range stamps.length).filter (fun k => (stamps[k]?.map (fun s => isHalt s.node)).getD false), stamps.length) := by
    induction stamps using List.reverseRecOn with
    | nil => rfl
    | append_singleton pre s ih =>
      rw [List.foldl_append, ih]
      simp only [List.foldl_cons, List.foldl_nil, List.length_append, List.length_singleton, Prod.mk.injEq, and_true]
      rw [List.range_succ, List.filter_append]
      have hsame : (List.range pre.length).filter (fun k => ((pre ++ [s])[k]?.map (fun s => isHalt s.node)).getD false)
          = (List.range pre.length).filter (fun k => (pre[k]?.map (fun s => isHalt s.node)).getD false) := by
        refine List.filter_congr (fun k hk => ?_)
        rw [List.getElem?_append_left (List.mem_range.mp hk)]
      rw [hsame]
      cases hs : isHalt s.node <;> simp [hs]
  rw [key]

/-! ### Driving is possible -/

theorem rights_nonneg (ha : tp.deceleration = some d) (hneg : d < 0) (hi : 0 ≤ initial) (hn : LimitsNonneg nodes)
    (h : getIntervalList fuel tp initial nodes = .done l) : RightNonneg l :=
  adjustAll_inv RightNonneg (fun m c out hm h1 => by
    unfold adjust at hm
    cases m with
    | nil =>
      simp only [Outcome.done.injEq, Prod.mk.injEq] at hm
      rw [← hm.2]
      exact h1
    | cons i m =>
      simp only at hm
      cases ht : tp.topSpeed with
      | none =>
        rw [ht] at hm
        simp only at hm
        split at hm
        · rename_i h0
          simp only [Outcome.done.injEq, Prod.mk.injEq] at hm
          rw [← hm.2]
          subst h0
          exact h1
        · cases hm
      | some top =>
        rw [ht] at hm
        exact adjustFrom_nonneg ha hneg hm h1) h (rawIntervals_nonneg initial nodes hi hn)

/-- C99 for signals apart from other borders: the calculation is never refused: in no interval the room for braking is
missing, no event is without a time, and no limit is exceeded. Missing: signals less than a centimetre behind another
border, behind which limits do not chain (see C57 and the negation). -/
theorem C99_not_refused_partial (top : Rat) (p : Interval) (ha : tp.deceleration = some d) (hneg : d < 0)
    (htop : tp.topSpeed = some top) (h0 : 0 ≤ top) (hp : Pulls tp top) (hf : Forward nodes) (hs : SignalsApart nodes)
    (hi : 0 ≤ initial) (hn : LimitsNonneg nodes) (hl : getIntervalList fuel tp initial nodes = .done (p :: l)) :
    runIntervals fuel tp none start (p :: l) ≠ .bad := by
  have hr := rights_nonneg ha hneg hi hn hl
  have hd := drivableFrom_of ha hneg (chainR_list hs hl) (good_of_list hf hl) (stable_list htop hl)
    (fun i hi => hr i (by simp [hi]))
  unfold runIntervals
  exact map_not_bad (runFrom_not_bad ha hneg htop hp h0 start hd (le_refl _) (le_min (hr p (by simp)) h0))

/-- C99: the phases of an interval are as long as the interval; at its end the train is no faster than it has to be there and
it stands at a halt. -/
theorem C99_phases (fuel : Nat) (speed prevDist left top : Rat) (i : Interval) (p : Phases) (ha : tp.deceleration = some d)
    (hneg : d < 0) (htop : tp.topSpeed = some top) (hp : Pulls tp top) (h0 : 0 ≤ speed) (htop0 : 0 ≤ top)
    (hleft : i.left = some left) (hsp : speed ≤ min left top) (hlen : prevDist < i.dist) (hright : 0 ≤ i.right)
    (hfit : ∀ target, target = min (if i.halt.isSome then 0 else i.right) top → target < min left top →
        min left top * min left top - target * target ≤ 2 * -d * (i.dist - prevDist))
    (h : getPhases fuel tp speed prevDist i = .done p) :
    p.accel.dist + p.coast.dist + p.deaccel.dist = i.dist - prevDist ∧
      0 ≤ endSpeed p ∧ endSpeed p ≤ i.right ∧ endSpeed p ≤ top ∧ (i.halt.isSome → endSpeed p = 0) := by
  obtain ⟨_, top', -, htop', hok, hend⟩ := getPhases_spec ha hneg hlen.le h
  rw [htop] at htop'
  obtain rfl := Option.some.inj htop'
  have hdr : Drivable d top prevDist left i := by
    refine ⟨hleft, hlen, hright, ?_⟩
    intro left' hl' hlt
    rw [hleft] at hl'
    obtain rfl := Option.some.inj hl'
    have := hfit _ rfl hlt
    rw [div_le_iff₀ (by linarith)]
    show min left top * min left top - min (if i.halt.isSome then 0 else i.right) top * min (if i.halt.isSome then 0 else i.right) top ≤ _
    linarith
  have hnn := endSpeed_nonneg ha hneg htop hp htop0 hdr h0 hsp h
  refine ⟨hok.sum, hnn, hend.trans ((targetSpeed_right hright).trans (min_le_left _ _)),
    hend.trans (min_le_right _ _), fun hh => ?_⟩
  have : i.targetSpeed top ≤ 0 := by
    unfold Interval.targetSpeed
    rw [if_pos hh]
    exact min_le_left _ _
  linarith

/-! ### The calculation ends -/

theorem rights_pos (hi : 0 < initial) (hn : LimitsAll (fun v => 0 < v) nodes)
    (h : getIntervalList fuel tp initial nodes = .done l) : RightAll (fun v => 0 < v) l :=
  adjustAll_inv (RightAll (fun v => 0 < v)) (fun _ _ _ hm h1 => adjust_pos hm h1) h
    (rawIntervals_all (P := fun v => 0 < v) initial nodes hi hn).1

/-- behind the first border and behind every halt there is more room than the first step of the train and braking from it
take -/
def RoomBehindStops (d most : Rat) (l : List Interval) : Prop :=
  ∀ (k : Nat) (p i : Interval), l[k]? = some p → l[k + 1]? = some i → (k = 0 ∨ p.halt.isSome) →
    most / 2 < i.dist - p.dist ∧ most / 8 + most * most / (8 * -d) < i.dist - p.dist

theorem roomFrom_of {d most : Rat} (p : Interval) (l : List Interval) (stopped : Bool)
    (h : ∀ (k : Nat) (q i : Interval), (p :: l)[k]? = some q → (p :: l)[k + 1]? = some i → ((k = 0 ∧ stopped = true) ∨ (k ≠ 0 ∧ q.halt.isSome)) →
      most / 2 < i.dist - q.dist ∧ most / 8 + most * most / (8 * -d) < i.dist - q.dist) :
    RoomFrom d most stopped p.dist l := by
  induction l generalizing p stopped with
  | nil => trivial
  | cons i l ih =>
    refine ⟨fun hst => h 0 p i rfl rfl (Or.inl ⟨rfl, hst⟩), ih i i.halt.isSome ?_⟩
    intro k q j hq hj hk
    refine h (k + 1) q j (by simpa using hq) (by simpa using hj) (Or.inr ⟨by omega, ?_⟩)
    rcases hk with ⟨rfl, hk⟩ | ⟨-, hk⟩
    · simp only [List.getElem?_cons_zero, Option.some.injEq] at hq
      rw [← hq]
      exact hk
    · exact hk

/-- C100 with some room behind every stop: with enough fuel the calculation ends; in unbounded numbers it ends with
timestamps. Missing: no room behind a stop (see the negation). -/
theorem C100_ends_partial (f0 start : Nat) (tp : Train) (d top gain most initial : Rat) (nodes : List TNode) (l : List Interval)
    (ha : tp.deceleration = some d) (hneg : d < 0) (htop : tp.topSpeed = some top) (h0 : 0 < top) (hg : 0 < gain)
    (hst : Strong tp top gain most) (hf : Forward nodes) (hs : SignalsApart nodes) (hi : 0 < initial)
    (hn : LimitsAll (fun v => 0 < v) nodes) (hl : getIntervalList f0 tp initial nodes = .done l) (hne : l ≠ [])
    (hroom : RoomBehindStops d most l) :
    (∃ bound : Nat, ∀ fuel, bound < fuel → runtime fuel tp start initial nodes ≠ .running) ∧
    ∃ q, Physics.Spec.Returns (fun fuel => runIntervals fuel tp none start l) q := by
  cases l with
  | nil => exact absurd rfl hne
  | cons p l =>
    have hr := rights_pos hi hn hl
    have hd := drivableFrom_of ha hneg (chainR_list hs hl) (good_of_list hf hl) (stable_list htop hl)
      (fun i hi => (hr i (by simp [hi])).le)
    have hrm := roomFrom_of (d := d) (most := most) p l true (fun k q i hq hi hk => hroom k q i hq hi (by
      rcases hk with ⟨h1, -⟩ | ⟨-, h1⟩
      · exact Or.inl h1
      · exact Or.inr h1))
    have hrun : ∀ limit, Settles (fun fuel => runIntervals fuel tp limit start (p :: l)) := by
      intro limit
      unfold runIntervals
      exact settles_map (runFrom_settles ha hneg htop hg hst h0 l true 0 0 p.dist p.right hd (hr p (by simp))
        (fun i hi => hr i (by simp [hi])) hrm (le_min (hr p (by simp)).le h0.le) rfl)
    refine ⟨?_, ?_⟩
    · obtain ⟨b, o, ho, hb⟩ := hrun (some bits32)
      refine ⟨max b f0, fun fuel hf' => ?_⟩
      unfold runtime
      rw [getIntervalList_mono hl (show f0 ≤ fuel by omega)]
      simp only [Outcome.bind]
      have := hb fuel (by omega)
      simp only at this
      rw [this]
      cases o with
      | done a => simp [Outcome.map]
      | bad => simp [Outcome.map]
      | running => exact absurd rfl ho
    · obtain ⟨b, o, ho, hb⟩ := hrun none
      cases o with
      | done a => exact ⟨a, b, hb⟩
      | running => exact absurd rfl ho
      | bad =>
        exfalso
        have hn' : LimitsNonneg nodes := fun n hm x hx => (hn n hm x hx).le
        refine C99_not_refused_partial (fuel := max b f0 + 1) (start := start) top p ha hneg htop h0.le
          (pulls_of_strong hg hst) hf hs hi.le hn' (getIntervalList_mono hl (by omega)) (hb _ (by omega))

/-! ### Examples -/

theorem exTrain_strong : Strong exTrain 30 (50 / 53) (50 / 53) := by
  intro v h0 h1
  refine ⟨50 / 53, ?_, le_refl _, le_refl _⟩
  have h2 : exTrain.tractiveForce v = some 100 := by
    unfold Train.tractiveForce exTrain
    simp only [Train.sumForces, evalPieces]
    rw [List.find?_cons_of_pos (by simp; linarith)]
    simp [evalPoly]
  have h3 : exTrain.resistiveForce v = some 0 := by
    simp [Train.resistiveForce, exTrain, Train.sumForces, evalPoly]
  unfold Train.acceleration
  rw [h2, h3]
  simp only
  rw [if_neg (by decide +kernel)]
  decide +kernel

/-- C99 fails for a signal at the place of a speed limit: the limit that the signal announces then holds from there on but is not
braked for, the train is too fast when it gets there, and the distance to the halt is too short for braking. -/
theorem C99_not_refused_negation : ∃ (nodes : List TNode) (p : Interval) (l : List Interval), Forward nodes ∧ LimitsNonneg nodes ∧
    exTrain.deceleration = some (-1) ∧ exTrain.topSpeed = some 30 ∧ Pulls exTrain 30 ∧
    getIntervalList 100 exTrain 10 nodes = .done (p :: l) ∧ runIntervals 100 exTrain none 0 (p :: l) = .bad := by
  refine ⟨[exHalt 0 0 (some ⟨0, 0⟩), exLimit 1 100 10 true, exSignal 2 0, exLimit 3 10 5 false, exHalt 4 10 (some ⟨0, 100⟩)],
    { dist := 0, left := none, right := 10, halt := some ⟨0, 0⟩, events := [⟨0, 0⟩] },
    [{ dist := 100, left := some 10, right := 10, halt := none, events := [⟨1, 100⟩, ⟨2, 100⟩] },
     { dist := 120, left := some 5, right := 5, halt := some ⟨0, 100⟩, events := [⟨3, 110⟩, ⟨4, 120⟩] }],
    by unfold Forward; decide +kernel, ?_, by decide +kernel, by decide +kernel, ?_, by decide +kernel, by decide +kernel⟩
  · intro n hn l hl
    simp [exHalt, exSignal, exLimit, exNode] at hn
    rcases hn with rfl | rfl | rfl | rfl | rfl
    · simp at hl
    · simp at hl
      subst hl
      decide +kernel
    · simp at hl
    · simp at hl
      subst hl
      decide +kernel
    · simp at hl
  · exact pulls_of_strong (by decide +kernel) exTrain_strong

/-- the list of exNodes -/
def exList : List Interval :=
  [{ dist := 0, left := none, right := 18, halt := some ⟨30, 100⟩, events := [⟨0, 0⟩] },
   { dist := 50, left := some 18, right := 15, halt := none, events := [⟨1, 50⟩] },
   { dist := 160, left := some 15, right := 10, halt := none, events := [⟨2, 60⟩, ⟨3, 160⟩] },
   { dist := 360, left := some 10, right := 10, halt := some ⟨60, 500⟩, events := [⟨4, 360⟩] }]

def exStamps : List Stamp :=
  [{ arrival := 100, departure := 100, node := 0 }, { arrival := 110, departure := 110, node := 1 },
   { arrival := 111, departure := 111, node := 2 }, { arrival := 120, departure := 120, node := 3 },
   { arrival := 145, departure := 500, node := 4 }]

theorem exCalculated : Calculated 100 exTrain 100 20 exNodes exList exStamps :=
  ⟨400, by decide +kernel, by decide +kernel, by decide +kernel⟩

example : exTrain.deceleration = some (-1) ∧ Forward exNodes ∧ Calculated 100 exTrain 100 20 exNodes exList exStamps ∧
    runtime 100 exTrain 100 20 exNodes = .done exStamps := by
  refine ⟨rfl, ?_, exCalculated, by decide +kernel⟩
  unfold Forward
  decide +kernel

example : BordersApart exNodes ∧ exNodes[4]? = some (exHalt 4 200 (some ⟨60, 500⟩)) ∧ Border (exHalt 4 200 (some ⟨60, 500⟩)) ∧
    exStamps[(eventsOf 0 (exNodes.take 4)).length]? = some ⟨145, 500, 4⟩ ∧ Respected ⟨60, 500⟩ ⟨145, 500, 4⟩ ∧
    haltIndices (fun n => n == 0 || n == 4) exStamps = [0, 4] := by
  refine ⟨exNodes_bordersApart, rfl, ⟨rfl, Or.inr (Or.inl rfl)⟩, by decide +kernel, ?_, by decide +kernel⟩
  unfold Respected
  decide

theorem exNodes_limits : LimitsAll (fun v => 0 < v) exNodes := by
  intro n hn l hl
  simp [exNodes, exHalt, exSignal, exLimit, exNode] at hn
  rcases hn with rfl | rfl | rfl | rfl | rfl
  · simp at hl
  · simp at hl
  · simp at hl
    subst hl
    decide +kernel
  · simp at hl
    subst hl
    decide +kernel
  · simp at hl

example : exTrain.topSpeed = some 30 ∧ Strong exTrain 30 (50 / 53) (50 / 53) ∧ LimitsAll (fun v => 0 < v) exNodes ∧
    RoomBehindStops (-1) (50 / 53) exList := by
  refine ⟨by decide +kernel, exTrain_strong, exNodes_limits, ?_⟩
  intro k p i hp hi _
  have key : ∀ k : Fin 4, ∀ p ∈ exList[(k : Nat)]?, ∀ i ∈ exList[(k : Nat) + 1]?,
      (50 / 53 : Rat) / 2 < i.dist - p.dist ∧ (50 / 53 : Rat) / 8 + 50 / 53 * (50 / 53) / (8 * -(-1)) < i.dist - p.dist := by
    decide +kernel
  exact key ⟨k, (List.getElem?_eq_some_iff.mp hp).1⟩ p hp i hi

example : (∃ p, getPhases 100 exTrain 0 0 { dist := 50, left := some 10, right := 15, halt := some ⟨0, 0⟩, events := [] } = .done p) ∧
    (0 : Rat) ≤ min 10 30 ∧ min (10 : Rat) 30 * min 10 30 - 0 * 0 ≤ 2 * -(-1) * (50 - 0) := by
  refine ⟨?_, by decide +kernel, by decide +kernel⟩
  have h1 : getPhases 100 exTrain 0 0 { dist := 50, left := some 10, right := 15, halt := some ⟨0, 0⟩, events := [] } ≠ .bad := by
    decide +kernel
  have h2 : getPhases 100 exTrain 0 0 { dist := 50, left := some 10, right := 15, halt := some ⟨0, 0⟩, events := [] } ≠ .running := by
    decide +kernel
  cases h : getPhases 100 exTrain 0 0 { dist := 50, left := some 10, right := 15, halt := some ⟨0, 0⟩, events := [] } with
  | done p => exact ⟨p, rfl⟩
  | bad => exact absurd h h1
  | running => exact absurd h h2

/-- C56 fails beyond 32 bits: a halt without a planned departure has the greatest point in time as departure. The train
leaves then, and all later points in time wrap around. -/
theorem C56_order_negation :
    ¬ ∀ (fuel : Nat) (tp : Train) (d : Rat) (start : Nat) (initial : Rat) (nodes : List TNode) (stamps : List Stamp),
      tp.deceleration = some d → d < 0 → Forward nodes → BordersApart nodes →
      runtime fuel tp start initial nodes = .done stamps → InOrder stamps := by
  intro h
  have h1 := h 200 exTrain (-1) 100 20
    [exHalt 0 0 (some ⟨30, 100⟩), exHalt 1 200 (some ⟨30, 4294967295⟩), exHalt 2 200 (some ⟨60, 500⟩)]
    [{ arrival := 100, departure := 100, node := 0 }, { arrival := 129, departure := 4294967295, node := 1 },
     { arrival := 29, departure := 500, node := 2 }] rfl (by decide +kernel) (by unfold Forward; decide +kernel) (by
      intro i j _ _ hij _ hb _ _
      have hj := (List.getElem?_eq_some_iff.mp hb).1
      have : ∀ j : Fin 3, ∀ i : Fin 3, i < j →
          pos [exHalt 0 0 (some ⟨30, 100⟩), exHalt 1 200 (some ⟨30, 4294967295⟩), exHalt 2 200 (some ⟨60, 500⟩)] i + 1 / 100
            ≤ pos [exHalt 0 0 (some ⟨30, 100⟩), exHalt 1 200 (some ⟨30, 4294967295⟩), exHalt 2 200 (some ⟨60, 500⟩)] j := by
        decide +kernel
      exact this ⟨j, hj⟩ ⟨i, lt_trans hij hj⟩ hij) (by decide +kernel)
  have h2 := h1.1
  rw [List.pairwise_iff_getElem] at h2
  have := h2 0 2 (by simp) (by simp) (by omega)
  revert this
  unfold Before
  simp

/-- a signal 5 cm behind the halt the train starts at -/
def exClose : List TNode := [exHalt 0 0 (some ⟨30, 100⟩), exSignal 1 (1 / 20), exHalt 2 200 (some ⟨60, 500⟩)]

def exCloseList : List Interval :=
  [{ dist := 0, left := none, right := 10, halt := some ⟨30, 100⟩, events := [⟨0, 0⟩] },
   { dist := 1 / 20, left := some 10, right := 10, halt := none, events := [⟨1, 1 / 20⟩] },
   { dist := 4001 / 20, left := some 10, right := 10, halt := some ⟨60, 500⟩, events := [⟨2, 4001 / 20⟩] }]

/-- C100 fails: if the first step of the train is longer than the first interval, it is dropped, the train is left standing
and coasts with speed zero forever. -/
theorem C100_ends_negation :
    ¬ ∀ (start : Nat) (tp : Train) (d top gain most initial : Rat) (nodes : List TNode), tp.deceleration = some d → d < 0 →
      tp.topSpeed = some top → 0 < top → 0 < gain → Strong tp top gain most → Forward nodes → SignalsApart nodes → 0 < initial →
      LimitsAll (fun v => 0 < v) nodes →
      ∃ bound : Nat, ∀ fuel, bound < fuel → runtime fuel tp start initial nodes ≠ .running := by
  intro h
  obtain ⟨b, hb⟩ := h 100 exTrain (-1) 30 (50 / 53) (50 / 53) 10 exClose rfl (by decide +kernel) (by decide +kernel)
    (by decide +kernel) (by decide +kernel) exTrain_strong (by unfold Forward; decide +kernel) (by
      intro i j _ _ hij _ hb _ _ _
      have hj := (List.getElem?_eq_some_iff.mp hb).1
      have : ∀ j : Fin 3, ∀ i : Fin 3, i < j → pos exClose i + 1 / 100 ≤ pos exClose j := by decide +kernel
      exact this ⟨j, hj⟩ ⟨i, lt_trans hij hj⟩ hij) (by decide +kernel) (by
      intro n hn l hl
      simp [exClose, exHalt, exSignal, exNode] at hn
      rcases hn with rfl | rfl | rfl <;> simp at hl)
  refine hb (b + 100) (by omega) ?_
  have h1 : getIntervalList (b + 100) exTrain 10 exClose = .done exCloseList :=
    getIntervalList_mono (f := 100) (by decide +kernel) (by omega)
  have h2 : accelerate (b + 100) exTrain 0 10 (1 / 20) = .done [{ time := 0, dist := 0, speed := 0 }] :=
    accelerate_mono (n := 5) (by decide +kernel) (by omega)
  have h3 : Physics.coast (b + 100) 0 (1 / 20) = .running :=
    Physics.Props.C54_standing 0 (1 / 20) (le_refl _) (by decide +kernel) (b + 100)
  have h4 : accelPhase (b + 100) exTrain 0 10 (1 / 20) = .done (zeroResult, [{ time := 0, dist := 0, speed := 0 }]) := by
    unfold accelPhase
    rw [if_pos (by decide +kernel), h2]
    decide +kernel
  have h5 : getPhases (b + 100) exTrain 0 0
      { dist := 1 / 20, left := some 10, right := 10, halt := none, events := [⟨1, 1 / 20⟩] } = .running := by
    unfold getPhases
    rw [show exTrain.topSpeed = some 30 from by decide +kernel]
    simp only
    rw [show min (10 : Rat) 30 = 10 from by decide +kernel, show (1 / 20 : Rat) - 0 = 1 / 20 from by decide +kernel, h4]
    simp only [Outcome.bind]
    have h6 : brakePhase (b + 100) exTrain zeroResult.speed
        (Interval.targetSpeed { dist := 1 / 20, left := some 10, right := 10, halt := none, events := [⟨1, 1 / 20⟩] } 30) (1 / 20)
          = .done (zeroResult, []) := by
      unfold brakePhase
      rw [if_neg (by decide +kernel)]
    have h7 : ∀ t, joinPhases (b + 100) exTrain (1 / 20) t zeroResult.speed
        (zeroResult, [{ time := 0, dist := 0, speed := 0 }]) (zeroResult, []) = .done (zeroResult, 0, zeroResult, []) := by
      intro t
      unfold joinPhases
      rw [if_neg (by simp)]
      rfl
    rw [if_neg (by simp), h6]
    simp only
    rw [h7]
    simp only
    rw [if_pos (by simp)]
    unfold coastPhase
    rw [if_pos (by decide +kernel)]
    rw [show (1 / 20 : Rat) - zeroResult.dist - zeroResult.dist = 1 / 20 from by decide +kernel, h3]
    rfl
  unfold runtime
  rw [h1]
  simp only [Outcome.bind, exCloseList, runIntervals, runFrom, runInterval]
  rw [h5]
  rfl

end Soro.Runtime.Props
