import Verif.Proof.IntervalAdjust

/-
C57, C94-C97: the list of intervals of a train's path.
-/

namespace Soro.Runtime.Props

open Soro.Physics Soro.Runtime Soro.Runtime.Spec

theorem getIntervalList_key {fuel : Nat} {tp : Train} {initial : Rat} {nodes : List TNode} {l : List Interval}
    (h : getIntervalList fuel tp initial nodes = .done l) : l.map key = (skelRun nodes).list := by
  rw [adjustAll_key h, ← skel_rawIntervals initial]
  rfl

theorem key_getElem {l : List Interval} {k : Nat} {i : Interval} {m : List (Rat × Option Halt × List Event)}
    (h : l.map key = m) (hk : l[k]? = some i) : m[k]? = some (key i) := by
  rw [← h, List.getElem?_map, hk]
  rfl

/-- C57: the distances of the intervals increase, by at least a centimetre each. -/
theorem C57_increasing (fuel : Nat) (tp : Train) (initial : Rat) (nodes : List TNode) (l : List Interval)
    (hf : Forward nodes) (h : getIntervalList fuel tp initial nodes = .done l) : Increasing l := by
  intro j k a b hjk ha hb
  have hk := getIntervalList_key h
  obtain ⟨hj', hja⟩ := List.getElem?_eq_some_iff.mp (key_getElem hk ha)
  obtain ⟨hk', hkb⟩ := List.getElem?_eq_some_iff.mp (key_getElem hk hb)
  have := List.pairwise_iff_getElem.mp (skelRun_order nodes hf).1 j k hj' hk' hjk
  rw [hja, hkb] at this
  exact this

/-- C57 up to a centimetre: every event is not before the borders of the earlier intervals and at most a centimetre beyond
its own one. Missing: not beyond its own one at all (see the negation). -/
theorem C57_events_partial (fuel : Nat) (tp : Train) (initial : Rat) (nodes : List TNode) (l : List Interval)
    (hf : Forward nodes) (h : getIntervalList fuel tp initial nodes = .done l) : EventsInside (1 / 100) l := by
  intro k b e hb he
  have hk := getIntervalList_key h
  obtain ⟨-, -, -, h4, h5⟩ := skelRun_order nodes hf
  have hkb' := key_getElem hk hb
  refine ⟨(h4 (key b) (List.mem_of_getElem? hkb') e he).le, ?_⟩
  intro j a hjk ha
  obtain ⟨hj', hja⟩ := List.getElem?_eq_some_iff.mp (key_getElem hk ha)
  obtain ⟨hk', hkb⟩ := List.getElem?_eq_some_iff.mp hkb'
  have := List.pairwise_iff_getElem.mp h5 j k hj' hk' hjk
  rw [hja, hkb] at this
  exact this e he

/-- C57: exactly, if borders are at least a centimetre apart. -/
theorem C57_events_apart_partial (fuel : Nat) (tp : Train) (initial : Rat) (nodes : List TNode) (l : List Interval)
    (hf : Forward nodes) (hb : BordersApart nodes) (h : getIntervalList fuel tp initial nodes = .done l) : EventsInside 0 l := by
  intro k b e hkb he
  refine ⟨?_, (C57_events_partial fuel tp initial nodes l hf h k b e hkb he).2⟩
  have : e.dist ≤ b.dist :=
    skelRun_inside nodes hf hb (key b) (List.mem_of_getElem? (key_getElem (getIntervalList_key h) hkb)) e he
  simpa using this

/-- a train that brakes with 1 m/s² -/
def exTrain : Train :=
  { vehicles := [{ maxSpeed := 40, deceleration := -1, tractive := [{ poly := [100], lower := 0, upper := 40 }], resistance := [0] }]
    carriageWeight := 100, maxSpeed := 30 }

def exNode (id : Nat) (gap : Rat) : TNode :=
  { id := id, gap := gap, omitted := false, mainSignal := false, halt := false, isEvent := true, spl := none, extra := none
    stop := none }

def exHalt (id : Nat) (gap : Rat) (stop : Option Halt) : TNode := { exNode id gap with halt := true, stop := stop }
def exSignal (id : Nat) (gap : Rat) : TNode := { exNode id gap with mainSignal := true }
def exLimit (id : Nat) (gap : Rat) (v : Rat) (here : Bool) : TNode :=
  { exNode id gap with spl := some { general := true, effects := .all, limit := v, here := here } }

/-- a halt, a signal 50 m later, a limit for the last signal, a limit of its own, a halt -/
def exNodes : List TNode :=
  [exHalt 0 0 (some ⟨30, 100⟩), exSignal 1 50, exLimit 2 10 15 false, exLimit 3 100 10 true, exHalt 4 200 (some ⟨60, 500⟩)]

example : Forward exNodes ∧ getIntervalList 100 exTrain 20 exNodes = .done
    [{ dist := 0, left := none, right := 18, halt := some ⟨30, 100⟩, events := [⟨0, 0⟩] },
     { dist := 50, left := some 18, right := 15, halt := none, events := [⟨1, 50⟩] },
     { dist := 160, left := some 15, right := 10, halt := none, events := [⟨2, 60⟩, ⟨3, 160⟩] },
     { dist := 360, left := some 10, right := 10, halt := some ⟨60, 500⟩, events := [⟨4, 360⟩] }] := by
  refine ⟨?_, by decide +kernel⟩
  unfold Forward
  decide +kernel

/-- C57 fails: a border less than a centimetre behind another one is put into the interval of the first one, its event then
is beyond the border of its interval. -/
theorem C57_events_negation :
    ¬ ∀ (fuel : Nat) (tp : Train) (initial : Rat) (nodes : List TNode) (l : List Interval), Forward nodes →
      getIntervalList fuel tp initial nodes = .done l → EventsInside 0 l := by
  intro h
  have := h 10 exTrain 20 [exHalt 0 0 (some ⟨0, 0⟩), exSignal 1 (1 / 200)]
    [{ dist := 0, left := none, right := 20, halt := some ⟨0, 0⟩, events := [⟨0, 0⟩, ⟨1, 1 / 200⟩] }]
    (by unfold Forward; decide +kernel) (by decide +kernel) 0 _ ⟨1, 1 / 200⟩ rfl (by simp)
  revert this
  have : ¬ ((1 / 200 : Rat) ≤ 0 + 0) := by decide +kernel
  intro h
  exact this h.1

/-- C57 for signals apart from the borders before them: every left limit is the right limit of the interval before, also
after limits are set back to the last signal and after the adjustment. Missing: signals less than a centimetre behind
another border (see the negation). -/
theorem C57_chain_partial (fuel : Nat) (tp : Train) (initial : Rat) (nodes : List TNode) (l : List Interval)
    (hs : SignalsApart nodes) (h : getIntervalList fuel tp initial nodes = .done l) : Chained l := by
  rw [chained_iff]
  exact adjustAll_inv ChainR (fun _ _ _ hm h1 => adjust_chain hm h1) h (rawIntervals_limits initial nodes hs).1

theorem exNodes_pos : pos exNodes 0 = 0 ∧ pos exNodes 1 = 50 ∧ pos exNodes 2 = 60 ∧ pos exNodes 3 = 160 ∧
    pos exNodes 4 = 360 := by decide +kernel

theorem exNodes_apart (i j : Nat) (hij : i < j) (hj : j < 5) : pos exNodes i + 1 / 100 ≤ pos exNodes j := by
  have : ∀ j : Fin 5, ∀ i : Fin 5, i < j → pos exNodes i + 1 / 100 ≤ pos exNodes j := by decide +kernel
  exact this ⟨j, hj⟩ ⟨i, by omega⟩ hij

theorem exNodes_bordersApart : BordersApart exNodes := fun i j _ _ hij _ hb _ _ =>
  exNodes_apart i j hij (List.getElem?_eq_some_iff.mp hb).1

example : SignalsApart exNodes ∧ BordersApart exNodes ∧ getIntervalList 100 exTrain 20 exNodes ≠ .running :=
  ⟨fun i j _ _ hij _ hb _ _ _ => exNodes_apart i j hij (List.getElem?_eq_some_iff.mp hb).1, exNodes_bordersApart,
    by decide +kernel⟩

/-- C57 fails: the interval of a signal less than a centimetre behind another border is the one of that border, but the index
kept for the signal is the one of the next interval. A limit for the last signal then does not reach the interval of the
signal; the next interval starts with the new limit all the same. -/
theorem C57_chain_negation :
    ¬ ∀ (fuel : Nat) (tp : Train) (initial : Rat) (nodes : List TNode) (l : List Interval), Forward nodes →
      getIntervalList fuel tp initial nodes = .done l → Chained l := by
  intro h
  have := h 100 exTrain 10 [exHalt 0 0 (some ⟨0, 0⟩), exSignal 1 0, exLimit 2 10 5 false, exHalt 3 10 (some ⟨0, 100⟩)]
    [{ dist := 0, left := none, right := 10, halt := some ⟨0, 0⟩, events := [⟨0, 0⟩, ⟨1, 0⟩] },
     { dist := 20, left := some 5, right := 5, halt := some ⟨0, 100⟩, events := [⟨2, 10⟩, ⟨3, 20⟩] }]
    (by unfold Forward; decide +kernel) (by decide +kernel) 0 _ _ rfl rfl
  revert this
  decide +kernel

/-- C94: every event of the path is in the list exactly once, in order and with its distance, if the last node is a
border (the halt the train ends at). -/
theorem C94_events (fuel : Nat) (tp : Train) (initial : Rat) (nodes : List TNode) (l : List Interval) (n : TNode)
    (hl : nodes.getLast? = some n) (hn : Border n) (h : getIntervalList fuel tp initial nodes = .done l) :
    l.flatMap Interval.events = eventsOf 0 nodes := by
  have h1 := skelRun_events nodes
  rw [skelRun_pending nodes n hl hn, List.append_nil, ← getIntervalList_key h, List.flatMap_map] at h1
  exact h1

/-- C94: otherwise the events behind the last border are missing. -/
theorem C94_prefix (fuel : Nat) (tp : Train) (initial : Rat) (nodes : List TNode) (l : List Interval)
    (h : getIntervalList fuel tp initial nodes = .done l) : l.flatMap Interval.events <+: eventsOf 0 nodes := by
  have h1 := skelRun_events nodes
  rw [← getIntervalList_key h, List.flatMap_map] at h1
  exact ⟨_, h1⟩

example : exNodes.getLast? = some (exHalt 4 200 (some ⟨60, 500⟩)) ∧ Border (exHalt 4 200 (some ⟨60, 500⟩)) ∧
    eventsOf 0 exNodes = [⟨0, 0⟩, ⟨1, 50⟩, ⟨2, 60⟩, ⟨3, 160⟩, ⟨4, 360⟩] :=
  ⟨rfl, ⟨rfl, Or.inr (Or.inl rfl)⟩, by decide +kernel⟩

/-- C95 without limits for the last signal and with borders at least a centimetre apart: there is one interval per border,
in order, with its distance and its halt, and no faster limit than the one in force there. Missing: borders that are
closer (see the negation). -/
theorem C95_borders_partial (fuel : Nat) (tp : Train) (a initial : Rat) (nodes : List TNode) (l : List Interval)
    (ha : tp.deceleration = some a) (hneg : a < 0) (hs : ∀ n ∈ nodes, n.omitted = false → ¬ SignalLimit n)
    (hb : BordersApart nodes) (h : getIntervalList fuel tp initial nodes = .done l) :
    List.Forall₂ (fun b i => i.dist = b.1 ∧ i.halt = b.2.1 ∧ i.right ≤ b.2.2) (bordersOf 0 initial nodes) l := by
  rw [← (rawIntervals_rows initial nodes hs hb).1]
  have hsig : SignalsApart nodes := fun i j x y hij hx hy hbx ho hm => hb i j x y hij hx hy hbx ⟨ho, Or.inl hm⟩
  have h1 := adjustAll_lower ha hneg h (rawIntervals_limits initial nodes hsig).1
  have h2 := adjustAll_key h
  rw [List.forall₂_map_left_iff]
  clear h hs hb hsig
  revert h1 h2
  generalize (rawIntervals initial nodes).list = m
  intro h1 h2
  induction h1 with
  | nil => exact List.Forall₂.nil
  | cons h3 _ ih =>
    simp only [List.map_cons, List.cons.injEq] at h2
    have h4 : ∀ x y : Interval, key x = key y → x.dist = y.dist ∧ x.halt = y.halt := by
      intro x y hxy
      simp only [key, Prod.mk.injEq] at hxy
      exact ⟨hxy.1, hxy.2.1⟩
    exact List.Forall₂.cons ⟨(h4 _ _ h2.1).1, (h4 _ _ h2.1).2, h3⟩ (ih h2.2)

/-- a halt, a signal, a limit, a halt -/
def exNodes' : List TNode := [exHalt 0 0 (some ⟨30, 100⟩), exSignal 1 50, exLimit 3 110 10 true, exHalt 4 200 (some ⟨60, 500⟩)]

example : exTrain.deceleration = some (-1) ∧ (∀ n ∈ exNodes', n.omitted = false → ¬ SignalLimit n) ∧ BordersApart exNodes' ∧
    bordersOf 0 20 exNodes' = [(0, some ⟨30, 100⟩, 20), (50, none, 20), (160, none, 10), (360, some ⟨60, 500⟩, 10)] ∧
    getIntervalList 100 exTrain 20 exNodes' ≠ .running ∧ getIntervalList 100 exTrain 20 exNodes' ≠ .bad := by
  refine ⟨rfl, ?_, ?_, by decide +kernel, by decide +kernel, by decide +kernel⟩
  · intro n hn _ hs
    obtain ⟨l, hl, -, hh⟩ := hs
    simp [exNodes', exHalt, exSignal, exLimit, exNode] at hn
    rcases hn with rfl | rfl | rfl | rfl
    · simp at hl
    · simp at hl
    · simp at hl
      subst hl
      simp at hh
    · simp at hl
  · intro i j _ _ hij _ hb _ _
    have hj := (List.getElem?_eq_some_iff.mp hb).1
    have : ∀ j : Fin 4, ∀ i : Fin 4, i < j → pos exNodes' i + 1 / 100 ≤ pos exNodes' j := by decide +kernel
    exact this ⟨j, hj⟩ ⟨i, lt_trans hij hj⟩ hij

/-- C95 fails: of two halts less than a centimetre apart only the second one is left, with its stop time and departure. -/
theorem C95_halts_negation :
    ¬ ∀ (fuel : Nat) (tp : Train) (initial : Rat) (nodes : List TNode) (l : List Interval), Forward nodes →
      getIntervalList fuel tp initial nodes = .done l → ∀ n ∈ nodes, Border n → ∀ s, n.stop = some s →
        ∃ i ∈ l, i.halt = some s := by
  intro h
  have := h 10 exTrain 20 [exHalt 0 0 (some ⟨30, 100⟩), exHalt 1 0 (some ⟨0, 0⟩)]
    [{ dist := 0, left := none, right := 20, halt := some ⟨0, 0⟩, events := [⟨0, 0⟩, ⟨1, 0⟩] }]
    (by unfold Forward; decide +kernel) (by decide +kernel) (exHalt 0 0 (some ⟨30, 100⟩)) (by simp)
    ⟨rfl, Or.inr (Or.inl rfl)⟩ ⟨30, 100⟩ rfl
  revert this
  decide +kernel

/-! ### Adjusting to the braking distances -/

/-- C96: in the list that is returned the train can brake in every interval from the speed it may have there to the speed
it has to reach. -/
theorem C96_fits (fuel : Nat) (tp : Train) (a top initial : Rat) (nodes : List TNode) (l : List Interval)
    (ha : tp.deceleration = some a) (hneg : a < 0) (htop : tp.topSpeed = some top)
    (h : getIntervalList fuel tp initial nodes = .done l) :
    ∀ (k : Nat) (p i : Interval) (left : Rat), l[k]? = some p → l[k + 1]? = some i → i.left = some left →
      ∀ target, target = min (if i.halt.isSome then 0 else i.right) top → target < min left top →
        min left top * min left top - target * target ≤ 2 * -a * (i.dist - p.dist) := by
  obtain ⟨l', hl'⟩ := adjustAll_stable h
  intro k p i left hp hi hleft target htarget hlt
  unfold adjust at hl'
  cases l' with
  | nil =>
    simp only [Outcome.done.injEq, Prod.mk.injEq, true_and] at hl'
    rw [← hl'] at hp
    simp at hp
  | cons q l' =>
    rw [htop] at hl'
    simp only at hl'
    obtain ⟨rfl, hst⟩ := adjustFrom_false hl'
    have key : ∀ (m : List Interval) (q : Interval), stableFrom fuel tp top q.dist m → ∀ k, (q :: m)[k]? = some p →
        (q :: m)[k + 1]? = some i → Fits a top p.dist i := by
      intro m
      induction m with
      | nil => intro q _ k _ hk'; simp at hk'
      | cons j m ih =>
        intro q hq k hk hk'
        cases k with
        | zero =>
          simp at hk hk'
          subst hk hk'
          exact adjustOne_none ha hneg hq.1
        | succ k => exact ih j hq.2 k (by simpa using hk) (by simpa using hk')
    have hfit := key l' q hst k hp hi left hleft (by unfold Interval.targetSpeed; rw [← htarget]; exact hlt)
    unfold Interval.targetSpeed at hfit
    rw [← htarget, div_le_iff₀ (by linarith)] at hfit
    linarith

example : exTrain.deceleration = some (-1) ∧ exTrain.topSpeed = some 30 ∧
    getIntervalList 100 exTrain 30 [exHalt 0 0 (some ⟨0, 0⟩), exSignal 1 500, exHalt 2 50 (some ⟨0, 9⟩)] = .done
      [{ dist := 0, left := none, right := 30, halt := some ⟨0, 0⟩, events := [⟨0, 0⟩] },
       { dist := 500, left := some 30, right := 9, halt := none, events := [⟨1, 500⟩] },
       { dist := 550, left := some 9, right := 30, halt := some ⟨0, 9⟩, events := [⟨2, 550⟩] }] := by decide +kernel

/-- C96: limits are only lowered. -/
theorem C96_lowered (fuel : Nat) (tp : Train) (a initial : Rat) (nodes : List TNode) (l : List Interval)
    (ha : tp.deceleration = some a) (hneg : a < 0) (hs : SignalsApart nodes)
    (h : getIntervalList fuel tp initial nodes = .done l) :
    List.Forall₂ (fun before after : Interval => after.right ≤ before.right) (rawIntervals initial nodes).list l :=
  adjustAll_lower ha hneg h (rawIntervals_limits initial nodes hs).1

/-- C96: the adjustment ends: with enough fuel the call returns or throws. -/
theorem C96_ends (tp : Train) (a top initial : Rat) (nodes : List TNode) (ha : tp.deceleration = some a) (hneg : a < 0)
    (htop : tp.topSpeed = some top) (h0 : 0 ≤ top) (hi : 0 ≤ initial) (hn : LimitsNonneg nodes) :
    ∃ bound : Nat, ∀ fuel, bound < fuel → getIntervalList fuel tp initial nodes ≠ .running := by
  obtain ⟨b, hb⟩ := brakeDistance_done (top := top) ha hneg
  obtain ⟨n, hnt⟩ := exists_nat_gt top
  refine ⟨b + n + (rawIntervals initial nodes).list.length + 2, fun fuel hf => ?_⟩
  unfold getIntervalList
  have hnn := rawIntervals_nonneg initial nodes hi hn
  cases hl : (rawIntervals initial nodes).list with
  | nil =>
    obtain ⟨f, rfl⟩ : ∃ f, fuel = f + 1 := ⟨fuel - 1, by omega⟩
    simp [adjustAll, adjust]
  | cons p l =>
    rw [hl] at hf hnn
    simp only [List.length_cons] at hf
    exact adjustAll_ends ha hneg h0 htop (hb fuel (by omega)) ⟨n, hnt, by omega⟩ l.length fuel p l hnn
      (tailStable_all fuel tp top p l) (by omega)

example : exTrain.deceleration = some (-1) ∧ exTrain.topSpeed = some 30 ∧ LimitsNonneg exNodes := by
  refine ⟨rfl, by decide +kernel, ?_⟩
  intro n hn l hl
  simp [exNodes, exHalt, exSignal, exLimit, exNode] at hn
  rcases hn with rfl | rfl | rfl | rfl | rfl
  · simp at hl
  · simp at hl
  · simp at hl
    subst hl
    decide +kernel
  · simp at hl
    subst hl
    decide +kernel
  · simp at hl

/-- C96 fails to find a speed: it is lowered in steps of 1 m/s, and a speed of zero is refused. With a signal 10 cm before a
halt the call throws although a train could pass the signal with 0.4 m/s. -/
theorem C96_refused_negation :
    ¬ ∀ (fuel : Nat) (tp : Train) (a initial : Rat) (nodes : List TNode), tp.deceleration = some a → a < 0 → 0 < initial →
      Forward nodes → BordersApart nodes → (∀ n ∈ nodes, n.spl = none ∧ n.extra = none) →
      getIntervalList fuel tp initial nodes ≠ .bad := by
  intro h
  refine h 100 exTrain (-1) 20 [exHalt 0 0 (some ⟨0, 0⟩), exSignal 1 500, exHalt 2 (1 / 10) (some ⟨0, 0⟩)] rfl
    (by decide +kernel) (by decide +kernel) (by unfold Forward; decide +kernel) ?_ (by decide +kernel) (by decide +kernel)
  intro i j _ _ hij _ hb _ _
  have hj := (List.getElem?_eq_some_iff.mp hb).1
  have : ∀ j : Fin 3, ∀ i : Fin 3, i < j →
      pos [exHalt 0 0 (some ⟨0, 0⟩), exSignal 1 500, exHalt 2 (1 / 10) (some ⟨0, 0⟩)] i + 1 / 100
        ≤ pos [exHalt 0 0 (some ⟨0, 0⟩), exSignal 1 500, exHalt 2 (1 / 10) (some ⟨0, 0⟩)] j := by decide +kernel
  exact this ⟨j, hj⟩ ⟨i, lt_trans hij hj⟩ hij

/-! ### The limit at the start -/

/-- C97: the limits that affect the train -/
theorem C97_affects (l : Limit) : l.effective = true ↔ Affects l := by
  unfold Limit.effective Affects Units.eqVal
  simp only [Bool.and_eq_true, Bool.not_eq_true', decide_eq_false_iff_not, Bool.or_eq_true, decide_eq_true_eq, sub_zero,
    and_assoc, not_lt]
  refine and_congr_right fun _ => and_congr_left fun _ => ?_
  split
  · constructor
    · intro h; right; linarith
    · rintro (h | h) <;> linarith
  · constructor
    · exact Or.inl
    · rintro (h | h) <;> linarith

/-- C97 without the last node: the limit at the start is the one of the closest effective speed limit on the way back.
Missing: the node where the way back ends (see the negation). -/
theorem C97_initial_partial (inRoute behind : List (Option Limit)) (default : Rat) (before after : List (Option Limit))
    (l : Limit) (last : Option Limit) (hw : inRoute ++ behind = before ++ some l :: after ++ [last]) (hb : behind ≠ [])
    (hbefore : ∀ o ∈ before, ∀ m, o = some m → m.effective = false) (hl : l.effective = true) :
    initialLimit inRoute behind default = l.limit := by
  have hdrop : inRoute ++ behind.dropLast = before ++ some l :: after := by
    have := congrArg List.dropLast hw
    rw [List.dropLast_append_of_ne_nil hb, List.dropLast_concat] at this
    exact this
  unfold initialLimit
  rw [hdrop, List.findSome?_append]
  have hnone : before.findSome? limitOf = none := by
    rw [List.findSome?_eq_none_iff]
    intro o ho
    cases o with
    | none => rfl
    | some m => simp [limitOf, hbefore _ ho m rfl]
  rw [hnone]
  simp [limitOf, hl]

/-- C97: without an effective limit on the way back the default holds. -/
theorem C97_default (inRoute behind : List (Option Limit)) (default : Rat)
    (h : ∀ o ∈ inRoute ++ behind, ∀ m, o = some m → m.effective = false) :
    initialLimit inRoute behind default = default := by
  unfold initialLimit
  have hnone : (inRoute ++ behind.dropLast).findSome? limitOf = none := by
    rw [List.findSome?_eq_none_iff]
    intro o ho
    cases o with
    | none => rfl
    | some m =>
      have : some m ∈ inRoute ++ behind := by
        rcases List.mem_append.mp ho with ho | ho
        · exact List.mem_append.mpr (Or.inl ho)
        · exact List.mem_append.mpr (Or.inr (List.dropLast_subset _ ho))
      simp [limitOf, h _ this m rfl]
  rw [hnone]

def exSpl (v : Rat) : Limit := { general := true, effects := .all, limit := v, here := true }

example : (exSpl 10).effective = true ∧ ({ exSpl 10 with general := false } : Limit).effective = false ∧
    initialLimit [none, some { exSpl 10 with general := false }] [none, some (exSpl 20), none] 5 = 20 := by decide +kernel

/-- C97 fails for the node where the way back ends: its limit is not looked at. -/
theorem C97_end_negation :
    ¬ ∀ (inRoute behind : List (Option Limit)) (default : Rat) (l : Limit), l.effective = true →
      some l ∈ inRoute ++ behind → (∀ m, some m ∈ inRoute ++ behind → m = l) →
      initialLimit inRoute behind default = l.limit := by
  intro h
  have := h [none] [none, some (exSpl 20)] 5 (exSpl 20) (by decide +kernel) (by simp) (by simp)
  revert this
  decide +kernel

end Soro.Runtime.Props
