import Verif.Proof.Trip
import Verif.Props.Interlocking
import Verif.Props.OrderingGraph

/-! Property C163: the ordering graph of trains whose times are calculated. -/

namespace Soro.Trip.Props
open Soro.Route Soro.Route.Spec Soro.Runtime Soro.Runtime.Spec Soro.Runtime.Props Soro.Train Soro.Train.Spec Soro.Trip Soro.Trip.Spec
  Soro.OrderingGraph

/-- a train from halt to halt over routes of the interlocking, whose calculation ends with points in time of 32 bits -/
structure Fit (fuel : Nat) (i : Train.Infra) (f : Facts) (infos : List Interlocking.Info) (g : Interlocking.SRG) (irs : List IR)
    (s : Schedule) : Prop where
  routed : ∃ first last p q, Train.Wellformed i s.train first last p q ∧ Routed i f infos g s.train p q
  placed : AllPlaced i s.train
  path : s.path.map (irs[·]?) = s.train.path.map some
  brakes : ∃ d, s.physics.deceleration = some d ∧ d < 0
  early : s.start < 2 ^ 32
  calculated : ∀ nodes, nodesOf i f s = some nodes → ∃ l stamps, Calculated fuel s.physics s.start s.initial nodes l stamps

variable {fuel : Nat} {i : Train.Infra} {f : Facts} {infos : List Interlocking.Info} {g : Interlocking.SRG} {irs : List IR}

/-- C163: a train from halt to halt passes one main signal less than it uses routes. -/
theorem C163_signals (hs : SameSignals i f infos) {s : Schedule} {first last : IR} {p q : Nat × Nat}
    (hw : Train.Wellformed i s.train first last p q) (hr : Routed i f infos g s.train p q) (hp : AllPlaced i s.train) :
    ∃ nodes, nodesOf i f s = some nodes ∧ (eventsOf 0 nodes).length + 1 = s.train.path.length ∧
      ∀ n ∈ nodes, n.isEvent = true → n.mainSignal = true := by
  obtain ⟨x, rns, h1, h2⟩ := C47_start i s.train first last p q hw
  obtain ⟨l, h3, h4⟩ := C47_iterate i s.train first last p q hw
  rw [h1] at h3; cases h3
  obtain ⟨l, h5, h6, -⟩ := C48_in_order i s.train _ h1 hp
  refine ⟨tnodes f s x.node l, by simp [nodesOf, h2, h5], ?_, tnodes_events f s _ l⟩
  rw [eventsOf_length f s, h6, ← count_signals hw hr hs]
  congr 1
  have := congrArg (List.countP fun o => sigB f o) h4
  rw [List.countP_map, List.countP_map] at this
  exact this

theorem events_dist (s : Schedule) (pos : Nat → Rat) (prev : Nat) (l : List (RNode × Option Nat)) (d : Rat)
    (h : List.IsChain (fun a b => f.gap a b = pos b - pos a) (prev :: l.map (·.1.node))) :
    ∀ e ∈ eventsOf d (tnodes f s prev l), e.dist = d + (pos e.node - pos prev) := by
  induction l generalizing prev d with
  | nil => intro e he; cases he
  | cons x l ih =>
    rw [List.map_cons, List.isChain_cons_cons] at h
    intro e he
    rw [tnodes, eventsOf, List.mem_append] at he
    rcases he with he | he
    · split at he
      · rw [List.mem_singleton] at he
        subst he
        show d + f.gap prev x.1.node = d + (pos x.1.node - pos prev)
        rw [h.1]
      · cases he
    · rw [ih x.1.node _ h.2 e he]
      show d + f.gap prev x.1.node + _ = _
      rw [h.1]
      ring

/-- C163: the running time calculation measures along the path. If the nodes of the train have positions and the distances of
neighbouring nodes are the differences of these, every signal is met at its distance from the start of the train. -/
theorem C163_measured (s : Schedule) (pos : Nat → Rat) (n : Nat) (l : List (RNode × Option Nat))
    (hn : Train.startNode i s.train = some n) (hl : Train.iterate i s.train = some l)
    (h : List.IsChain (fun a b => f.gap a b = pos b - pos a) (n :: l.map (·.1.node))) :
    ∃ nodes, nodesOf i f s = some nodes ∧ ∀ e ∈ eventsOf 0 nodes, e.dist = pos e.node - pos n := by
  refine ⟨tnodes f s n l, by simp [nodesOf, hn, hl], fun e he => ?_⟩
  rw [events_dist s pos n l 0 h e he, zero_add]

theorem tnodes_forward (hf : ∀ a b, 0 ≤ f.gap a b) (s : Schedule) (prev : Nat) (l : List (RNode × Option Nat)) :
    Forward (tnodes f s prev l) := by
  induction l generalizing prev with
  | nil => intro n hn; cases hn
  | cons x l ih =>
    intro n hn
    rcases List.mem_cons.1 hn with rfl | hn
    · exact hf _ _
    · exact ih _ n hn

/-- C163: the running time calculation gives one timestamp less than the train uses routes. The signals are passed in this
order and none before the departure. Missing: times that need more than 32 bits (see C56), and break-in and break-out trains
(see the negation). -/
theorem C163_times_partial (hs : SameSignals i f infos) (hgap : ∀ a b, 0 ≤ f.gap a b) {s : Schedule}
    (h : Fit fuel i f infos g irs s) :
    ∃ stamps, timesOf fuel i f s = .done stamps ∧ stamps.length + 1 = s.path.length ∧ (∀ ir ∈ s.path, ir < irs.length) ∧
      stamps.Pairwise (fun a b => a.arrival ≤ b.arrival) ∧ ∀ x ∈ stamps, s.start ≤ x.arrival := by
  obtain ⟨first, last, p, q, hw, hr⟩ := h.routed
  obtain ⟨nodes, h1, h2, h3⟩ := C163_signals hs hw hr h.placed
  obtain ⟨l, stamps, hc⟩ := h.calculated nodes h1
  obtain ⟨d, hd, hneg⟩ := h.brakes
  have hf : Forward nodes := by
    unfold nodesOf at h1
    obtain ⟨n, -, h4⟩ := Option.bind_eq_some_iff.1 h1
    obtain ⟨l, -, rfl⟩ := Option.map_eq_some_iff.1 h4
    exact tnodes_forward hgap s n l
  obtain ⟨h4, ⟨h5, h6⟩, h7⟩ := C56_order_partial hd hneg hf h.early hc
  have hlen : stamps.length = (eventsOf 0 nodes).length := by
    obtain ⟨t, g1, g2, -⟩ := hc
    have hev : l.flatMap Interval.events = eventsOf 0 nodes := by
      have h8 := skelRun_events nodes
      rw [skelRun_signals nodes h3, List.append_nil, ← getIntervalList_keys g1, List.flatMap_map] at h8
      exact h8
    rw [← hev]
    cases l with
    | nil => cases g2
    | cons a l =>
      obtain ⟨-, -, s1, s2, rfl, hs1, hs2⟩ := runIntervals_spec hd hneg (good_of_list hf g1) g2
      rw [List.flatMap_cons, List.length_append, List.length_append, hs1.length_eq, ← hs2.length_eq]
      congr 1
      unfold allEvents
      simp [List.length_flatMap]
  have hpl : s.path.length = s.train.path.length := by
    have := congrArg List.length h.path
    simpa using this
  refine ⟨stamps, by simp [timesOf, h1, h4], by omega, ?_, ?_, h7⟩
  · intro ir hir
    have : (irs[ir]?) ∈ s.train.path.map some := by rw [← h.path]; exact List.mem_map.2 ⟨ir, hir, rfl⟩
    obtain ⟨x, -, hx⟩ := List.mem_map.1 this
    exact (List.getElem?_eq_some_iff.1 hx.symm).1
  · refine List.Pairwise.imp_of_mem (R := Before) ?_ h5
    intro a b ha hb hab
    rcases hab with hab | ⟨hab, -⟩
    · exact (h6 a ha).trans hab
    · omega

/-- what `orderTrain` hands to the constructor -/
structure Prepared (s : Schedule) (irCount : Nat) (t : OTrain) : Prop where
  id : t.id = s.id
  anchors : t.anchors = s.anchors
  path : t.path = s.path
  known : ∀ ir ∈ t.path, ir < irCount
  length : t.times ≠ [] → t.path.length = t.times.length + 1
  fits : t.anchors ≠ [] → t.path.length = t.times.length + 1
  order : ∀ a p, p + 1 < t.path.length → t.times ≠ [] → startTime t a p ≤ startTime t a (p + 1)

theorem orderTrain_spec (hs : SameSignals i f infos) (hgap : ∀ a b, 0 ≤ f.gap a b) {s : Schedule} (h : Fit fuel i f infos g irs s) :
    ∃ t, orderTrain fuel i f s = .done t ∧ Prepared s irs.length t := by
  obtain ⟨stamps, h1, h2, h3, h4, h5⟩ := C163_times_partial hs hgap h
  unfold orderTrain
  by_cases ha : s.anchors = []
  · refine ⟨_, if_pos ha, rfl, rfl, rfl, h3, fun h => absurd rfl h, fun h => absurd ha h, fun _ _ _ h => absurd rfl h⟩
  · refine ⟨_, by rw [if_neg ha, h1]; rfl, rfl, rfl, rfl, h3, fun _ => by simp; omega, fun _ => by simp; omega, ?_⟩
    intro a p hp _
    simp only at hp
    have hlt : p < stamps.length := by omega
    cases p with
    | zero =>
      simp only [startTime, List.getElem?_map, List.getElem?_eq_getElem hlt, Option.map_some, Option.getD_some]
      have := h5 _ (List.getElem_mem hlt)
      omega
    | succ p =>
      simp only [startTime, List.getElem?_map, List.getElem?_eq_getElem hlt,
        List.getElem?_eq_getElem (show p < stamps.length by omega), Option.map_some, Option.getD_some]
      have := List.pairwise_iff_getElem.1 h4 p (p + 1) (by omega) hlt (by omega)
      omega

theorem orderTrains_spec (hs : SameSignals i f infos) (hgap : ∀ a b, 0 ≤ f.gap a b) (l : List Schedule)
    (h : ∀ s ∈ l, Fit fuel i f infos g irs s) :
    ∃ ts, orderTrains fuel i f l = .done ts ∧ List.Forall₂ (fun s t => Prepared s irs.length t) l ts := by
  induction l with
  | nil => exact ⟨[], rfl, .nil⟩
  | cons s l ih =>
    obtain ⟨t, h1, h2⟩ := orderTrain_spec hs hgap (h s (by simp))
    obtain ⟨ts, h3, h4⟩ := ih fun x hx => h x (by simp [hx])
    exact ⟨t :: ts, by simp [orderTrains, h1, h3, Physics.Outcome.bind, Physics.Outcome.map], .cons h2 h4⟩

theorem forall₂_right {α β : Type} {R : α → β → Prop} {l : List α} {m : List β} (h : List.Forall₂ R l m) :
    ∀ b ∈ m, ∃ a ∈ l, R a b := by
  induction h with
  | nil => intro b hb; cases hb
  | cons hab _ ih =>
    intro b hb
    rcases List.mem_cons.1 hb with rfl | hb
    · exact ⟨_, by simp, hab⟩
    · obtain ⟨a, ha, hr⟩ := ih b hb
      exact ⟨a, by simp [ha], hr⟩

/-- C163: for trains from halt to halt the ordering graph is constructed without an access out of range, start times do not
decrease along any trip, and if usages that start in the same second stay in the order they were added, the graph has no
cycle. Missing: other trains (see the negation), and sorting algorithms that swap usages of the same second (see
`C163_same_second` and `C23_tie_cycle`). -/
theorem C163_graph_partial (hs : SameSignals i f infos) (hgap : ∀ a b, 0 ≤ f.gap a b)
    {srt : Nat → List Usage → List Usage} (hsrt : IsSorter srt) {setCount : Nat} {irsToSets : List (List Nat)}
    (hirs : irsToSets.length = irs.length) (hsets : ∀ ks ∈ irsToSets, ∀ k ∈ ks, k < setCount) (hnd : ∀ ks ∈ irsToSets, ks.Nodup)
    {filter : List Nat} {trains : List Schedule}
    (h : ∀ s ∈ trains, (filter = [] ∨ s.id ∈ filter) → Fit fuel i f infos g irs s) :
    ∃ ts gr m, orderTrains fuel i f (trains.filter fun s => decide (filter = []) || decide (s.id ∈ filter)) = .done ts ∧
      graphOf fuel i f srt setCount irsToSets filter trains = .done (some (gr, m)) ∧
      construct srt setCount irsToSets filter ts = some (gr, m) ∧
      List.Forall₂ (fun s t => t.id = s.id ∧ t.path = s.path ∧ t.anchors = s.anchors)
        (trains.filter fun s => decide (filter = []) || decide (s.id ∈ filter)) ts ∧
      (∀ t ∈ allTrips filter ts, t.1.path.length = t.1.times.length + 1 ∧
        ∀ p, p + 1 < t.1.path.length → startTime t.1 t.2 p ≤ startTime t.1 t.2 (p + 1)) ∧
      (IsStable srt → Acyclic gr.out) := by
  obtain ⟨ts, h1, h2⟩ := orderTrains_spec (irs := irs) hs hgap (trains.filter fun s => decide (filter = []) || decide (s.id ∈ filter))
    (fun s hs' => by
      obtain ⟨h3, h4⟩ := List.mem_filter.1 hs'
      exact h s h3 (by simpa using h4))
  have hsel : ∀ t ∈ selected filter ts, t.path.length = t.times.length + 1 ∧ (∀ ir ∈ t.path, ir < irsToSets.length) ∧
      ∀ a p, p + 1 < t.path.length → startTime t a p ≤ startTime t a (p + 1) := by
    intro t ht
    unfold selected at ht
    obtain ⟨h3, h4⟩ := List.mem_filter.1 ht
    obtain ⟨s, -, hp⟩ := forall₂_right h2 t h3
    have hne : t.times ≠ [] := by
      intro h0
      simp [h0] at h4
    exact ⟨hp.length hne, by rw [hirs]; exact hp.known, fun a p h5 => hp.order a p h5 hne⟩
  have htrip : ∀ t ∈ allTrips filter ts, t.1 ∈ selected filter ts := by
    intro t ht
    unfold allTrips at ht
    obtain ⟨x, hx, h3⟩ := List.mem_flatMap.1 ht
    obtain ⟨a, -, rfl⟩ := List.mem_map.1 h3
    exact hx
  have hwf : OrderingGraph.WellFormed setCount irsToSets filter ts := ⟨fun t ht => ⟨(hsel t ht).1, (hsel t ht).2.1⟩, hsets⟩
  obtain ⟨gr, gr', h3, h4, -⟩ := construct_spec hsrt hwf
  refine ⟨ts, gr', _, h1, ?_, h4, h2.imp fun _ _ hp => ⟨hp.id, hp.path, hp.anchors⟩, fun t ht =>
    ⟨(hsel t.1 (htrip t ht)).1, fun p hp => (hsel t.1 (htrip t ht)).2.2 t.2 p hp⟩, fun hst => ?_⟩
  · unfold graphOf
    rw [h1]
    simp only [Physics.Outcome.map, h4]
  · obtain ⟨g1, g2, m, -, h5, -, h6⟩ := C23_acyclic_stable hsrt hst hwf hnd
      (fun t ht p hp => (hsel t.1 (htrip t ht)).2.2 t.2 p hp)
    rw [h4] at h5
    cases h5
    exact h6

/-! ### Examples -/

/-- two station routes: halt, main signal, border and border, main signal, halt -/
def exInfra : Train.Infra :=
  { routes := [⟨[0, 1, 2], [], []⟩, ⟨[3, 4, 5], [], []⟩], stops := [⟨none, some 0, none⟩, ⟨none, some 2, none⟩] }

def exFacts (d : Rat) : Facts :=
  { kind := fun n => match n with
      | 0 => .halt | 1 => .mainSignal | 4 => .mainSignal | 5 => .halt | _ => .border
    gap := fun a b => if a = b ∨ b = 2 ∨ b = 3 then 0 else if b = 4 then d else 52
    spl := fun _ => none
    extra := fun _ _ => none }

def exInfos : List Interlocking.Info := [⟨3, [1], false⟩, ⟨3, [1], false⟩]
def exSrg : Interlocking.SRG := ⟨[[1], []], [[], [0]]⟩
def exIrs : List IR := [⟨1, 2, [0, 1]⟩, ⟨0, 2, [0]⟩, ⟨1, 3, [1]⟩]

def exSchedule (breakIn : Bool) (id : Nat) : Schedule :=
  { id := id, path := if breakIn then [0, 2] else [1, 0, 2]
    train := { breakIn := breakIn, breakOut := false, freight := false
               path := if breakIn then [⟨1, 2, [0, 1]⟩, ⟨1, 3, [1]⟩] else [⟨0, 2, [0]⟩, ⟨1, 2, [0, 1]⟩, ⟨1, 3, [1]⟩]
               points := if breakIn then [⟨.passenger, true, 1⟩] else [⟨.passenger, true, 0⟩, ⟨.passenger, true, 1⟩] }
    anchors := [0, 86400], start := 100, lastArrival := 600, physics := exTrain, initial := 20, halts := fun _ => ⟨0, 0⟩ }

/-- the trains use routes of the interlocking -/
theorem exIrs_routes : Interlocking.getRoutes exInfos exSrg = some exIrs := by decide

theorem exRoutes : ∀ ir ∈ exIrs, Interlocking.Spec.SignalRoute exInfra.routes exInfos exSrg ir := by
  intro ir hir
  refine (Interlocking.C37_sound exInfra.routes exInfos exSrg ⟨rfl, by decide, by decide, by decide, rfl, by decide⟩ exIrs
    exIrs_routes ir hir).1

theorem exSame (d : Rat) : SameSignals exInfra (exFacts d) exInfos := by
  intro s k
  unfold Interlocking.Spec.Signal SignalAt
  match s, k with
  | 0, 0 => simp [exInfos, exInfra, exFacts, shownAt, shown]
  | 0, 1 => simp [exInfos, exInfra, exFacts, shownAt, shown]
  | 0, 2 => simp [exInfos, exInfra, exFacts, shownAt, shown]
  | 0, k + 3 => simp [exInfos, exInfra, exFacts, shownAt, shown]
  | 1, 0 => simp [exInfos, exInfra, exFacts, shownAt, shown]
  | 1, 1 => simp [exInfos, exInfra, exFacts, shownAt, shown]
  | 1, 2 => simp [exInfos, exInfra, exFacts, shownAt, shown]
  | 1, k + 3 => simp [exInfos, exInfra, exFacts, shownAt, shown]
  | s + 2, k => simp [exInfos, exInfra, shownAt]

/-- the timestamps of a train, if the second signal is `d` metres behind the first one -/
theorem exFit (d : Rat) (l : List Interval) (stamps : List Stamp) (id : Nat)
    (h : ∀ nodes, nodesOf exInfra (exFacts d) (exSchedule false id) = some nodes →
      Calculated 100 exTrain 100 20 nodes l stamps) : Fit 100 exInfra (exFacts d) exInfos exSrg exIrs (exSchedule false id) := by
  refine ⟨⟨⟨0, 2, [0]⟩, ⟨1, 3, [1]⟩, (0, 0), (1, 2), ⟨by decide, rfl, rfl, ?_, fun _ => ?_, fun _ => ?_, fun h => absurd h (by simp [exSchedule])⟩,
    ⟨rfl, rfl, fun ir hir => exRoutes ir ?_, ?_, ?_, ?_, ?_⟩⟩, ?_, rfl, ⟨-1, rfl, by decide⟩, by simp [exSchedule],
    fun nodes hn => ⟨l, stamps, h nodes hn⟩⟩
  · intro ir hir
    simp [exSchedule] at hir
    rcases hir with rfl | rfl | rfl
    all_goals
      refine ⟨by decide, by decide, by decide, ?_, ?_, by decide⟩
      · intro s r h1 h2
        cases h1; cases h2
        decide
      · intro s r h1 h2
        cases h1; cases h2
        decide
  · exact ⟨⟨_, rfl, rfl, .passengerHalt _ rfl (by decide) rfl rfl⟩, by decide⟩
  · exact ⟨⟨_, rfl, rfl, .passengerHalt _ rfl (by decide) rfl rfl⟩, by decide⟩
  · simp [exSchedule] at hir
    rcases hir with rfl | rfl | rfl <;> decide
  · intro ir hir
    simp [exSchedule] at hir
    rcases hir with rfl | rfl | rfl <;> decide
  · intro ir hir x hx
    simp [exSchedule] at hir
    rcases hir with rfl | rfl
    · have : (positions exInfra.routes ⟨0, 2, [0]⟩).getLast? = some (0, 1) := by decide
      rw [this] at hx; cases hx
      exact ⟨1, rfl, rfl⟩
    · have : (positions exInfra.routes ⟨1, 2, [0, 1]⟩).getLast? = some (1, 1) := by decide
      rw [this] at hx; cases hx
      exact ⟨4, rfl, rfl⟩
  · rintro ⟨n, h1, h2⟩
    have : shownAt exInfra.routes (0, 0) = some (0, false) := by decide
    rw [this] at h1; cases h1; cases h2
  · rintro ⟨n, h1, h2⟩
    have : shownAt exInfra.routes (1, 2) = some (5, false) := by decide
    rw [this] at h1; cases h1; cases h2
  · intro sp hsp
    simp [exSchedule] at hsp
    rcases hsp with rfl | rfl
    · exact ⟨0, 0, .passengerHalt _ rfl (by decide) rfl rfl, rfl⟩
    · exact ⟨2, 5, .passengerHalt _ rfl (by decide) rfl rfl, rfl⟩

theorem exGap (d : Rat) (h : 0 ≤ d) : ∀ a b, 0 ≤ (exFacts d).gap a b := by
  intro a b
  simp only [exFacts]
  split
  · exact le_refl _
  · split
    · exact h
    · decide +kernel

def exLong : List Interval :=
  [{ dist := 0, left := none, right := 19, halt := some ⟨0, 0⟩, events := [] },
   { dist := 52, left := some 19, right := 17, halt := none, events := [⟨1, 52⟩] },
   { dist := 152, left := some 17, right := 10, halt := none, events := [⟨4, 152⟩] },
   { dist := 204, left := some 10, right := 20, halt := some ⟨0, 0⟩, events := [] }]

def exShort : List Interval :=
  [{ dist := 0, left := none, right := 14, halt := some ⟨0, 0⟩, events := [] },
   { dist := 52, left := some 14, right := 10, halt := none, events := [⟨1, 52⟩] },
   { dist := 53, left := some 10, right := 10, halt := none, events := [⟨4, 53⟩] },
   { dist := 105, left := some 10, right := 20, halt := some ⟨0, 0⟩, events := [] }]

theorem exNodes_of (d : Rat) (id : Nat) : nodesOf exInfra (exFacts d) (exSchedule false id) =
    nodesOf exInfra (exFacts d) (exSchedule false 0) := rfl

/-- the nodes of the example trains -/
def exPath (d : Rat) : List TNode := (nodesOf exInfra (exFacts d) (exSchedule false 0)).getD []

theorem exFit_long (id : Nat) : Fit 100 exInfra (exFacts 100) exInfos exSrg exIrs (exSchedule false id) := by
  refine exFit 100 exLong [⟨110, 110, 1⟩, ⟨119, 119, 4⟩] id fun nodes hn => ?_
  have : nodes = exPath 100 := by
    rw [exNodes_of] at hn
    simp [exPath, hn]
  subst this
  exact ⟨59 / 2, by decide +kernel, by decide +kernel, by decide +kernel⟩

theorem exFit_short (id : Nat) : Fit 100 exInfra (exFacts 1) exInfos exSrg exIrs (exSchedule false id) := by
  refine exFit 1 exShort [⟨110, 110, 1⟩, ⟨110, 110, 4⟩] id fun nodes hn => ?_
  have : nodes = exPath 1 := by
    rw [exNodes_of] at hn
    simp [exPath, hn]
  subst this
  exact ⟨21, by decide +kernel, by decide +kernel, by decide +kernel⟩

/-- the hypotheses of C163 hold for two trains with two departures each -/
example : SameSignals exInfra (exFacts 100) exInfos ∧ (∀ a b, 0 ≤ (exFacts 100).gap a b) ∧ IsSorter sortUsages ∧
    (∀ s ∈ [exSchedule false 7, exSchedule false 8], Fit 100 exInfra (exFacts 100) exInfos exSrg exIrs s) ∧
    timesOf 100 exInfra (exFacts 100) (exSchedule false 7) = .done [⟨110, 110, 1⟩, ⟨119, 119, 4⟩] := by
  refine ⟨exSame _, exGap _ (by decide +kernel), sortUsages_spec, fun s hs => ?_, by decide +kernel⟩
  simp at hs
  rcases hs with rfl | rfl <;> exact exFit_long _

/-- the train of the example meets its signals 52 m and 152 m behind its start -/
def exPos (n : Nat) : Rat := match n with
  | 0 => 0 | 1 => 52 | 2 => 52 | 3 => 52 | 4 => 152 | _ => 204

example : ∃ n l, Train.startNode exInfra (exSchedule false 7).train = some n ∧ Train.iterate exInfra (exSchedule false 7).train = some l ∧
    List.IsChain (fun a b => (exFacts 100).gap a b = exPos b - exPos a) (n :: l.map (·.1.node)) ∧ exPos 1 - exPos n = 52 ∧
    exPos 4 - exPos n = 152 := by
  refine ⟨0, _, rfl, rfl, ?_, by decide +kernel, by decide +kernel⟩
  decide +kernel

/-- Two signals can be passed in the same second: the start times along a trip need not increase, as C23 and C161 assume. -/
theorem C163_same_second : SameSignals exInfra (exFacts 1) exInfos ∧ (∀ a b, 0 ≤ (exFacts 1).gap a b) ∧
    Fit 100 exInfra (exFacts 1) exInfos exSrg exIrs (exSchedule false 7) ∧
    timesOf 100 exInfra (exFacts 1) (exSchedule false 7) = .done [⟨110, 110, 1⟩, ⟨110, 110, 4⟩] :=
  ⟨exSame _, exGap _ (by decide +kernel), exFit_short 7, by decide +kernel⟩

/-- C163 fails for trains that enter the network at a main signal (break-in): this signal gets a timestamp, too, there is one
node too many, and the last one is written behind the end of the nodes. Release builds only; debug builds stop with an
assertion in the running time calculation. -/
theorem C163_break_in_negation : ∃ (i : Train.Infra) (f : Facts) (infos : List Interlocking.Info) (g : Interlocking.SRG)
    (irs : List IR) (s : Schedule) (first last : IR) (p q : Nat × Nat), SameSignals i f infos ∧
    Interlocking.getRoutes infos g = some irs ∧ Train.Wellformed i s.train first last p q ∧ AllPlaced i s.train ∧
    s.path.map (irs[·]?) = s.train.path.map some ∧ s.train.breakIn = true ∧
    ∀ srt irsToSets, irsToSets.length = irs.length → (∀ ks ∈ irsToSets, ks = []) →
      graphOf 100 i f srt 0 irsToSets [] [s] = .done none := by
  refine ⟨exInfra, exFacts 100, exInfos, exSrg, exIrs, exSchedule true 7, ⟨1, 2, [0, 1]⟩, ⟨1, 3, [1]⟩, (0, 0), (1, 2), exSame _,
    exIrs_routes, ⟨by decide, rfl, rfl, ?_, fun h => absurd h (by decide), fun _ => ?_, fun h => absurd h (by decide)⟩, ?_, rfl, rfl, ?_⟩
  · intro ir hir
    simp [exSchedule] at hir
    rcases hir with rfl | rfl
    all_goals
      refine ⟨by decide, by decide, by decide, ?_, ?_, by decide⟩
      · intro s r h1 h2
        cases h1; cases h2
        decide
      · intro s r h1 h2
        cases h1; cases h2
        decide
  · exact ⟨⟨_, rfl, rfl, .passengerHalt _ rfl (by decide) rfl rfl⟩, by decide⟩
  · intro sp hsp
    simp [exSchedule] at hsp
    subst hsp
    · exact ⟨2, 5, .passengerHalt _ rfl (by decide) rfl rfl, rfl⟩
  · intro srt irsToSets hlen hempty
    have h1 : timesOf 100 exInfra (exFacts 100) (exSchedule true 7) = .done [⟨100, 100, 1⟩, ⟨115, 115, 4⟩] := by decide +kernel
    match irsToSets, hlen with
    | [a, b, c], _ =>
      obtain rfl := hempty a (by simp)
      obtain rfl := hempty b (by simp)
      obtain rfl := hempty c (by simp)
      have h2 : orderTrain 100 exInfra (exFacts 100) (exSchedule true 7) =
          .done ⟨7, [0, 2], [0, 86400], 100, 600, [(100, 100), (115, 115)]⟩ := by
        unfold orderTrain
        rw [if_neg (by decide), h1]
        rfl
      simp only [graphOf, List.filter_cons, decide_true, Bool.true_or, if_true, List.filter_nil, orderTrains, h2,
        Physics.Outcome.bind, Physics.Outcome.map]
      congr 1

end Soro.Trip.Props
