import Verif.Proof.OrderingGraphDebug
import Verif.Props.Trip

/-! Property C176: the assertions of the ordering graph. -/

namespace Soro
open OGraph OrderingGraph Dbg

/-- C176. With ids in range the constructor does the same in both builds if every requested train that departs in the interval
has one route more than timestamps, and is stopped by an assertion otherwise. -/
theorem C176_construct {srt : Nat → List Usage → List Usage} (hs : IsSorter srt) {setCount : Nat}
    {irsToSets : List (List Nat)} {filter : List Nat} {trains : List OTrain} (hr : InRange setCount irsToSets trains) :
    ((∀ tr ∈ trains, Used filter tr → Fits tr) →
      SameAs (constructD srt setCount irsToSets filter trains) (construct srt setCount irsToSets filter trains)) ∧
    (¬ (∀ tr ∈ trains, Used filter tr → Fits tr) → Stops (constructD srt setCount irsToSets filter trains)) := by
  constructor
  · intro hf
    obtain ⟨g, g', -, h1, -⟩ := construct_spec hs (wellFormed_departing hr hf)
    rw [construct_departing] at h1
    exact ⟨_, h1, by rw [constructD_ok hf, h1]; rfl⟩
  · intro h
    refine constructD_stops hs hr ?_
    apply Classical.byContradiction
    intro hne
    exact h fun tr htr hu => Classical.not_not.1 fun hf => hne ⟨tr, htr, hu, hf⟩

example : IsSorter sortUsages ∧ InRange 3 exIrsToSets exTrains ∧ (∀ tr ∈ exTrains, Used [] tr → Fits tr) ∧
    InRange 0 [[], [], []] [⟨7, [0, 1, 2], [0], 0, 20, [(10, 10)]⟩] ∧
    ¬ (∀ tr ∈ [(⟨7, [0, 1, 2], [0], 0, 20, [(10, 10)]⟩ : OTrain)], Used [] tr → Fits tr) := by
  refine ⟨sortUsages_spec, by constructor <;> decide, fun tr htr _ => ?_, by constructor <;> decide, fun h => ?_⟩
  · have h : ∀ tr ∈ exTrains, Fits tr := by decide
    exact h tr htr
  · exact absurd (h _ List.mem_cons_self ⟨.inl rfl, by decide⟩) (by decide)

theorem emplaceAll_keys (ts : List (OTrain × Int)) (o : Nat) (m : List ((Nat × Int) × (Nat × Nat))) :
    ∀ e ∈ emplaceAll o ts m, e ∈ m ∨ ∃ t ∈ ts, e.1 = (t.1.id, t.2) := by
  induction ts generalizing o m with
  | nil => exact fun e he => .inl he
  | cons t ts ih =>
    intro e he
    rcases ih _ _ e he with h | ⟨t', ht', h⟩
    · unfold emplaceTrip at h
      split at h
      · exact .inl h
      · rcases List.mem_append.1 h with h | h
        · exact .inl h
        · rw [List.mem_singleton] at h
          exact .inr ⟨t, List.mem_cons_self, by rw [h]⟩
    · exact .inr ⟨t', List.mem_cons_of_mem _ ht', h⟩

/-- C176. `trip_nodes` is the same in both builds for every trip of the graph, and is stopped by an assertion for any other. -/
theorem C176_trip_nodes {srt : Nat → List Usage → List Usage} (hs : IsSorter srt) {setCount : Nat}
    {irsToSets : List (List Nat)} {filter : List Nat} {trains : List OTrain}
    (h : WellFormed setCount irsToSets filter trains)
    (hnd : ((allTrips filter trains).map fun t => (t.1.id, t.2)).Nodup) :
    ∃ g m, construct srt setCount irsToSets filter trains = some (g, m) ∧ ∀ (id : Nat) (a : Int),
      ((∃ t ∈ allTrips filter trains, t.1.id = id ∧ t.2 = a) → SameAs (tripNodesD g m (id, a)) (tripNodes g m (id, a))) ∧
      ((¬ ∃ t ∈ allTrips filter trains, t.1.id = id ∧ t.2 = a) → Stops (tripNodesD g m (id, a))) := by
  obtain ⟨g, m, h1, h2⟩ := C20_trip_nodes hs h hnd
  obtain ⟨_, _, _, h3, -⟩ := construct_spec hs h
  rw [h1] at h3; cases h3
  refine ⟨g, _, h1, fun id a => ⟨?_, ?_⟩⟩
  · rintro ⟨⟨tr, a'⟩, ht, rfl, rfl⟩
    obtain ⟨j, hj⟩ := List.mem_iff_getElem?.1 ht
    obtain ⟨ns, h4, -⟩ := h2 j tr a' hj
    refine ⟨ns, h4, ?_⟩
    unfold tripNodesD
    rw [check_pos, ok_bind, h4]; · rfl
    unfold tripNodes at h4
    split at h4
    · cases h4
    · rename_i e he; rw [he]; rfl
  · intro hno
    refine ⟨215, ?_⟩
    unfold tripNodesD
    rw [check_neg]; · rfl
    intro hsome
    obtain ⟨e, he⟩ := Option.isSome_iff_exists.1 hsome
    have h5 := List.find?_some he
    rcases emplaceAll_keys _ 0 [] e (List.mem_of_find?_eq_some he) with h6 | ⟨t, ht, h6⟩
    · cases h6
    · have : e.1 = (id, a) := by simpa using h5
      rw [h6] at this
      exact hno ⟨t, ht, congrArg Prod.fst this, congrArg Prod.snd this⟩

example : IsSorter sortUsages ∧ WellFormed 3 exIrsToSets [] exTrains ∧
    ((allTrips [] exTrains).map fun t => (t.1.id, t.2)).Nodup ∧ (∃ t ∈ allTrips [] exTrains, t.1.id = 5 ∧ t.2 = 1000) ∧
    ¬ ∃ t ∈ allTrips [] exTrains, t.1.id = 9 ∧ t.2 = 1000 :=
  ⟨sortUsages_spec, by constructor <;> decide, by decide, by decide, by decide⟩

/-- C176. `next` on a node of the constructed graph: stopped by an assertion if the node has no successor or the successor with
the least id belongs to another train, otherwise the same in both builds; a node of the same train is returned. -/
theorem C176_next {srt : Nat → List Usage → List Usage} (hs : IsSorter srt) {setCount : Nat}
    {irsToSets : List (List Nat)} {filter : List Nat} {trains : List OTrain}
    (h : WellFormed setCount irsToSets filter trains) :
    ∃ g m, construct srt setCount irsToSets filter trains = some (g, m) ∧ ∀ n ∈ g,
      (n.outs = [] ∧ Stops (nextD g n)) ∨
      (∃ i n', i ∈ n.outs ∧ (∀ j ∈ n.outs, i ≤ j) ∧ g[i]? = some n' ∧ n'.id = i ∧
        ((n'.train = n.train ∧ nextD g n = .ok n' ∧ next g n = some n') ∨ (n'.train ≠ n.train ∧ Stops (nextD g n)))) := by
  obtain ⟨_, g, m, -, h1, -, -, -, hsort, hval⟩ := C21_mirror hs h
  refine ⟨g, m, h1, fun n hn => ?_⟩
  cases ho : n.outs with
  | nil =>
    refine .inl ⟨rfl, 223, ?_⟩
    unfold nextD
    rw [check_neg (by simp [ho])]; rfl
  | cons i l =>
    right
    have hi : i < g.length := hval.2.1 n hn i (by simp [ho])
    have hg := List.getElem?_eq_getElem hi
    have hnext : next g n = some g[i] := by unfold next; rw [ho]; exact hg
    have hmin := (hsort n hn).1
    rw [ho] at hmin
    refine ⟨i, g[i], List.mem_cons_self, fun j hj => ?_, hg, hval.1 i _ hg, ?_⟩
    · rcases List.mem_cons.1 hj with rfl | hj
      · exact Nat.le_refl _
      · exact Nat.le_of_lt ((List.pairwise_cons.1 hmin).1 j hj)
    · unfold nextD
      rw [check_pos (by simp [ho]), ok_bind, hnext, lift, ok_bind]
      by_cases ht : g[i].train = n.train
      · exact .inl ⟨ht, by rw [check_pos ht, ok_bind]; rfl, rfl⟩
      · exact .inr ⟨ht, 225, by rw [check_neg ht]; rfl⟩

open Trip Trip.Spec Trip.Props Interlocking in
/-- C176. For trains from halt to halt with calculated running times no assertion stops the constructor. -/
theorem C176_calculated {fuel : Nat} {i : Train.Infra} {f : Facts} {infos : List Info} {g : SRG} {irs : List Route.IR}
    (hs : SameSignals i f infos) (hgap : ∀ a b, 0 ≤ f.gap a b)
    {srt : Nat → List Usage → List Usage} (hsrt : IsSorter srt) {setCount : Nat} {irsToSets : List (List Nat)}
    (hirs : irsToSets.length = irs.length) (hsets : ∀ ks ∈ irsToSets, ∀ k ∈ ks, k < setCount)
    {filter : List Nat} {trains : List Schedule}
    (h : ∀ s ∈ trains, (filter = [] ∨ s.id ∈ filter) → Fit fuel i f infos g irs s) :
    ∃ ts, orderTrains fuel i f (trains.filter fun s => decide (filter = []) || decide (s.id ∈ filter)) = .done ts ∧
      SameAs (constructD srt setCount irsToSets filter ts) (construct srt setCount irsToSets filter ts) := by
  obtain ⟨ts, h1, h2⟩ := orderTrains_spec (irs := irs) hs hgap (trains.filter fun s => decide (filter = []) || decide (s.id ∈ filter))
    (fun s hs' => by
      obtain ⟨h3, h4⟩ := List.mem_filter.1 hs'
      exact h s h3 (by simpa using h4))
  refine ⟨ts, h1, (C176_construct hsrt ⟨fun t ht => ?_, hsets⟩).1 fun t ht hu => ?_⟩
  · obtain ⟨s, -, hp⟩ := forall₂_right h2 t ht
    rw [hirs]; exact hp.known
  · obtain ⟨s, -, hp⟩ := forall₂_right h2 t ht
    exact hp.fits hu.2

open Trip Trip.Spec Trip.Props in
example : SameSignals Trip.Props.exInfra (Trip.Props.exFacts 1) Trip.Props.exInfos ∧ (∀ a b, 0 ≤ (Trip.Props.exFacts 1).gap a b) ∧
    Fit 100 Trip.Props.exInfra (Trip.Props.exFacts 1) Trip.Props.exInfos Trip.Props.exSrg Trip.Props.exIrs (Trip.Props.exSchedule false 7) :=
  ⟨C163_same_second.1, C163_same_second.2.1, C163_same_second.2.2.1⟩

/-- C176, finding: the assertion in `next` compares trains, not trips. At the end of a trip with another trip of the same train
behind it, `next` returns the first node of that trip, in both builds. -/
theorem C176_other_trip : ∃ g m n n', IsSorter sortUsages ∧
    WellFormed 1 [[0], [0]] [] [⟨7, [0, 1], [0, 1000], 0, 20, [(10, 10)]⟩] ∧
    constructD sortUsages 1 [[0], [0]] [] [⟨7, [0, 1], [0, 1000], 0, 20, [(10, 10)]⟩] = .ok (g, m) ∧
    (tripNodes g m (7, 0)).bind List.getLast? = some n ∧ nextD g n = .ok n' ∧
    (tripNodes g m (7, 1000)).bind List.head? = some n' := by
  refine ⟨[⟨0, 0, 7, [], [1]⟩, ⟨1, 1, 7, [0], [2]⟩, ⟨2, 0, 7, [1], [3]⟩, ⟨3, 1, 7, [2], []⟩], [((7, 0), (0, 2)), ((7, 1000), (2, 4))],
    ⟨1, 1, 7, [0], [2]⟩, ⟨2, 0, 7, [1], [3]⟩, sortUsages_spec, by constructor <;> decide, ?_, rfl, rfl, rfl⟩
  rw [constructD_ok (by
    have h : ∀ tr ∈ [(⟨7, [0, 1], [0, 1000], 0, 20, [(10, 10)]⟩ : OTrain)], Fits tr := by decide
    exact fun tr htr _ => h tr htr)]
  rw [show construct sortUsages 1 [[0], [0]] [] [⟨7, [0, 1], [0, 1000], 0, 20, [(10, 10)]⟩] =
    some ([⟨0, 0, 7, [], [1]⟩, ⟨1, 1, 7, [0], [2]⟩, ⟨2, 0, 7, [1], [3]⟩, ⟨3, 1, 7, [2], []⟩], [((7, 0), (0, 2)), ((7, 1000), (2, 4))])
    by decide +kernel]
  rfl

/-- C176, finding: in the middle of a trip `next` is stopped by the assertion if a train listed earlier uses the route later, and
the release build returns the node of that train. -/
theorem C176_wrong_train : ∃ g m n n', IsSorter sortUsages ∧ WellFormed 1 [[0], [], [0], []] [] nextTrains ∧
    construct sortUsages 1 [[0], [], [0], []] [] nextTrains = some (g, m) ∧
    IsStep (allTrips [] nextTrains) 2 1 0 nextTrain1 0 2 ∧ g[2]? = some n ∧ 3 ∈ n.outs ∧
    next g n = some n' ∧ n'.train ≠ n.train ∧ Stops (nextD g n) := by
  refine ⟨[⟨0, 0, 0, [2], [1]⟩, ⟨1, 1, 0, [0], []⟩, ⟨2, 2, 1, [], [0, 3]⟩, ⟨3, 3, 1, [2], []⟩],
    [((0, 100), (0, 2)), ((1, 0), (2, 4))], ⟨2, 2, 1, [], [0, 3]⟩, ⟨0, 0, 0, [2], [1]⟩, sortUsages_spec,
    by constructor <;> decide, by decide +kernel, ⟨rfl, rfl, rfl⟩, rfl, by decide, rfl, by decide, 225, rfl⟩

/-- C176, finding: with too few timestamps the release build leaves a node without id, route and train in the graph and in the
trip, and a route of the path is skipped. -/
theorem C176_too_few_times : ∃ g m ns, InRange 0 [[], [], []] [⟨7, [0, 1, 2], [0], 0, 20, [(10, 10)]⟩] ∧
    construct sortUsages 0 [[], [], []] [] [⟨7, [0, 1, 2], [0], 0, 20, [(10, 10)]⟩] = some (g, m) ∧
    tripNodes g m (7, 0) = some ns ∧ ns.map ONode.ir = [0, 2, INVALID] ∧
    Stops (constructD sortUsages 0 [[], [], []] [] [⟨7, [0, 1, 2], [0], 0, 20, [(10, 10)]⟩]) :=
  ⟨[⟨0, 0, 7, [], [1]⟩, ⟨1, 2, 7, [0], []⟩, ⟨INVALID, INVALID, INVALID, [], []⟩], [((7, 0), (0, 3))],
    [⟨0, 0, 7, [], [1]⟩, ⟨1, 2, 7, [0], []⟩, ⟨INVALID, INVALID, INVALID, [], []⟩],
    by constructor <;> decide, by decide +kernel, rfl, rfl, 95, rfl⟩

end Soro
