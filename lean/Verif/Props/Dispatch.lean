import Verif.Props.Conflicts
import Verif.Props.Trip
import Verif.Props.RouteBuild

/-! Property C168: trains over conflicting routes are ordered by their calculated times. -/

namespace Soro.Dispatch
open Conflicts Conflicts.Spec Infra.Spec Cliques Cliques.Spec OrderingGraph Trip Trip.Spec Trip.Props

/-- the exclusion sets of `get_exclusion` fit the constructor of the ordering graph; two conflicting routes share a set -/
theorem sets_spec {x : Input} {legs : Nat → List Leg} (hx : Sound x legs) {ch : Nat → Nat → Nat} {T : Nat} (hT : 1 ≤ T)
    {sched : List Nat} {file : TypeNames.Text} {cs : List (List Nat)} (hf : FileOf file cs) (hnd : ∀ c ∈ cs, c.Nodup)
    {d : Data} (hd : exclusionOf ch T sched x (some file) = some d) :
    d.irsToSets.length = x.routes.length ∧ (∀ ks ∈ d.irsToSets, ∀ k ∈ ks, k < d.sets.length) ∧ (∀ ks ∈ d.irsToSets, ks.Nodup) ∧
      (Covers d.graph cs → ∀ r s, Conflict x legs r s → ∃ k ks ks', d.irsToSets[r]? = some ks ∧ k ∈ ks ∧
        d.irsToSets[s]? = some ks' ∧ k ∈ ks') := by
  obtain ⟨h1, h2, h3, h4⟩ := exclusionOf_spec hx hT hd
  have hread : readCliques (some file) = sortLex (cs.map Algo.sortNat) := by
    rw [readCliques, Option.getD_some, cliques_file hf]
  have hmem : ∀ s, s ∈ readCliques (some file) ↔ ∃ c ∈ cs, Algo.sortNat c = s := by
    intro s; rw [hread, (sortLex_spec _).1.mem_iff, List.mem_map]
  have hid : ∀ s ∈ readCliques (some file), ∀ r ∈ s, r < x.routes.length := by
    intro s hs r hr
    by_contra hcon
    have := irsLoop_none 0 (readCliques (some file)) (List.replicate x.routes.length []) ⟨s, hs, r, hr, by simp; omega⟩
    rw [Exclusion.irsToExclusionSets, this] at h3
    cases h3
  obtain ⟨m, h5, h6, h7⟩ := C18_irs_to_exclusion_sets (readCliques (some file)) x.routes.length hid
  rw [h3] at h5; cases h5
  have hlist : ∀ (r : Nat) l, d.irsToSets[r]? = some l →
      (∀ k, k ∈ l ↔ ∃ s, (readCliques (some file))[k]? = some s ∧ r ∈ s) ∧ l.Nodup := by
    intro r l hl
    obtain ⟨l', h8, h9, -, h10⟩ := h7 r (by have := (List.getElem?_eq_some_iff.1 hl).1; omega)
    rw [hl] at h8; cases h8
    refine ⟨h9, (h10 fun s hs => ?_).imp Nat.ne_of_lt⟩
    obtain ⟨c, hc, rfl⟩ := (hmem s).1 hs
    exact ((Algo.sortNat_spec c).1.nodup_iff).2 (hnd c hc)
  refine ⟨h6, fun ks hks k hk => ?_, fun ks hks => ?_, fun hcov r s hc => ?_⟩
  · obtain ⟨r, hr⟩ := List.mem_iff_getElem?.1 hks
    obtain ⟨s, hs', -⟩ := ((hlist r ks hr).1 k).1 hk
    rw [h2]
    exact (List.getElem?_eq_some_iff.1 hs').1
  · obtain ⟨r, hr⟩ := List.mem_iff_getElem?.1 hks
    exact (hlist r ks hr).2
  · obtain ⟨n, h15, h16⟩ := h4 r s hc
    obtain ⟨c, hcm, hrc, hsc⟩ := hcov r s n h15 h16
    obtain ⟨k, hk⟩ := List.mem_iff_getElem?.1 ((hmem _).2 ⟨c, hcm, rfl⟩)
    have hget : ∀ r, r < x.routes.length → r ∈ c → ∃ ks, d.irsToSets[r]? = some ks ∧ k ∈ ks := by
      intro r hr hrc
      obtain ⟨l, hl⟩ : ∃ l, d.irsToSets[r]? = some l := ⟨_, List.getElem?_eq_getElem (by omega)⟩
      exact ⟨l, hl, ((hlist r l hl).1 k).2 ⟨_, hk, (Algo.mem_sortNat _ _).2 hrc⟩⟩
    obtain ⟨ks, h8, h9⟩ := hget r hc.1 hrc
    obtain ⟨ks', h10, h11⟩ := hget s hc.2.1 hsc
    exact ⟨k, ks, ks', h8, h9, h10, h11⟩

/-- along a path of the graph of a stable sort start times do not decrease, and nodes of the same second are in the order of
their numbers -/
theorem reach_later {srt : Nat → List Usage → List Usage} (hs : IsSorter srt) (hst : IsStable srt) {setCount : Nat}
    {irsToSets : List (List Nat)} {filter : List Nat} {trains : List OTrain}
    (h : OrderingGraph.WellFormed setCount irsToSets filter trains) (hnd : ∀ ks ∈ irsToSets, ks.Nodup)
    (hinc : ∀ t ∈ allTrips filter trains, ∀ p, p + 1 < t.1.path.length → startTime t.1 t.2 p ≤ startTime t.1 t.2 (p + 1)) :
    ∃ g g' m, preGraph srt setCount irsToSets filter trains = some (g, m) ∧
      construct srt setCount irsToSets filter trains = some (g', m) ∧ Acyclic g.out ∧ Acyclic g'.out ∧
      (∀ i j, Reach g'.out i j ↔ Reach g.out i j) ∧
      ∀ i j p tr a ir i' j' p' tr' a' ir', IsStep (allTrips filter trains) i j p tr a ir →
        IsStep (allTrips filter trains) i' j' p' tr' a' ir' → Reach g.out i i' → i ≠ i' →
        startTime tr a p < startTime tr' a' p' ∨ startTime tr a p = startTime tr' a' p' ∧ i < i' := by
  obtain ⟨g, g', m, h1, h2, h3, h4⟩ := C23_acyclic_stable hs hst h hnd hinc
  obtain ⟨g0, g0', h5, h6, h7, h8⟩ := construct_spec hs h
  rw [h1] at h5; cases h5
  rw [h2] at h6; cases h6
  obtain ⟨g'', h9, h10, -⟩ := C24_reachability h8.valid h3
  rw [h7] at h9; cases h9
  refine ⟨g, g', _, h1, h2, h3, h4, h10, ?_⟩
  have edge : ∀ i i', i' ∈ g.out i → ∃ j p tr a ir j' p' tr' a' ir', IsStep (allTrips filter trains) i j p tr a ir ∧
      IsStep (allTrips filter trains) i' j' p' tr' a' ir' ∧
      (startTime tr a p < startTime tr' a' p' ∨ startTime tr a p = startTime tr' a' p' ∧ i < i') := by
    intro i i' hii
    rcases (h8.out i i').1 hii with ⟨q, p, tr, a, ir, h5, h6, rfl⟩ | ⟨k, u, v, hk, hc, rfl, rfl⟩
    · have h7 : IsStep (allTrips filter trains) (i + 1) q (p + 1) tr a tr.path[p + 1] :=
        ⟨h5.1, by rw [h5.2.1]; rfl, List.getElem?_eq_getElem h6⟩
      refine ⟨_, _, _, _, _, _, _, _, _, _, h5, h7, ?_⟩
      have := hinc (tr, a) (List.mem_of_getElem? h5.1) p h6
      dsimp only at this
      omega
    · have hle := hc.rel (hs k _).2
      obtain ⟨hu, hv⟩ := hc.mem
      rw [(hs k _).1.mem_iff, mem_usagesOf] at hu hv
      obtain ⟨j, p, tr, a, ir, h5, h6, _, h7⟩ := hu
      obtain ⟨j', p', tr', a', ir', h5', h6', _, h7'⟩ := hv
      refine ⟨_, _, _, _, _, _, _, _, _, _, h5, h5', ?_⟩
      rw [← h6, ← h6']
      by_cases heq : u.frm = v.frm
      · refine Or.inr ⟨heq, ?_⟩
        have hids := usagesOf_ids irsToSets hnd k _ (blocks_ids 0 (allTrips filter trains))
        have hfil := hids.filter (fun w => decide (w.frm = v.frm))
        rw [← hst k _ v.frm] at hfil
        obtain ⟨l1, l2, hl⟩ := hc
        rw [hl, List.filter_append, List.pairwise_append] at hfil
        have h8 := hfil.2.1
        simp only [List.filter_cons, heq, decide_true, if_true] at h8
        exact (List.pairwise_cons.1 h8).1 v (by simp)
      · omega
  have key : ∀ n i i', Walk g.out n i i' → ∀ j p tr a ir j' p' tr' a' ir', IsStep (allTrips filter trains) i j p tr a ir →
      IsStep (allTrips filter trains) i' j' p' tr' a' ir' →
      startTime tr a p < startTime tr' a' p' ∨ startTime tr a p = startTime tr' a' p' ∧ i ≤ i' := by
    intro n i i' w
    induction w with
    | nil i =>
      intro j p tr a ir j' p' tr' a' ir' hst hst'
      obtain ⟨rfl, rfl, rfl, rfl, rfl⟩ := step_inj hst hst'
      exact .inr ⟨rfl, Nat.le_refl _⟩
    | snoc _ hc ih =>
      intro j p tr a ir j' p' tr' a' ir' hst hst'
      obtain ⟨j1, p1, tr1, a1, ir1, j2, p2, tr2, a2, ir2, e1, e2, e3⟩ := edge _ _ hc
      obtain ⟨rfl, rfl, rfl, rfl, rfl⟩ := step_inj hst' e2
      have := ih j p tr a ir j1 p1 tr1 a1 ir1 hst e1
      omega
  rintro i j p tr a ir i' j' p' tr' a' ir' hst hst' ⟨n, w⟩ hne
  have := key n i i' w j p tr a ir j' p' tr' a' ir' hst hst'
  omega

/-- C168: from the files to the ordering graph. The station routes are built from the routes of the files, the exclusion sets
from the sections of the network and a file with cliques, and the times of the trains are calculated. The ordering graph has no
cycle. Two steps of trips over routes that share a switch, crossing, signal or halt are connected from the one that starts
earlier to the other one, not the other way round; if they start in the same second, from the one of the train that comes first
in the timetable. Every path of the graph leads to later steps.
`u` is the same route in `irs` and in `x.routes`.
Missing: sorting algorithms that swap usages of the same second (see `C23_tie_cycle`), trains that do not run from halt to halt
(see `C163_break_in_negation`), left out main signals with another name (see `C167_mislabelled`), files that leave out
pairs (see the negations of C161). -/
theorem C168_ordered_partial {x : Input} {legs : Nat → List Leg} (hx : Sound x legs) {ch : Nat → Nat → Nat} {T : Nat} (hT : 1 ≤ T)
    {sched : List Nat} {file : TypeNames.Text} {cs : List (List Nat)} (hf : FileOf file cs) (hnd : ∀ c ∈ cs, c.Nodup)
    {d : Data} (hd : exclusionOf ch T sched x (some file) = some d) (hcov : Covers d.graph cs)
    {L : Infra.Links} {el : Nat → Infra.Elem} {rp : Nat → Option Nat} {fuel : Nat} {num : Infra.Node → Nat}
    {spls : Nat → List Nat} {etcs : Nat → Bool} {rs : List Infra.IRoute} {built : List (Route.SRoute × Interlocking.Info)}
    (hb : RouteBuild.buildAll L el rp fuel num spls etcs rs = some built) (hnamed : ∀ r ∈ rs, RouteBuild.Props.Named L el rp fuel r)
    {stops : List Train.Stops} {f : Facts} (hkind : ∀ n : Infra.Node, f.kind (num n) = RouteBuild.kindOf (el n.1).ty)
    (hgap : ∀ a b, 0 ≤ f.gap a b) {g : Interlocking.SRG} {irs : List Route.IR} (hirs : irs.length = x.routes.length)
    {srt : Nat → List Usage → List Usage} (hs : IsSorter srt) (hst : IsStable srt) {steps : Nat} {filter : List Nat}
    {trains : List Schedule}
    (hfit : ∀ s ∈ trains, (filter = [] ∨ s.id ∈ filter) →
      Fit steps ⟨built.map (·.1), stops⟩ f (built.map (·.2)) g irs s) :
    ∃ ts gr m, orderTrains steps ⟨built.map (·.1), stops⟩ f
        (trains.filter fun s => decide (filter = []) || decide (s.id ∈ filter)) = .done ts ∧
      graphOf steps ⟨built.map (·.1), stops⟩ f srt d.sets.length d.irsToSets filter trains = .done (some (gr, m)) ∧
      Acyclic gr.out ∧
      ∀ i j p tr a ir i' j' p' tr' a' ir', IsStep (allTrips filter ts) i j p tr a ir →
        IsStep (allTrips filter ts) i' j' p' tr' a' ir' → i ≠ i' →
        (Conflict x legs ir ir' → startTime tr a p < startTime tr' a' p' ∨ startTime tr a p = startTime tr' a' p' ∧ i < i' →
          Reach gr.out i i' ∧ ¬ Reach gr.out i' i) ∧
        (Reach gr.out i i' → startTime tr a p < startTime tr' a' p' ∨ startTime tr a p = startTime tr' a' p' ∧ i < i') := by
  have hsame := (RouteBuild.Props.C167_same_signals hb stops f hkind).2 hnamed
  obtain ⟨e1, e2, e3, e4⟩ := sets_spec hx hT hf hnd hd
  obtain ⟨ts, gr, m, h1, h2, h3, -, h4, -⟩ := C163_graph_partial (irs := irs) hsame hgap hs (by rw [e1, hirs]) e2 e3 hfit
  have hwf : OrderingGraph.WellFormed d.sets.length d.irsToSets filter ts := by
    obtain ⟨us, h5, h6⟩ := orderTrains_spec (irs := irs) hsame hgap
      (trains.filter fun s => decide (filter = []) || decide (s.id ∈ filter)) (fun s hs' => by
        obtain ⟨h3, h4⟩ := List.mem_filter.1 hs'
        exact hfit s h3 (by simpa using h4))
    rw [h1] at h5
    cases h5
    refine ⟨fun t ht => ?_, e2⟩
    unfold selected at ht
    obtain ⟨h7, h8⟩ := List.mem_filter.1 ht
    obtain ⟨s, -, hp⟩ := forall₂_right h6 t h7
    have hne : t.times ≠ [] := by
      intro h0
      simp [h0] at h8
    exact ⟨hp.length hne, by rw [e1, ← hirs]; exact hp.known⟩
  obtain ⟨gp, gr', m', h5, h6, h7, h8, h9, h10⟩ := reach_later hs hst hwf e3 fun t ht => (h4 t ht).2
  rw [h3] at h6
  cases h6
  obtain ⟨_, _, _, h11, h12, h13⟩ := C22_users_are_ordered hs hwf
  rw [h5] at h11; cases h11
  rw [h3] at h12; cases h12
  refine ⟨ts, gr, m, h1, h2, h8, ?_⟩
  intro i j p tr a ir i' j' p' tr' a' ir' hstep hstep' hne
  refine ⟨fun hc hlt => ?_, fun hr => h10 i j p tr a ir i' j' p' tr' a' ir' hstep hstep' ((h9 i i').1 hr) hne⟩
  have hback : ¬ Reach gr.out i' i := by
    intro hr
    have := h10 i' j' p' tr' a' ir' i j p tr a ir hstep' hstep ((h9 i' i).1 hr) hne.symm
    omega
  obtain ⟨k, ks, ks', g1, g2, g3, g4⟩ := e4 hcov ir ir' hc
  have := ((h13 i j p tr a ir i' j' p' tr' a' ir' k hstep hstep' hne ⟨ks, g1, g2⟩ ⟨ks', g3, g4⟩ (by omega)).2 h7).2
  rcases this with hr | hr
  · exact ⟨hr, hback⟩
  · exact absurd hr hback

/-! ### Examples -/

/-- three routes: the third one runs as the second one -/
def exThree : Input :=
  { exInput with
    routes := exInput.routes ++ [[Infra.Props.exO, Infra.Props.exB]]
    startingAt := fun n => (List.range 3).filter fun r => (if r = 0 then 1 else 5) = n
    endingAt := fun n => (List.range 3).filter fun r => (if r = 0 then 5 else 6) = n }

theorem exThree_sound : Sound exThree exRouteLegs := by
  have hroute : ∀ (u : Nat) r, exThree.routes[u]? = some r →
      (u = 0 ∧ r = [Infra.Props.exM, Infra.Props.exS, Infra.Props.exH, Infra.Props.exO]) ∨
      ((u = 1 ∨ u = 2) ∧ r = [Infra.Props.exO, Infra.Props.exB]) := by
    intro u r h
    match u, h with
    | 0, h => cases h; exact .inl ⟨rfl, rfl⟩
    | 1, h => cases h; exact .inr ⟨.inl rfl, rfl⟩
    | 2, h => cases h; exact .inr ⟨.inr rfl, rfl⟩
    | u + 3, h => simp [exThree, exInput] at h
  constructor
  · intro u r h
    rcases hroute u r h with ⟨rfl, rfl⟩ | ⟨rfl | rfl, rfl⟩
    · exact Infra.Props.exDrives
    · exact exDrives2
    · exact exDrives2
  · intro u r h
    rcases hroute u r h with ⟨rfl, rfl⟩ | ⟨rfl | rfl, rfl⟩ <;> decide +kernel
  · intro u r h g a b hl ha hb
    rcases hroute u r h with ⟨rfl, rfl⟩ | ⟨h0, rfl⟩
    · simp [exRouteLegs, Infra.Props.exLegs] at hl
    · have : g = ⟨1, true, [Infra.Props.exO, Infra.Props.exB]⟩ := by
        have : exLegs2 = [g] := by
          rcases h0 with rfl | rfl <;> exact hl
        simpa [exLegs2] using this.symm
      subst this
      exact .inr (.inr rfl)
  · intro u r h
    rcases hroute u r h with ⟨rfl, rfl⟩ | ⟨rfl | rfl, rfl⟩ <;> decide +kernel
  · intro n r; simp [exThree, exInput]
  · intro n r; simp [exThree, exInput]
  · decide

theorem exFile : FileOf "0 1 2\n".toList [[0, 1, 2]] := by
  refine ⟨["0 1 2".toList], .inl (by decide), .cons ⟨[['0'], ['1'], ['2']], by decide, ?_⟩ .nil⟩
  exact .cons ⟨.inl ⟨by decide, by decide, by decide⟩, by decide⟩ (.cons ⟨.inl ⟨by decide, by decide, by decide⟩, by decide⟩
    (.cons ⟨.inl ⟨by decide, by decide, by decide⟩, by decide⟩ .nil))

theorem exCovers {file : Option TypeNames.Text} {ch : Nat → Nat → Nat} {sched : List Nat} {d : Data}
    (hd : exclusionOf ch 2 sched exThree file = some d) : Covers d.graph [[0, 1, 2]] := by
  obtain ⟨closed, h1, h2, h3, h4⟩ := closedElements_spec exThree_sound
  unfold exclusionOf at hd
  rw [h1, Option.bind_some] at hd
  obtain ⟨s, h5, hd⟩ := Option.bind_eq_some_iff.1 hd
  split at hd
  · rename_i hfin
    obtain ⟨g, h6, h7, h8, -⟩ := C17_exclusion_graph ch closed exThree.elementCount 2 (by decide) sched s h5 hfin h3
      exThree.firstNode exThree.lastNode exThree.startingAt exThree.endingAt (by rw [h2]; exact exThree_sound.starting)
      (by rw [h2]; exact exThree_sound.ending) (by rw [h2]; exact exThree_sound.size)
    rw [h6, getExclusion] at hd
    simp only [Bool.and_true, if_true, Option.bind_some, Option.map_eq_some_iff] at hd
    obtain ⟨irs, h9, rfl⟩ := hd
    intro u v n hu hv
    have hlen : closed.length = 3 := h2
    have hul : u < closed.length := by have := (List.getElem?_eq_some_iff.1 hu).1; dsimp only at this; omega
    obtain ⟨n', h10, -, h11⟩ := h8 u hul
    rw [hu] at h10; cases h10
    obtain ⟨⟨e, us, vs, -, hvs, -⟩, -⟩ := (h11 v).1 hv
    have hvl : v < closed.length := (List.getElem?_eq_some_iff.1 hvs).1
    exact ⟨[0, 1, 2], by simp, by simp only [List.mem_cons, List.not_mem_nil, or_false]; omega,
      by simp only [List.mem_cons, List.not_mem_nil, or_false]; omega⟩
  · cases hd

/-- halt, main signal, border and border, main signal, halt -/
def exEl (i : Nat) : Infra.Elem :=
  { ty := match i with
      | 0 => .halt | 1 => .mainSignal | 4 => .mainSignal | 5 => .halt | _ => .border
    rising := false, nb := fun _ => none, flag := fun _ => false, line := fun _ => 0, arcL := false, arcR := false }

def exLinks : Infra.Links :=
  { next := fun n => if n = (0, 0) then some (1, 0) else if n = (1, 0) then some (2, 1) else if n = (2, 1) then some (3, 0)
      else if n = (3, 0) then some (4, 0) else if n = (4, 0) then some (5, 0) else none
    branch := fun _ => none }

theorem exBuilt : RouteBuild.buildAll exLinks exEl some 10 (·.1) (fun _ => []) (fun _ => false) [⟨0, 2, [], []⟩, ⟨3, 5, [], []⟩] =
    some [(⟨[0, 1, 2], [], []⟩, ⟨3, [1], false⟩), (⟨[3, 4, 5], [], []⟩, ⟨3, [1], false⟩)] := by decide +kernel

theorem exStable : IsStable sortUsages := by
  intro k l t
  induction l with
  | nil => rfl
  | cons u l ih =>
    have : sortUsages k (u :: l) = insertUsage u (sortUsages k l) := rfl
    rw [this, insertUsage_stable, List.filter_cons, ih, List.filter_cons]

/-- the hypotheses of `C168_ordered_partial` hold for two trains with two departures each -/
example : ∃ sched d, exclusionOf (fun _ _ => 0) 2 sched exThree (some "0 1 2\n".toList) = some d ∧
    ∃ ts gr m, graphOf 100 exInfra (exFacts 100) sortUsages d.sets.length d.irsToSets [] [exSchedule false 7, exSchedule false 8] =
        .done (some (gr, m)) ∧ Acyclic gr.out ∧ orderTrains 100 exInfra (exFacts 100) [exSchedule false 7, exSchedule false 8] = .done ts := by
  obtain ⟨⟨sched, d, hd⟩, -⟩ := C161_runs exThree_sound (fun _ _ => 0) (T := 2) (by decide) exFile (by decide)
  obtain ⟨ts, gr, m, h1, h2, h3, -⟩ := C168_ordered_partial exThree_sound (by decide) exFile (by decide) hd (exCovers hd) exBuilt
    (by
      intro r hr p y t e k _ ho
      simp at hr
      rcases hr with rfl | rfl <;> cases ho)
    (stops := exInfra.stops) (f := exFacts 100) (by
      rintro ⟨n, -⟩
      match n with
      | 0 => rfl
      | 1 => rfl
      | 2 => rfl
      | 3 => rfl
      | 4 => rfl
      | 5 => rfl
      | n + 6 => rfl)
    (exGap _ (by decide +kernel)) (irs := exIrs) (by decide) sortUsages_spec exStable (filter := [])
    (trains := [exSchedule false 7, exSchedule false 8]) (steps := 100) (g := exSrg) (by
      intro s hs _
      simp at hs
      rcases hs with rfl | rfl <;> exact exFit_long _)
  exact ⟨sched, d, hd, ts, gr, m, h2, h3, h1⟩

end Soro.Dispatch
