import Verif.Spec.Conflicts
import Verif.Props.ExclElements
import Verif.Props.Cliques
import Verif.Props.OrderingGraph

/-! Property C161: trips over conflicting routes are ordered. -/

namespace Soro
open Conflicts Conflicts.Spec Infra Infra.Spec Cliques Cliques.Spec OrderingGraph

/-- the closed elements of the routes -/
theorem closedElements_spec {x : Input} {legs : Nat → List Leg} (hx : Sound x legs) :
    ∃ closed, closedElements x = some closed ∧ closed.length = x.routes.length ∧
      (∀ es ∈ closed, ∀ e ∈ es, e < x.elementCount) ∧
      ∀ u < x.routes.length, ∃ es, closed[u]? = some es ∧
        ∀ y, y ∈ es ↔ ∃ g ∈ legs u, ∃ e ∈ g.range, Conflicting e.ty ∧ e.id = y := by
  have hroute : ∀ (u : Nat) r, x.routes[u]? = some r → ∃ es, exclusionElements x.sections x.ids r = some es ∧
      ∀ y, y ∈ es ↔ ∃ g ∈ legs u, ∃ e ∈ g.range, Conflicting e.ty ∧ e.id = y := by
    intro u r hr
    obtain ⟨es, h1, -, h2⟩ := Infra.Props.C104_exact_partial x.sections x.ids (legs u) r (hx.drives u r hr) (hx.visible u r hr)
      (hx.single u r hr)
    exact ⟨es, h1, h2⟩
  obtain ⟨closed, h1, h2, h3⟩ := Exclusion.mapM_spec (exclusionElements x.sections x.ids)
    (fun r es => exclusionElements x.sections x.ids r = some es) x.routes (by
      intro r hr
      obtain ⟨u, hu⟩ := List.mem_iff_getElem?.1 hr
      obtain ⟨es, h, _⟩ := hroute u r hu
      exact ⟨es, h, h⟩)
  have h4 : ∀ u < x.routes.length, ∃ es, closed[u]? = some es ∧
      ∀ y, y ∈ es ↔ ∃ g ∈ legs u, ∃ e ∈ g.range, Conflicting e.ty ∧ e.id = y := by
    intro u hu
    obtain ⟨es, h5, h6⟩ := h3 u _ (List.getElem?_eq_getElem hu)
    obtain ⟨es', h7, h8⟩ := hroute u _ (List.getElem?_eq_getElem hu)
    rw [h6] at h7; cases h7
    exact ⟨es, h5, h8⟩
  refine ⟨closed, h1, h2, fun es hes e he => ?_, h4⟩
  obtain ⟨u, hu⟩ := List.mem_iff_getElem?.1 hes
  have hlt : u < x.routes.length := by have := (List.getElem?_eq_some_iff.1 hu).1; omega
  obtain ⟨es', h5, h6⟩ := h4 u hlt
  rw [hu] at h5; cases h5
  obtain ⟨g, hg, it, hit, -, rfl⟩ := (h6 e).1 he
  exact hx.count u _ (List.getElem?_eq_getElem hlt) g hg it hit

theorem Excluded.of_conflict {x : Input} {legs : Nat → List Leg} {closed : List (List Nat)}
    (h : ∀ u < x.routes.length, ∃ es, closed[u]? = some es ∧
        ∀ y, y ∈ es ↔ ∃ g ∈ legs u, ∃ e ∈ g.range, Conflicting e.ty ∧ e.id = y) {u v : Nat}
    (hc : Conflict x legs u v) : Excluded closed x.firstNode x.lastNode u v := by
  obtain ⟨hu, hv, ⟨e, he, ⟨g, hg, heg⟩, k, hk, hek⟩, h1, h2⟩ := hc
  obtain ⟨us, h3, h4⟩ := h u hu
  obtain ⟨vs, h5, h6⟩ := h v hv
  exact ⟨⟨e.id, us, vs, h3, h5, (h4 _).2 ⟨g, hg, e, heg, he, rfl⟩, (h6 _).2 ⟨k, hk, e, hek, he, rfl⟩⟩, h1, h2⟩

/-- what is known about a result of `get_exclusion` -/
theorem exclusionOf_spec {x : Input} {legs : Nat → List Leg} (hx : Sound x legs) {ch : Nat → Nat → Nat} {T : Nat} (hT : 1 ≤ T)
    {sched : List Nat} {file : Option TypeNames.Text} {d : Data} (hd : exclusionOf ch T sched x file = some d) :
    d.graph.length = x.routes.length ∧ d.sets = readCliques file ∧
      Exclusion.irsToExclusionSets (readCliques file) x.routes.length = some d.irsToSets ∧
      ∀ u v, Conflict x legs u v → ∃ n, d.graph[u]? = some n ∧ n.idx v = true := by
  obtain ⟨closed, h1, h2, h3, h4⟩ := closedElements_spec hx
  unfold exclusionOf at hd
  rw [h1, Option.bind_some] at hd
  obtain ⟨s, h5, hd⟩ := Option.bind_eq_some_iff.1 hd
  split at hd
  · rename_i hfin
    obtain ⟨g, h6, h7, h8, -⟩ := C17_exclusion_graph ch closed x.elementCount T hT sched s h5 hfin h3 x.firstNode x.lastNode
      x.startingAt x.endingAt (by rw [h2]; exact hx.starting) (by rw [h2]; exact hx.ending) (by rw [h2]; exact hx.size)
    rw [h6, getExclusion] at hd
    simp only [Bool.and_true, if_true, Option.bind_some, Option.map_eq_some_iff] at hd
    obtain ⟨irs, h9, rfl⟩ := hd
    refine ⟨by rw [← h2]; exact h7, rfl, h9, fun u v hc => ?_⟩
    obtain ⟨n, h10, -, h11⟩ := h8 u (by rw [h2]; exact hc.1)
    exact ⟨n, h10, (h11 v).2 (Excluded.of_conflict h4 hc)⟩
  · cases hd

/-- C161: for any number of threads some schedule finishes, and for a file with the numbers of routes no schedule leads to
undefined behaviour. -/
theorem C161_runs {x : Input} {legs : Nat → List Leg} (hx : Sound x legs) (ch : Nat → Nat → Nat) {T : Nat} (hT : 1 ≤ T)
    {file : TypeNames.Text} {cs : List (List Nat)} (hf : FileOf file cs) (hid : ∀ c ∈ cs, ∀ r ∈ c, r < x.routes.length) :
    (∃ sched d, exclusionOf ch T sched x (some file) = some d) ∧
    ∃ closed, closedElements x = some closed ∧ ∀ sched, ∃ s,
      Exclusion.runThreads x.elementCount sched (Exclusion.initThreads closed T) = some s ∧
      (Exclusion.finished s = true → ∃ d, exclusionOf ch T sched x (some file) = some d) := by
  obtain ⟨closed, h1, h2, h3, -⟩ := closedElements_spec hx
  obtain ⟨h4, -, sched, s, h5, h6⟩ := C16_no_ub_and_progress closed x.elementCount T h3
  have key : ∀ sched s, Exclusion.runThreads x.elementCount sched (Exclusion.initThreads closed T) = some s →
      Exclusion.finished s = true → ∃ d, exclusionOf ch T sched x (some file) = some d := by
    intro sched s h5 h6
    obtain ⟨g, h7, -⟩ := C17_exclusion_graph ch closed x.elementCount T hT sched s h5 h6 h3 x.firstNode x.lastNode
      x.startingAt x.endingAt (by rw [h2]; exact hx.starting) (by rw [h2]; exact hx.ending) (by rw [h2]; exact hx.size)
    obtain ⟨d, h8, -⟩ := C154_cliques_partial true true (some g) rfl file cs hf x.routes.length hid
    refine ⟨d, ?_⟩
    unfold exclusionOf
    rw [h1, Option.bind_some, h5, Option.bind_some, if_pos h6, h7, h8]
  refine ⟨⟨sched, key sched s h5 h6⟩, closed, h1, fun sched => ?_⟩
  obtain ⟨s, h7⟩ := h4 sched
  exact ⟨s, h7, key sched s h7⟩

/-- C161: two steps of trips whose routes drive over the same switch, crossing, signal or halt are connected in the ordering
graph, from the one that starts earlier to the other one and not the other way round. From the sections of the network to the
finished graph, for any number of threads and any schedule, any choices of the heap and any sorting algorithm, provided that
the cliques of the file cover the exclusion graph.
Missing: steps that start in the same second (see `C23_tie_cycle`), trips that need less than a second for a route, routes
over sections without track elements (see C104), and files that leave out pairs (see the negations). -/
theorem C161_ordered_partial {x : Input} {legs : Nat → List Leg} (hx : Sound x legs) {ch : Nat → Nat → Nat} {T : Nat} (hT : 1 ≤ T)
    {sched : List Nat} {file : TypeNames.Text} {cs : List (List Nat)} (hf : FileOf file cs) (hnd : ∀ c ∈ cs, c.Nodup)
    {d : Data} (hd : exclusionOf ch T sched x (some file) = some d) (hcov : Covers d.graph cs)
    {srt : Nat → List Usage → List Usage} (hs : IsSorter srt) {filter : List Nat} {trains : List OTrain}
    (htr : ∀ tr ∈ selected filter trains, tr.path.length = tr.times.length + 1 ∧ ∀ ir ∈ tr.path, ir < x.routes.length)
    (hinc : ∀ t ∈ allTrips filter trains, ∀ p, p + 1 < t.1.path.length → startTime t.1 t.2 p < startTime t.1 t.2 (p + 1))
    (hties : ∀ i j p tr a ir i' j' p' tr' a' ir', IsStep (allTrips filter trains) i j p tr a ir →
      IsStep (allTrips filter trains) i' j' p' tr' a' ir' → i ≠ i' → (∃ c ∈ cs, ir ∈ c ∧ ir' ∈ c) →
      startTime tr a p ≠ startTime tr' a' p') :
    ∃ g m, construct srt d.sets.length d.irsToSets filter trains = some (g, m) ∧ Acyclic g.out ∧
      ∀ i j p tr a ir i' j' p' tr' a' ir', IsStep (allTrips filter trains) i j p tr a ir →
        IsStep (allTrips filter trains) i' j' p' tr' a' ir' → i ≠ i' → Conflict x legs ir ir' →
        startTime tr a p ≠ startTime tr' a' p' ∧
        (startTime tr a p < startTime tr' a' p' → Reach g.out i i' ∧ ¬ Reach g.out i' i) := by
  obtain ⟨h1, h2, h3, h4⟩ := exclusionOf_spec hx hT hd
  have hread : readCliques (some file) = sortLex (cs.map Algo.sortNat) := by
    rw [readCliques, Option.getD_some, cliques_file hf]
  have hmem : ∀ s, s ∈ readCliques (some file) ↔ ∃ c ∈ cs, Algo.sortNat c = s := by
    intro s; rw [hread, (sortLex_spec _).1.mem_iff, List.mem_map]
  have hid : ∀ s ∈ readCliques (some file), ∀ r ∈ s, r < x.routes.length := by
    intro s hs r hr
    by_contra hcon
    have := irsLoop_none 0 (readCliques (some file)) (List.replicate x.routes.length []) ⟨s, hs, r, hr, by simp; omega⟩
    rw [Exclusion.irsToExclusionSets, this] at h3
    cases h3
  obtain ⟨m, h5, h6, h7⟩ := C18_irs_to_exclusion_sets (readCliques (some file)) x.routes.length hid
  rw [h3] at h5; cases h5
  have hlist : ∀ (r : Nat) l, d.irsToSets[r]? = some l →
      (∀ k, k ∈ l ↔ ∃ s, (readCliques (some file))[k]? = some s ∧ r ∈ s) ∧ l.Nodup := by
    intro r l hl
    obtain ⟨l', h8, h9, -, h10⟩ := h7 r (by have := (List.getElem?_eq_some_iff.1 hl).1; omega)
    rw [hl] at h8; cases h8
    refine ⟨h9, (h10 fun s hs => ?_).imp Nat.ne_of_lt⟩
    obtain ⟨c, hc, rfl⟩ := (hmem s).1 hs
    exact ((Algo.sortNat_spec c).1.nodup_iff).2 (hnd c hc)
  have hshare : ∀ (r s k : Nat) lr ls, d.irsToSets[r]? = some lr → d.irsToSets[s]? = some ls → k ∈ lr → k ∈ ls →
      ∃ c ∈ cs, r ∈ c ∧ s ∈ c := by
    intro r s k lr ls hr hs' hk hk'
    obtain ⟨a, ha, hra⟩ := ((hlist r lr hr).1 k).1 hk
    obtain ⟨b, hb, hsb⟩ := ((hlist s ls hs').1 k).1 hk'
    rw [ha] at hb; cases hb
    obtain ⟨c, hc, rfl⟩ := (hmem a).1 (List.mem_of_getElem? ha)
    exact ⟨c, hc, (Algo.mem_sortNat _ _).1 hra, (Algo.mem_sortNat _ _).1 hsb⟩
  have hwf : WellFormed d.sets.length d.irsToSets filter trains := by
    refine ⟨by rw [h6]; exact htr, fun ks hks k hk => ?_⟩
    obtain ⟨r, hr⟩ := List.mem_iff_getElem?.1 hks
    obtain ⟨s, hs', -⟩ := ((hlist r ks hr).1 k).1 hk
    rw [h2]
    exact (List.getElem?_eq_some_iff.1 hs').1
  obtain ⟨g, g', m, h8, h9, h10, h11⟩ := C23_acyclic hs hwf (by
      intro ks hks
      obtain ⟨r, hr⟩ := List.mem_iff_getElem?.1 hks
      exact (hlist r ks hr).2) hinc (by
      intro i j p tr a ir i' j' p' tr' a' ir' k ks ks' hst hst' hne hks hk hks' hk'
      exact hties i j p tr a ir i' j' p' tr' a' ir' hst hst' hne (hshare _ _ k _ _ hks hks' hk hk'))
  obtain ⟨_, _, _, h12, h13, h14⟩ := C22_users_are_ordered hs hwf
  rw [h8] at h12; cases h12
  rw [h9] at h13; cases h13
  refine ⟨g', m, h9, h11, ?_⟩
  intro i j p tr a ir i' j' p' tr' a' ir' hst hst' hne hc
  obtain ⟨n, h15, h16⟩ := h4 ir ir' hc
  obtain ⟨c, hcm, hrc, hsc⟩ := hcov ir ir' n h15 h16
  refine ⟨hties i j p tr a ir i' j' p' tr' a' ir' hst hst' hne ⟨c, hcm, hrc, hsc⟩, fun hlt => ?_⟩
  obtain ⟨k, hk⟩ := List.mem_iff_getElem?.1 ((hmem _).2 ⟨c, hcm, rfl⟩)
  have hget : ∀ r, r < x.routes.length → r ∈ c → ∃ ks, d.irsToSets[r]? = some ks ∧ k ∈ ks := by
    intro r hr hrc
    obtain ⟨l, hl⟩ : ∃ l, d.irsToSets[r]? = some l := ⟨_, List.getElem?_eq_getElem (by omega)⟩
    exact ⟨l, hl, ((hlist r l hl).1 k).2 ⟨_, hk, (Algo.mem_sortNat _ _).2 hrc⟩⟩
  have hreach := ((h14 i j p tr a ir i' j' p' tr' a' ir' k hst hst' hne (hget ir hc.1 hrc) (hget ir' hc.2.1 hsc)
    (Int.le_of_lt hlt)).2 h10).1 hlt
  refine ⟨hreach, fun hback => ?_⟩
  obtain ⟨n1, w1⟩ := hreach
  obtain ⟨n2, w2⟩ := hback
  have w := w1.trans w2
  cases n1 with
  | zero => cases w1; exact hne rfl
  | succ n1 => exact h11 i ⟨n1 + n2, by rw [show n1 + n2 + 1 = n1 + 1 + n2 by omega]; exact w⟩

/-! ### Examples -/

/-- the second route: from the signal behind the halt to the border -/
def exLegs2 : List Leg := [⟨1, true, [Infra.Props.exO, Infra.Props.exB]⟩]

theorem exDrives2 : Drives Infra.Props.exSections Infra.Props.exIds exLegs2 [Infra.Props.exO, Infra.Props.exB] where
  parts k g hk := by
    match k with
    | 0 =>
      obtain rfl : g = ⟨1, true, [Infra.Props.exO, Infra.Props.exB]⟩ := by simpa [exLegs2] using hk.symm
      obtain ⟨s, _, _, h1, h2, _⟩ := Infra.Props.exDrives.parts 1 _ rfl
      cases h1
      exact ⟨_, [Infra.Props.exS, Infra.Props.exH], [], rfl, h2, rfl, by simp, by simp⟩
    | k + 1 => simp [exLegs2] at hk
  ids g hg e he ht := by
    obtain rfl : g = ⟨1, true, [Infra.Props.exO, Infra.Props.exB]⟩ := by simpa [exLegs2] using hg
    have he' : e = Infra.Props.exO ∨ e = Infra.Props.exB := by simpa using he
    rcases he' with rfl | rfl
    · rfl
    · cases ht
  tracks := by decide +kernel
  apart := by simp [exLegs2]
  first := ⟨_, _, rfl, rfl, rfl, fun _ => rfl⟩
  last := ⟨_, _, rfl, rfl, rfl, fun h => by cases h⟩

/-- two routes one behind the other: over a switch to a signal, and on to the border -/
def exInput : Input where
  sections := Infra.Props.exSections
  ids := Infra.Props.exIds
  routes := [[Infra.Props.exM, Infra.Props.exS, Infra.Props.exH, Infra.Props.exO], [Infra.Props.exO, Infra.Props.exB]]
  elementCount := 7
  firstNode := fun r => if r = 0 then 1 else 5
  lastNode := fun r => if r = 0 then 5 else 6
  startingAt := fun n => (List.range 2).filter fun r => (if r = 0 then 1 else 5) = n
  endingAt := fun n => (List.range 2).filter fun r => (if r = 0 then 5 else 6) = n

def exRouteLegs (u : Nat) : List Leg := if u = 0 then Infra.Props.exLegs else exLegs2

theorem exSound : Sound exInput exRouteLegs := by
  have hroute : ∀ (u : Nat) r, exInput.routes[u]? = some r →
      (u = 0 ∧ r = [Infra.Props.exM, Infra.Props.exS, Infra.Props.exH, Infra.Props.exO]) ∨
      (u = 1 ∧ r = [Infra.Props.exO, Infra.Props.exB]) := by
    intro u r h
    match u, h with
    | 0, h => cases h; exact .inl ⟨rfl, rfl⟩
    | 1, h => cases h; exact .inr ⟨rfl, rfl⟩
    | u + 2, h => simp [exInput] at h
  constructor
  · intro u r h
    rcases hroute u r h with ⟨rfl, rfl⟩ | ⟨rfl, rfl⟩
    · exact Infra.Props.exDrives
    · exact exDrives2
  · intro u r h
    rcases hroute u r h with ⟨rfl, rfl⟩ | ⟨rfl, rfl⟩ <;> decide +kernel
  · intro u r h g a b hl ha hb
    rcases hroute u r h with ⟨rfl, rfl⟩ | ⟨rfl, rfl⟩
    · simp [exRouteLegs, Infra.Props.exLegs] at hl
    · have : g = ⟨1, true, [Infra.Props.exO, Infra.Props.exB]⟩ := by
        have : exLegs2 = [g] := hl
        simpa [exLegs2] using this.symm
      subst this
      exact .inr (.inr rfl)
  · intro u r h
    rcases hroute u r h with ⟨rfl, rfl⟩ | ⟨rfl, rfl⟩ <;> decide +kernel
  · intro n r; simp [exInput]
  · intro n r; simp [exInput]
  · decide

/-- a train that runs over both routes twice, and drives into the second one 30 seconds after the first one -/
def exFollow : OTrain := ⟨3, [0, 1], [0, 1000], 10, 90, [(40, 50)]⟩

theorem exFollow_conflict : Conflict exInput exRouteLegs 0 0 :=
  ⟨by decide, by decide, ⟨Infra.Props.exS, .inl rfl, by decide +kernel, by decide +kernel⟩, by decide, by decide⟩

theorem exFollow_steps : IsStep (allTrips [] [exFollow]) 0 0 0 exFollow 0 0 ∧ IsStep (allTrips [] [exFollow]) 2 1 0 exFollow 1000 0 :=
  ⟨⟨rfl, rfl, rfl⟩, ⟨rfl, rfl, rfl⟩⟩

/-- every route alone in a clique -/
theorem exAlone : FileOf "0\n1\n".toList [[0], [1]] := by
  refine ⟨["0".toList, "1".toList], .inl (by decide), .cons ⟨[['0']], by decide, ?_⟩ (.cons ⟨[['1']], by decide, ?_⟩ .nil)⟩
  · exact .cons ⟨.inl ⟨by decide, by decide, by decide⟩, by decide⟩ .nil
  · exact .cons ⟨.inl ⟨by decide, by decide, by decide⟩, by decide⟩ .nil

theorem exGraph {file : Option TypeNames.Text} {ch : Nat → Nat → Nat} {sched : List Nat} {d : Data}
    (hd : exclusionOf ch 2 sched exInput file = some d) :
    ∀ (u v : Nat) n, d.graph[u]? = some n → n.idx v = true → u = v ∧ u < 2 := by
  obtain ⟨closed, h1, h2, h3, h4⟩ := closedElements_spec exSound
  unfold exclusionOf at hd
  rw [h1, Option.bind_some] at hd
  obtain ⟨s, h5, hd⟩ := Option.bind_eq_some_iff.1 hd
  split at hd
  · rename_i hfin
    obtain ⟨g, h6, h7, h8, -⟩ := C17_exclusion_graph ch closed exInput.elementCount 2 (by decide) sched s h5 hfin h3
      exInput.firstNode exInput.lastNode exInput.startingAt exInput.endingAt (by rw [h2]; exact exSound.starting)
      (by rw [h2]; exact exSound.ending) (by rw [h2]; exact exSound.size)
    rw [h6, getExclusion] at hd
    simp only [Bool.and_true, if_true, Option.bind_some, Option.map_eq_some_iff] at hd
    obtain ⟨irs, h9, rfl⟩ := hd
    intro u v n hu hv
    have hlen : closed.length = 2 := h2
    have hul : u < closed.length := by have := (List.getElem?_eq_some_iff.1 hu).1; dsimp only at this; omega
    obtain ⟨n', h10, -, h11⟩ := h8 u hul
    rw [hu] at h10; cases h10
    obtain ⟨⟨e, us, vs, -, hvs, -⟩, h12, h13⟩ := (h11 v).1 hv
    have hvl : v < closed.length := (List.getElem?_eq_some_iff.1 hvs).1
    refine ⟨?_, by omega⟩
    have hu2 : u = 0 ∨ u = 1 := by omega
    have hv2 : v = 0 ∨ v = 1 := by omega
    rcases hu2 with rfl | rfl <;> rcases hv2 with rfl | rfl
    · rfl
    · exact absurd rfl h12
    · exact absurd rfl h13
    · rfl
  · cases hd

/-- the hypotheses of `C161_ordered_partial` and what it says: the first run is ordered before the second one -/
example : ∃ sched d g m, exclusionOf (fun _ _ => 0) 2 sched exInput (some "0\n1\n".toList) = some d ∧ Covers d.graph [[0], [1]] ∧
    construct sortUsages d.sets.length d.irsToSets [] [exFollow] = some (g, m) ∧ Reach g.out 0 2 ∧ ¬ Reach g.out 2 0 := by
  obtain ⟨⟨sched, d, hd⟩, -⟩ := C161_runs exSound (fun _ _ => 0) (T := 2) (by decide) exAlone (by decide)
  have hcov : Covers d.graph [[0], [1]] := by
    intro u v n hu hv
    obtain ⟨rfl, h⟩ := exGraph hd u v n hu hv
    have : u = 0 ∨ u = 1 := by omega
    rcases this with rfl | rfl <;> simp
  obtain ⟨g, m, h1, -, h2⟩ := C161_ordered_partial exSound (by decide) exAlone (by decide) hd hcov sortUsages_spec (filter := [])
    (trains := [exFollow]) (by decide)
    (by
      have h : ∀ t ∈ allTrips [] [exFollow], ∀ p < t.1.path.length - 1, startTime t.1 t.2 p < startTime t.1 t.2 (p + 1) := by decide
      exact fun t ht p hp => h t ht p (by omega))
    (by
      intro i j p tr a ir i' j' p' tr' a' ir' ⟨h1, h2, h3⟩ ⟨h4, h5, h6⟩ hne hc
      have hj : j < 2 := (List.getElem?_eq_some_iff.1 h1).1
      have hj' : j' < 2 := (List.getElem?_eq_some_iff.1 h4).1
      have e : ∀ j : Nat, j < 2 → (allTrips [] [exFollow])[j]? = some (exFollow, 1000 * (j : Int)) := by
        intro j hj
        match j, hj with
        | 0, _ => rfl
        | 1, _ => rfl
      rw [e j hj] at h1
      rw [e j' hj'] at h4
      cases h1; cases h4
      have hp : p < 2 := (List.getElem?_eq_some_iff.1 h3).1
      have hp' : p' < 2 := (List.getElem?_eq_some_iff.1 h6).1
      subst h2 h5
      have all : ∀ j : Nat, j < 2 → ∀ j' : Nat, j' < 2 → ∀ p < 2, ∀ p' < 2, offset (allTrips [] [exFollow]) j + p ≠ offset (allTrips [] [exFollow]) j' + p' →
        startTime exFollow (1000 * (j : Int)) p ≠ startTime exFollow (1000 * (j' : Int)) p' := by decide
      exact all j hj j' hj' p hp p' hp' hne)
  exact ⟨sched, d, g, m, hd, hcov, h1,
    (h2 0 0 0 exFollow 0 0 2 1 0 exFollow 1000 0 exFollow_steps.1 exFollow_steps.2 (by decide) exFollow_conflict).2 (by decide)⟩

/-! ### Without exclusion sets -/

/-- without exclusion sets all paths stay within a trip -/
theorem unordered {srt : Nat → List Usage → List Usage} (hs : IsSorter srt) {irsToSets : List (List Nat)} {filter : List Nat}
    {trains : List OTrain} (h : WellFormed 0 irsToSets filter trains) :
    ∃ g m, construct srt 0 irsToSets filter trains = some (g, m) ∧
      ∀ i j p tr a ir i' j' p' tr' a' ir', IsStep (allTrips filter trains) i j p tr a ir →
        IsStep (allTrips filter trains) i' j' p' tr' a' ir' → Reach g.out i i' → j = j' := by
  obtain ⟨g, g', -, h2, h3, h4⟩ := construct_spec hs h
  obtain ⟨g'', h5, -, -, h6, -⟩ := C24_kept_edges h4.valid
  rw [h3] at h5; cases h5
  refine ⟨g', _, h2, ?_⟩
  have key : ∀ n i i', Walk g'.out n i i' → ∀ j p tr a ir, IsStep (allTrips filter trains) i j p tr a ir →
      ∃ p' tr' a' ir', IsStep (allTrips filter trains) i' j p' tr' a' ir' := by
    intro n i i' w
    induction w with
    | nil => intro j p tr a ir hst; exact ⟨_, _, _, _, hst⟩
    | snoc _ hm ih =>
      intro j p tr a ir hst
      obtain ⟨p1, tr1, a1, ir1, hst1⟩ := ih j p tr a ir hst
      rcases (h4.out _ _).1 ((h6 _ _).1 hm).1 with ⟨j2, p2, tr2, a2, ir2, hst2, hlt, he⟩ | ⟨k, _, _, hk, _⟩
      · obtain ⟨rfl, rfl, -⟩ := step_inj hst1 hst2
        exact ⟨p1 + 1, tr2, a2, _, hst2.1, by rw [he, hst2.2.1]; rfl, List.getElem?_eq_getElem hlt⟩
      · omega
  rintro i j p tr a ir i' j' p' tr' a' ir' hst hst' ⟨n, w⟩
  obtain ⟨p1, tr1, a1, ir1, hst1⟩ := key n i i' w j p tr a ir hst
  exact (step_inj hst1 hst').1

/-- C161 fails without a file with cliques, which is not reported: whatever routes conflict, steps of different trips are not
ordered at all. -/
theorem C161_missing_file_negation {x : Input} {legs : Nat → List Leg} (hx : Sound x legs) {ch : Nat → Nat → Nat} {T : Nat}
    (hT : 1 ≤ T) {sched : List Nat} {d : Data} (hd : exclusionOf ch T sched x none = some d)
    {srt : Nat → List Usage → List Usage} (hs : IsSorter srt) {filter : List Nat} {trains : List OTrain}
    (htr : ∀ tr ∈ selected filter trains, tr.path.length = tr.times.length + 1 ∧ ∀ ir ∈ tr.path, ir < x.routes.length) :
    ∃ g m, construct srt d.sets.length d.irsToSets filter trains = some (g, m) ∧
      ∀ i j p tr a ir i' j' p' tr' a' ir', IsStep (allTrips filter trains) i j p tr a ir →
        IsStep (allTrips filter trains) i' j' p' tr' a' ir' → j ≠ j' → ¬ Reach g.out i i' ∧ ¬ Reach g.out i' i := by
  obtain ⟨-, h2, h3, -⟩ := exclusionOf_spec hx hT hd
  have h4 : d.irsToSets = List.replicate x.routes.length [] := by
    have : some (List.replicate x.routes.length []) = some d.irsToSets := h3
    exact (Option.some.inj this).symm
  have h5 : d.sets.length = 0 := by rw [h2]; rfl
  rw [h5, h4]
  obtain ⟨g, m, h6, h7⟩ := unordered hs (irsToSets := List.replicate x.routes.length []) (filter := filter) (trains := trains)
    ⟨by simpa using htr, fun ks hks => by rw [(List.mem_replicate.1 hks).2]; simp⟩
  refine ⟨g, m, h6, fun i j p tr a ir i' j' p' tr' a' ir' hst hst' hne => ⟨fun hr => hne ?_, fun hr => hne ?_⟩⟩
  · exact h7 _ _ _ _ _ _ _ _ _ _ _ _ hst hst' hr
  · exact (h7 _ _ _ _ _ _ _ _ _ _ _ _ hst' hst hr).symm

/-- C161 fails for cliques that cover the pairs of different routes only, as the edges of the exported graph: two trips over
the same routes are not ordered if these routes exclude no other ones. -/
theorem C161_pairs_negation : ∃ (x : Input) (legs : Nat → List Leg) (ch : Nat → Nat → Nat) (T : Nat) (sched : List Nat)
    (file : TypeNames.Text) (cs : List (List Nat)) (d : Data), Sound x legs ∧ 1 ≤ T ∧ FileOf file cs ∧
      exclusionOf ch T sched x (some file) = some d ∧ CoversPairs d.graph cs ∧ Conflict x legs 0 0 ∧
      IsStep (allTrips [] [exFollow]) 0 0 0 exFollow 0 0 ∧ IsStep (allTrips [] [exFollow]) 2 1 0 exFollow 1000 0 ∧
      ∀ srt, IsSorter srt → ∃ g m, construct srt d.sets.length d.irsToSets [] [exFollow] = some (g, m) ∧
        ¬ Reach g.out 0 2 ∧ ¬ Reach g.out 2 0 := by
  have hf : FileOf [] [] := ⟨[], .inl rfl, .nil⟩
  obtain ⟨⟨sched, d, hd⟩, -⟩ := C161_runs exSound (fun _ _ => 0) (T := 2) (by decide) hf (by decide)
  refine ⟨exInput, exRouteLegs, fun _ _ => 0, 2, sched, [], [], d, exSound, by decide, hf, hd, ?_, exFollow_conflict,
    exFollow_steps.1, exFollow_steps.2, fun srt hs => ?_⟩
  · intro u v n hu hv hne
    exact absurd (exGraph hd u v n hu hv).1 hne
  · obtain ⟨-, h2, h3, -⟩ := exclusionOf_spec exSound (by decide) hd
    have h4 : d.irsToSets = [[], []] := by
      have : some [[], []] = some d.irsToSets := h3
      exact (Option.some.inj this).symm
    have h5 : d.sets.length = 0 := by rw [h2]; rfl
    rw [h5, h4]
    obtain ⟨g, m, h6, h7⟩ := unordered hs (irsToSets := [[], []]) (filter := []) (trains := [exFollow]) (by constructor <;> decide)
    refine ⟨g, m, h6, fun hr => ?_, fun hr => ?_⟩
    · exact absurd (h7 _ _ _ _ _ _ _ _ _ _ _ _ exFollow_steps.1 exFollow_steps.2 hr) (by decide)
    · exact absurd (h7 _ _ _ _ _ _ _ _ _ _ _ _ exFollow_steps.2 exFollow_steps.1 hr) (by decide)

end Soro
