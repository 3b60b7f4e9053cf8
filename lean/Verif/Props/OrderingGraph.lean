import Verif.Proof.OrderingGraph
import Verif.Props.OrderingAlgo

/-! Properties C20 - C23 and C69: the constructed ordering graph. -/

namespace Soro
open OGraph OrderingGraph

/-! A small timetable: train 5 runs twice over the routes 0, 1, 2, train 9 over 3, 1. Routes 0 and 3 are in exclusion set
0, route 1 in set 1, routes 2 and 3 in set 2. -/

def exTrain5 : OTrain := ⟨5, [0, 1, 2], [0, 1000], 10, 90, [(20, 30), (50, 60)]⟩
def exTrain9 : OTrain := ⟨9, [3, 1], [100], 0, 70, [(40, 45)]⟩
def exTrains : List OTrain := [exTrain5, exTrain9]
def exIrsToSets : List (List Nat) := [[0], [1], [2], [0, 2]]

/-- insertion sort by start time -/
def insertUsage (u : Usage) : List Usage → List Usage
  | [] => [u]
  | v :: l => if u.frm ≤ v.frm then u :: v :: l else v :: insertUsage u l

def sortUsages : Nat → List Usage → List Usage := fun _ l => l.foldr insertUsage []

theorem insertUsage_spec (u : Usage) (l : List Usage) (h : l.Pairwise fun a b => a.frm ≤ b.frm) :
    (insertUsage u l).Perm (u :: l) ∧ (insertUsage u l).Pairwise fun a b => a.frm ≤ b.frm := by
  induction l with
  | nil => exact ⟨.refl _, by simp [insertUsage]⟩
  | cons v l ih =>
    obtain ⟨h1, h2⟩ := List.pairwise_cons.1 h
    obtain ⟨h3, h4⟩ := ih h2
    unfold insertUsage
    split
    · rename_i huv
      refine ⟨.refl _, List.pairwise_cons.2 ⟨fun w hw => ?_, h⟩⟩
      rcases List.mem_cons.1 hw with rfl | hw
      · exact huv
      · exact Int.le_trans huv (h1 w hw)
    · rename_i huv
      refine ⟨(List.Perm.cons v h3).trans (.swap u v l), List.pairwise_cons.2 ⟨fun w hw => ?_, h4⟩⟩
      rcases List.mem_cons.1 (h3.mem_iff.1 hw) with rfl | hw
      · omega
      · exact h1 w hw

theorem sortUsages_spec : IsSorter sortUsages := by
  intro k l
  induction l with
  | nil => exact ⟨.refl _, .nil⟩
  | cons u l ih =>
    obtain ⟨h1, h2⟩ := insertUsage_spec u (sortUsages k l) ih.2
    exact ⟨h1.trans (ih.1.cons u), h2⟩

example : IsSorter sortUsages ∧ WellFormed 3 exIrsToSets [] exTrains ∧ WellFormed 3 exIrsToSets [9] exTrains ∧
    allTrips [] exTrains = [(exTrain5, 0), (exTrain5, 1000), (exTrain9, 100)] ∧
    ((allTrips [] exTrains).map fun t => (t.1.id, t.2)).Nodup :=
  ⟨sortUsages_spec, by constructor <;> decide, by constructor <;> decide, rfl, by decide⟩

theorem construct_spec {srt : Nat → List Usage → List Usage} (hs : IsSorter srt) {setCount : Nat}
    {irsToSets : List (List Nat)} {filter : List Nat} {trains : List OTrain}
    (h : WellFormed setCount irsToSets filter trains) :
    ∃ g g', preGraph srt setCount irsToSets filter trains = some (g, emplaceAll 0 (allTrips filter trains) []) ∧
      construct srt setCount irsToSets filter trains = some (g', emplaceAll 0 (allTrips filter trains) []) ∧
      removeTransitive g = some g' ∧ Pre srt setCount irsToSets (allTrips filter trains) g := by
  obtain ⟨g, h1, h2⟩ := pre_spec hs h
  obtain ⟨g', h3, _⟩ := C24_kept_edges h2.valid
  exact ⟨g, g', h1, by rw [construct, h1]; simp [h3], h3, h2⟩

/-- node data survives the removal of transitive edges -/
theorem removed_node {g g' : OGraph} (hv : g.Valid) (h : removeTransitive g = some g') {i : Nat} {n : ONode}
    (hn : g[i]? = some n) : ∃ n', g'[i]? = some n' ∧ n'.id = n.id ∧ n'.ir = n.ir ∧ n'.train = n.train := by
  obtain ⟨g'', h1, h2, h3, _⟩ := C24_kept_edges hv
  rw [h] at h1
  cases h1
  have hi := (List.getElem?_eq_some_iff.1 hn).1
  obtain ⟨h4, h5, h6, _⟩ := h3 i n _ hn (List.getElem?_eq_getElem (by omega))
  exact ⟨_, List.getElem?_eq_getElem (by omega), h4, h5, h6⟩

/-! ### C20 -/

/-- C20: construction succeeds; there is one node per trip and route of its path. The nodes of the `j`-th trip start at
`offset j`, and every node belongs to exactly one trip and position. Node ids are positions, and the nodes carry route and
train. -/
theorem C20_nodes {srt : Nat → List Usage → List Usage} (hs : IsSorter srt) {setCount : Nat}
    {irsToSets : List (List Nat)} {filter : List Nat} {trains : List OTrain}
    (h : WellFormed setCount irsToSets filter trains) :
    ∃ g m, construct srt setCount irsToSets filter trains = some (g, m) ∧
      g.length = ((allTrips filter trains).map fun t => t.1.path.length).sum ∧
      (∀ i, i < g.length → ∃ j p tr a ir, IsStep (allTrips filter trains) i j p tr a ir ∧
        ∀ j' p' tr' a' ir', IsStep (allTrips filter trains) i j' p' tr' a' ir' → j = j' ∧ p = p') ∧
      ∀ i j p tr a ir, IsStep (allTrips filter trains) i j p tr a ir →
        ∃ n, g[i]? = some n ∧ n.id = i ∧ n.ir = ir ∧ n.train = tr.id := by
  obtain ⟨g, g', h1, h2, h3, h4⟩ := construct_spec hs h
  obtain ⟨g'', h5, h6, _⟩ := C24_kept_edges h4.valid
  rw [h3] at h5; cases h5
  refine ⟨g', _, h2, by rw [h6, h4.len], fun i hi => ?_, fun i j p tr a ir hst => ?_⟩
  · obtain ⟨j, p, tr, a, ir, hst⟩ := h4.step i (by omega)
    refine ⟨j, p, tr, a, ir, hst, fun j' p' tr' a' ir' hst' => ?_⟩
    have := step_inj hst hst'
    exact ⟨this.1, this.2.1⟩
  · obtain ⟨n, h7, h8, h9, h10⟩ := h4.node i j p tr a ir hst
    obtain ⟨n', h11, h12, h13, h14⟩ := removed_node h4.valid h3 h7
    exact ⟨n', h11, by rw [h12, h8], by rw [h13, h9], by rw [h14, h10]⟩

/-- C20: `trip_nodes` returns the nodes of a trip, in path order, provided no two trips have the same train id and
departure. -/
theorem C20_trip_nodes {srt : Nat → List Usage → List Usage} (hs : IsSorter srt) {setCount : Nat}
    {irsToSets : List (List Nat)} {filter : List Nat} {trains : List OTrain}
    (h : WellFormed setCount irsToSets filter trains)
    (hnd : ((allTrips filter trains).map fun t => (t.1.id, t.2)).Nodup) :
    ∃ g m, construct srt setCount irsToSets filter trains = some (g, m) ∧
      ∀ (j : Nat) tr a, (allTrips filter trains)[j]? = some (tr, a) →
        ∃ ns, tripNodes g m (tr.id, a) = some ns ∧ ns.map ONode.ir = tr.path ∧
          ns.map ONode.id = List.range' (offset (allTrips filter trains) j) tr.path.length ∧
          ∀ n ∈ ns, n.train = tr.id := by
  obtain ⟨g, m, h1, h2, _, h4⟩ := C20_nodes hs h
  obtain ⟨_, _, _, h5, _, _⟩ := construct_spec hs h
  rw [h1] at h5
  cases h5
  refine ⟨g, _, h1, fun j tr a hj => ?_⟩
  have hfind := emplaceAll_nodup _ 0 [] hnd (by simp) j (tr, a) hj
  have hle : offset (allTrips filter trains) j + tr.path.length ≤ g.length := by
    cases hp : tr.path.length with
    | zero =>
      rw [h2, Nat.add_zero]
      have := List.take_append_drop j ((allTrips filter trains).map fun t => t.1.path.length)
      rw [← this, List.sum_append, offset, List.map_take]
      omega
    | succ k =>
      have := offset_lt hj (p := k) (by dsimp only; omega)
      omega
  have hget : ∀ p ir, tr.path[p]? = some ir → ∃ n, g[offset (allTrips filter trains) j + p]? = some n ∧
      n.id = offset (allTrips filter trains) j + p ∧ n.ir = ir ∧ n.train = tr.id :=
    fun p ir hp => h4 _ j p tr a ir ⟨hj, rfl, hp⟩
  have htake : ∀ p, ((g.drop (offset (allTrips filter trains) j)).take tr.path.length)[p]? =
      if p < tr.path.length then g[offset (allTrips filter trains) j + p]? else none := by
    intro p; rw [List.getElem?_take]; split <;> simp [List.getElem?_drop]
  refine ⟨(g.drop (offset (allTrips filter trains) j)).take tr.path.length, ?_, ?_, ?_, ?_⟩
  · rw [tripNodes, hfind]
    simp only [Nat.zero_add]
    rw [if_pos ⟨by omega, hle⟩]
    congr 2; omega
  · apply List.ext_getElem?
    intro p
    rw [List.getElem?_map, htake]
    by_cases hp : p < tr.path.length
    · obtain ⟨n, h5, _, h6, _⟩ := hget p _ (List.getElem?_eq_getElem hp)
      rw [if_pos hp, h5, List.getElem?_eq_getElem hp]; simp [h6]
    · rw [if_neg hp, List.getElem?_eq_none (by omega)]; rfl
  · apply List.ext_getElem?
    intro p
    rw [List.getElem?_map, htake]
    by_cases hp : p < tr.path.length
    · obtain ⟨n, h5, h6, _⟩ := hget p _ (List.getElem?_eq_getElem hp)
      rw [if_pos hp, h5, List.getElem?_range' hp]; simp [h6]
    · rw [if_neg hp, List.getElem?_eq_none (by simp; omega)]; rfl
  · intro n hn
    obtain ⟨p, hp⟩ := List.mem_iff_getElem?.1 hn
    rw [htake] at hp
    split at hp
    · rename_i hlt
      obtain ⟨n', h5, _, _, h6⟩ := hget p _ (List.getElem?_eq_getElem hlt)
      rw [hp] at h5; cases h5; exact h6
    · cases hp

/-! ### C21 -/

/-- C21: before and after the removal of transitive edges, `v` is a successor of `u` iff `u` is a predecessor of `v`, and
all lists are strictly increasing. -/
theorem C21_mirror {srt : Nat → List Usage → List Usage} (hs : IsSorter srt) {setCount : Nat}
    {irsToSets : List (List Nat)} {filter : List Nat} {trains : List OTrain}
    (h : WellFormed setCount irsToSets filter trains) :
    ∃ g g' m, preGraph srt setCount irsToSets filter trains = some (g, m) ∧
      construct srt setCount irsToSets filter trains = some (g', m) ∧
      (∀ u v, v ∈ g.out u ↔ u ∈ g.inn v) ∧ (∀ u v, v ∈ g'.out u ↔ u ∈ g'.inn v) ∧
      (∀ n ∈ g, n.outs.Pairwise (· < ·) ∧ n.ins.Pairwise (· < ·)) ∧
      (∀ n ∈ g', n.outs.Pairwise (· < ·) ∧ n.ins.Pairwise (· < ·)) ∧ g'.Valid := by
  obtain ⟨g, g', h1, h2, h3, h4⟩ := construct_spec hs h
  obtain ⟨g'', h5, h6, h7, h8, h9⟩ := C24_kept_edges h4.valid
  rw [h3] at h5; cases h5
  have hmir : ∀ u v, v ∈ g.out u ↔ u ∈ g.inn v := fun u v => by rw [h4.out, h4.inn]
  have hsub : ∀ (i : Nat) n', g'[i]? = some n' → ∃ n, g[i]? = some n ∧ n'.id = n.id ∧ n'.outs.Sublist n.outs ∧
      n'.ins.Sublist n.ins := by
    intro i n' hi
    have hlt := (List.getElem?_eq_some_iff.1 hi).1
    have hg := List.getElem?_eq_getElem (l := g) (i := i) (by omega)
    obtain ⟨h10, _, _, h11, h12⟩ := h7 i _ _ hg hi
    exact ⟨_, hg, h10, h11, h12⟩
  refine ⟨g, g', _, h1, h2, hmir, fun u v => ?_, h4.sorted, fun n' hn' => ?_, ?_, ?_, ?_⟩
  · rw [h8, h9, ← hmir]
    constructor
    · rintro ⟨h10, h11⟩; exact ⟨h10, fun h12 => h11 h12.2⟩
    · rintro ⟨h10, h11⟩; exact ⟨h10, fun h12 => h11 ⟨h10, h12⟩⟩
  · obtain ⟨i, hi⟩ := List.mem_iff_getElem?.1 hn'
    obtain ⟨n, hg, _, h11, h12⟩ := hsub i n' hi
    have := h4.sorted n (List.mem_of_getElem? hg)
    exact ⟨this.1.sublist h11, this.2.sublist h12⟩
  · intro i n' hi
    obtain ⟨n, hg, h10, _⟩ := hsub i n' hi
    rw [h10]; exact h4.valid.1 i n hg
  · intro n' hn' j hj
    obtain ⟨i, hi⟩ := List.mem_iff_getElem?.1 hn'
    obtain ⟨n, hg, _, h11, _⟩ := hsub i n' hi
    rw [h6]; exact h4.valid.2.1 n (List.mem_of_getElem? hg) j (h11.subset hj)
  · intro n' hn' j hj
    obtain ⟨i, hi⟩ := List.mem_iff_getElem?.1 hn'
    obtain ⟨n, hg, _, _, h12⟩ := hsub i n' hi
    rw [h6]; exact h4.valid.2.2 n (List.mem_of_getElem? hg) j (h12.subset hj)

/-! ### C22 -/

/-- C22: two different nodes whose routes share the exclusion set `k` are connected from the one with the earlier start to
the other one; with equal starts in one of the two directions. This holds before the removal of transitive edges, and
afterwards if the graph is acyclic. -/
theorem C22_users_are_ordered {srt : Nat → List Usage → List Usage} (hs : IsSorter srt) {setCount : Nat}
    {irsToSets : List (List Nat)} {filter : List Nat} {trains : List OTrain}
    (h : WellFormed setCount irsToSets filter trains) :
    ∃ g g' m, preGraph srt setCount irsToSets filter trains = some (g, m) ∧
      construct srt setCount irsToSets filter trains = some (g', m) ∧
      ∀ i j p tr a ir i' j' p' tr' a' ir' k, IsStep (allTrips filter trains) i j p tr a ir →
        IsStep (allTrips filter trains) i' j' p' tr' a' ir' → i ≠ i' →
        (∃ ks, irsToSets[ir]? = some ks ∧ k ∈ ks) → (∃ ks, irsToSets[ir']? = some ks ∧ k ∈ ks) →
        startTime tr a p ≤ startTime tr' a' p' →
        ((startTime tr a p < startTime tr' a' p' → Reach g.out i i') ∧ (Reach g.out i i' ∨ Reach g.out i' i)) ∧
        (Acyclic g.out →
          (startTime tr a p < startTime tr' a' p' → Reach g'.out i i') ∧ (Reach g'.out i i' ∨ Reach g'.out i' i)) := by
  obtain ⟨g, g', h1, h2, h3, h4⟩ := construct_spec hs h
  refine ⟨g, g', _, h1, h2, ?_⟩
  intro i j p tr a ir i' j' p' tr' a' ir' k hst hst' hne ⟨ks, hks, hk⟩ ⟨ks', hks', hk'⟩ hle
  have hlt : k < setCount := h.2 ks (List.mem_of_getElem? hks) k hk
  have key := set_reach hs h4 hst hst' hne hlt (by rw [hks]; exact hk) (by rw [hks']; exact hk')
  have key' : (startTime tr a p < startTime tr' a' p' → Reach g.out i i') ∧ (Reach g.out i i' ∨ Reach g.out i' i) := by
    rcases key with ⟨_, hr⟩ | ⟨hle', hr⟩
    · exact ⟨fun _ => hr, Or.inl hr⟩
    · exact ⟨fun hh => by omega, Or.inr hr⟩
  refine ⟨key', fun hac => ?_⟩
  obtain ⟨g'', h5, h6, _⟩ := C24_reachability h4.valid hac
  rw [h3] at h5; cases h5
  rw [h6, h6]; exact key'

/-- C22: consequently `has_exclusion_paths` accepts the graph if it is acyclic. The mapping from routes to exclusion sets
is the computed one. -/
theorem C22_has_exclusion_paths {srt : Nat → List Usage → List Usage} (hs : IsSorter srt) (sets : List (List Nat))
    (irCount : Nat) {filter : List Nat} {trains : List OTrain} (hsets : ∀ s ∈ sets, ∀ r ∈ s, r < irCount)
    (htr : ∀ tr ∈ selected filter trains, tr.path.length = tr.times.length + 1 ∧ ∀ ir ∈ tr.path, ir < irCount) :
    ∃ irs g g' m, Exclusion.irsToExclusionSets sets irCount = some irs ∧
      preGraph srt sets.length irs filter trains = some (g, m) ∧
      construct srt sets.length irs filter trains = some (g', m) ∧
      (Acyclic g.out → hasExclusionPaths g' (fun r => irs[r]?.getD []) (fun k => sets[k]?.getD []) = some true) := by
  obtain ⟨irs, h1, h2, h3⟩ := C18_irs_to_exclusion_sets sets irCount hsets
  have hwf : WellFormed sets.length irs filter trains := by
    refine ⟨by rw [h2]; exact htr, fun ks hks k hk => ?_⟩
    obtain ⟨r, hr⟩ := List.mem_iff_getElem?.1 hks
    have hlt := (List.getElem?_eq_some_iff.1 hr).1
    obtain ⟨l, h4, h5, _⟩ := h3 r (by omega)
    rw [hr] at h4; cases h4
    obtain ⟨s, hs', _⟩ := (h5 k).1 hk
    exact (List.getElem?_eq_some_iff.1 hs').1
  obtain ⟨g, g', m, h4, h5, h6⟩ := C22_users_are_ordered hs hwf
  obtain ⟨_, _, _, _, h7, _, _, _, _, hval⟩ := C21_mirror hs hwf
  rw [h5] at h7; cases h7
  obtain ⟨_, _, h8, _, hst, hnode⟩ := C20_nodes hs hwf
  rw [h5] at h8; cases h8
  have hstep : ∀ x ∈ g', ∃ j p tr a, IsStep (allTrips filter trains) x.id j p tr a x.ir := by
    intro x hx
    obtain ⟨hl, hg⟩ := hval.id_lt hx
    obtain ⟨j, p, tr, a, ir, h9, _⟩ := hst x.id hl
    obtain ⟨n, h10, _, h11, _⟩ := hnode _ j p tr a ir h9
    rw [hg] at h10; cases h10
    exact ⟨j, p, tr, a, by rw [h11]; exact h9⟩
  refine ⟨irs, g, g', m, h1, h4, h5, fun hac => ?_⟩
  have hirlt : ∀ n ∈ g', n.ir < irCount := by
    intro n hn
    obtain ⟨j, p, tr, a, h9⟩ := hstep n hn
    have hsel : tr ∈ selected filter trains := by
      have := List.mem_of_getElem? h9.1
      obtain ⟨t, ht, h10⟩ := List.mem_flatMap.1 this
      obtain ⟨_, _, h11⟩ := List.mem_map.1 h10
      cases h11; exact ht
    exact (htr tr hsel).2 _ (List.mem_of_getElem? h9.2.2)
  obtain ⟨irs', b, h9, h10, h11⟩ := C25_has_exclusion_paths hval sets irCount hsets hirlt
  rw [h1] at h9; cases h9
  rw [h10]
  congr 1
  rw [h11]
  intro x hx y hy hne ⟨s, hs1, hs2, hs3⟩
  obtain ⟨k, hk⟩ := List.mem_iff_getElem?.1 hs1
  obtain ⟨j, p, tr, a, hx1⟩ := hstep x hx
  obtain ⟨j', p', tr', a', hy1⟩ := hstep y hy
  obtain ⟨lx, h12, h13, _⟩ := h3 x.ir (hirlt x hx)
  obtain ⟨ly, h14, h15, _⟩ := h3 y.ir (hirlt y hy)
  have hkx : ∃ ks, irs[x.ir]? = some ks ∧ k ∈ ks := ⟨lx, h12, (h13 k).2 ⟨s, hk, hs2⟩⟩
  have hky : ∃ ks, irs[y.ir]? = some ks ∧ k ∈ ks := ⟨ly, h14, (h15 k).2 ⟨s, hk, hs3⟩⟩
  rcases Int.le_total (startTime tr a p) (startTime tr' a' p') with hle | hle
  · exact ((h6 _ _ _ _ _ _ _ _ _ _ _ _ k hx1 hy1 hne hkx hky hle).2 hac).2
  · exact (((h6 _ _ _ _ _ _ _ _ _ _ _ _ k hy1 hx1 (Ne.symm hne) hky hkx hle).2 hac).2).symm

/-! ### C23 -/

/-- C23: if the start times strictly increase along every trip and no two different nodes with routes in a common exclusion
set start at the same time, the graph is acyclic, before and after the removal of transitive edges. -/
theorem C23_acyclic {srt : Nat → List Usage → List Usage} (hs : IsSorter srt) {setCount : Nat}
    {irsToSets : List (List Nat)} {filter : List Nat} {trains : List OTrain}
    (h : WellFormed setCount irsToSets filter trains) (hnd : ∀ ks ∈ irsToSets, ks.Nodup)
    (hinc : ∀ t ∈ allTrips filter trains, ∀ p, p + 1 < t.1.path.length → startTime t.1 t.2 p < startTime t.1 t.2 (p + 1))
    (hties : ∀ i j p tr a ir i' j' p' tr' a' ir' k ks ks', IsStep (allTrips filter trains) i j p tr a ir →
      IsStep (allTrips filter trains) i' j' p' tr' a' ir' → i ≠ i' →
      irsToSets[ir]? = some ks → k ∈ ks → irsToSets[ir']? = some ks' → k ∈ ks' →
      startTime tr a p ≠ startTime tr' a' p') :
    ∃ g g' m, preGraph srt setCount irsToSets filter trains = some (g, m) ∧
      construct srt setCount irsToSets filter trains = some (g', m) ∧ Acyclic g.out ∧ Acyclic g'.out := by
  obtain ⟨g, g', h1, h2, h3, h4⟩ := construct_spec hs h
  have hac : Acyclic g.out := by
    classical
    -- the start time of a node
    let f : Nat → Int := fun i =>
      if hx : ∃ t, ∃ j p tr a ir, IsStep (allTrips filter trains) i j p tr a ir ∧ t = startTime tr a p
      then Classical.choose hx else 0
    have hf : ∀ i j p tr a ir, IsStep (allTrips filter trains) i j p tr a ir → f i = startTime tr a p := by
      intro i j p tr a ir hst
      have hx : ∃ t, ∃ j p tr a ir, IsStep (allTrips filter trains) i j p tr a ir ∧ t = startTime tr a p :=
        ⟨_, j, p, tr, a, ir, hst, rfl⟩
      have hfi : f i = Classical.choose hx := dif_pos hx
      obtain ⟨j', p', tr', a', ir', h5, h6⟩ := Classical.choose_spec hx
      obtain ⟨rfl, rfl, rfl, rfl, rfl⟩ := step_inj hst h5
      rw [hfi, h6]
    apply acyclic_of_lt f
    intro i i' hii
    rcases (h4.out i i').1 hii with ⟨q, p, tr, a, ir, h5, h6, rfl⟩ | ⟨k, u, v, hk, hc, rfl, rfl⟩
    · have h7 : IsStep (allTrips filter trains) (i + 1) q (p + 1) tr a tr.path[p + 1] :=
        ⟨h5.1, by rw [h5.2.1]; rfl, List.getElem?_eq_getElem h6⟩
      rw [hf _ _ _ _ _ _ h5, hf _ _ _ _ _ _ h7]
      exact hinc (tr, a) (List.mem_of_getElem? h5.1) p h6
    · have hle := hc.rel (hs k _).2
      obtain ⟨hu, hv⟩ := hc.mem
      rw [(hs k _).1.mem_iff, mem_usagesOf] at hu hv
      obtain ⟨j, p, tr, a, ir, h5, h6, _, h7⟩ := hu
      obtain ⟨j', p', tr', a', ir', h5', h6', _, h7'⟩ := hv
      rw [hf _ _ _ _ _ _ h5, hf _ _ _ _ _ _ h5']
      cases hks : irsToSets[ir]? with
      | none => rw [hks] at h7; cases h7
      | some ks =>
        cases hks' : irsToSets[ir']? with
        | none => rw [hks'] at h7'; cases h7'
        | some ks' =>
          rw [hks] at h7; rw [hks'] at h7'
          have hne : u.id ≠ v.id := by
            have hids := usagesOf_ids irsToSets hnd k _ (blocks_ids 0 (allTrips filter trains))
            have hnd' : ((usagesOf irsToSets k (blocks 0 (allTrips filter trains))).map Usage.id).Nodup := by
              rw [List.nodup_iff_pairwise_ne, List.pairwise_map]
              exact hids.imp (fun h => Nat.ne_of_lt h)
            have hnd'' := (((hs k _).1.map Usage.id).nodup_iff).2 hnd'
            rw [List.nodup_iff_pairwise_ne, List.pairwise_map] at hnd''
            exact hc.rel hnd''
          have := hties _ j p tr a ir _ j' p' tr' a' ir' k ks ks' h5 h5' hne hks h7 hks' h7'
          rw [h6, h6'] at hle
          omega
  obtain ⟨g'', h5, _, _, h6⟩ := C24_reachability h4.valid hac
  rw [h3] at h5; cases h5
  exact ⟨g, g', _, h1, h2, hac, h6⟩


theorem step_block {ts : List (OTrain × Int)} {i j p : Nat} {tr : OTrain} {a : Int} {ir : Nat}
    (h : IsStep ts i j p tr a ir) :
    ∃ op ∈ blocks 0 ts, op.1.ir = ir ∧ op.2.id = i ∧ op.2.frm = startTime tr a p := by
  refine ⟨blockOp tr a (0 + offset ts j) p,
    List.mem_of_getElem? ((blocks_getElem? 0 ts i _).2 ⟨j, p, tr, a, h.1, h.lt, h.2.1, rfl⟩), ?_, ?_, rfl⟩
  · simp [blockOp, blockNode, h.2.2]
  · simp [blockOp, h.2.1]

/-- the hypotheses of C23 hold for the example timetable -/
example : (∀ ks ∈ exIrsToSets, ks.Nodup) ∧
    (∀ t ∈ allTrips [] exTrains, ∀ p, p + 1 < t.1.path.length → startTime t.1 t.2 p < startTime t.1 t.2 (p + 1)) ∧
    (∀ i j p tr a ir i' j' p' tr' a' ir' k ks ks', IsStep (allTrips [] exTrains) i j p tr a ir →
      IsStep (allTrips [] exTrains) i' j' p' tr' a' ir' → i ≠ i' →
      exIrsToSets[ir]? = some ks → k ∈ ks → exIrsToSets[ir']? = some ks' → k ∈ ks' →
      startTime tr a p ≠ startTime tr' a' p') := by
  refine ⟨by decide, ?_, ?_⟩
  · intro t ht p hp
    have h : ∀ t ∈ allTrips [] exTrains, ∀ p < t.1.path.length - 1, startTime t.1 t.2 p < startTime t.1 t.2 (p + 1) := by decide
    exact h t ht p (by omega)
  · intro i j p tr a ir i' j' p' tr' a' ir' k ks ks' h h' hne hks hk hks' hk'
    obtain ⟨x, h1, h2, h3, h4⟩ := step_block h
    obtain ⟨y, h5, h6, h7, h8⟩ := step_block h'
    have key : ∀ x ∈ blocks 0 (allTrips [] exTrains), ∀ y ∈ blocks 0 (allTrips [] exTrains), x.2.id ≠ y.2.id →
      ∀ k ∈ exIrsToSets[x.1.ir]?.getD [], k ∈ exIrsToSets[y.1.ir]?.getD [] → x.2.frm ≠ y.2.frm := by decide
    rw [← h4, ← h8]
    exact key x h1 y h5 (by rw [h3, h7]; exact hne) k (by rw [h2, hks]; exact hk) (by rw [h6, hks']; exact hk')

/-- what a stable sort guarantees in addition: usages with the same start keep their order -/
def IsStable (srt : Nat → List Usage → List Usage) : Prop :=
  ∀ k l t, (srt k l).filter (fun u => decide (u.frm = t)) = l.filter (fun u => decide (u.frm = t))

/-- C23: with a stable sort it would suffice that start times do not decrease along trips; ties are harmless. -/
theorem C23_acyclic_stable {srt : Nat → List Usage → List Usage} (hs : IsSorter srt) (hst : IsStable srt) {setCount : Nat}
    {irsToSets : List (List Nat)} {filter : List Nat} {trains : List OTrain}
    (h : WellFormed setCount irsToSets filter trains) (hnd : ∀ ks ∈ irsToSets, ks.Nodup)
    (hinc : ∀ t ∈ allTrips filter trains, ∀ p, p + 1 < t.1.path.length → startTime t.1 t.2 p ≤ startTime t.1 t.2 (p + 1)) :
    ∃ g g' m, preGraph srt setCount irsToSets filter trains = some (g, m) ∧
      construct srt setCount irsToSets filter trains = some (g', m) ∧ Acyclic g.out ∧ Acyclic g'.out := by
  obtain ⟨g, g', h1, h2, h3, h4⟩ := construct_spec hs h
  have hac : Acyclic g.out := by
    classical
    let f : Nat → Int := fun i =>
      if hx : ∃ t, ∃ j p tr a ir, IsStep (allTrips filter trains) i j p tr a ir ∧ t = startTime tr a p
      then Classical.choose hx else 0
    have hf : ∀ i j p tr a ir, IsStep (allTrips filter trains) i j p tr a ir → f i = startTime tr a p := by
      intro i j p tr a ir hst
      have hx : ∃ t, ∃ j p tr a ir, IsStep (allTrips filter trains) i j p tr a ir ∧ t = startTime tr a p :=
        ⟨_, j, p, tr, a, ir, hst, rfl⟩
      have hfi : f i = Classical.choose hx := dif_pos hx
      obtain ⟨j', p', tr', a', ir', h5, h6⟩ := Classical.choose_spec hx
      obtain ⟨rfl, rfl, rfl, rfl, rfl⟩ := step_inj hst h5
      rw [hfi, h6]
    apply acyclic_of_lex f
    intro i i' hii
    rcases (h4.out i i').1 hii with ⟨q, p, tr, a, ir, h5, h6, rfl⟩ | ⟨k, u, v, hk, hc, rfl, rfl⟩
    · have h7 : IsStep (allTrips filter trains) (i + 1) q (p + 1) tr a tr.path[p + 1] :=
        ⟨h5.1, by rw [h5.2.1]; rfl, List.getElem?_eq_getElem h6⟩
      rw [hf _ _ _ _ _ _ h5, hf _ _ _ _ _ _ h7]
      have := hinc (tr, a) (List.mem_of_getElem? h5.1) p h6
      dsimp only at this
      omega
    · have hle := hc.rel (hs k _).2
      obtain ⟨hu, hv⟩ := hc.mem
      rw [(hs k _).1.mem_iff, mem_usagesOf] at hu hv
      obtain ⟨j, p, tr, a, ir, h5, h6, _, h7⟩ := hu
      obtain ⟨j', p', tr', a', ir', h5', h6', _, h7'⟩ := hv
      rw [hf _ _ _ _ _ _ h5, hf _ _ _ _ _ _ h5', ← h6, ← h6']
      by_cases heq : u.frm = v.frm
      · refine Or.inr ⟨heq, ?_⟩
        have hids := usagesOf_ids irsToSets hnd k _ (blocks_ids 0 (allTrips filter trains))
        have hfil := hids.filter (fun w => decide (w.frm = v.frm))
        rw [← hst k _ v.frm] at hfil
        obtain ⟨l1, l2, hl⟩ := hc
        rw [hl, List.filter_append, List.pairwise_append] at hfil
        have h8 := hfil.2.1
        simp only [List.filter_cons, heq, decide_true, if_true] at h8
        exact (List.pairwise_cons.1 h8).1 v (by simp)
      · omega
  obtain ⟨g'', h5, _, _, h6⟩ := C24_reachability h4.valid hac
  rw [h3] at h5; cases h5
  exact ⟨g, g', _, h1, h2, hac, h6⟩

theorem insertUsage_stable (u : Usage) (l : List Usage) (t : Int) :
    (insertUsage u l).filter (fun u => decide (u.frm = t)) = (u :: l).filter (fun u => decide (u.frm = t)) := by
  induction l with
  | nil => rfl
  | cons v l ih =>
    unfold insertUsage
    split
    · rfl
    · rename_i huv
      rw [List.filter_cons, ih]
      by_cases h1 : u.frm = t <;> by_cases h2 : v.frm = t <;> simp [h1, h2]
      omega

/-- there are stable sorters -/
example : IsStable sortUsages := by
  intro k l t
  induction l with
  | nil => rfl
  | cons u l ih =>
    have : sortUsages k (u :: l) = insertUsage u (sortUsages k l) := rfl
    rw [this, insertUsage_stable, List.filter_cons, ih, List.filter_cons]

/-- a sorter that breaks ties differently in ordering 1 -/
def unstableSort : Nat → List Usage → List Usage := fun k l => if k = 1 then sortUsages k l.reverse else sortUsages k l

theorem unstableSort_spec : IsSorter unstableSort := by
  intro k l
  unfold unstableSort
  split
  · exact ⟨(sortUsages_spec k l.reverse).1.trans (List.reverse_perm l), (sortUsages_spec k l.reverse).2⟩
  · exact sortUsages_spec k l

/-- two trains that enter routes 0 and 2, which are in the exclusion sets 0 and 1, at the same time -/
def tieTrains : List OTrain := [⟨0, [0, 1], [0], 0, 20, [(10, 10)]⟩, ⟨1, [2, 3], [0], 0, 20, [(10, 10)]⟩]
def tieSets : List (List Nat) := [[0, 1], [], [0, 1], []]

theorem no_reach {g : OGraph} {a b : Nat} (hab : a ≠ b) (h : ∀ n ∈ g, n.outs = []) : ¬ Reach g.out a b := by
  rintro ⟨n, hw⟩
  cases hw with
  | nil => exact hab rfl
  | @snoc n a c b _ hc =>
    obtain ⟨nd, h1, h2⟩ := out_mem hc
    rw [h nd (List.mem_of_getElem? h1)] at h2; cases h2

/-- train 0 enters its first route at 100, train 1 at 0; both routes are in exclusion set 0 -/
def nextTrain1 : OTrain := ⟨1, [2, 3], [0], 0, 20, [(10, 10)]⟩
def nextTrains : List OTrain := [⟨0, [0, 1], [100], 0, 20, [(10, 10)]⟩, nextTrain1]

/-- C23: with ties a cycle is possible although start times strictly increase along trips: the two sets order the two
nodes differently. Removing transitive edges then deletes both edges, and the two nodes are not ordered at all. -/
theorem C23_tie_cycle :
    ∃ srt g g' m, IsSorter srt ∧ WellFormed 2 tieSets [] tieTrains ∧
      preGraph srt 2 tieSets [] tieTrains = some (g, m) ∧ construct srt 2 tieSets [] tieTrains = some (g', m) ∧
      ReachPlus g.out 0 0 ∧ ¬ Reach g'.out 0 2 ∧ ¬ Reach g'.out 2 0 := by
  refine ⟨unstableSort, [⟨0, 0, 0, [2], [1, 2]⟩, ⟨1, 1, 0, [0], []⟩, ⟨2, 2, 1, [0], [0, 3]⟩, ⟨3, 3, 1, [2], []⟩],
    [⟨0, 0, 0, [], []⟩, ⟨1, 1, 0, [], []⟩, ⟨2, 2, 1, [], []⟩, ⟨3, 3, 1, [], []⟩], [((0, 0), (0, 2)), ((1, 0), (2, 4))],
    unstableSort_spec, by constructor <;> decide, ?_, ?_, ⟨1, .snoc (.snoc (.nil 0) (b := 0) (c := 2) (by decide)) (by decide)⟩, ?_, ?_⟩
  · decide +kernel
  · decide +kernel
  · exact no_reach (by decide) (by decide)
  · exact no_reach (by decide) (by decide)

/-! ### C69 -/

/-- C69 does not hold: two trips enter the same exclusion set, the train listed later in the timetable first. The successor
with the least id of node 2 (train 1) is node 0 (train 0), and this is what `next` returns. -/
theorem C69_next_negation :
    ∃ srt g m n n', IsSorter srt ∧ WellFormed 1 [[0], [], [0], []] [] nextTrains ∧
      construct srt 1 [[0], [], [0], []] [] nextTrains = some (g, m) ∧ Acyclic g.out ∧
      g[2]? = some n ∧ IsStep (allTrips [] nextTrains) 2 1 0 nextTrain1 0 2 ∧ 3 ∈ g.out 2 ∧
      next g n = some n' ∧ n'.train ≠ n.train := by
  refine ⟨sortUsages, [⟨0, 0, 0, [2], [1]⟩, ⟨1, 1, 0, [0], []⟩, ⟨2, 2, 1, [], [0, 3]⟩, ⟨3, 3, 1, [2], []⟩],
    [((0, 100), (0, 2)), ((1, 0), (2, 4))], ⟨2, 2, 1, [], [0, 3]⟩, ⟨0, 0, 0, [2], [1]⟩, sortUsages_spec,
    by constructor <;> decide, by decide +kernel, ?_, rfl, ⟨rfl, rfl, rfl⟩, by decide, rfl, by decide⟩
  apply acyclic_of_lt (fun i => if i = 2 then 0 else if i = 0 then 1 else 2)
  intro i j hj
  match i, hj with
  | 0, hj => have : j = 1 := by simpa [OGraph.out] using hj
             subst this; decide
  | 1, hj => simp [OGraph.out] at hj
  | 2, hj => have : j = 0 ∨ j = 3 := by simpa [OGraph.out] using hj
             rcases this with rfl | rfl <;> decide
  | 3, hj => simp [OGraph.out] at hj
  | i + 4, hj => simp [OGraph.out] at hj

/-- C69, what does hold: if the node of the next route is not reached by a detour and all successors have greater ids
(trains are listed in the order in which they use the routes), `next` returns the node of the next route of the trip. -/
theorem C69_next_partial {srt : Nat → List Usage → List Usage} (hs : IsSorter srt) {setCount : Nat}
    {irsToSets : List (List Nat)} {filter : List Nat} {trains : List OTrain}
    (h : WellFormed setCount irsToSets filter trains) :
    ∃ g g' m, preGraph srt setCount irsToSets filter trains = some (g, m) ∧
      construct srt setCount irsToSets filter trains = some (g', m) ∧
      ∀ i j p tr a ir ir' n, IsStep (allTrips filter trains) i j p tr a ir → tr.path[p + 1]? = some ir' →
        g'[i]? = some n → (∀ v ∈ g.out i, i < v) → (¬ ∃ l, 2 ≤ l ∧ Walk g.out l i (i + 1)) →
        ∃ n', next g' n = some n' ∧ n'.id = i + 1 ∧ n'.ir = ir' ∧ n'.train = tr.id := by
  obtain ⟨g, g', h1, h2, h3, h4⟩ := construct_spec hs h
  refine ⟨g, g', _, h1, h2, ?_⟩
  intro i j p tr a ir ir' n hst hir hn hgt hdet
  obtain ⟨g'', h5, _, _, h8, _⟩ := C24_kept_edges h4.valid
  rw [h3] at h5; cases h5
  obtain ⟨_, _, _, _, h9, _, _, _, hsort, _⟩ := C21_mirror hs h
  rw [h2] at h9; cases h9
  obtain ⟨_, _, h10, _, _, hnode⟩ := C20_nodes hs h
  rw [h2] at h10; cases h10
  have hp : p + 1 < tr.path.length := (List.getElem?_eq_some_iff.1 hir).1
  have hst' : IsStep (allTrips filter trains) (i + 1) j (p + 1) tr a ir' := ⟨hst.1, by rw [hst.2.1]; rfl, hir⟩
  have hmem : i + 1 ∈ n.outs := by
    rw [← out_of_get hn, h8]
    exact ⟨(h4.out _ _).2 (Or.inl ⟨j, p, tr, a, ir, hst, hp, rfl⟩), hdet⟩
  obtain ⟨n', h11, h12, h13, h14⟩ := hnode _ j (p + 1) tr a ir' hst'
  refine ⟨n', ?_, h12, h13, h14⟩
  have hgt' : ∀ v ∈ n.outs, i < v := by
    intro v hv
    rw [← out_of_get hn, h8] at hv
    exact hgt v hv.1
  have hs' := (hsort n (List.mem_of_getElem? hn)).1
  unfold next
  cases ho : n.outs with
  | nil => rw [ho] at hmem; cases hmem
  | cons x l =>
    rw [ho] at hmem hgt' hs'
    have hx : x = i + 1 := by
      rcases List.mem_cons.1 hmem with h | h
      · exact h.symm
      · have h15 := (List.pairwise_cons.1 hs').1 _ h
        have h16 := hgt' x (by simp)
        omega
    subst hx
    simpa using h11

/-- the first trip of the example timetable meets the hypotheses of the partial claim -/
example : ∃ g m, preGraph sortUsages 3 exIrsToSets [] exTrains = some (g, m) ∧
    (∀ v ∈ g.out 0, 0 < v) ∧ 1 ∈ g.out 0 ∧ g.inn 1 = [0] := by
  refine ⟨_, _, rfl, ?_⟩
  decide +kernel

end Soro
