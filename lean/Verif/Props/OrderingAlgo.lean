import Verif.Proof.Cycle
import Verif.Props.Exclusion

/-! Properties C24 - C26: removal of transitive edges, the exclusion path check and shortest cycles. -/

namespace Soro
open OGraph

/-! ### C24 -/

/-- an acyclic graph: 0 → 1 → 2 → 3 with the implied edges 0 → 2, 0 → 3 and 1 → 3 -/
def exDag : OGraph :=
  [⟨0, 7, 0, [], [3, 2, 1]⟩, ⟨1, 8, 0, [0], [2, 3]⟩, ⟨2, 7, 1, [0, 1], [3]⟩, ⟨3, 9, 1, [0, 1, 2], []⟩]

/-- two nodes with edges in both directions -/
def exLoop : OGraph := [⟨0, 7, 0, [1], [1]⟩, ⟨1, 8, 0, [0], [0]⟩]

theorem valid_of {g : OGraph} (h : ∀ i ∈ List.range g.length, ∀ n ∈ g[i]?, n.id = i ∧ (∀ j ∈ n.outs, j < g.length) ∧
    ∀ j ∈ n.ins, j < g.length) : g.Valid := by
  have h1 : ∀ (i : Nat) (n : ONode), g[i]? = some n → n.id = i ∧ (∀ j ∈ n.outs, j < g.length) ∧ ∀ j ∈ n.ins, j < g.length :=
    fun i n hn => h i (List.mem_range.2 (List.getElem?_eq_some_iff.1 hn).1) n hn
  refine ⟨fun i n hn => (h1 i n hn).1, fun n hn => ?_, fun n hn => ?_⟩
  · obtain ⟨i, hi⟩ := List.mem_iff_getElem?.1 hn
    exact (h1 i n hi).2.1
  · obtain ⟨i, hi⟩ := List.mem_iff_getElem?.1 hn
    exact (h1 i n hi).2.2

theorem exDag_valid : exDag.Valid := valid_of (by decide)
theorem exLoop_valid : exLoop.Valid := valid_of (by decide)

/-- C24: removal terminates on every graph, only touches the edge lists, keeps their order, and keeps an edge iff no walk
of two or more edges has the same ends. The in- and out-lists are treated alike. -/
theorem C24_kept_edges {g : OGraph} (hv : g.Valid) :
    ∃ g', removeTransitive g = some g' ∧ g'.length = g.length ∧
      (∀ (i : Nat) n n', g[i]? = some n → g'[i]? = some n' →
        n'.id = n.id ∧ n'.ir = n.ir ∧ n'.train = n.train ∧ n'.outs.Sublist n.outs ∧ n'.ins.Sublist n.ins) ∧
      (∀ i j, j ∈ g'.out i ↔ j ∈ g.out i ∧ ¬ ∃ n, 2 ≤ n ∧ Walk g.out n i j) ∧
      (∀ i j, j ∈ g'.inn i ↔ j ∈ g.inn i ∧ ¬ (i ∈ g.out j ∧ ∃ n, 2 ≤ n ∧ Walk g.out n j i)) := by
  obtain ⟨g', es, h1, h2, h3, h4⟩ := removeTransitive_spec hv
  refine ⟨g', h1, h2, ?_, fun i j => ?_, fun i j => ?_⟩
  · intro i n n' hn hn'
    rw [h4, hn] at hn'
    cases hn'
    exact ⟨rfl, rfl, rfl, List.filter_sublist, List.filter_sublist⟩
  · rw [mem_out_erase h4, h3, Implied]
    constructor
    · rintro ⟨h5, h6⟩; exact ⟨h5, fun h => h6 ⟨h5, h⟩⟩
    · rintro ⟨h5, h6⟩; exact ⟨h5, fun h => h6 h.2⟩
  · rw [mem_inn_erase h4, h3, Implied]

/-- C24: on acyclic graphs reachability is unchanged and no remaining edge is implied by a longer walk along remaining
edges; the graph stays acyclic. -/
theorem C24_reachability {g : OGraph} (hv : g.Valid) (hac : Acyclic g.out) :
    ∃ g', removeTransitive g = some g' ∧ (∀ a b, Reach g'.out a b ↔ Reach g.out a b) ∧
      (∀ i j, j ∈ g'.out i → ¬ ∃ n, 2 ≤ n ∧ Walk g'.out n i j) ∧ Acyclic g'.out := by
  obtain ⟨g', h1, _, _, h4, _⟩ := C24_kept_edges hv
  have hmono : ∀ i j, j ∈ g'.out i → j ∈ g.out i := fun i j h => ((h4 i j).1 h).1
  have hU : ∀ x, ∀ y ∈ g.out x, y ∈ List.range g.length := by
    intro x y hy
    obtain ⟨n, h5, h6⟩ := out_mem hy
    exact List.mem_range.2 (hv.2.1 n (List.mem_of_getElem? h5) y h6)
  refine ⟨g', h1, fun a b => ⟨?_, ?_⟩, fun i j hij => ?_, fun a => ?_⟩
  · rintro ⟨n, h⟩; exact ⟨n, Walk.mono hmono h⟩
  · exact reach_kept hU hac (fun i j h5 h6 => (h4 i j).2 ⟨h5, h6⟩)
  · rintro ⟨n, h5, h6⟩
    exact ((h4 i j).1 hij).2 ⟨n, h5, Walk.mono hmono h6⟩
  · rintro ⟨n, h⟩
    exact hac a ⟨n, Walk.mono hmono h⟩

/-- C24: minimality. Any smaller edge set with the same reachability contains all remaining edges, so nothing more can be
removed. -/
theorem C24_minimal {g : OGraph} (hv : g.Valid) (hac : Acyclic g.out) :
    ∃ g', removeTransitive g = some g' ∧ ∀ out' : Nat → List Nat, (∀ i j, j ∈ out' i → j ∈ g.out i) →
      (∀ a b, Reach g.out a b → Reach out' a b) → ∀ i j, j ∈ g'.out i → j ∈ out' i := by
  obtain ⟨g', h1, _, _, h4, _⟩ := C24_kept_edges hv
  refine ⟨g', h1, fun out' hsub hre i j hij => ?_⟩
  obtain ⟨h5, h6⟩ := (h4 i j).1 hij
  obtain ⟨n, hn⟩ := hre i j ⟨1, .snoc (.nil i) h5⟩
  match n, hn with
  | 0, hn =>
    rw [Walk.zero_iff] at hn
    subst hn
    exact absurd ⟨0, .snoc (.nil i) h5⟩ (hac i)
  | 1, hn =>
    obtain ⟨y, hy, hyj⟩ := Walk.succ_iff.1 hn
    rw [Walk.zero_iff] at hy
    subst hy
    exact hyj
  | n + 2, hn => exact absurd ⟨n + 2, by omega, Walk.mono hsub hn⟩ h6

theorem exDag_acyclic : Acyclic exDag.out := by
  have h : ∀ n a b, Walk exDag.out n a b → a + n ≤ b := by
    intro n a b hw
    induction hw with
    | nil => simp
    | @snoc n a b c _ hc ih =>
      obtain ⟨nd, h1, h2⟩ := out_mem hc
      have hb : b < 4 := (List.getElem?_eq_some_iff.1 h1).1
      have : b < c := by
        have h3 : ∀ b' < 4, ∀ c ∈ exDag.out b', b' < c := by decide
        exact h3 b hb c hc
      omega
  rintro a ⟨n, hw⟩
  have := h _ _ _ hw
  omega

example : removeTransitive exDag =
    some [⟨0, 7, 0, [], [1]⟩, ⟨1, 8, 0, [0], [2]⟩, ⟨2, 7, 1, [1], [3]⟩, ⟨3, 9, 1, [2], []⟩] := by decide +kernel

/-- Acyclicity is needed: on two nodes with edges in both directions both edges are removed, as 0 → 1 → 0 → 1 is a longer
walk, and the nodes are no longer connected. -/
theorem C24_cyclic_loses_reachability :
    ∃ g', removeTransitive exLoop = some g' ∧ Reach exLoop.out 0 1 ∧ ¬ Reach g'.out 0 1 := by
  refine ⟨[⟨0, 7, 0, [], []⟩, ⟨1, 8, 0, [], []⟩], by decide +kernel, ⟨1, .snoc (.nil 0) (by decide)⟩, ?_⟩
  rintro ⟨n, h⟩
  cases h with
  | @snoc n a b c _ hc =>
    obtain ⟨nd, h1, h2⟩ := out_mem hc
    have : nd.outs = [] := by
      match b, h1 with
      | 0, h1 => cases h1; rfl
      | 1, h1 => cases h1; rfl
    rw [this] at h2; cases h2

/-! ### C25 -/

/-- C25: for the mapping computed from the exclusion sets, the check answers exactly whether every two different nodes
with routes in a common exclusion set are connected in one direction. -/
theorem C25_has_exclusion_paths {g : OGraph} (hv : g.Valid) (sets : List (List Nat)) (irCount : Nat)
    (h : ∀ s ∈ sets, ∀ r ∈ s, r < irCount) (hir : ∀ n ∈ g, n.ir < irCount) :
    ∃ m b, Exclusion.irsToExclusionSets sets irCount = some m ∧
      hasExclusionPaths g (fun r => m[r]?.getD []) (fun k => sets[k]?.getD []) = some b ∧
      (b = true ↔ ∀ x ∈ g, ∀ y ∈ g, x.id ≠ y.id → (∃ s ∈ sets, x.ir ∈ s ∧ y.ir ∈ s) →
        Reach g.out x.id y.id ∨ Reach g.out y.id x.id) := by
  obtain ⟨m, h1, _, h3⟩ := C18_irs_to_exclusion_sets sets irCount h
  obtain ⟨b, h4, h5⟩ := allM_spec (hasExclusionPathsFrom g (fun r => m[r]?.getD []) (fun k => sets[k]?.getD []))
    (fun x => ∀ y ∈ g, x.id ≠ y.id → (∃ s ∈ sets, x.ir ∈ s ∧ y.ir ∈ s) →
        Reach g.out x.id y.id ∨ Reach g.out y.id x.id) g (by
      intro x hx
      obtain ⟨b, h4, h5⟩ := hasExclusionPathsFrom_spec hv (fun r => m[r]?.getD []) (fun k => sets[k]?.getD []) hx
      refine ⟨b, h4, ?_⟩
      have key : ∀ y : ONode, (∃ k, k ∈ m[x.ir]?.getD [] ∧ y.ir ∈ sets[k]?.getD []) ↔ ∃ s ∈ sets, x.ir ∈ s ∧ y.ir ∈ s := by
        intro y
        obtain ⟨l, h6, h7, _⟩ := h3 x.ir (hir x hx)
        rw [h6]
        constructor
        · rintro ⟨k, h8, h9⟩
          obtain ⟨s, h10, h11⟩ := (h7 k).1 h8
          rw [h10] at h9
          exact ⟨s, List.mem_of_getElem? h10, h11, h9⟩
        · rintro ⟨s, h8, h9, h10⟩
          obtain ⟨k, hk⟩ := List.mem_iff_getElem?.1 h8
          exact ⟨k, (h7 k).2 ⟨s, hk, h9⟩, by rw [hk]; exact h10⟩
      rw [h5]
      simp only [key])
  exact ⟨m, b, h1, h4, h5⟩

example : (∀ s ∈ [[7, 8], [9]], ∀ r ∈ s, r < 10) ∧ (∀ n ∈ exDag, n.ir < 10) := by decide

/-- the verdict is positive for a chain and negative for two unconnected nodes with the same route -/
example : hasExclusionPaths exDag (fun _ => [0]) (fun _ => [7, 8, 9]) = some true ∧
    hasExclusionPaths [⟨0, 7, 0, [], []⟩, ⟨1, 7, 1, [], []⟩] (fun _ => [0]) (fun _ => [7, 8, 9]) = some false := by
  decide +kernel

/-! ### C26 -/

/-- C26: `get_shortest_cycle_from_node` terminates without invalid access; it finds nothing iff the start is on no cycle,
otherwise a closed walk of least length from the start to itself. -/
theorem C26_shortest_cycle_from_node {g : OGraph} (hv : g.Valid) {s : Nat} (hs : s < g.length) :
    ∃ r, shortestCycleFrom g s = some r ∧ (r = none ↔ ¬ ReachPlus g.out s s) ∧
      ∀ c, r = some c → ClosedWalk g.out s c ∧ ∀ d, ClosedWalk g.out s d → c.length ≤ d.length := by
  obtain ⟨r, h1, h2, h3⟩ := shortestCycleFrom_spec hv hs
  refine ⟨r, h1, ⟨h2, fun h => ?_⟩, h3⟩
  cases r with
  | none => rfl
  | some c => exact absurd (closedWalk_iff.1 ⟨c, (h3 c rfl).1⟩) h

theorem out_lt_of_reachPlus {g : OGraph} {s t : Nat} (h : ReachPlus g.out s t) : s < g.length := by
  obtain ⟨n, h⟩ := h
  induction n generalizing t with
  | zero =>
    obtain ⟨y, hy, hyt⟩ := Walk.succ_iff.1 h
    rw [Walk.zero_iff] at hy
    subst hy
    obtain ⟨nd, h1, _⟩ := out_mem hyt
    exact (List.getElem?_eq_some_iff.1 h1).1
  | succ n ih =>
    obtain ⟨y, hy, _⟩ := Walk.succ_iff.1 h
    exact ih hy

/-- C26: `get_cycle` finds a cycle iff the graph has one, and then one of globally least length. -/
theorem C26_get_cycle {g : OGraph} (hv : g.Valid) :
    ∃ r, getCycle g = some r ∧ (r = none ↔ Acyclic g.out) ∧
      ∀ c, r = some c → (∃ s, ClosedWalk g.out s c) ∧ ∀ s d, ClosedWalk g.out s d → c.length ≤ d.length := by
  obtain ⟨cs, h1, h2, h3⟩ := getCycles_spec hv g (fun _ h => h)
  have hmin := minBySize_spec cs
  have h3' : ∀ s d, ClosedWalk g.out s d → ∃ c ∈ cs, c.length ≤ d.length := by
    intro s d hd
    have hs : s < g.length := out_lt_of_reachPlus (closedWalk_iff.1 ⟨d, hd⟩)
    have hid := hv.1 s _ (List.getElem?_eq_getElem hs)
    obtain ⟨c, h4, _, h5⟩ := h3 _ (List.getElem_mem hs) d (by rw [hid]; exact hd)
    exact ⟨c, h4, h5⟩
  refine ⟨minBySize cs, by rw [getCycle, h1]; rfl, ?_, fun c hc => ?_⟩
  · rw [hmin.1]
    constructor
    · rintro rfl a ha
      obtain ⟨d, hd⟩ := closedWalk_iff.2 ha
      obtain ⟨c, hc, _⟩ := h3' a d hd
      cases hc
    · intro hac
      cases cs with
      | nil => rfl
      | cons c cs =>
        obtain ⟨n, _, h4⟩ := h2 c (by simp)
        exact absurd (closedWalk_iff.1 ⟨c, h4⟩) (hac n.id)
  · obtain ⟨h4, h5⟩ := hmin.2 c hc
    obtain ⟨n, _, h6⟩ := h2 c h4
    refine ⟨⟨n.id, h6⟩, fun s d hd => ?_⟩
    obtain ⟨e, he, h7⟩ := h3' s d hd
    have := h5 e he
    omega

/-- 0 → 1 → 2 → 0 and 2 → 3 → 2: from 0 the shortest cycle has three edges, overall two -/
def exCyc : OGraph := [⟨0, 0, 0, [2], [1]⟩, ⟨1, 0, 0, [0], [2]⟩, ⟨2, 0, 0, [1, 3], [0, 3]⟩, ⟨3, 0, 0, [2], [2]⟩]

example : exCyc.Valid := valid_of (by decide)
example : shortestCycleFrom exCyc 0 = some (some [1, 2, 0]) := by decide +kernel
example : getCycle exCyc = some (some [3, 2]) ∧ getCycle exDag = some none := by decide +kernel

end Soro
