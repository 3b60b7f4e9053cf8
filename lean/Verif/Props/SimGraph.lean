import Verif.Proof.SimGraph
import Verif.Props.Traversal

/-
C101-C103: the simulation graph.
-/

namespace Soro.Sim.Props

open Soro.Sim Soro.Sim.Spec

/-- C101: the graph of a timetable whose trains are numbered: the nodes of a train are those of its range, nodes are connected
to the next node of the same train and to no other one, at both ends, and there is no cycle. -/
theorem C101_graph (trains : List Nat) (hnd : trains.Nodup) (hlt : ∀ t ∈ trains, t < trains.length) :
    ∃ b, simGraph trains = some b ∧ WellFormed b.nodes ∧ Acyclic (next b.nodes) ∧
      (∀ t ∈ trains, ∃ first last, b.ranges[t]? = some (first, last) ∧ first + 3 = last ∧ last ≤ b.nodes.length ∧
        ∀ (i : Nat) (n : SimNode), b.nodes[i]? = some n → (n.train = t ↔ first ≤ i ∧ i < last)) ∧
      (∀ (i j : Nat) (n m : SimNode), b.nodes[i]? = some n → b.nodes[j]? = some m →
        ((n.succ = some j ↔ m.train = n.train ∧ j = i + 1) ∧ (m.pred = some i ↔ m.train = n.train ∧ j = i + 1))) := by
  obtain ⟨b, h1, h2, h3⟩ := simGraph_spec trains hnd hlt
  have hsame : ∀ (i j : Nat) (n m : SimNode), b.nodes[i]? = some n → b.nodes[j]? = some m → (m.train = n.train ↔ j / 3 = i / 3) := by
    intro i j n m hn hm
    rw [h2] at hn hm
    have g1 := (linked_get trains i n hn).2.2.1
    have g2 := (linked_get trains j m hm).2.2.1
    constructor
    · intro h
      rw [h] at g2
      exact (List.getElem?_inj (List.getElem?_eq_some_iff.mp g2).1 hnd).mp (by rw [g1, g2])
    · intro h
      rw [h, g1] at g2
      exact (Option.some.inj g2).symm
  refine ⟨b, h1, by rw [h2]; exact linked_wellFormed trains, ?_, ?_, ?_⟩
  · intro a ⟨n, hw⟩
    have key : ∀ n x y, Walk (next b.nodes) n x y → y = x + n := by
      intro n x y hw
      induction hw with
      | nil => rfl
      | snoc _ hc ih =>
        rw [h2, linked_outs] at hc
        omega
    have := key _ _ _ hw
    omega
  · intro t ht
    obtain ⟨k, hk, rfl⟩ := List.mem_iff_getElem.mp ht
    refine ⟨3 * k, 3 * k + 3, h3 k _ (List.getElem?_eq_getElem hk), rfl, by rw [h2, linked_length]; omega, ?_⟩
    intro i n hn
    rw [h2] at hn
    obtain ⟨g0, -, g1, -⟩ := linked_get trains i n hn
    constructor
    · intro h
      rw [h] at g1
      have := (List.getElem?_inj (List.getElem?_eq_some_iff.mp g1).1 hnd).mp (g1.trans (List.getElem?_eq_getElem hk).symm)
      omega
    · intro h
      rw [show i / 3 = k by omega, List.getElem?_eq_getElem hk] at g1
      exact (Option.some.inj g1).symm
  · intro i j n m hn hm
    rw [hsame i j n m hn hm]
    rw [h2] at hn hm
    obtain ⟨g0, -, -, -, g1, -⟩ := linked_get trains i n hn
    obtain ⟨g0', -, -, g2, -⟩ := linked_get trains j m hm
    constructor
    · rw [g1]
      split
      · simp only [Option.some.injEq]
        omega
      · simp only [reduceCtorEq, false_iff]
        omega
    · rw [g2]
      split
      · simp only [Option.some.injEq]
        omega
      · simp only [reduceCtorEq, false_iff]
        omega

example : ([1, 0, 2] : List Nat).Nodup ∧ (∀ t ∈ [1, 0, 2], t < [1, 0, 2].length) ∧
    (simGraph [1, 0, 2]).map (fun b => (b.ranges, b.nodes.map SimNode.outs))
      = some ([(3, 6), (0, 3), (6, 9)], [[1], [2], [], [4], [5], [], [7], [8], []]) := by decide

/-! ### Paths -/

/-- C102 for two different nodes: there is a path iff one can get from one node to the other along edges. Missing: paths from a
node to itself (see the negation). -/
theorem C102_path_partial (nodes : List SimNode) (hw : WellFormed nodes) (source target : Nat) (hs : source < nodes.length)
    (hne : source ≠ target) (fuel : Nat) (hf : nodes.length + 2 ≤ fuel) :
    ∃ r, pathExists fuel nodes source target = some r ∧ (r = true ↔ ReachPlus (next nodes) source target) := by
  have hU : FiniteFrom (next nodes) source (List.range nodes.length) := by
    refine ⟨List.mem_range.mpr hs, fun x _ y hy => List.mem_range.mpr (hw.inside x y hy)⟩
  obtain ⟨es, h1, -, h3, -⟩ := Soro.C28_nodes_exactly_once .bfs (next nodes) source _ hU
  unfold pathExists
  rw [outsOf_eq]
  refine ⟨_, h1 Bool fuel (by simpa using hf) _ _ false, ?_⟩
  have key : ∀ (es : List (Ev Nat)) (s : Bool), (s = true → False) →
      (runEvents (fun _ c _ => (c == target, c == target)) (fun s _ _ => (s, false)) es s = true ↔ target ∈ nodesOf es) := by
    intro es
    induction es with
    | nil =>
      intro s hs
      cases s with
      | false => simp [runEvents, nodesOf]
      | true => exact absurd rfl hs
    | cons e es ih =>
      intro s hs
      cases e with
      | node c p =>
        simp only [runEvents]
        by_cases hc : c = target
        · simp [hc, nodesOf]
        · have hc' : (c == target) = false := by simpa using hc
          simp only [hc']
          rw [if_neg (by simp), ih false (by simp)]
          simp [nodesOf, Ne.symm hc]
      | edge a b =>
        simp only [runEvents]
        rw [if_neg (by simp), ih s hs]
        simp [nodesOf]
  rw [key es false (by simp), h3 target]
  exact ⟨fun h => h.2, fun h => ⟨Ne.symm hne, h⟩⟩

/-- three nodes, the last one waits for the first -/
def exNodes : List SimNode :=
  [{ id := 0, train := 0, pred := none, succ := some 1, orderIn := [], orderOut := [2] },
   { id := 1, train := 0, pred := some 0, succ := none, orderIn := [], orderOut := [] },
   { id := 2, train := 1, pred := none, succ := none, orderIn := [0], orderOut := [] }]

theorem exNodes_wellFormed : WellFormed exNodes where
  ids i n h := by
    have : ∀ i : Fin 3, ∀ n ∈ exNodes[(i : Nat)]?, n.id = (i : Nat) := by decide
    exact this ⟨i, (List.getElem?_eq_some_iff.mp h).1⟩ n h
  both i j := by
    have h1 : ∀ i, 3 ≤ i → next exNodes i = [] ∧ waits exNodes i = [] := by
      intro i hi
      unfold next waits
      rw [List.getElem?_eq_none (by simpa [exNodes] using hi)]
      simp
    have h2 : ∀ i j : Fin 3, ((j : Nat) ∈ next exNodes i ↔ (i : Nat) ∈ waits exNodes j) := by decide
    have h3 : ∀ i : Fin 3, ∀ j ∈ next exNodes i ++ waits exNodes i, j < 3 := by decide
    rcases Nat.lt_or_ge i 3 with hi | hi <;> rcases Nat.lt_or_ge j 3 with hj | hj
    · exact h2 ⟨i, hi⟩ ⟨j, hj⟩
    · rw [(h1 j hj).2]
      simp only [List.not_mem_nil, iff_false]
      intro h
      have := h3 ⟨i, hi⟩ j (by simp [h])
      omega
    · rw [(h1 i hi).1]
      simp only [List.not_mem_nil, false_iff]
      intro h
      have := h3 ⟨j, hj⟩ i (by simp [h])
      omega
    · rw [(h1 i hi).1, (h1 j hj).2]
      simp
  inside i j h := by
    have h3 : ∀ i : Fin 3, ∀ j ∈ next exNodes i, j < exNodes.length := by decide
    rcases Nat.lt_or_ge i 3 with hi | hi
    · exact h3 ⟨i, hi⟩ j h
    · unfold next at h
      rw [List.getElem?_eq_none (by simpa [exNodes] using hi)] at h
      simp at h

example : WellFormed exNodes ∧ pathExists 5 exNodes 0 2 = some true ∧ pathExists 5 exNodes 1 2 = some false :=
  ⟨exNodes_wellFormed, by decide, by decide⟩

/-- C102 fails on cycles: two nodes that wait for each other, no path from the first one to itself is found. -/
theorem C102_cycle_negation :
    ∃ nodes : List SimNode, ReachPlus (next nodes) 0 0 ∧ ∀ fuel, pathExists fuel nodes 0 0 ≠ some true := by
  refine ⟨[{ id := 0, train := 0, pred := none, succ := none, orderIn := [1], orderOut := [1] },
    { id := 1, train := 1, pred := none, succ := none, orderIn := [0], orderOut := [0] }],
    ⟨1, .snoc (b := 1) (.snoc (.nil 0) (by decide)) (by decide)⟩, fun fuel => ?_⟩
  rcases Nat.lt_or_ge fuel 5 with h | h
  · have : ∀ f : Fin 5, pathExists (f : Nat)
        [{ id := 0, train := 0, pred := none, succ := none, orderIn := [1], orderOut := [1] },
          { id := 1, train := 1, pred := none, succ := none, orderIn := [0], orderOut := [0] }] 0 0 ≠ some true := by decide
    exact this ⟨fuel, h⟩
  · obtain ⟨f, rfl⟩ : ∃ f, fuel = f + 5 := ⟨fuel - 5, by omega⟩
    simp [pathExists, Trav.traverse, Trav.loop, Trav.scan, Trav.visit, Trav.push, outsOf, SimNode.outs]

/-! ### The order of the simulation -/

/-- C103: whatever is computed at a node, as long as it finishes that node and no other: the simulation ends, no node is computed
twice or although it was finished at first, every node is computed behind those it waits for, and a node is left out only if
it waits for one that is left out, too. -/
theorem C103_order {ρ : Type} (finished : ρ → Nat → Bool) (compute : Nat → ρ → ρ) (nodes : List SimNode) (init : ρ)
    (hw : WellFormed nodes) (hc : ∀ x r y, finished (compute x r) y = (finished r y || y == x)) (hcl : Closed nodes (finished init))
    (fuel : Nat) (hf : nodes.length < fuel) :
    ∃ order, simulate finished compute fuel nodes init = some (order, order.foldl (fun r x => compute x r) init) ∧
      order.Nodup ∧ Scheduled nodes (finished init) order ∧
      ∀ x < nodes.length, finished init x = false → x ∉ order →
        ∃ p ∈ waits nodes x, p < nodes.length ∧ finished init p = false ∧ p ∉ order := by
  obtain ⟨h1, h2⟩ := initialTodo_exact (finished := finished) hw init
  have hopen : open_ finished nodes init < fuel := by
    unfold open_
    have := List.length_filter_le (fun x => !finished init x) (List.range nodes.length)
    rw [List.length_range] at this
    omega
  obtain ⟨order, h3, h4, h5, -, h7⟩ := simLoop_spec hw hc fuel init _ h1 h2 hcl hopen
  refine ⟨order, h3, h4, h5, ?_⟩
  intro x hx hfx hxo
  by_contra hcon
  have : x ∈ ([] : List Nat) := by
    refine (h7 x).mpr ⟨hx, ?_, fun p hp => ?_⟩
    · cases hfin : finished (order.foldl (fun r x => compute x r) init) x with
      | false => rfl
      | true =>
        rcases (finished_fold hc order init x).mp hfin with h | h
        · rw [hfx] at h
          cases h
        · exact absurd h hxo
    · rw [finished_fold hc order init p]
      by_contra hnot
      rw [not_or] at hnot
      exact hcon ⟨p, hp, insOf_inside hw hp, by simpa using hnot.1, hnot.2⟩
  cases this

/-- C103: without a cycle every node is finished in the end. -/
theorem C103_complete {ρ : Type} (finished : ρ → Nat → Bool) (compute : Nat → ρ → ρ) (nodes : List SimNode) (init : ρ)
    (hw : WellFormed nodes) (hac : Acyclic (next nodes))
    (hc : ∀ x r y, finished (compute x r) y = (finished r y || y == x)) (hcl : Closed nodes (finished init))
    (fuel : Nat) (hf : nodes.length < fuel) :
    ∃ order result, simulate finished compute fuel nodes init = some (order, result) ∧
      (∀ x < nodes.length, finished result x = true) ∧
      (∀ x, x ∈ order ↔ x < nodes.length ∧ finished init x = false) := by
  obtain ⟨h1, h2⟩ := initialTodo_exact (finished := finished) hw init
  have hopen : open_ finished nodes init < fuel := by
    unfold open_
    have := List.length_filter_le (fun x => !finished init x) (List.range nodes.length)
    rw [List.length_range] at this
    omega
  obtain ⟨order, h3, -, -, h6, h7⟩ := simLoop_spec hw hc fuel init _ h1 h2 hcl hopen
  refine ⟨order, _, h3, fun x hx => all_finished hw hac h7 x hx, fun x => ⟨h6 x, ?_⟩⟩
  rintro ⟨hx, hfx⟩
  rcases (finished_fold hc order init x).mp (all_finished hw hac h7 x hx) with h | h
  · rw [hfx] at h
    cases h
  · exact h

example : WellFormed exNodes ∧ Acyclic (next exNodes) ∧ Closed exNodes (fun x => [0].contains x) ∧
    simulate (fun (r : List Nat) x => r.contains x) (fun x r => x :: r) 4 exNodes [] = some ([0, 1, 2], [2, 1, 0]) ∧
    simulate (fun (r : List Nat) x => r.contains x) (fun x r => x :: r) 4 exNodes [0] = some ([1, 2], [2, 1, 0]) := by
  refine ⟨exNodes_wellFormed, ?_, ?_, by decide, by decide⟩
  · intro a ⟨n, hw⟩
    have key : ∀ n x y, Walk (next exNodes) n x y → y ≥ x + n ∨ (n = 1 ∧ x < y) := by
      intro n x y hw
      induction hw with
      | nil => exact Or.inl (le_refl _)
      | snoc hw hc ih =>
        rename_i n x b c
        have h0 : c ∈ next exNodes b → b = 0 ∧ (c = 1 ∨ c = 2) := by
          intro hc
          rcases Nat.lt_or_ge b 3 with hb | hb
          · have : ∀ b : Fin 3, ∀ c ∈ next exNodes b, (b : Nat) = 0 ∧ (c = 1 ∨ c = 2) := by decide
            exact this ⟨b, hb⟩ c hc
          · unfold next at hc
            rw [List.getElem?_eq_none (by simpa [exNodes] using hb)] at hc
            simp at hc
        have := h0 hc
        omega
    have := key _ _ _ hw
    omega
  · intro i hi p hp
    simp at hi
    subst hi
    revert hp
    revert p
    decide

end Soro.Sim.Props
