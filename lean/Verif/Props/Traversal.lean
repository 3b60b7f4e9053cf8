import Verif.Proof.Traversal

/-! Properties C28, C29: breadth and depth first traversal of arbitrary graphs with arbitrary callbacks. -/

namespace Soro
open Trav

variable {α : Type} [DecidableEq α]

/-- C28. Both traversals terminate (fuel `|U| + 2` always suffices), and what the callbacks see is a fixed list of
events, cut off after the first callback that returns true. In this list `work_on_node` occurs exactly once for
every node other than the start that is reachable by at least one edge, and for no other node; its second argument has
an edge to the first and is the start or was itself handed out before. -/
theorem C28_nodes_exactly_once (k : Kind) (out : α → List α) (start : α) (U : List α) (hU : FiniteFrom out start U) :
    ∃ es : List (Ev α),
      (∀ (σ : Type) (fuel : Nat), U.length + 2 ≤ fuel → ∀ (wn we : σ → α → α → σ × Bool) (s : σ),
        traverse k fuel start out wn we s = some (runEvents wn we es s)) ∧
      (nodesOf es).Nodup ∧
      (∀ x, x ∈ nodesOf es ↔ x ≠ start ∧ ReachPlus out start x) ∧
      (∀ es1 c p es2, es = es1 ++ Ev.node c p :: es2 → c ∈ out p ∧ (p = start ∨ p ∈ nodesOf es1)) := by
  obtain ⟨L, h1, h2, h3, _, h5⟩ := traverse_events k hU
  refine ⟨((start, start) :: L).flatMap (evs start out), h5, ?_, ?_, ?_⟩
  · rw [nodesOf_evs]
    simp only [List.map_cons, ne_eq, List.filter_cons, not_true_eq_false, decide_false, Bool.false_eq_true, if_false]
    exact List.Pairwise.filter _ h1
  · intro x
    rw [nodesOf_evs, List.mem_filter, ← h2]
    simp only [List.map_cons, List.mem_cons, decide_eq_true_eq]
    constructor
    · rintro ⟨h | h, hx⟩
      · exact absurd h hx
      · exact ⟨hx, h⟩
    · rintro ⟨hx, h⟩; exact ⟨Or.inr h, hx⟩
  · intro es1 c p es2 hes
    -- locate the popped element the event belongs to
    have key : ∀ (M : List (α × α)) es1 es2, M.flatMap (evs start out) = es1 ++ Ev.node c p :: es2 →
        ∃ M1 M2, M = M1 ++ (c, p) :: M2 ∧ nodesOf es1 = nodesOf (M1.flatMap (evs start out)) := by
      intro M
      induction M with
      | nil => intro es1 es2 h; simp at h
      | cons x M ih =>
        intro es1 es2 h
        rw [List.flatMap_cons] at h
        rw [List.append_eq_append_iff] at h
        rcases h with ⟨as, ha, hb⟩ | ⟨bs, ha, hb⟩
        · obtain ⟨M1, M2, e1, e2⟩ := ih as es2 hb
          refine ⟨x :: M1, M2, by rw [e1]; rfl, ?_⟩
          rw [ha, nodesOf_append, List.flatMap_cons, nodesOf_append, e2]
        · cases bs with
          | nil =>
            simp only [List.nil_append, List.append_nil] at ha hb
            obtain ⟨M1, M2, e1, e2⟩ := ih [] es2 hb.symm
            refine ⟨x :: M1, M2, by rw [e1]; rfl, ?_⟩
            rw [List.flatMap_cons, nodesOf_append, ← e2, ha]
            simp [nodesOf]
          | cons b bs =>
            simp only [List.cons_append, List.cons.injEq] at hb
            obtain ⟨rfl, _⟩ := hb
            have hmem : Ev.node c p ∈ evs start out x := by rw [ha]; simp
            have hx : x = (c, p) ∧ c ≠ start := by
              have := (mem_evs_node start out [x] c p).1 (by simpa using hmem)
              simpa [eq_comm] using this
            obtain ⟨rfl, hc⟩ := hx
            refine ⟨[], M, rfl, ?_⟩
            unfold evs at ha
            rw [if_pos hc] at ha
            cases es1 with
            | nil => rfl
            | cons e es1 =>
              exfalso
              simp only [List.cons_append, List.nil_append, List.cons.injEq] at ha
              have : Ev.node c p ∈ (out c).map (Ev.edge c) := by rw [ha.2]; simp
              simp at this
    obtain ⟨M1, M2, e1, e2⟩ := key _ es1 es2 hes
    cases M1 with
    | nil =>
      simp only [List.nil_append, List.cons.injEq, Prod.mk.injEq] at e1
      obtain ⟨⟨rfl, rfl⟩, _⟩ := e1
      have hmem : Ev.node start start ∈ ((start, start) :: L).flatMap (evs start out) := by rw [hes]; simp
      rw [mem_evs_node] at hmem
      exact absurd rfl hmem.2
    | cons x M1 =>
      simp only [List.cons_append, List.cons.injEq] at e1
      obtain ⟨rfl, e1⟩ := e1
      obtain ⟨h6, h7⟩ := h3 M1 c p M2 e1
      refine ⟨h6, ?_⟩
      by_cases hp : p = start
      · exact Or.inl hp
      · right
        rcases h7 with h7 | h7
        · exact absurd h7 hp
        · rw [e2, nodesOf_evs, List.mem_filter]
          exact ⟨by simp only [List.map_cons, List.mem_cons]; exact Or.inr h7, by simpa using hp⟩

/-- C28 for breadth first search: nodes are handed out in the order of their distance from the start. -/
theorem C28_bfs_distance_order (out : α → List α) (start : α) (U : List α) (hU : FiniteFrom out start U) :
    ∃ es : List (Ev α),
      (∀ (σ : Type) (fuel : Nat), U.length + 2 ≤ fuel → ∀ (wn we : σ → α → α → σ × Bool) (s : σ),
        traverse .bfs fuel start out wn we s = some (runEvents wn we es s)) ∧
      (nodesOf es).Pairwise (fun x y => ∀ n m, Shortest out n start x → Shortest out m start y → n ≤ m) := by
  obtain ⟨L, h1, h2, _, h4, h5⟩ := traverse_events .bfs hU
  refine ⟨((start, start) :: L).flatMap (evs start out), h5, ?_⟩
  rw [nodesOf_evs]
  have key : (L.map Prod.fst).Pairwise (fun x y => ∀ n m, Shortest out n start x → Shortest out m start y → n ≤ m) := by
    rw [List.pairwise_iff_getElem]
    intro i j hi hj hij n m hn hm
    simp only [List.length_map] at hi hj
    have hsplit : L = L.take i ++ (L[i].1, L[i].2) :: L.drop (i + 1) := by
      rw [show (L[i].1, L[i].2) = L[i] from rfl, List.getElem_cons_drop, List.take_append_drop]
    obtain ⟨k, hk, hlow⟩ := h4 rfl _ _ _ _ hsplit
    simp only [List.getElem_map] at hn hm
    have hkn : k = n := Shortest.eq hk.1 hn
    subst hkn
    apply Classical.byContradiction
    intro hlt
    have := hlow L[j].1 m hm.1 (by omega) hm.2.1
    rw [List.map_take] at this
    rw [List.mem_iff_getElem] at this
    obtain ⟨l, hl, he⟩ := this
    simp only [List.length_take, List.length_map, List.getElem_take] at hl he
    have := (List.pairwise_iff_getElem.1 h1) l j (by simp; omega) (by simp; omega) (by omega)
    exact this (by rw [he]; simp)
  have := key.filter (fun x => decide (x ≠ start))
  simpa using this

/-- C29. How often `work_on_edge` sees an edge: once per parallel edge for every reachable node, and twice for the
edges of the start if the start is on a cycle. -/
theorem C29_edge_count (k : Kind) (out : α → List α) (start : α) (U : List α) (hU : FiniteFrom out start U) :
    ∃ es : List (Ev α),
      (∀ (σ : Type) (fuel : Nat), U.length + 2 ≤ fuel → ∀ (wn we : σ → α → α → σ × Bool) (s : σ),
        traverse k fuel start out wn we s = some (runEvents wn we es s)) ∧
      (∀ a b, a ≠ start → ReachPlus out start a → es.count (Ev.edge a b) = (out a).count b) ∧
      (∀ a b, a ≠ start → ¬ ReachPlus out start a → es.count (Ev.edge a b) = 0) ∧
      (∀ b, ¬ ReachPlus out start start → es.count (Ev.edge start b) = (out start).count b) ∧
      (∀ b, ReachPlus out start start → es.count (Ev.edge start b) = 2 * (out start).count b) := by
  obtain ⟨L, h1, h2, _, _, h5⟩ := traverse_events k hU
  refine ⟨((start, start) :: L).flatMap (evs start out), h5, ?_, ?_, ?_, ?_⟩
  · intro a b ha hr
    rw [count_evs_edge, List.map_cons, List.count_cons]
    have e1 : (L.map Prod.fst).count a = 1 := h1.count.trans (by rw [if_pos ((h2 a).2 hr)])
    have e2 : ((start, start).1 == a) = false := by rw [beq_eq_false_iff_ne]; exact fun h => ha h.symm
    rw [e1, e2]; simp
  · intro a b ha hr
    rw [count_evs_edge, List.map_cons, List.count_cons]
    have e1 : (L.map Prod.fst).count a = 0 := List.count_eq_zero_of_not_mem (fun h => hr ((h2 a).1 h))
    have e2 : ((start, start).1 == a) = false := by rw [beq_eq_false_iff_ne]; exact fun h => ha h.symm
    rw [e1, e2]; simp
  · intro b hr
    rw [count_evs_edge, List.map_cons, List.count_cons]
    have e1 : (L.map Prod.fst).count start = 0 := List.count_eq_zero_of_not_mem (fun h => hr ((h2 start).1 h))
    rw [e1]; simp
  · intro b hr
    rw [count_evs_edge, List.map_cons, List.count_cons]
    have e1 : (L.map Prod.fst).count start = 1 := h1.count.trans (by rw [if_pos ((h2 start).2 hr)])
    rw [e1]; simp

/-- C29 for starts that are not on a cycle: every edge leaving a reachable node is seen exactly once, no other edge is
seen. Missing: starts on a cycle, see `C29_start_edges_twice_negation`. -/
theorem C29_edges_once_partial (k : Kind) (out : α → List α) (start : α) (U : List α) (hU : FiniteFrom out start U)
    (hc : ¬ ReachPlus out start start) (hnd : ∀ a, (out a).Nodup) :
    ∃ es : List (Ev α),
      (∀ (σ : Type) (fuel : Nat), U.length + 2 ≤ fuel → ∀ (wn we : σ → α → α → σ × Bool) (s : σ),
        traverse k fuel start out wn we s = some (runEvents wn we es s)) ∧
      ∀ a b, es.count (Ev.edge a b) = 1 ↔ Reach out start a ∧ b ∈ out a := by
  obtain ⟨es, h1, h2, h3, h4, _⟩ := C29_edge_count k out start U hU
  refine ⟨es, h1, fun a b => ?_⟩
  have hone : (out a).count b = 1 ↔ b ∈ out a := by
    rw [(hnd a).count]
    by_cases h : b ∈ out a <;> simp [h]
  rw [Reach.iff]
  by_cases ha : a = start
  · subst ha
    rw [h4 b hc, hone]; simp
  · by_cases hr : ReachPlus out start a
    · rw [h2 a b ha hr, hone]; simp [hr]
    · rw [h3 a b ha hr]
      have hb : ¬ start = a := fun h => ha h.symm
      simp [hr, hb]

/-- C29 is false in the code if the start lies on a cycle. -/
theorem C29_start_edges_twice_negation :
    ∃ (out : Nat → List Nat) (U : List Nat), FiniteFrom out 0 U ∧ (∀ a, (out a).Nodup) ∧
      ∀ k, ∃ es : List (Ev Nat),
        (∀ (σ : Type) (fuel : Nat), U.length + 2 ≤ fuel → ∀ (wn we : σ → Nat → Nat → σ × Bool) (s : σ),
          traverse k fuel 0 out wn we s = some (runEvents wn we es s)) ∧
        es.count (Ev.edge 0 1) = 2 := by
  let out : Nat → List Nat := fun n => if n = 0 then [1] else [0]
  have hU : FiniteFrom out 0 [0, 1] := by
    refine ⟨by simp, fun x _ y hy => ?_⟩
    simp only [out] at hy
    split at hy <;> simp_all
  have hr : ReachPlus out 0 0 := ⟨1, .snoc (b := 1) (.snoc (.nil 0) (by simp [out])) (by simp [out])⟩
  refine ⟨out, [0, 1], hU, fun a => ?_, fun k => ?_⟩
  · simp only [out]; split <;> simp
  · obtain ⟨es, h1, _, _, _, h5⟩ := C29_edge_count k out 0 [0, 1] hU
    exact ⟨es, h1, by rw [h5 1 hr]; simp [out]⟩

/-! Non-vacuity: a graph with a diamond and a cycle. -/

def exOut : Nat → List Nat
  | 0 => [1, 2]
  | 1 => [3]
  | 2 => [3]
  | 3 => [1]
  | _ => []

example : FiniteFrom exOut 0 [0, 1, 2, 3] ∧ ReachPlus exOut 0 3 ∧ ReachPlus exOut 3 3 := by
  refine ⟨⟨by simp, ?_⟩, ⟨1, .snoc (.snoc (.nil 0) (b := 0) (c := 1) (by simp [exOut])) (by simp [exOut])⟩,
    ⟨1, .snoc (.snoc (.nil 3) (b := 3) (c := 1) (by simp [exOut])) (by simp [exOut])⟩⟩
  intro x hx y hy
  simp only [List.mem_cons, List.not_mem_nil, or_false] at hx
  rcases hx with rfl | rfl | rfl | rfl <;> (simp only [exOut, List.mem_cons, List.not_mem_nil, or_false] at hy ⊢; omega)

example : ¬ ReachPlus exOut 0 0 := by
  intro h
  have := h.closed (fun x => x ≠ 0) (by simp [exOut]) (by
    intro x _ y hy
    unfold exOut at hy
    split at hy <;> simp_all)
  exact this rfl

end Soro
