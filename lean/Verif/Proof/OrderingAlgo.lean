import Verif.Model.OrderingAlgo
import Verif.Proof.Traversal

/-! Proofs about the algorithms on ordering graphs. -/

namespace Soro.OGraph
open Trav

theorem out_mem {g : OGraph} {i j : Nat} (h : j ∈ g.out i) : ∃ n, g[i]? = some n ∧ j ∈ n.outs := by
  unfold out at h
  cases hn : g[i]? with
  | none => rw [hn] at h; cases h
  | some n => rw [hn] at h; exact ⟨n, rfl, h⟩

theorem out_of_get {g : OGraph} {i : Nat} {n : ONode} (h : g[i]? = some n) : g.out i = n.outs := by
  unfold out; rw [h]; rfl

theorem Valid.finite {g : OGraph} (h : g.Valid) {i : Nat} (hi : i < g.length) :
    FiniteFrom g.out i (List.range g.length) := by
  refine ⟨List.mem_range.2 hi, fun x _ y hy => ?_⟩
  obtain ⟨n, h1, h2⟩ := out_mem hy
  exact List.mem_range.2 (h.2.1 n (List.mem_of_getElem? h1) y h2)

theorem Valid.id_lt {g : OGraph} (h : g.Valid) {n : ONode} (hn : n ∈ g) : n.id < g.length ∧ g[n.id]? = some n := by
  obtain ⟨i, hi⟩ := List.mem_iff_getElem?.1 hn
  have := h.1 i n hi
  subst this
  exact ⟨(List.getElem?_eq_some_iff.1 hi).1, hi⟩

theorem traverse_graph {g : OGraph} (hv : g.Valid) (k : Kind) {i : Nat} (hi : i < g.length) :
    ∃ L : List (Nat × Nat),
      (L.map Prod.fst).Nodup ∧ (∀ x, x ∈ L.map Prod.fst ↔ ReachPlus g.out i x) ∧
      (∀ L1 c p L2, L = L1 ++ (c, p) :: L2 → c ∈ g.out p ∧ (p = i ∨ p ∈ L1.map Prod.fst)) ∧
      (k = .bfs → ∀ L1 c p L2, L = L1 ++ (c, p) :: L2 → LevelAt g.out i (L1.map Prod.fst) c p) ∧
      (∀ (σ : Type) (wn we : σ → Nat → Nat → σ × Bool) (s : σ),
        traverse k (g.length + 2) i g.out wn we s =
          some (runEvents wn we (((i, i) :: L).flatMap (evs i g.out)) s)) := by
  obtain ⟨L, h1, h2, h3, h4, h5⟩ := traverse_events k (hv.finite hi)
  exact ⟨L, h1, h2, h3, h4, fun σ wn we s => h5 σ _ (by simp) wn we s⟩

/-! ### check_exclusion_paths -/

theorem run_reach (es : List (Ev Nat)) (r : Nat → Bool) (x : Nat) :
    runEvents (fun r to _ => (upd r to true, false)) (fun r _ _ => (r, false)) es r x =
      (r x || decide (x ∈ nodesOf es)) := by
  induction es generalizing r with
  | nil => simp [runEvents, nodesOf]
  | cons e es ih =>
    cases e with
    | node c p =>
      simp only [runEvents, Bool.false_eq_true, if_false, ih]
      have : nodesOf (Ev.node c p :: es) = c :: nodesOf es := rfl
      rw [this]
      unfold upd
      by_cases hx : x = c <;> simp [hx]
    | edge a b =>
      simp only [runEvents, Bool.false_eq_true, if_false, ih]
      rfl

theorem run_path (target : Nat) (es : List (Ev Nat)) (b : Bool) :
    runEvents (fun r to _ => if to = target then (true, true) else (r, false)) (fun r _ _ => (r, false)) es b =
      (b || decide (target ∈ nodesOf es)) := by
  induction es generalizing b with
  | nil => simp [runEvents, nodesOf]
  | cons e es ih =>
    cases e with
    | node c p =>
      have : nodesOf (Ev.node c p :: es) = c :: nodesOf es := rfl
      rw [this]
      by_cases hc : c = target
      · simp [runEvents, hc]
      · have : ¬ target = c := fun h => hc h.symm
        simp [runEvents, hc, ih, this]
    | edge a b' =>
      simp only [runEvents, Bool.false_eq_true, if_false, ih]
      rfl

theorem nodesOf_all {g : OGraph} {i : Nat} {L : List (Nat × Nat)} (h2 : ∀ x, x ∈ L.map Prod.fst ↔ ReachPlus g.out i x)
    (x : Nat) : x ∈ nodesOf (((i, i) :: L).flatMap (evs i g.out)) ↔ ReachPlus g.out i x ∧ x ≠ i := by
  rw [nodesOf_evs]
  simp only [List.map_cons, List.mem_filter, List.mem_cons, h2, decide_eq_true_eq]
  constructor
  · rintro ⟨rfl | h, h'⟩
    · exact absurd rfl h'
    · exact ⟨h, h'⟩
  · rintro ⟨h, h'⟩; exact ⟨Or.inr h, h'⟩

theorem reachableNodes_spec {g : OGraph} (hv : g.Valid) {i : Nat} (hi : i < g.length) :
    ∃ r, reachableNodes g i = some r ∧ ∀ x, r x = true ↔ Reach g.out i x := by
  obtain ⟨L, _, h2, _, _, h5⟩ := traverse_graph hv .bfs hi
  refine ⟨_, h5 _ _ _ _, fun x => ?_⟩
  rw [run_reach, Bool.or_eq_true, decide_eq_true_eq, nodesOf_all h2, Reach.iff]
  unfold upd
  constructor
  · rintro (h | h)
    · split at h
      · rename_i h'; exact Or.inl h'.symm
      · cases h
    · exact Or.inr h.1
  · rintro (rfl | h)
    · left; simp
    · by_cases hx : x = i
      · left; simp [hx]
      · exact Or.inr ⟨h, hx⟩

theorem pathExists_spec {g : OGraph} (hv : g.Valid) {i : Nat} (hi : i < g.length) (t : Nat) (ht : t ≠ i) :
    ∃ b, pathExists g i t = some b ∧ (b = true ↔ Reach g.out i t) := by
  obtain ⟨L, _, h2, _, _, h5⟩ := traverse_graph hv .bfs hi
  refine ⟨_, h5 _ _ _ _, ?_⟩
  rw [run_path, Bool.false_or, decide_eq_true_eq, nodesOf_all h2, Reach.iff]
  constructor
  · rintro ⟨h, _⟩; exact Or.inr h
  · rintro (h | h)
    · exact absurd h.symm ht
    · exact ⟨h, ht⟩

theorem exclusions_iff (irToSets members : Nat → List Nat) (a b : Nat) :
    exclusions irToSets members a b = true ↔ ∃ s, s ∈ irToSets a ∧ b ∈ members s := by
  have key : ∀ (l : List Nat) (e : Nat → Bool), l.foldl (fun e i => upd e i true) e b = (e b || decide (b ∈ l)) := by
    intro l
    induction l with
    | nil => simp
    | cons x l ih =>
      intro e
      rw [List.foldl_cons, ih]
      unfold upd
      by_cases h : b = x <;> simp [h]
  unfold exclusions
  rw [key]
  simp

theorem allM_spec (p : ONode → Option Bool) (P : ONode → Prop) (l : List ONode)
    (h : ∀ n ∈ l, ∃ b, p n = some b ∧ (b = true ↔ P n)) :
    ∃ b, allM p l = some b ∧ (b = true ↔ ∀ n ∈ l, P n) := by
  induction l with
  | nil => exact ⟨true, rfl, by simp⟩
  | cons n l ih =>
    obtain ⟨b, h1, h2⟩ := h n (by simp)
    obtain ⟨b', h3, h4⟩ := ih (fun m hm => h m (by simp [hm]))
    cases b with
    | true =>
      refine ⟨b', by simp [allM, h1, h3], ?_⟩
      rw [h4]
      simp [h2.1 rfl]
    | false =>
      refine ⟨false, by simp [allM, h1], ?_⟩
      simp only [Bool.false_eq_true, false_iff] at h2 ⊢
      intro h'; exact h2 (h' n (by simp))

theorem hasExclusionPathsFrom_spec {g : OGraph} (hv : g.Valid) (irToSets members : Nat → List Nat) {a : ONode}
    (ha : a ∈ g) :
    ∃ b, hasExclusionPathsFrom g irToSets members a = some b ∧
      (b = true ↔ ∀ c ∈ g, a.id ≠ c.id → (∃ s, s ∈ irToSets a.ir ∧ c.ir ∈ members s) →
        Reach g.out a.id c.id ∨ Reach g.out c.id a.id) := by
  obtain ⟨r, h1, h2⟩ := reachableNodes_spec hv (hv.id_lt ha).1
  unfold hasExclusionPathsFrom
  rw [h1, Option.bind_some]
  apply allM_spec
  intro c hc
  by_cases hid : a.id = c.id
  · exact ⟨true, by simp [hid], by simp [hid]⟩
  · rw [if_neg hid]
    by_cases he : exclusions irToSets members a.ir c.ir = true
    · rw [if_pos he]
      have he' := (exclusions_iff _ _ _ _).1 he
      by_cases hr : r c.id = true
      · exact ⟨true, by simp [hr], by simp [(h2 _).1 hr]⟩
      · rw [if_neg hr]
        obtain ⟨b, h3, h4⟩ := pathExists_spec hv (hv.id_lt hc).1 a.id hid
        refine ⟨b, h3, ?_⟩
        rw [h4]
        constructor
        · intro h _ _; exact Or.inr h
        · intro h
          rcases h hid he' with h | h
          · exact absurd ((h2 _).2 h) hr
          · exact h
    · rw [if_neg he]
      refine ⟨true, rfl, ?_⟩
      rw [exclusions_iff] at he
      simp [he]

/-! ### remove_transitive_edges -/

/-- the state of `max_depth` after a list of events: a fold over the edges used -/
def evEdge : Ev Nat → Nat × Nat
  | .node c p => (p, c)
  | .edge a b => (a, b)

theorem run_deepen (es : List (Ev Nat)) (md : Nat → Nat) :
    runEvents (fun md to frm => (deepen md frm to, false)) (fun md frm to => (deepen md frm to, false)) es md =
      (es.map evEdge).foldl (fun md e => deepen md e.1 e.2) md := by
  induction es generalizing md with
  | nil => rfl
  | cons e es ih =>
    cases e <;> simp [runEvents, ih, evEdge]

theorem deepen_mono (md : Nat → Nat) (a b x : Nat) : md x ≤ deepen md a b x := by
  unfold deepen upd; split
  · rename_i h; subst h; omega
  · omega

theorem deepen_foldl_mono (l : List (Nat × Nat)) (md : Nat → Nat) (x : Nat) :
    md x ≤ l.foldl (fun md e => deepen md e.1 e.2) md x := by
  induction l generalizing md with
  | nil => exact Nat.le_refl _
  | cons e l ih => rw [List.foldl_cons]; exact Nat.le_trans (deepen_mono _ _ _ _) (ih _)

/-- after the edge `e` has been processed its head is deeper than its tail was at that time -/
theorem deepen_foldl_ge (l1 l2 : List (Nat × Nat)) (e : Nat × Nat) (md : Nat → Nat) :
    l1.foldl (fun md e => deepen md e.1 e.2) md e.1 + 1 ≤
      (l1 ++ e :: l2).foldl (fun md e => deepen md e.1 e.2) md e.2 := by
  rw [List.foldl_append, List.foldl_cons]
  refine Nat.le_trans ?_ (deepen_foldl_mono _ _ _)
  unfold deepen upd; simp; omega

/-- the tail of every edge is the start or the head of an earlier edge -/
def Good (out : Nat → List Nat) (s : Nat) : List Nat → List (Nat × Nat) → Prop
  | _, [] => True
  | S, e :: l => e.2 ∈ out e.1 ∧ (e.1 = s ∨ e.1 ∈ S) ∧ Good out s (e.2 :: S) l

/-- depths are lengths of walks -/
theorem deepen_walk {out : Nat → List Nat} {s : Nat} (l : List (Nat × Nat)) (S : List Nat) (hl : Good out s S l)
    (md : Nat → Nat) (hmd : ∀ x, md x = 0 ∨ Walk out (md x) s x) (hS : ∀ x ∈ S, 1 ≤ md x) :
    ∀ x, (l.foldl (fun md e => deepen md e.1 e.2) md x = 0 ∨
      Walk out (l.foldl (fun md e => deepen md e.1 e.2) md x) s x) := by
  induction l generalizing md S with
  | nil => exact hmd
  | cons e l ih =>
    rw [List.foldl_cons]
    obtain ⟨h1, h2, h3⟩ := hl
    refine ih _ h3 _ ?_ ?_
    · intro x
      unfold deepen upd
      split
      · rename_i hx
        subst hx
        rcases Nat.le_total (md e.1 + 1) (md e.2) with h | h
        · rw [Nat.max_eq_left h]; exact hmd _
        · rw [Nat.max_eq_right h]
          refine Or.inr (.snoc ?_ h1)
          rcases hmd e.1 with h0 | h0
          · rcases h2 with h2 | h2
            · rw [h0, h2]; exact .nil _
            · have := hS _ h2; omega
          · exact h0
      · exact hmd x
    · intro x hx
      unfold deepen upd
      split
      · omega
      · rename_i hne
        rcases List.mem_cons.1 hx with h | h
        · exact absurd h hne
        · exact hS x h

theorem Good.edges {out : Nat → List Nat} {s c : Nat} (ys : List Nat) (S : List Nat) (rest : List (Nat × Nat))
    (hys : ∀ y ∈ ys, y ∈ out c) (hc : c = s ∨ c ∈ S) (hr : ∀ S', (∀ x ∈ S, x ∈ S') → Good out s S' rest) :
    Good out s S (ys.map (fun y => (c, y)) ++ rest) := by
  induction ys generalizing S with
  | nil => exact hr S (fun _ h => h)
  | cons y ys ih =>
    refine ⟨hys y (by simp), hc, ih _ (fun z hz => hys z (by simp [hz])) ?_ ?_⟩
    · rcases hc with h | h
      · exact Or.inl h
      · exact Or.inr (by simp [h])
    · intro S' hS'
      exact hr S' (fun x hx => hS' x (by simp [hx]))

theorem evs_edges (start : Nat) (out : Nat → List Nat) (cp : Nat × Nat) :
    (evs start out cp).map evEdge =
      (if cp.1 ≠ start then [(cp.2, cp.1)] else []) ++ (out cp.1).map (fun y => (cp.1, y)) := by
  unfold evs
  rw [List.map_append, List.map_map]
  congr 1
  split <;> rfl

theorem Good.pops {out : Nat → List Nat} {s : Nat} (L : List (Nat × Nat)) (S0 S : List Nat)
    (hS : ∀ x ∈ S0, x = s ∨ x ∈ S)
    (hL : ∀ L1 c p L2, L = L1 ++ (c, p) :: L2 → c ∈ out p ∧ (p = s ∨ p ∈ S0 ∨ p ∈ L1.map Prod.fst)) :
    Good out s S ((L.flatMap (evs s out)).map evEdge) := by
  induction L generalizing S0 S with
  | nil => trivial
  | cons x L ih =>
    obtain ⟨c, p⟩ := x
    rw [List.flatMap_cons, List.map_append, evs_edges]
    obtain ⟨h1, h2⟩ := hL [] c p L rfl
    have hp : p = s ∨ p ∈ S := by
      rcases h2 with h | h | h
      · exact Or.inl h
      · exact hS p h
      · cases h
    have hrest : ∀ S', (∀ x ∈ S, x ∈ S') → (c = s ∨ c ∈ S') → Good out s S' ((L.flatMap (evs s out)).map evEdge) := by
      intro S' hS' hc
      refine ih (c :: S0) S' ?_ ?_
      · intro x hx
        rcases List.mem_cons.1 hx with rfl | hx
        · exact hc
        · rcases hS x hx with h | h
          · exact Or.inl h
          · exact Or.inr (hS' x h)
      · intro L1 c' p' L2 he
        obtain ⟨h3, h4⟩ := hL ((c, p) :: L1) c' p' L2 (by rw [he]; rfl)
        refine ⟨h3, ?_⟩
        simp only [List.map_cons, List.mem_cons] at h4 ⊢
        rcases h4 with h | h | h | h
        · exact Or.inl h
        · exact Or.inr (Or.inl (Or.inr h))
        · exact Or.inr (Or.inl (Or.inl h))
        · exact Or.inr (Or.inr h)
    by_cases hc : c = s
    · simp only [hc, ne_eq, not_true_eq_false, if_false, List.nil_append]
      exact Good.edges _ _ _ (fun _ h => h) (Or.inl rfl) (fun S' hS' => hrest S' hS' (Or.inl hc))
    · simp only [hc, ne_eq, not_false_eq_true, if_true, List.singleton_append, List.cons_append]
      refine ⟨h1, hp, ?_⟩
      exact Good.edges _ _ _ (fun _ h => h) (Or.inr (by simp)) (fun S' hS' =>
        hrest S' (fun x hx => hS' x (by simp [hx])) (Or.inr (hS' c (by simp))))

theorem foldl_head_pos (l : List (Nat × Nat)) (e : Nat × Nat) (he : e ∈ l) (md : Nat → Nat) :
    1 ≤ l.foldl (fun md e => deepen md e.1 e.2) md e.2 := by
  obtain ⟨l1, l2, rfl⟩ := List.append_of_mem he
  have := deepen_foldl_ge l1 l2 e md
  omega

/-- the depth computed for a node exceeds one iff there is a walk with at least two edges -/
theorem maxDepth_iff {g : OGraph} (hv : g.Valid) {s : Nat} (hs : s < g.length) :
    ∃ md : Nat → Nat, traverse .dfs (g.length + 2) s g.out
      (fun md to frm => (deepen md frm to, false)) (fun md frm to => (deepen md frm to, false)) (fun _ => 0) = some md ∧
      ∀ t, md t > 1 ↔ ∃ n, 2 ≤ n ∧ Walk g.out n s t := by
  obtain ⟨L, h1, h2, h3, _, h5⟩ := traverse_graph hv .dfs hs
  refine ⟨_, h5 _ _ _ _, fun t => ?_⟩
  rw [run_deepen]
  constructor
  · intro ht
    have hg : Good g.out s [] ((((s, s) :: L).flatMap (evs s g.out)).map evEdge) := by
      rw [List.flatMap_cons, List.map_append, evs_edges]
      simp only [ne_eq, not_true_eq_false, if_false, List.nil_append]
      refine Good.edges _ _ _ (fun _ h => h) (Or.inl rfl) (fun S' _ => ?_)
      refine Good.pops L [] S' (by simp) ?_
      intro L1 c p L2 he
      obtain ⟨h6, h7⟩ := h3 L1 c p L2 he
      exact ⟨h6, h7.elim Or.inl (fun h => Or.inr (Or.inr h))⟩
    rcases deepen_walk _ [] hg (fun _ => 0) (fun _ => Or.inl rfl) (by simp) t with h | h
    · omega
    · exact ⟨_, by omega, h⟩
  · rintro ⟨n, hn, hw⟩
    obtain ⟨m, rfl⟩ : ∃ m, n = m + 1 + 1 := ⟨n - 2, by omega⟩
    obtain ⟨y, hy, hyt⟩ := Walk.succ_iff.1 hw
    have hyL : y ∈ L.map Prod.fst := (h2 y).2 ⟨m, hy⟩
    obtain ⟨⟨y', p⟩, hmem, heq⟩ := List.mem_map.1 hyL
    dsimp only at heq
    subst heq
    obtain ⟨L1, L2, hsplit⟩ := List.append_of_mem hmem
    obtain ⟨h6, h7⟩ := h3 L1 y' p L2 hsplit
    obtain ⟨o1, o2, ho⟩ := List.append_of_mem hyt
    have hE : ((((s, s) :: L).flatMap (evs s g.out)).map evEdge) =
        ((((s, s) :: L1).flatMap (evs s g.out)).map evEdge ++ ((if y' ≠ s then [(p, y')] else []) ++
          o1.map (fun y => (y', y)))) ++ (y', t) :: (o2.map (fun y => (y', y)) ++ (L2.flatMap (evs s g.out)).map evEdge) := by
      rw [hsplit, ← List.cons_append, List.flatMap_append, List.map_append, List.flatMap_cons (xs := L2), List.map_append,
        evs_edges]
      dsimp only
      rw [ho]
      simp only [List.map_append, List.map_cons, List.append_assoc, List.cons_append]
    rw [hE]
    refine Nat.lt_of_lt_of_le ?_ (deepen_foldl_ge _ _ (y', t) _)
    dsimp only
    suffices h : ∃ q, (q, y') ∈ ((((s, s) :: L1).flatMap (evs s g.out)).map evEdge ++ ((if y' ≠ s then [(p, y')] else []) ++
          o1.map (fun y => (y', y)))) by
      obtain ⟨q, hq⟩ := h
      have := foldl_head_pos _ (q, y') hq (fun _ => 0)
      dsimp only at this
      omega
    by_cases hys : y' = s
    · refine ⟨p, List.mem_append_left _ ?_⟩
      refine List.mem_map.2 ⟨Ev.edge p y', ?_, rfl⟩
      have : ∃ p', (p, p') ∈ (s, s) :: L1 := by
        rcases h7 with h | h
        · exact ⟨s, by simp [h]⟩
        · obtain ⟨⟨a, b⟩, hab, rfl⟩ := List.mem_map.1 h
          exact ⟨b, by simp [hab]⟩
      obtain ⟨p', hp'⟩ := this
      refine List.mem_flatMap.2 ⟨_, hp', ?_⟩
      exact List.mem_append_right _ (List.mem_map.2 ⟨y', h6, rfl⟩)
    · refine ⟨p, List.mem_append_right _ (List.mem_append_left _ ?_)⟩
      simp [hys]

/-- an edge that is implied by a longer walk -/
def Implied (g : OGraph) (e : Nat × Nat) : Prop := e.2 ∈ g.out e.1 ∧ ∃ n, 2 ≤ n ∧ Walk g.out n e.1 e.2

theorem transitiveFrom_spec {g : OGraph} (hv : g.Valid) {n : ONode} (hn : n ∈ g) :
    ∃ es, transitiveFrom g n = some es ∧ ∀ e, e ∈ es ↔ e.1 = n.id ∧ Implied g e := by
  obtain ⟨hlt, hget⟩ := hv.id_lt hn
  obtain ⟨md, h1, h2⟩ := maxDepth_iff hv hlt
  refine ⟨_, by rw [transitiveFrom, h1]; rfl, fun e => ?_⟩
  simp only [List.mem_map, List.mem_filter, decide_eq_true_eq, h2, Implied]
  constructor
  · rintro ⟨t, ⟨h3, h4⟩, rfl⟩
    exact ⟨rfl, by rw [out_of_get hget]; exact h3, h4⟩
  · rintro ⟨h3, h4, h5⟩
    rw [h3, out_of_get hget] at h4
    rw [h3] at h5
    exact ⟨e.2, ⟨h4, h5⟩, by rw [← h3]⟩

theorem transitiveEdges_spec {g : OGraph} (hv : g.Valid) (ns : List ONode) (hns : ∀ n ∈ ns, n ∈ g) :
    ∃ es, transitiveEdges g ns = some es ∧ ∀ e, e ∈ es ↔ (∃ n ∈ ns, e.1 = n.id) ∧ Implied g e := by
  induction ns with
  | nil => exact ⟨[], rfl, by simp⟩
  | cons n ns ih =>
    obtain ⟨es, h1, h2⟩ := transitiveFrom_spec hv (hns n (by simp))
    obtain ⟨es', h3, h4⟩ := ih (fun m hm => hns m (by simp [hm]))
    refine ⟨es ++ es', by simp [transitiveEdges, h1, h3], fun e => ?_⟩
    rw [List.mem_append, h2, h4]
    constructor
    · rintro (⟨h5, h6⟩ | ⟨⟨m, h5, h7⟩, h6⟩)
      · exact ⟨⟨n, by simp, h5⟩, h6⟩
      · exact ⟨⟨m, by simp [h5], h7⟩, h6⟩
    · rintro ⟨⟨m, h5, h7⟩, h6⟩
      rcases List.mem_cons.1 h5 with rfl | h5
      · exact Or.inl ⟨h7, h6⟩
      · exact Or.inr ⟨⟨m, h5, h7⟩, h6⟩

/-- a node after the edges `es` were erased -/
def eraseEdges (es : List (Nat × Nat)) (i : Nat) (n : ONode) : ONode :=
  { n with outs := n.outs.filter (fun j => decide ((i, j) ∉ es)), ins := n.ins.filter (fun j => decide ((j, i) ∉ es)) }

theorem erase_fold (es : List (Nat × Nat)) (g : OGraph) (i : Nat) :
    (es.foldl (fun g e => eraseIn (eraseOut g e) e) g)[i]? = g[i]?.map (eraseEdges es i) := by
  induction es generalizing g with
  | nil =>
    rw [List.foldl_nil]
    cases g[i]? with
    | none => rfl
    | some n =>
      have h : ∀ l : List Nat, l.filter (fun _ => true) = l := fun l => List.filter_eq_self.2 (fun _ _ => rfl)
      simp [eraseEdges, h]
  | cons e es ih =>
    rw [List.foldl_cons, ih]
    unfold eraseIn eraseOut
    rw [List.getElem?_modify, List.getElem?_modify]
    cases g[i]? with
    | none => rfl
    | some n =>
      simp only [Option.map_eq_map, Option.map_some, eraseEdges, Option.some.injEq]
      obtain ⟨a, b⟩ := e
      dsimp only
      by_cases ha : a = i <;> by_cases hb : b = i
      · subst ha; subst hb
        simp only [if_true, List.filter_filter, List.mem_cons, Prod.mk.injEq, true_and, and_true]
        congr 1 <;> (apply List.filter_congr; intro x _; by_cases hx : x = b <;> simp [hx])
      · subst ha
        have hb' : ¬ a = b := fun h => hb h.symm
        simp only [if_true, hb, if_false, List.filter_filter, List.mem_cons, Prod.mk.injEq, true_and, hb', and_false,
          false_or]
        congr 1
        apply List.filter_congr; intro x _; by_cases hx : x = b <;> simp [hx]
      · subst hb
        have ha' : ¬ b = a := fun h => ha h.symm
        simp only [if_true, ha, if_false, List.filter_filter, List.mem_cons, Prod.mk.injEq, and_true, ha', false_and,
          false_or]
        congr 1
        apply List.filter_congr; intro x _; by_cases hx : x = a <;> simp [hx]
      · have ha' : ¬ i = a := fun h => ha h.symm
        have hb' : ¬ i = b := fun h => hb h.symm
        simp only [ha, hb, if_false, List.mem_cons, Prod.mk.injEq, ha', hb', false_and, and_false, false_or]

theorem length_fold (es : List (Nat × Nat)) (g : OGraph) :
    (es.foldl (fun g e => eraseIn (eraseOut g e) e) g).length = g.length := by
  induction es generalizing g with
  | nil => rfl
  | cons e es ih => rw [List.foldl_cons, ih]; simp [eraseIn, eraseOut]

theorem removeTransitive_spec {g : OGraph} (hv : g.Valid) :
    ∃ g' es, removeTransitive g = some g' ∧ g'.length = g.length ∧ (∀ e, e ∈ es ↔ Implied g e) ∧
      ∀ i, g'[i]? = g[i]?.map (eraseEdges es i) := by
  obtain ⟨es, h1, h2⟩ := transitiveEdges_spec hv g (fun _ h => h)
  refine ⟨_, es, by rw [removeTransitive, h1]; rfl, length_fold _ _, fun e => ?_, erase_fold es g⟩
  rw [h2]
  constructor
  · exact fun h => h.2
  · intro h
    refine ⟨?_, h⟩
    obtain ⟨n, hn, _⟩ := out_mem h.1
    exact ⟨n, List.mem_of_getElem? hn, (hv.1 _ _ hn).symm⟩

theorem mem_out_erase {g g' : OGraph} {es : List (Nat × Nat)} (h : ∀ i, g'[i]? = g[i]?.map (eraseEdges es i)) (i j : Nat) :
    j ∈ g'.out i ↔ j ∈ g.out i ∧ (i, j) ∉ es := by
  unfold out
  rw [h]
  cases g[i]? with
  | none => simp
  | some n => simp [eraseEdges]

theorem mem_inn_erase {g g' : OGraph} {es : List (Nat × Nat)} (h : ∀ i, g'[i]? = g[i]?.map (eraseEdges es i)) (i j : Nat) :
    j ∈ g'.inn i ↔ j ∈ g.inn i ∧ (j, i) ∉ es := by
  unfold inn
  rw [h]
  cases g[i]? with
  | none => simp
  | some n => simp [eraseEdges]

/-! walks in finite acyclic graphs are short -/

open Classical in
noncomputable def height (out : Nat → List Nat) (U : List Nat) (x : Nat) : Nat := U.countP (fun y => decide (ReachPlus out x y))

theorem countP_lt {U : List Nat} {p q : Nat → Bool} (hpq : ∀ x, p x = true → q x = true) {w : Nat} (hw : w ∈ U)
    (h1 : p w = false) (h2 : q w = true) : U.countP p < U.countP q := by
  induction U with
  | nil => cases hw
  | cons x U ih =>
    rw [List.countP_cons, List.countP_cons]
    have hle : U.countP p ≤ U.countP q := List.countP_mono_left (fun x _ => hpq x)
    rcases List.mem_cons.1 hw with rfl | hw
    · simp [h1, h2]; omega
    · have := ih hw
      by_cases hx : p x = true
      · simp [hx, hpq x hx]; omega
      · simp only [hx, Bool.false_eq_true, if_false]; omega

theorem walk_height {out : Nat → List Nat} {U : List Nat} (hU : ∀ x, ∀ y ∈ out x, y ∈ U) (hac : Acyclic out)
    {n a b : Nat} (h : Walk out n a b) : n + height out U b ≤ height out U a := by
  induction h with
  | nil => simp
  | snoc hw hc ih =>
    rename_i n b c
    have : height out U c < height out U b := by
      unfold height
      refine countP_lt (w := c) ?_ (hU _ _ hc) (by simpa using hac c) (by simpa using ReachPlus.single hc)
      intro x hx
      simp only [decide_eq_true_eq] at hx ⊢
      exact (ReachPlus.single hc).trans hx
    omega

theorem walk_kept {out out' : Nat → List Nat}
    (hk : ∀ i j, j ∈ out i → ¬ (∃ n, 2 ≤ n ∧ Walk out n i j) → j ∈ out' i) {n a b : Nat} (h : Walk out n a b) :
    Walk out' n a b ∨ ∃ m, n < m ∧ Walk out m a b := by
  induction h with
  | nil a => exact Or.inl (.nil a)
  | snoc hw hc ih =>
    rcases ih with ih | ⟨m, hm, ih⟩
    · rename_i b c
      by_cases hl : ∃ k, 2 ≤ k ∧ Walk out k b c
      · obtain ⟨k, hk2, hwk⟩ := hl
        exact Or.inr ⟨_, by omega, hw.trans hwk⟩
      · exact Or.inl (.snoc ih (hk _ _ hc hl))
    · exact Or.inr ⟨m + 1, by omega, .snoc ih hc⟩

theorem reach_kept {out out' : Nat → List Nat} {U : List Nat} (hU : ∀ x, ∀ y ∈ out x, y ∈ U) (hac : Acyclic out)
    (hk : ∀ i j, j ∈ out i → ¬ (∃ n, 2 ≤ n ∧ Walk out n i j) → j ∈ out' i) {a b : Nat} (h : Reach out a b) :
    Reach out' a b := by
  obtain ⟨n, hn⟩ := h
  have key : ∀ d n, height out U a ≤ n + d → Walk out n a b → Reach out' a b := by
    intro d
    induction d with
    | zero =>
      intro n hd hw
      rcases walk_kept hk hw with h | ⟨m, hm, h⟩
      · exact ⟨n, h⟩
      · have := walk_height hU hac h; omega
    | succ d ih =>
      intro n hd hw
      rcases walk_kept hk hw with h | ⟨m, hm, h⟩
      · exact ⟨n, h⟩
      · exact ih m (by omega) h
  exact key (height out U a) n (by omega) hn

theorem Walk.mono {out out' : Nat → List Nat} (h : ∀ i j, j ∈ out' i → j ∈ out i) {n a b : Nat} (hw : Walk out' n a b) :
    Walk out n a b := by
  induction hw with
  | nil a => exact .nil a
  | snoc _ hc ih => exact .snoc ih (h _ _ hc)

end Soro.OGraph
