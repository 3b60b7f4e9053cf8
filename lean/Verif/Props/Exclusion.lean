import Verif.Proof.Exclusion

/-! Properties C16 - C19: exclusion elements, exclusion graph and exclusion sets of routes. -/

namespace Soro
open Exclusion

/-- C16: whatever the number of threads and whatever the schedule, once all threads are joined the mapping lists, strictly
increasing, exactly the routes that have the element. -/
theorem C16_used_by (closed : List (List Nat)) (elementCount T : Nat) (hT : 1 ≤ T) (sched : List Nat) (s : UState)
    (h : runThreads elementCount sched (initThreads closed T) = some s) (hfin : finished s = true) :
    (combine elementCount T s).length = elementCount ∧
    ∀ e, e < elementCount → ∃ l, (combine elementCount T s)[e]? = some l ∧ l.Pairwise (· < ·) ∧
      ∀ r, r ∈ l ↔ ∃ es, closed[r]? = some es ∧ e ∈ es := by
  refine ⟨by simp [combine], fun e he => ?_⟩
  refine ⟨_, ?_, Algo.eraseDup_lt ((List.range T).flatMap fun t => s.res t e), fun r => ?_⟩
  · rw [combine, List.getElem?_map, List.getElem?_range he]; rfl
  · rw [Algo.mem_eraseDup, combine_mem closed elementCount T hT sched s h hfin]
    cases closed[r]? <;> simp

/-- C16: no schedule runs into undefined behaviour, every step of an unfinished thread reduces the remaining work, and
some schedule finishes. -/
theorem C16_no_ub_and_progress (closed : List (List Nat)) (elementCount T : Nat)
    (he : ∀ es ∈ closed, ∀ e ∈ es, e < elementCount) :
    (∀ sched, ∃ s, runThreads elementCount sched (initThreads closed T) = some s) ∧
    (∀ s t s', stepThread elementCount s t = some s' → s.todo[t]?.getD [] ≠ [] → work s' < work s) ∧
    ∃ sched s, runThreads elementCount sched (initThreads closed T) = some s ∧ finished s = true := by
  have hinit : ∀ l ∈ (initThreads closed T).todo, ∀ o ∈ l, o.1 < elementCount := by
    intro l hl o ho
    obtain ⟨t, _, rfl⟩ := List.mem_map.1 hl
    have := ((mem_threadOps closed T t o.1 o.2).1 ho).2.2
    cases hc : closed[o.2]? with
    | none => rw [hc] at this; cases this
    | some es => rw [hc] at this; exact he es (List.mem_of_getElem? hc) _ this
  exact ⟨fun sched => run_no_ub _ _ _ hinit, fun s t s' h hne => step_work _ _ _ _ h hne,
    exists_finishing _ _ _ (Nat.le_refl _) hinit⟩

/-- C16: the result is the same for all thread counts and schedules. -/
theorem C16_deterministic (closed : List (List Nat)) (elementCount T T' : Nat) (hT : 1 ≤ T) (hT' : 1 ≤ T')
    (sched sched' : List Nat) (s s' : UState)
    (h : runThreads elementCount sched (initThreads closed T) = some s) (hfin : finished s = true)
    (h' : runThreads elementCount sched' (initThreads closed T') = some s') (hfin' : finished s' = true) :
    combine elementCount T s = combine elementCount T' s' := by
  unfold combine
  apply List.map_congr_left
  intro e _
  apply Algo.lt_ext (Algo.eraseDup_lt _) (Algo.eraseDup_lt _)
  intro r
  rw [Algo.mem_eraseDup, Algo.mem_eraseDup, combine_mem closed elementCount T hT sched s h hfin,
    combine_mem closed elementCount T' hT' sched' s' h' hfin']

/-- `std::thread::hardware_concurrency()` may return 0 ("not computable"). Then no thread is started and the mapping is
empty: the claim needs at least one thread. -/
theorem C16_zero_threads (closed : List (List Nat)) (elementCount e : Nat) (he : e < elementCount) (s : UState) :
    (combine elementCount 0 s)[e]? = some [] := by
  rw [combine, List.getElem?_map, List.getElem?_range he]; simp [Algo.eraseDup, Algo.sortNat, Algo.unique]

/-- seven routes, three threads: the last batch takes the remainder; the threads alternate -/
def exClosed : List (List Nat) := [[0, 1], [1], [2], [0, 2], [1], [], [0]]

example : ∃ s, runThreads 3 [2, 0, 1, 2, 0, 1, 2, 2, 0, 1, 2, 1, 0] (initThreads exClosed 3) = some s ∧
    finished s = true := ⟨_, rfl, by decide⟩

example : batch 7 3 0 = (0, 2) ∧ batch 7 3 1 = (2, 4) ∧ batch 7 3 2 = (4, 7) := by decide

/-- the exclusion relation between routes, in terms of their exclusion elements and end nodes -/
def Excluded (closed : List (List Nat)) (firstNode lastNode : Nat → Nat) (u v : Nat) : Prop :=
  (∃ e us vs, closed[u]? = some us ∧ closed[v]? = some vs ∧ e ∈ us ∧ e ∈ vs) ∧
  firstNode v ≠ lastNode u ∧ lastNode v ≠ firstNode u

theorem Excluded.symm {closed : List (List Nat)} {f l : Nat → Nat} {u v : Nat} (h : Excluded closed f l u v) :
    Excluded closed f l v u := by
  obtain ⟨⟨e, us, vs, h1, h2, h3, h4⟩, h5, h6⟩ := h
  exact ⟨⟨e, vs, us, h2, h1, h4, h3⟩, fun h => h6 h.symm, fun h => h5 h.symm⟩

/-- C17: the nodes of the exclusion graph are the exclusion relation, which is symmetric. The used-by mapping is the one
computed by `get_closed_element_used_by` (any thread count and schedule), the heap choices are arbitrary. -/
theorem C17_exclusion_graph (ch : Nat → Nat → Nat) (closed : List (List Nat)) (elementCount T : Nat) (hT : 1 ≤ T)
    (sched : List Nat) (s : UState) (h : runThreads elementCount sched (initThreads closed T) = some s)
    (hfin : finished s = true) (he : ∀ es ∈ closed, ∀ e ∈ es, e < elementCount)
    (firstNode lastNode : Nat → Nat) (startingAt endingAt : Nat → List Nat)
    (hstart : ∀ n r, r ∈ startingAt n ↔ r < closed.length ∧ firstNode r = n)
    (hend : ∀ n r, r ∈ endingAt n ↔ r < closed.length ∧ lastNode r = n)
    (hsz : closed.length ≤ 2 ^ 32 - 64) :
    ∃ g, exclusionGraph ch closed (combine elementCount T s) firstNode lastNode startingAt endingAt = some g ∧
      g.length = closed.length ∧
      (∀ u, u < closed.length → ∃ n, g[u]? = some n ∧ n.Reachable ∧
        ∀ v, n.idx v = true ↔ Excluded closed firstNode lastNode u v) ∧
      ∀ (u v : Nat) (nu nv : ES), g[u]? = some nu → g[v]? = some nv → (nu.idx v = true ↔ nv.idx u = true) := by
  have hub : ∀ (u : Nat), ∀ e ∈ closed[u]?.getD [], ((combine elementCount T s)[e]?.getD []).Pairwise (· < ·) ∧
      ∀ r, r ∈ (combine elementCount T s)[e]?.getD [] ↔ e ∈ closed[r]?.getD [] := by
    intro u e hu
    have hlt : e < elementCount := by
      cases hc : closed[u]? with
      | none => rw [hc] at hu; cases hu
      | some es => rw [hc] at hu; exact he es (List.mem_of_getElem? hc) _ hu
    obtain ⟨l, h1, h2, h3⟩ := (C16_used_by closed elementCount T hT sched s h hfin).2 e hlt
    rw [h1]
    refine ⟨h2, fun r => ?_⟩
    rw [Option.getD_some, h3]
    cases closed[r]? <;> simp
  obtain ⟨g, h1, h2, h3⟩ := mapM_spec
    (fun ir => exclusionNode (ch ir) closed (combine elementCount T s) firstNode lastNode startingAt endingAt ir)
    (fun u n => n.Reachable ∧ ∀ v, n.idx v = true ↔ Excluded closed firstNode lastNode u v) (List.range closed.length) (by
      intro u _
      obtain ⟨n, h1, hr, h2⟩ := exclusionNode_spec (ch u) closed (combine elementCount T s) firstNode lastNode startingAt
        endingAt u (hub u) hsz
      refine ⟨n, h1, hr, fun v => ?_⟩
      rw [h2, hstart, hend, Excluded]
      constructor
      · rintro ⟨⟨e, h4, h5⟩, h6, h7⟩
        cases hu : closed[u]? with
        | none => rw [hu] at h4; cases h4
        | some us =>
          cases hv : closed[v]? with
          | none => rw [hv] at h5; cases h5
          | some vs =>
            rw [hu] at h4; rw [hv] at h5
            have hvl : v < closed.length := (List.getElem?_eq_some_iff.1 hv).1
            exact ⟨⟨e, us, vs, rfl, rfl, h4, h5⟩, fun h => h6 ⟨hvl, h⟩, fun h => h7 ⟨hvl, h⟩⟩
      · rintro ⟨⟨e, us, vs, h4, h5, h6, h7⟩, h8, h9⟩
        exact ⟨⟨e, by rw [h4]; exact h6, by rw [h5]; exact h7⟩, fun h => h8 h.2, fun h => h9 h.2⟩)
  have h4 : ∀ u, u < closed.length → ∃ n, g[u]? = some n ∧ n.Reachable ∧
      ∀ v, n.idx v = true ↔ Excluded closed firstNode lastNode u v :=
    fun u hu => h3 u u (List.getElem?_range hu)
  refine ⟨g, h1, by rw [h2, List.length_range], h4, fun u v nu nv hu hv => ?_⟩
  have hul : u < closed.length := by
    have := (List.getElem?_eq_some_iff.1 hu).1; rwa [h2, List.length_range] at this
  have hvl : v < closed.length := by
    have := (List.getElem?_eq_some_iff.1 hv).1; rwa [h2, List.length_range] at this
  obtain ⟨n, h5, _, h6⟩ := h4 u hul
  obtain ⟨m, h7, _, h8⟩ := h4 v hvl
  rw [hu] at h5; rw [hv] at h7
  cases h5; cases h7
  rw [h6, h8]
  exact ⟨Excluded.symm, Excluded.symm⟩

/-- hypotheses of C17: routes 0 -> 1 over nodes 10 -> 20, 20 -> 30, ... -/
example : ∃ (startingAt endingAt : Nat → List Nat),
    (∀ n r, r ∈ startingAt n ↔ r < exClosed.length ∧ (fun r => 10 * r) r = n) ∧
    (∀ n r, r ∈ endingAt n ↔ r < exClosed.length ∧ (fun r => 10 * r + 10) r = n) ∧
    Excluded exClosed (fun r => 10 * r) (fun r => 10 * r + 10) 0 3 ∧
    ¬ Excluded exClosed (fun r => 10 * r) (fun r => 10 * r + 10) 0 1 ∧
    (∀ es ∈ exClosed, ∀ e ∈ es, e < 3) := by
  refine ⟨fun n => (List.range exClosed.length).filter (fun r => 10 * r = n),
    fun n => (List.range exClosed.length).filter (fun r => 10 * r + 10 = n), ?_, ?_, ?_, ?_, ?_⟩
  · intro n r; simp
  · intro n r; simp
  · exact ⟨⟨0, [0, 1], [0, 2], rfl, rfl, by decide, by decide⟩, by decide, by decide⟩
  · intro h; exact h.2.1 rfl
  · decide

/-- C18: set `k` is listed for route `r` iff `r` is a member of set `k`; the lists are sorted, and strictly if no set has
duplicates; out of range ids are the only failure. -/
theorem C18_irs_to_exclusion_sets (sets : List (List Nat)) (irCount : Nat)
    (h : ∀ s ∈ sets, ∀ r ∈ s, r < irCount) :
    ∃ m, irsToExclusionSets sets irCount = some m ∧ m.length = irCount ∧
      ∀ r, r < irCount → ∃ l, m[r]? = some l ∧ (∀ k, k ∈ l ↔ ∃ s, sets[k]? = some s ∧ r ∈ s) ∧
        l.Pairwise (· ≤ ·) ∧ ((∀ s ∈ sets, s.Nodup) → l.Pairwise (· < ·)) := by
  obtain ⟨m, h1, h2, h3⟩ := irsLoop_spec 0 sets (List.replicate irCount []) (by simpa using h)
  rw [List.length_replicate] at h2
  refine ⟨m, h1, h2, fun r hr => ?_⟩
  obtain ⟨l, hl⟩ : ∃ l, m[r]? = some l := ⟨_, List.getElem?_eq_getElem (by omega)⟩
  have h4 := h3 r
  rw [hl, List.getElem?_replicate, if_pos hr] at h4
  simp only [Option.getD_some, List.nil_append] at h4
  subst h4
  refine ⟨_, hl, fun k => ?_, listed_sorted _ _ _, listed_lt _ _ _⟩
  rw [mem_listed]
  constructor
  · rintro ⟨i, s, h5, h6, rfl⟩; exact ⟨s, by simpa using h5, h6⟩
  · rintro ⟨s, h5, h6⟩; exact ⟨k, s, h5, h6, by omega⟩

example : irsToExclusionSets [[0, 2], [1], [2, 3]] 5 = some [[0], [1], [0, 2], [2], []] := by decide

/-- C19: the open elements of a route are its closed ones without the first and the last element, in the same order. -/
theorem C19_open_elements (routes : List (Nat × Nat × Nat)) (closed : List (List Nat))
    (hlt : ∀ r ∈ routes, r.1 < closed.length) (hnd : (routes.map Prod.fst).Nodup) :
    ∃ o, openElements routes closed = some o ∧ o.length = closed.length ∧
      ∀ id f l es, (id, f, l) ∈ routes → closed[id]? = some es →
        ∃ os, o[id]? = some os ∧ os.Sublist es ∧ ∀ x, x ∈ os ↔ x ∈ es ∧ x ≠ f ∧ x ≠ l := by
  obtain ⟨o, h1, h2, _, h4⟩ := openElements_spec routes closed hlt hnd
  refine ⟨o, h1, h2, fun id f l es hm hes => ⟨_, by rw [h4 id f l hm, hes]; rfl, List.filter_sublist, fun x => ?_⟩⟩
  simp [List.mem_filter]

example : openElements [(0, 1, 4), (1, 4, 4)] [[1, 2, 4], [4, 5]] = some [[2], [5]] := by decide

end Soro
