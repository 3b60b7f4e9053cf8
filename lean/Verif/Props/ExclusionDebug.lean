import Verif.Proof.ExclusionDebug
import Verif.Props.ExclElements

/-! Property C178: the assertions of the exclusion data and of the search for cycles. -/

namespace Soro.Infra.Props
open Soro.Infra Soro.Infra.Spec Dbg

/-- C178. The debug build collects the exclusion elements of a route like the release build, whatever that does, if every track
element of the route is on exactly one section and there is a track element. It is stopped by an assertion otherwise. -/
theorem C178_elements (sections : List Section) (ids : Nat → List Nat) (route : List Item) :
    ((∀ e ∈ route, e.ty.isTrack = true → (ids e.id).length = 1) ∧ (∃ e ∈ route, e.ty.isTrack = true) →
      exclusionElementsD sections ids route = lift (exclusionElements sections ids route)) ∧
    (¬ ((∀ e ∈ route, e.ty.isTrack = true → (ids e.id).length = 1) ∧ ∃ e ∈ route, e.ty.isTrack = true) →
      Stops (exclusionElementsD sections ids route)) :=
  ⟨fun h => exclusionElementsD_same sections ids route h.1 h.2, exclusionElementsD_stops sections ids route⟩

/-- C178. For a route along sections: if there is a track element for its direction, the debug build does what the release build
does; otherwise it is stopped by an assertion, and the release build reads from an empty vector. -/
theorem C178_drives (sections : List Section) (ids : Nat → List Nat) (legs : List Leg) (route : List Item)
    (h : Drives sections ids legs route) :
    ((∃ g ∈ legs, ∃ e ∈ g.range, Facing g.up e = true) →
      exclusionElementsD sections ids route = lift (exclusionElements sections ids route)) ∧
    ((∀ g ∈ legs, ∀ e ∈ g.range, Facing g.up e = false) →
      Stops (exclusionElementsD sections ids route) ∧ exclusionElements sections ids route = none) := by
  have hmem : ∀ e, (e ∈ route ∧ e.ty.isTrack = true) ↔ ∃ g ∈ legs, e ∈ g.range ∧ Facing g.up e = true := by
    intro e
    have := congrArg (fun l => e ∈ l) h.tracks
    simpa [List.mem_filter, List.mem_flatMap] using this
  constructor
  · rintro ⟨g, hg, e, he, hf⟩
    refine (C178_elements sections ids route).1 ⟨fun x hx ht => ?_, e, ((hmem e).2 ⟨g, hg, he, hf⟩)⟩
    obtain ⟨g', hg', hx', -⟩ := (hmem x).1 ⟨hx, ht⟩
    rw [h.ids g' hg' x hx' ht]; rfl
  · intro hn
    have hno : ∀ e ∈ route, e.ty.isTrack = false := by
      intro e he
      cases ht : e.ty.isTrack
      · rfl
      · obtain ⟨g, hg, he', hf⟩ := (hmem e).1 ⟨he, ht⟩
        rw [hn g hg e he'] at hf; cases hf
    obtain ⟨h1, h2⟩ := exclusionElementsD_none sections ids route hno
    exact ⟨⟨103, h1⟩, h2⟩

example : Drives exSections exIds exLegs [exM, exS, exH, exO] ∧ (∃ g ∈ exLegs, ∃ e ∈ g.range, Facing g.up e = true) :=
  ⟨exDrives, ⟨0, true, [exM, exN, exS]⟩, by simp [exLegs], exM, by simp, rfl⟩

/-- C178. The exclusion elements of all routes: if the release build finds those of all routes and every track element is on
exactly one section, both builds return the same. -/
theorem C178_closed (sections : List Section) (ids : Nat → List Nat) (routes : List (List Item)) (closed : List (List Nat))
    (h : closedElements sections ids routes = some closed)
    (hone : ∀ route ∈ routes, ∀ e ∈ route, e.ty.isTrack = true → (ids e.id).length = 1) :
    SameAs (closedElementsD sections ids routes) (closedElements sections ids routes) := by
  refine ⟨closed, h, ?_⟩
  have hs : ∀ route ∈ routes, exclusionElementsD sections ids route = lift (exclusionElements sections ids route) := by
    intro route hr
    refine exclusionElementsD_same sections ids route (hone route hr) ?_
    refine Classical.byContradiction fun hc => ?_
    have hno : ∀ e ∈ route, e.ty.isTrack = false := by
      intro e he
      cases ht : e.ty.isTrack
      · rfl
      · exact absurd ⟨e, he, ht⟩ hc
    have h2 := (exclusionElementsD_none sections ids route hno).2
    unfold closedElements at h
    obtain ⟨l1, l2, rfl⟩ := List.append_of_mem hr
    rw [List.mapM_append, List.mapM_cons, h2] at h
    cases hl : l1.mapM (exclusionElements sections ids) with
    | none => rw [hl] at h; cases h
    | some _ => rw [hl] at h; cases h
  unfold closedElementsD
  rw [mapM_same hs]
  unfold closedElements at h
  rw [h]; rfl

example : closedElements exSections exIds [[exM, exS, exH, exO], [exM, exS, exH]] = some [[1, 2, 3, 4, 5], [1, 2, 3, 4]] ∧
    ∀ route ∈ [[exM, exS, exH, exO], [exM, exS, exH]], ∀ e ∈ route, e.ty.isTrack = true → (exIds e.id).length = 1 := by
  refine ⟨by decide +kernel, by decide +kernel⟩

/-- C178, finding: no assertion notices that the bumper at the start of a route is searched in a section it is not on (C104); the
undefined behaviour is the same in both builds. -/
theorem C178_unnoticed : ∃ (sections : List Section) (ids : Nat → List Nat) (legs : List Leg) (route : List Item),
    Drives sections ids legs route ∧ exclusionElementsD sections ids route = .error .undefined := by
  obtain ⟨sections, ids, legs, route, h1, h2, e, he, ht⟩ := C104_out_of_bounds_negation
  refine ⟨sections, ids, legs, route, h1, ?_⟩
  have hmem : ∃ g ∈ legs, e ∈ g.range ∧ Facing g.up e = true := by
    have := congrArg (fun l => e ∈ l) h1.tracks
    have h3 : e ∈ route.filter (fun e => e.ty.isTrack) := List.mem_filter.2 ⟨he, ht⟩
    rw [h1.tracks] at h3
    simpa [List.mem_filter, List.mem_flatMap] using h3
  obtain ⟨g, hg, hr, hf⟩ := hmem
  rw [(C178_drives sections ids legs route h1).1 ⟨g, hg, e, hr, hf⟩, h2]; rfl

end Soro.Infra.Props

namespace Soro
open Exclusion Dbg

/-- C178. With the exclusion elements the program has collected, and whatever the threads do, no assertion of the mapping from
elements to routes or of the exclusion graph fails. -/
theorem C178_graph (ch : Nat → Nat → Nat) (sections : List Infra.Section) (ids : Nat → List Nat) (routes : List (List Infra.Item))
    (closed : List (List Nat)) (hc : Infra.closedElements sections ids routes = some closed) (elementCount T : Nat) (hT : 1 ≤ T)
    (sched : List Nat) (s : UState) (h : runThreads elementCount sched (initThreads closed T) = some s)
    (hfin : finished s = true) (he : ∀ es ∈ closed, ∀ e ∈ es, e < elementCount)
    (firstNode lastNode : Nat → Nat) (startingAt endingAt : Nat → List Nat) (hsz : closed.length ≤ 2 ^ 32 - 64) :
    combineD elementCount T s = .ok (combine elementCount T s) ∧
    SameAs (exclusionGraphD ch closed (combine elementCount T s) firstNode lastNode startingAt endingAt)
      (exclusionGraph ch closed (combine elementCount T s) firstNode lastNode startingAt endingAt) := by
  obtain ⟨hlen, hused⟩ := C16_used_by closed elementCount T hT sched s h hfin
  constructor
  · unfold combineD
    rw [check_pos hlen]; rfl
  have hub : ∀ (u : Nat), ∀ e ∈ closed[u]?.getD [], ((combine elementCount T s)[e]?.getD []).Pairwise (· < ·) ∧
      ∀ r, r ∈ (combine elementCount T s)[e]?.getD [] ↔ e ∈ closed[r]?.getD [] := by
    intro u e hu
    have hlt : e < elementCount := by
      cases hc : closed[u]? with
      | none => rw [hc] at hu; cases hu
      | some es => rw [hc] at hu; exact he es (List.mem_of_getElem? hc) _ hu
    obtain ⟨l, h1, h2, h3⟩ := hused e hlt
    rw [h1]
    refine ⟨h2, fun r => ?_⟩
    rw [Option.getD_some, h3]
    cases closed[r]? <;> simp
  obtain ⟨g, hg, -, -⟩ := mapM_spec
    (fun ir => exclusionNode (ch ir) closed (combine elementCount T s) firstNode lastNode startingAt endingAt ir)
    (fun _ _ => True) (List.range closed.length) (by
      intro u _
      obtain ⟨n, h1, -, -⟩ := exclusionNode_spec (ch u) closed (combine elementCount T s) firstNode lastNode startingAt
        endingAt u (hub u) hsz
      exact ⟨n, h1, trivial⟩)
  refine ⟨g, hg, ?_⟩
  have hs1 : (combine elementCount T s).all Algo.isSorted = true := by
    rw [List.all_eq_true]
    intro l hl
    rw [Algo.isSorted_iff]
    obtain ⟨e, he', rfl⟩ := List.mem_map.1 hl
    exact Algo.lt_le (Algo.eraseDup_lt _)
  have hs2 : closed.all Algo.isSorted = true := by
    rw [List.all_eq_true]
    intro l hl
    rw [Algo.isSorted_iff]
    unfold Infra.closedElements at hc
    obtain ⟨i, hi, rfl⟩ := List.mem_iff_getElem.1 hl
    have : ∃ x ∈ routes, Infra.exclusionElements sections ids x = some closed[i] := by
      clear hl h he hub hg hs1 hsz hused
      induction routes generalizing closed i with
      | nil =>
        rw [List.mapM_nil] at hc
        cases hc
        simp at hi
      | cons r rs ih =>
        rw [List.mapM_cons] at hc
        cases h1 : Infra.exclusionElements sections ids r with
        | none => rw [h1] at hc; cases hc
        | some y =>
          cases h2 : rs.mapM (Infra.exclusionElements sections ids) with
          | none => rw [h1, h2] at hc; cases hc
          | some ys =>
            rw [h1, h2] at hc
            cases hc
            cases i with
            | zero => exact ⟨r, by simp, h1⟩
            | succ i =>
              obtain ⟨x, hx, hx'⟩ := ih ys h2 i (by simpa using hi)
              exact ⟨x, List.mem_cons_of_mem _ hx, by simpa using hx'⟩
    obtain ⟨x, -, hx⟩ := this
    exact Infra.exclusionElements_sorted hx
  unfold exclusionGraphD
  rw [check_pos hs1, ok_bind, check_pos hs2, ok_bind]
  rw [mapM_same (fun u _ => exclusionNodeD_same (ch u) closed _ firstNode lastNode startingAt endingAt u (hub u) hsz)]
  show lift _ = _
  rw [hg]; rfl

example : ∃ (closed : List (List Nat)) (sched : List Nat) (s : UState),
    Infra.closedElements Infra.Props.exSections Infra.Props.exIds [[Infra.Props.exM, Infra.Props.exS, Infra.Props.exH]] = some closed ∧
    runThreads 7 sched (initThreads closed 2) = some s ∧ finished s = true ∧ (∀ es ∈ closed, ∀ e ∈ es, e < 7) ∧
    closed.length ≤ 2 ^ 32 - 64 := by
  obtain ⟨-, -, sched, s, h1, h2⟩ := C16_no_ub_and_progress [[1, 2, 3, 4]] 7 2 (by decide)
  exact ⟨[[1, 2, 3, 4]], sched, s, by decide +kernel, h1, h2, by decide, by decide⟩

/-- C178. The search for cycles: its assertion never fails. -/
theorem C178_has_cycle (n : Nat) (nbrs : Nat → List Nat) (hn : ∀ x, x < n → ∀ y ∈ nbrs x, y < n) :
    SameAs (HasCycle.hasCycleD n nbrs) (HasCycle.hasCycle n nbrs) := by
  have h := (HasCycle.impl_spec n hn (n + 1)).2 [] (List.range n) { visited := [], finished := [] }
    ⟨(by intro x hx; cases hx), by simp, by simp, by simp, by simp⟩ (fun m hm => List.mem_range.1 hm) (by simp) (by simp)
  unfold HasCycle.hasCycleD HasCycle.hasCycle
  match hr : HasCycle.implAll nbrs (n + 1) (List.range n) { visited := [], finished := [] } with
  | none => rw [hr] at h; exact h.elim
  | some (true, s') =>
    refine ⟨true, rfl, ?_⟩
    simp only [lift, ok_bind]
    rw [check_pos (.inl trivial)]; rfl
  | some (false, s') =>
    rw [hr] at h
    refine ⟨false, rfl, ?_⟩
    simp only [lift, ok_bind]
    rw [check_pos (.inr ⟨fun i hi => (h.1.vis i).2 (.inl (h.2.1 i hi)), fun i hi => h.2.1 i hi⟩)]; rfl

example : ∀ x, x < 4 → ∀ y ∈ (fun i => [[1], [], [3], [2, 1]][i]?.getD []) x, y < 4 := by decide

end Soro
