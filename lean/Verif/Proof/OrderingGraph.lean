import Verif.Spec.Ordering
import Verif.Proof.Algo
import Verif.Proof.OrderingAlgo

/-! Proofs about the construction of the ordering graph. -/

namespace Soro.OrderingGraph
open OGraph

/-! ### nodes and usages -/

def endTime (tr : OTrain) (a : Int) (p : Nat) : Int :=
  if p = 0 then a + (tr.times[0]?.getD (0, 0)).1
  else if p + 1 < tr.path.length then a + (tr.times[p - 1]?.getD (0, 0)).2
  else a + tr.lastArrival

def blockNode (tr : OTrain) (o p : Nat) : ONode :=
  ⟨o + p, tr.path[p]?.getD 0, tr.id, if p = 0 then [] else [o + p - 1], if p + 1 < tr.path.length then [o + p + 1] else []⟩

def blockOp (tr : OTrain) (a : Int) (o p : Nat) : ONode × Usage :=
  (blockNode tr o p, ⟨startTime tr a p, endTime tr a p, o + p⟩)

def block (tr : OTrain) (a : Int) (o : Nat) : List (ONode × Usage) :=
  (List.range tr.path.length).map (blockOp tr a o)

def blocks : Nat → List (OTrain × Int) → List (ONode × Usage)
  | _, [] => []
  | o, (tr, a) :: ts => block tr a o ++ blocks (o + tr.path.length) ts

theorem midOps_eq (tr : OTrain) (a : Int) (o : Nat) (hlen : tr.path.length = tr.times.length + 1) (n : Nat) :
    ∀ q, q + n + 1 = tr.times.length →
      midOps tr a (tr.times.drop q) (q + 1) (o + q + 1) =
        some ((List.range' (q + 1) n).map (blockOp tr a o)) := by
  induction n with
  | zero =>
    intro q hq
    have h1 : tr.times.drop q = [tr.times[q]] := by
      rw [List.drop_eq_getElem_cons (by omega), List.drop_eq_nil_of_le (by omega)]
    rw [h1]; simp [midOps]
  | succ n ih =>
    intro q hq
    have h1 : tr.times.drop q = tr.times[q] :: tr.times[q + 1] :: tr.times.drop (q + 2) := by
      rw [List.drop_eq_getElem_cons (by omega), List.drop_eq_getElem_cons (i := q + 1) (by omega)]
    have h2 := ih (q + 1) (by omega)
    rw [List.drop_eq_getElem_cons (i := q + 1) (by omega)] at h2
    rw [h1, midOps, List.getElem?_eq_getElem (by omega : q + 1 < tr.path.length)]
    have h3 : o + (q + 1) + 1 = o + q + 1 + 1 := by omega
    rw [h3] at h2
    simp only [h2, Option.map_some, List.range'_succ, List.map_cons, Option.some.injEq, List.cons.injEq, and_true]
    have h4 : q + 1 + 1 < tr.path.length := by omega
    simp only [blockOp, blockNode, startTime, endTime]
    simp [h4, List.getElem?_eq_getElem (by omega : q + 1 < tr.path.length),
      List.getElem?_eq_getElem (by omega : q < tr.times.length)]
    omega

theorem tripOps_eq (tr : OTrain) (a : Int) (o : Nat) (hlen : tr.path.length = tr.times.length + 1) (hne : tr.times ≠ []) :
    tripOps tr a o = some (block tr a o) := by
  obtain ⟨n, hn⟩ : ∃ n, tr.times.length = n + 1 := by
    cases h : tr.times with
    | nil => exact absurd h hne
    | cons x l => exact ⟨l.length, rfl⟩
  have h1 := midOps_eq tr a o hlen n 0 (by omega)
  simp only [List.drop_zero, Nat.zero_add, Nat.add_zero] at h1
  have hp0 : tr.path.head? = some tr.path[0] := by
    rw [List.head?_eq_getElem?, List.getElem?_eq_getElem (by omega : 0 < tr.path.length)]
  have hpl : tr.path.getLast? = some (tr.path[n + 1]) := by
    rw [List.getLast?_eq_getElem?]
    have : tr.path.length - 1 = n + 1 := by omega
    rw [this, List.getElem?_eq_getElem (by omega : n + 1 < tr.path.length)]
  have ht0 : tr.times.head? = some tr.times[0] := by
    rw [List.head?_eq_getElem?, List.getElem?_eq_getElem (by omega : 0 < tr.times.length)]
  have htl : tr.times.getLast? = some (tr.times[n]) := by
    rw [List.getLast?_eq_getElem?]
    have : tr.times.length - 1 = n := by omega
    rw [this, List.getElem?_eq_getElem (by omega : n < tr.times.length)]
  unfold tripOps
  rw [hp0, hpl, ht0, htl]
  simp only [h1, Option.map_some, Option.some.injEq]
  have h2 : List.range tr.path.length = 0 :: List.range' 1 n ++ [n + 1] := by
    have : tr.path.length = n + 1 + 1 := by omega
    rw [this, List.range_eq_range', List.range'_succ, List.range'_concat]
    simp; omega
  rw [block, h2, List.map_append, List.map_cons]
  simp only [List.map_cons, List.map_nil, List.length_map, List.length_range']
  congr 1
  · congr 1
    simp only [blockOp, blockNode, startTime, endTime]
    have h4 : 0 + 1 < tr.path.length := by omega
    simp [h4, List.getElem?_eq_getElem (by omega : 0 < tr.path.length),
      List.getElem?_eq_getElem (by omega : 0 < tr.times.length)]
  · have h4 : ¬ n + 1 + 1 < tr.path.length := by omega
    have h5 : o + 1 + n = o + (n + 1) := by omega
    simp only [blockOp, blockNode, startTime, endTime, h5]
    simp [h4, List.getElem?_eq_getElem (by omega : n + 1 < tr.path.length),
      List.getElem?_eq_getElem (by omega : n < tr.times.length)]

/-- the usages registered in ordering `k` by operations `ops` -/
def usagesOf (irsToSets : List (List Nat)) (k : Nat) (ops : List (ONode × Usage)) : List Usage :=
  ops.flatMap fun op => ((irsToSets[op.1.ir]?.getD []).filter (· == k)).map fun _ => op.2

theorem pushSets_spec (u : Usage) (ks : List Nat) (os : List (List Usage)) (h : ∀ k ∈ ks, k < os.length) :
    ∃ os', pushSets u ks os = some os' ∧ os'.length = os.length ∧
      ∀ k, os'[k]? = os[k]?.map (· ++ (ks.filter (· == k)).map fun _ => u) := by
  induction ks generalizing os with
  | nil => exact ⟨os, rfl, rfl, fun k => by simp⟩
  | cons k ks ih =>
    obtain ⟨os', h1, h2, h3⟩ := ih (os.modify k (· ++ [u])) (by
      intro j hj; rw [List.length_modify]; exact h j (by simp [hj]))
    refine ⟨os', ?_, by rw [h2, List.length_modify], fun j => ?_⟩
    · rw [pushSets, if_pos (h k (by simp)), h1]
    · rw [h3, List.getElem?_modify]
      by_cases hj : k = j
      · subst hj; cases os[k]? <;> simp
      · have : (k == j) = false := by simpa using hj
        cases os[j]? <;> simp [hj, this]

theorem applyOps_spec (irsToSets : List (List Nat)) (ops : List (ONode × Usage)) (A : List ONode) (s : BState)
    (hn : s.nodes = A ++ List.replicate ops.length defaultNode)
    (hid : ∀ i (op : ONode × Usage), ops[i]? = some op → op.1.id = A.length + i ∧ op.1.ir < irsToSets.length)
    (hk : ∀ ks ∈ irsToSets, ∀ k ∈ ks, k < s.orderings.length) :
    ∃ s', applyOps irsToSets ops s = some s' ∧ s'.nodes = A ++ ops.map Prod.fst ∧ s'.cur = s.cur ∧ s'.trips = s.trips ∧
      s'.orderings.length = s.orderings.length ∧
      ∀ k, s'.orderings[k]? = s.orderings[k]?.map (· ++ usagesOf irsToSets k ops) := by
  induction ops generalizing A s with
  | nil => exact ⟨s, rfl, by simpa using hn, rfl, rfl, rfl, fun k => by simp [usagesOf]⟩
  | cons op ops ih =>
    obtain ⟨h1, h2⟩ := hid 0 op rfl
    have hks : irsToSets[op.1.ir]? = some irsToSets[op.1.ir] := List.getElem?_eq_getElem h2
    obtain ⟨os, h3, h4, h5⟩ := pushSets_spec op.2 irsToSets[op.1.ir] s.orderings (hk _ (List.getElem_mem h2))
    obtain ⟨s', h6, h7, h8, h9, h10, h11⟩ := ih (A ++ [op.1]) { s with nodes := s.nodes.set op.1.id op.1, orderings := os } (by
        simp only [hn, List.length_cons, List.replicate_succ, h1, Nat.add_zero]
        rw [List.set_append_right _ _ (Nat.le_refl _)]
        simp)
      (by
        intro i op' h
        have := hid (i + 1) op' h
        refine ⟨?_, this.2⟩
        rw [this.1]; simp; omega)
      (by intro ks hks k hk'; rw [h4]; exact hk ks hks k hk')
    refine ⟨s', ?_, by rw [h7]; simp, h8, h9, by rw [h10, h4], fun k => ?_⟩
    · rw [applyOps, applyOp, if_pos (by rw [hn, h1]; simp), hks]
      simp only [h3, Option.map_some, Option.bind_some]
      exact h6
    · rw [h11, h5]
      have h12 : usagesOf irsToSets k (op :: ops) =
          ((irsToSets[op.1.ir]).filter (· == k)).map (fun _ => op.2) ++ usagesOf irsToSets k ops := by
        rw [usagesOf, List.flatMap_cons, hks]; rfl
      rw [h12]
      cases s.orderings[k]? <;> simp

theorem block_getElem? (tr : OTrain) (a : Int) (o i : Nat) (op : ONode × Usage) :
    (block tr a o)[i]? = some op ↔ i < tr.path.length ∧ op = blockOp tr a o i := by
  rw [block, List.getElem?_map]
  by_cases hi : i < tr.path.length
  · rw [List.getElem?_range hi]; simp [hi, eq_comm]
  · rw [List.getElem?_eq_none (by simpa using hi)]; simp [hi]

theorem length_block (tr : OTrain) (a : Int) (o : Nat) : (block tr a o).length = tr.path.length := by simp [block]

theorem addTrip_spec (irsToSets : List (List Nat)) (tr : OTrain) (hlen : tr.path.length = tr.times.length + 1)
    (hne : tr.times ≠ []) (hir : ∀ ir ∈ tr.path, ir < irsToSets.length) (s : BState) (hcur : s.cur = s.nodes.length)
    (hk : ∀ ks ∈ irsToSets, ∀ k ∈ ks, k < s.orderings.length) (a : Int) :
    ∃ s', addTrip irsToSets tr s a = some s' ∧ s'.nodes = s.nodes ++ (block tr a s.cur).map Prod.fst ∧
      s'.cur = s'.nodes.length ∧ s'.trips = emplaceTrip s.trips (tr.id, a) (s.cur, s.cur + tr.path.length) ∧
      s'.orderings.length = s.orderings.length ∧
      ∀ k, s'.orderings[k]? = s.orderings[k]?.map (· ++ usagesOf irsToSets k (block tr a s.cur)) := by
  unfold addTrip
  rw [tripOps_eq tr a s.cur hlen hne]
  simp only [Option.bind_some]
  obtain ⟨s', h1, h2, h3, h4, h5, h6⟩ := applyOps_spec irsToSets (block tr a s.cur) s.nodes
    { nodes := s.nodes ++ List.replicate tr.path.length defaultNode, orderings := s.orderings,
      trips := emplaceTrip s.trips (tr.id, a) (s.cur, s.cur + tr.path.length), cur := s.cur + tr.path.length }
    (by rw [length_block]) (by
      intro i op h
      obtain ⟨h1, rfl⟩ := (block_getElem? _ _ _ _ _).1 h
      refine ⟨by rw [← hcur]; rfl, ?_⟩
      simp only [blockOp, blockNode, List.getElem?_eq_getElem h1, Option.getD_some]
      exact hir _ (List.getElem_mem h1)) hk
  refine ⟨s', h1, h2, ?_, h4, h5, h6⟩
  rw [h3, h2, List.length_append, List.length_map, length_block, hcur]

theorem usagesOf_append (irsToSets : List (List Nat)) (k : Nat) (a b : List (ONode × Usage)) :
    usagesOf irsToSets k (a ++ b) = usagesOf irsToSets k a ++ usagesOf irsToSets k b := by
  simp [usagesOf]

def tripEntry (o : Nat) (t : OTrain × Int) : (Nat × Int) × (Nat × Nat) := ((t.1.id, t.2), (o, o + t.1.path.length))

/-- the trip index after the trips `ts` -/
def emplaceAll : Nat → List (OTrain × Int) → List ((Nat × Int) × (Nat × Nat)) → List ((Nat × Int) × (Nat × Nat))
  | _, [], m => m
  | o, t :: ts, m => emplaceAll (o + t.1.path.length) ts (emplaceTrip m (t.1.id, t.2) (o, o + t.1.path.length))

theorem blocks_append (o : Nat) (xs ys : List (OTrain × Int)) :
    blocks o (xs ++ ys) = blocks o xs ++ blocks (o + (xs.map fun t => t.1.path.length).sum) ys := by
  induction xs generalizing o with
  | nil => simp [blocks]
  | cons x xs ih => obtain ⟨tr, a⟩ := x; simp [blocks, ih, Nat.add_assoc]

theorem emplaceAll_append (o : Nat) (xs ys : List (OTrain × Int)) (m : List ((Nat × Int) × (Nat × Nat))) :
    emplaceAll o (xs ++ ys) m = emplaceAll (o + (xs.map fun t => t.1.path.length).sum) ys (emplaceAll o xs m) := by
  induction xs generalizing o m with
  | nil => simp [emplaceAll]
  | cons x xs ih => simp [emplaceAll, ih, Nat.add_assoc]

/-- state after the trips `ts`, starting from `s` -/
structure After (irsToSets : List (List Nat)) (ts : List (OTrain × Int)) (s s' : BState) : Prop where
  nodes : s'.nodes = s.nodes ++ (blocks s.cur ts).map Prod.fst
  cur : s'.cur = s'.nodes.length
  trips : s'.trips = emplaceAll s.cur ts s.trips
  len : s'.orderings.length = s.orderings.length
  ord : ∀ k, s'.orderings[k]? = s.orderings[k]?.map (· ++ usagesOf irsToSets k (blocks s.cur ts))

theorem length_blocks (o : Nat) (ts : List (OTrain × Int)) :
    (blocks o ts).length = (ts.map fun t => t.1.path.length).sum := by
  induction ts generalizing o with
  | nil => rfl
  | cons t ts ih => obtain ⟨tr, a⟩ := t; simp [blocks, ih, length_block]

theorem After.refl (irsToSets : List (List Nat)) {s : BState} (h : s.cur = s.nodes.length) : After irsToSets [] s s :=
  ⟨by simp [blocks], h, rfl, rfl, fun k => by simp [blocks, usagesOf]⟩

theorem After.trans {irsToSets : List (List Nat)} {xs ys : List (OTrain × Int)} {s s' s'' : BState}
    (hc : s.cur = s.nodes.length) (h1 : After irsToSets xs s s') (h2 : After irsToSets ys s' s'') :
    After irsToSets (xs ++ ys) s s'' := by
  have hcur : s'.cur = s.cur + (xs.map fun t => t.1.path.length).sum := by
    rw [h1.cur, h1.nodes, List.length_append, List.length_map, length_blocks, hc]
  refine ⟨?_, h2.cur, ?_, by rw [h2.len, h1.len], fun k => ?_⟩
  · rw [h2.nodes, h1.nodes, blocks_append, hcur]; simp
  · rw [h2.trips, h1.trips, emplaceAll_append, hcur]
  · rw [h2.ord, h1.ord, blocks_append, usagesOf_append, hcur]
    cases s.orderings[k]? <;> simp

theorem addAnchors_spec (irsToSets : List (List Nat)) (tr : OTrain) (hlen : tr.path.length = tr.times.length + 1)
    (hne : tr.times ≠ []) (hir : ∀ ir ∈ tr.path, ir < irsToSets.length) (as : List Int) (s : BState)
    (hcur : s.cur = s.nodes.length) (hk : ∀ ks ∈ irsToSets, ∀ k ∈ ks, k < s.orderings.length) :
    ∃ s', as.foldlM (addTrip irsToSets tr) s = some s' ∧ After irsToSets (as.map fun a => (tr, a)) s s' := by
  induction as generalizing s with
  | nil => exact ⟨s, rfl, .refl _ hcur⟩
  | cons a as ih =>
    obtain ⟨s1, h1, h2, h3, h4, h5, h6⟩ := addTrip_spec irsToSets tr hlen hne hir s hcur hk a
    obtain ⟨s2, h7, h8⟩ := ih s1 h3 (by intro ks h k h'; rw [h5]; exact hk ks h k h')
    refine ⟨s2, by rw [List.foldlM_cons, h1]; exact h7, ?_⟩
    have h9 : After irsToSets [(tr, a)] s s1 := ⟨by rw [h2]; simp [blocks], h3, h4, h5, fun k => by rw [h6]; simp [blocks]⟩
    exact h9.trans hcur h8

theorem addTrains_spec (irsToSets : List (List Nat)) (filter : List Nat) (trains : List OTrain) (s : BState)
    (htr : ∀ tr ∈ selected filter trains, tr.path.length = tr.times.length + 1 ∧ ∀ ir ∈ tr.path, ir < irsToSets.length)
    (hcur : s.cur = s.nodes.length) (hk : ∀ ks ∈ irsToSets, ∀ k ∈ ks, k < s.orderings.length) :
    ∃ s', addTrains irsToSets filter trains s = some s' ∧ After irsToSets (allTrips filter trains) s s' := by
  induction trains generalizing s with
  | nil => exact ⟨s, rfl, .refl _ hcur⟩
  | cons tr trs ih =>
    by_cases hf : filter ≠ [] ∧ tr.id ∉ filter
    · have hsel : selected filter (tr :: trs) = selected filter trs := by
        simp [selected, hf.1, hf.2]
      obtain ⟨s', h1, h2⟩ := ih s (by rwa [hsel] at htr) hcur hk
      exact ⟨s', by rw [addTrains, if_pos hf, h1], by rw [allTrips, hsel]; exact h2⟩
    · rw [addTrains, if_neg hf, addTrain]
      by_cases ht : tr.times = []
      · have hsel : selected filter (tr :: trs) = selected filter trs := by simp [selected, ht]
        obtain ⟨s', h1, h2⟩ := ih s (by rwa [hsel] at htr) hcur hk
        exact ⟨s', by rw [if_pos ht]; exact h1, by rw [allTrips, hsel]; exact h2⟩
      · have hsel : selected filter (tr :: trs) = tr :: selected filter trs := by
          have : (decide (filter = []) || decide (tr.id ∈ filter)) = true := by
            by_cases h1 : filter = []
            · simp [h1]
            · by_cases h2 : tr.id ∈ filter
              · simp [h2]
              · exact absurd ⟨h1, h2⟩ hf
          simp only [selected, List.filter_cons, this]
          simp [ht]
        rw [hsel] at htr
        obtain ⟨h1, h2⟩ := htr tr (by simp)
        obtain ⟨s1, h3, h4⟩ := addAnchors_spec irsToSets tr h1 ht h2 tr.anchors s hcur hk
        obtain ⟨s2, h5, h6⟩ := ih s1 (fun t h => htr t (by simp [h])) h4.cur (by
          intro ks h k h'; rw [h4.len]; exact hk ks h k h')
        refine ⟨s2, by rw [if_neg ht, h3]; exact h5, ?_⟩
        rw [allTrips, hsel, List.flatMap_cons]
        exact h4.trans hcur h6

theorem generate_spec {setCount : Nat} {irsToSets : List (List Nat)} {filter : List Nat} {trains : List OTrain}
    (h : WellFormed setCount irsToSets filter trains) :
    ∃ s, generate setCount irsToSets filter trains = some s ∧
      s.nodes = (blocks 0 (allTrips filter trains)).map Prod.fst ∧
      s.trips = emplaceAll 0 (allTrips filter trains) [] ∧
      s.orderings = (List.range setCount).map fun k => usagesOf irsToSets k (blocks 0 (allTrips filter trains)) := by
  obtain ⟨s, h1, h2⟩ := addTrains_spec irsToSets filter trains
    { nodes := [], orderings := List.replicate setCount [], trips := [], cur := 0 } h.1 rfl (by simpa using h.2)
  refine ⟨s, h1, by simpa using h2.nodes, h2.trips, ?_⟩
  apply List.ext_getElem?
  intro k
  rw [h2.ord, List.getElem?_replicate, List.getElem?_map]
  by_cases hk : k < setCount
  · rw [List.getElem?_range hk]; simp [hk]
  · rw [if_neg hk, List.getElem?_eq_none (by simpa using hk)]; rfl

/-! ### positions in the node list -/

theorem offset_succ (t : OTrain × Int) (ts : List (OTrain × Int)) (j : Nat) :
    offset (t :: ts) (j + 1) = t.1.path.length + offset ts j := by simp [offset]

theorem blocks_getElem? (o : Nat) (ts : List (OTrain × Int)) (i : Nat) (op : ONode × Usage) :
    (blocks o ts)[i]? = some op ↔ ∃ j p tr a, ts[j]? = some (tr, a) ∧ p < tr.path.length ∧ i = offset ts j + p ∧
      op = blockOp tr a (o + offset ts j) p := by
  induction ts generalizing o i with
  | nil => simp [blocks]
  | cons t ts ih =>
    obtain ⟨tr, a⟩ := t
    rw [blocks]
    by_cases hi : i < tr.path.length
    · rw [List.getElem?_append_left (by rwa [length_block]), block_getElem?]
      constructor
      · rintro ⟨_, rfl⟩; exact ⟨0, i, tr, a, rfl, hi, by simp [offset], by simp [offset]⟩
      · rintro ⟨j, p, tr', a', h1, h2, h3, h4⟩
        cases j with
        | zero => cases h1; simp [offset] at h3 h4; subst h3; exact ⟨hi, h4⟩
        | succ j => rw [offset_succ] at h3; dsimp only at h3; omega
    · rw [List.getElem?_append_right (by rw [length_block]; omega), length_block, ih]
      constructor
      · rintro ⟨j, p, tr', a', h1, h2, h3, h4⟩
        refine ⟨j + 1, p, tr', a', h1, h2, by rw [offset_succ]; dsimp only; omega, ?_⟩
        rw [h4, offset_succ, Nat.add_assoc]
      · rintro ⟨j, p, tr', a', h1, h2, h3, h4⟩
        cases j with
        | zero => cases h1; simp [offset] at h3; omega
        | succ j =>
          rw [offset_succ] at h3 h4; dsimp only at h3
          exact ⟨j, p, tr', a', h1, h2, by omega, by rw [h4, Nat.add_assoc]⟩

/-- trip and position are determined by the node -/
theorem step_unique {ts : List (OTrain × Int)} {j j' p p' : Nat} {t t' : OTrain × Int} (h1 : ts[j]? = some t)
    (h2 : ts[j']? = some t') (h3 : p < t.1.path.length) (h4 : p' < t'.1.path.length)
    (h : offset ts j + p = offset ts j' + p') : j = j' ∧ p = p' := by
  induction ts generalizing j j' with
  | nil => cases h1
  | cons x ts ih =>
    cases j with
    | zero =>
      cases h1
      cases j' with
      | zero => simp [offset] at h; exact ⟨rfl, h⟩
      | succ j' => rw [offset_succ] at h; simp [offset] at h; omega
    | succ j =>
      cases j' with
      | zero => cases h2; rw [offset_succ] at h; simp [offset] at h; omega
      | succ j' =>
        rw [offset_succ, offset_succ] at h
        obtain ⟨rfl, rfl⟩ := ih h1 h2 (by omega)
        exact ⟨rfl, rfl⟩

theorem offset_lt {ts : List (OTrain × Int)} {j p : Nat} {t : OTrain × Int} (h1 : ts[j]? = some t)
    (h3 : p < t.1.path.length) : offset ts j + p < (ts.map fun t => t.1.path.length).sum := by
  induction ts generalizing j with
  | nil => cases h1
  | cons x ts ih =>
    cases j with
    | zero => cases h1; simp [offset]; omega
    | succ j => rw [offset_succ]; have := ih h1; simp; omega

/-! ### edges -/

def Consec {α : Type} (l : List α) (u v : α) : Prop := ∃ l1 l2, l = l1 ++ u :: v :: l2

theorem addEdge_spec {g : OGraph} {a b : Nat} (ha : a < g.length) (hb : b < g.length) :
    ∃ g', addEdge g a b = some g' ∧ g'.length = g.length ∧
      (∀ (i : Nat) n, g[i]? = some n → ∃ n', g'[i]? = some n' ∧ n'.id = n.id ∧ n'.ir = n.ir ∧ n'.train = n.train) ∧
      (∀ i j, j ∈ g'.out i ↔ j ∈ g.out i ∨ (i = a ∧ j = b)) ∧
      (∀ i j, j ∈ g'.inn i ↔ j ∈ g.inn i ∨ (i = b ∧ j = a)) := by
  refine ⟨_, by rw [addEdge, if_pos ⟨ha, hb⟩], by simp, ?_, fun i j => ?_, fun i j => ?_⟩
  · intro i n hn
    rw [List.getElem?_modify, List.getElem?_modify, hn]
    by_cases h1 : a = i <;> by_cases h2 : b = i <;> simp [h1, h2]
  · unfold out
    rw [List.getElem?_modify, List.getElem?_modify]
    cases hn : g[i]? with
    | none =>
      have : g.length ≤ i := by simpa using hn
      simp; omega
    | some n =>
      by_cases h1 : a = i <;> by_cases h2 : b = i <;> simp [h1, h2]
      · omega
      · omega
  · unfold inn
    rw [List.getElem?_modify, List.getElem?_modify]
    cases hn : g[i]? with
    | none =>
      have : g.length ≤ i := by simpa using hn
      simp; omega
    | some n =>
      by_cases h1 : a = i <;> by_cases h2 : b = i <;> simp [h1, h2]
      · omega
      · omega

/-- `g'` is `g` with the additional edges `E` -/
structure Plus (g g' : OGraph) (E : Nat → Nat → Prop) : Prop where
  len : g'.length = g.length
  node : ∀ (i : Nat) n, g[i]? = some n → ∃ n', g'[i]? = some n' ∧ n'.id = n.id ∧ n'.ir = n.ir ∧ n'.train = n.train
  out : ∀ i j, j ∈ g'.out i ↔ j ∈ g.out i ∨ E i j
  inn : ∀ i j, j ∈ g'.inn i ↔ j ∈ g.inn i ∨ E j i

theorem Plus.trans {g g' g'' : OGraph} {E F : Nat → Nat → Prop} (h1 : Plus g g' E) (h2 : Plus g' g'' F) :
    Plus g g'' (fun i j => E i j ∨ F i j) := by
  refine ⟨by rw [h2.len, h1.len], fun i n hn => ?_, fun i j => ?_, fun i j => ?_⟩
  · obtain ⟨n1, h3, h4, h5, h6⟩ := h1.node i n hn
    obtain ⟨n2, h7, h8, h9, h10⟩ := h2.node i n1 h3
    exact ⟨n2, h7, by rw [h8, h4], by rw [h9, h5], by rw [h10, h6]⟩
  · rw [h2.out, h1.out, or_assoc]
  · rw [h2.inn, h1.inn, or_assoc]

theorem Plus.congr {g g' : OGraph} {E F : Nat → Nat → Prop} (h : Plus g g' E) (he : ∀ i j, E i j ↔ F i j) : Plus g g' F :=
  ⟨h.len, h.node, fun i j => by rw [h.out, he], fun i j => by rw [h.inn, he]⟩

theorem chainEdges_spec (us : List Usage) (g : OGraph) (h : ∀ u ∈ us, u.id < g.length) :
    ∃ g', chainEdges us g = some g' ∧ Plus g g' (fun i j => ∃ u v, Consec us u v ∧ u.id = i ∧ v.id = j) := by
  match us with
  | [] =>
    refine ⟨g, by simp [chainEdges], rfl, fun i n hn => ⟨n, hn, rfl, rfl, rfl⟩, fun i j => ?_, fun i j => ?_⟩ <;>
      simp [Consec]
  | [u] =>
    have : ∀ u' v, ¬ Consec [u] u' v := by
      rintro u' v ⟨l1, l2, h⟩
      have := congrArg List.length h
      simp at this; omega
    refine ⟨g, by simp [chainEdges], rfl, fun i n hn => ⟨n, hn, rfl, rfl, rfl⟩, fun i j => ?_, fun i j => ?_⟩ <;>
      simp [this]
  | u :: v :: us =>
    obtain ⟨g1, h1, h2, h3, h4, h5⟩ := addEdge_spec (h u (by simp)) (h v (by simp))
    obtain ⟨g2, h6, h7⟩ := chainEdges_spec (v :: us) g1 (by
      intro w hw; rw [h2]; exact h w (List.mem_cons_of_mem _ hw))
    refine ⟨g2, by rw [chainEdges, h1]; exact h6, ?_⟩
    have h8 : Plus g g1 (fun i j => i = u.id ∧ j = v.id) :=
      ⟨h2, h3, h4, fun i j => by rw [h5]; constructor <;> (rintro (h | ⟨h, h'⟩); exact Or.inl h; exact Or.inr ⟨h', h⟩)⟩
    refine (h8.trans h7).congr (fun i j => ?_)
    constructor
    · rintro (⟨rfl, rfl⟩ | ⟨x, y, ⟨l1, l2, h⟩, h'⟩)
      · exact ⟨u, v, ⟨[], us, rfl⟩, rfl, rfl⟩
      · exact ⟨x, y, ⟨u :: l1, l2, by rw [h]; rfl⟩, h'⟩
    · rintro ⟨x, y, ⟨l1, l2, h⟩, rfl, rfl⟩
      cases l1 with
      | nil => simp at h; obtain ⟨rfl, rfl, _⟩ := h; exact Or.inl ⟨rfl, rfl⟩
      | cons z l1 =>
        simp at h
        exact Or.inr ⟨x, y, ⟨l1, l2, h.2⟩, rfl, rfl⟩

theorem addEdges_spec (srt : Nat → List Usage → List Usage) (hs : IsSorter srt) (os : List (List Usage)) (k : Nat)
    (g : OGraph) (h : ∀ o ∈ os, ∀ u ∈ o, u.id < g.length) :
    ∃ g', addEdges srt k os g = some g' ∧
      Plus g g' (fun i j => ∃ q o u v, os[q]? = some o ∧ Consec (srt (k + q) o) u v ∧ u.id = i ∧ v.id = j) := by
  induction os generalizing k g with
  | nil =>
    refine ⟨g, rfl, rfl, fun i n hn => ⟨n, hn, rfl, rfl, rfl⟩, fun i j => ?_, fun i j => ?_⟩ <;> simp
  | cons o os ih =>
    obtain ⟨g1, h1, h2⟩ := chainEdges_spec (srt k o) g (by
      intro u hu; exact h o (by simp) u ((hs k o).1.mem_iff.1 hu))
    obtain ⟨g2, h3, h4⟩ := ih (k + 1) g1 (by
      intro o' ho u hu; rw [h2.len]; exact h o' (by simp [ho]) u hu)
    refine ⟨g2, by rw [addEdges, h1]; exact h3, (h2.trans h4).congr (fun i j => ?_)⟩
    constructor
    · rintro (⟨u, v, h5, h6⟩ | ⟨q, o', u, v, h5, h6, h7⟩)
      · exact ⟨0, o, u, v, rfl, h5, h6⟩
      · exact ⟨q + 1, o', u, v, h5, by rw [← Nat.add_assoc, Nat.add_right_comm]; exact h6, h7⟩
    · rintro ⟨q, o', u, v, h5, h6, h7⟩
      cases q with
      | zero => cases h5; exact Or.inl ⟨u, v, h6, h7⟩
      | succ q => exact Or.inr ⟨q, o', u, v, h5, by rw [Nat.add_right_comm, Nat.add_assoc]; exact h6, h7⟩

theorem dedup_getElem? (g : OGraph) (i : Nat) :
    (dedup g)[i]? = g[i]?.map fun n => { n with outs := Algo.eraseDup n.outs, ins := Algo.eraseDup n.ins } := by
  rw [dedup, List.getElem?_map]

theorem dedup_plus (g : OGraph) : Plus g (dedup g) (fun _ _ => False) := by
  refine ⟨by simp [dedup], fun i n hn => ?_, fun i j => ?_, fun i j => ?_⟩
  · rw [dedup_getElem?, hn]; exact ⟨_, rfl, rfl, rfl, rfl⟩
  · unfold out; rw [dedup_getElem?]; cases g[i]? <;> simp [Algo.mem_eraseDup]
  · unfold inn; rw [dedup_getElem?]; cases g[i]? <;> simp [Algo.mem_eraseDup]

/-! ### the graph before transitive edges are removed -/

/-- the nodes with the chain edges only -/
def chainGraph (ts : List (OTrain × Int)) : OGraph := (blocks 0 ts).map Prod.fst

/-- the edges along trips -/
def TripEdge (ts : List (OTrain × Int)) (i j : Nat) : Prop :=
  ∃ q p tr a ir, IsStep ts i q p tr a ir ∧ p + 1 < tr.path.length ∧ j = i + 1

/-- consecutive usages of an exclusion set -/
def SetEdge (srt : Nat → List Usage → List Usage) (setCount : Nat) (irsToSets : List (List Nat))
    (ts : List (OTrain × Int)) (i j : Nat) : Prop :=
  ∃ k u v, k < setCount ∧ Consec (srt k (usagesOf irsToSets k (blocks 0 ts))) u v ∧ u.id = i ∧ v.id = j

theorem IsStep.lt {ts : List (OTrain × Int)} {i j p : Nat} {tr : OTrain} {a : Int} {ir : Nat} (h : IsStep ts i j p tr a ir) :
    p < tr.path.length := (List.getElem?_eq_some_iff.1 h.2.2).1

theorem chainGraph_getElem? (ts : List (OTrain × Int)) (i : Nat) (n : ONode) :
    (chainGraph ts)[i]? = some n ↔ ∃ j p tr a ir, IsStep ts i j p tr a ir ∧ n = blockNode tr (offset ts j) p := by
  rw [chainGraph, List.getElem?_map]
  constructor
  · intro h
    cases hb : (blocks 0 ts)[i]? with
    | none => rw [hb] at h; cases h
    | some op =>
      rw [hb] at h
      obtain ⟨j, p, tr, a, h1, h2, h3, rfl⟩ := (blocks_getElem? _ _ _ _).1 hb
      cases h
      exact ⟨j, p, tr, a, _, ⟨h1, h3, List.getElem?_eq_getElem h2⟩, by rw [Nat.zero_add]; rfl⟩
  · rintro ⟨j, p, tr, a, ir, h, rfl⟩
    have : (blocks 0 ts)[i]? = some (blockOp tr a (0 + offset ts j) p) :=
      (blocks_getElem? _ _ _ _).2 ⟨j, p, tr, a, h.1, h.lt, h.2.1, rfl⟩
    rw [this, Nat.zero_add]; rfl

theorem length_chainGraph (ts : List (OTrain × Int)) : (chainGraph ts).length = (ts.map fun t => t.1.path.length).sum := by
  rw [chainGraph, List.length_map, length_blocks]

theorem step_exists (ts : List (OTrain × Int)) {i : Nat} (h : i < (chainGraph ts).length) :
    ∃ j p tr a ir, IsStep ts i j p tr a ir := by
  obtain ⟨j, p, tr, a, ir, h1, _⟩ := (chainGraph_getElem? ts i _).1 (List.getElem?_eq_getElem h)
  exact ⟨j, p, tr, a, ir, h1⟩

theorem step_lt {ts : List (OTrain × Int)} {i j p : Nat} {tr : OTrain} {a : Int} {ir : Nat} (h : IsStep ts i j p tr a ir) :
    i < (chainGraph ts).length := by
  rw [length_chainGraph, h.2.1]; exact offset_lt h.1 h.lt

theorem step_inj {ts : List (OTrain × Int)} {i j p j' p' : Nat} {tr tr' : OTrain} {a a' : Int} {ir ir' : Nat}
    (h : IsStep ts i j p tr a ir) (h' : IsStep ts i j' p' tr' a' ir') : j = j' ∧ p = p' ∧ tr = tr' ∧ a = a' ∧ ir = ir' := by
  obtain ⟨rfl, rfl⟩ := step_unique h.1 h'.1 h.lt h'.lt (by rw [← h.2.1, ← h'.2.1])
  have h1 := h.1
  rw [h'.1] at h1
  cases h1
  have h2 := h.2.2
  rw [h'.2.2] at h2
  cases h2
  exact ⟨rfl, rfl, rfl, rfl, rfl⟩

theorem chainGraph_out (ts : List (OTrain × Int)) (i j : Nat) : j ∈ (chainGraph ts).out i ↔ TripEdge ts i j := by
  constructor
  · intro h
    obtain ⟨n, h1, h2⟩ := out_mem h
    obtain ⟨q, p, tr, a, ir, h3, rfl⟩ := (chainGraph_getElem? ts i n).1 h1
    simp only [blockNode] at h2
    split at h2
    · rename_i hp
      rw [List.mem_singleton] at h2
      exact ⟨q, p, tr, a, ir, h3, hp, by rw [h2, h3.2.1]⟩
    · cases h2
  · rintro ⟨q, p, tr, a, ir, h1, h2, rfl⟩
    rw [out_of_get ((chainGraph_getElem? ts i _).2 ⟨q, p, tr, a, ir, h1, rfl⟩)]
    simp [blockNode, h2, h1.2.1]

theorem inn_mem {g : OGraph} {i j : Nat} (h : j ∈ g.inn i) : ∃ n, g[i]? = some n ∧ j ∈ n.ins := by
  unfold inn at h
  cases hn : g[i]? with
  | none => rw [hn] at h; cases h
  | some n => rw [hn] at h; exact ⟨n, rfl, h⟩

theorem inn_of_get {g : OGraph} {i : Nat} {n : ONode} (h : g[i]? = some n) : g.inn i = n.ins := by
  unfold inn; rw [h]; rfl

theorem chainGraph_inn (ts : List (OTrain × Int)) (i j : Nat) : j ∈ (chainGraph ts).inn i ↔ TripEdge ts j i := by
  constructor
  · intro h
    obtain ⟨n, h1, h2⟩ := inn_mem h
    obtain ⟨q, p, tr, a, ir, h3, rfl⟩ := (chainGraph_getElem? ts i n).1 h1
    simp only [blockNode] at h2
    split at h2
    · cases h2
    · rename_i hp
      rw [List.mem_singleton] at h2
      have hlt := h3.lt
      obtain ⟨p', rfl⟩ : ∃ p', p = p' + 1 := ⟨p - 1, by omega⟩
      have := h3.2.1
      exact ⟨q, p', tr, a, _, ⟨h3.1, by omega, List.getElem?_eq_getElem (by omega)⟩, hlt, by omega⟩
  · rintro ⟨q, p, tr, a, ir, h1, h2, rfl⟩
    have h3 : IsStep ts (j + 1) q (p + 1) tr a tr.path[p + 1] := ⟨h1.1, by rw [h1.2.1]; rfl, List.getElem?_eq_getElem h2⟩
    rw [inn_of_get ((chainGraph_getElem? ts _ _).2 ⟨q, p + 1, tr, a, _, h3, rfl⟩)]
    simp [blockNode, h1.2.1]

theorem mem_usagesOf (irsToSets : List (List Nat)) (k : Nat) (ts : List (OTrain × Int)) (u : Usage) :
    u ∈ usagesOf irsToSets k (blocks 0 ts) ↔ ∃ j p tr a ir, IsStep ts u.id j p tr a ir ∧
      u.frm = startTime tr a p ∧ u.to = endTime tr a p ∧ k ∈ irsToSets[ir]?.getD [] := by
  simp only [usagesOf, List.mem_flatMap, List.mem_map, List.mem_filter, beq_iff_eq]
  constructor
  · rintro ⟨op, h1, k', ⟨h2, rfl⟩, rfl⟩
    obtain ⟨i, hi⟩ := List.mem_iff_getElem?.1 h1
    obtain ⟨j, p, tr, a, h3, h4, h5, rfl⟩ := (blocks_getElem? _ _ _ _).1 hi
    refine ⟨j, p, tr, a, tr.path[p], ⟨h3, by simp [blockOp], List.getElem?_eq_getElem h4⟩, rfl, rfl, ?_⟩
    simpa [blockOp, blockNode, List.getElem?_eq_getElem h4] using h2
  · rintro ⟨j, p, tr, a, ir, h1, h2, h3, h4⟩
    refine ⟨blockOp tr a (0 + offset ts j) p, ?_, k, ⟨?_, rfl⟩, ?_⟩
    · exact List.mem_of_getElem? ((blocks_getElem? 0 ts u.id _).2 ⟨j, p, tr, a, h1.1, h1.lt, h1.2.1, rfl⟩)
    · simpa [blockOp, blockNode, h1.2.2] using h4
    · obtain ⟨f, t, id⟩ := u
      simp only [blockOp, Usage.mk.injEq]
      exact ⟨h2.symm, h3.symm, by have := h1.2.1; dsimp only at this; omega⟩

theorem preGraph_spec {srt : Nat → List Usage → List Usage} (hs : IsSorter srt) {setCount : Nat}
    {irsToSets : List (List Nat)} {filter : List Nat} {trains : List OTrain}
    (h : WellFormed setCount irsToSets filter trains) :
    ∃ g, preGraph srt setCount irsToSets filter trains = some (g, emplaceAll 0 (allTrips filter trains) []) ∧
      Plus (chainGraph (allTrips filter trains)) g (SetEdge srt setCount irsToSets (allTrips filter trains)) ∧
      ∀ n ∈ g, n.outs.Pairwise (· < ·) ∧ n.ins.Pairwise (· < ·) := by
  obtain ⟨s, h1, h2, h3, h4⟩ := generate_spec h
  obtain ⟨g, h5, h6⟩ := addEdges_spec srt hs s.orderings 0 s.nodes (by
    intro o ho u hu
    rw [h4] at ho
    obtain ⟨k, _, rfl⟩ := List.mem_map.1 ho
    obtain ⟨j, p, tr, a, ir, h7, _⟩ := (mem_usagesOf _ _ _ _).1 hu
    rw [h2]; exact step_lt h7)
  refine ⟨dedup g, by rw [preGraph, h1]; simp only [Option.bind_some, h5, Option.map_some, h3], ?_, ?_⟩
  · rw [h2] at h6
    refine (h6.trans (dedup_plus g)).congr (fun i j => ?_)
    constructor
    · rintro (⟨q, o, u, v, h7, h8, h9⟩ | h)
      · rw [h4, List.getElem?_map] at h7
        by_cases hq : q < setCount
        · rw [List.getElem?_range hq] at h7
          cases h7
          rw [Nat.zero_add] at h8
          exact ⟨q, u, v, hq, h8, h9⟩
        · rw [List.getElem?_eq_none (by simpa using hq)] at h7; cases h7
      · exact h.elim
    · rintro ⟨k, u, v, h7, h8, h9⟩
      refine Or.inl ⟨k, _, u, v, ?_, by rw [Nat.zero_add]; exact h8, h9⟩
      rw [h4, List.getElem?_map, List.getElem?_range h7]; rfl
  · intro n hn
    obtain ⟨m, _, rfl⟩ := List.mem_map.1 hn
    exact ⟨Algo.eraseDup_lt _, Algo.eraseDup_lt _⟩

theorem Consec.mem {α : Type} {l : List α} {u v : α} (h : Consec l u v) : u ∈ l ∧ v ∈ l := by
  obtain ⟨l1, l2, rfl⟩ := h; simp

theorem SetEdge.step {srt : Nat → List Usage → List Usage} (hs : IsSorter srt) {setCount : Nat}
    {irsToSets : List (List Nat)} {ts : List (OTrain × Int)} {i j : Nat} (h : SetEdge srt setCount irsToSets ts i j) :
    i < (chainGraph ts).length ∧ j < (chainGraph ts).length := by
  obtain ⟨k, u, v, _, h2, rfl, rfl⟩ := h
  have h3 := h2.mem
  rw [(hs k _).1.mem_iff, (hs k _).1.mem_iff, mem_usagesOf, mem_usagesOf] at h3
  obtain ⟨⟨j, p, tr, a, ir, h4, _⟩, j', p', tr', a', ir', h5, _⟩ := h3
  exact ⟨step_lt h4, step_lt h5⟩

theorem TripEdge.step {ts : List (OTrain × Int)} {i j : Nat} (h : TripEdge ts i j) :
    i < (chainGraph ts).length ∧ j < (chainGraph ts).length := by
  obtain ⟨q, p, tr, a, ir, h1, h2, rfl⟩ := h
  refine ⟨step_lt h1, step_lt (j := q) (p := p + 1) (tr := tr) (a := a) (ir := tr.path[p + 1]) ?_⟩
  exact ⟨h1.1, by rw [h1.2.1]; rfl, List.getElem?_eq_getElem h2⟩

/-- node data, edges and validity of the graph before transitive edges are removed -/
structure Pre (srt : Nat → List Usage → List Usage) (setCount : Nat) (irsToSets : List (List Nat))
    (ts : List (OTrain × Int)) (g : OGraph) : Prop where
  valid : g.Valid
  len : g.length = (ts.map fun t => t.1.path.length).sum
  step : ∀ i, i < g.length → ∃ j p tr a ir, IsStep ts i j p tr a ir
  node : ∀ i j p tr a ir, IsStep ts i j p tr a ir → ∃ n, g[i]? = some n ∧ n.id = i ∧ n.ir = ir ∧ n.train = tr.id
  out : ∀ i j, j ∈ g.out i ↔ TripEdge ts i j ∨ SetEdge srt setCount irsToSets ts i j
  inn : ∀ i j, j ∈ g.inn i ↔ TripEdge ts j i ∨ SetEdge srt setCount irsToSets ts j i
  sorted : ∀ n ∈ g, n.outs.Pairwise (· < ·) ∧ n.ins.Pairwise (· < ·)

theorem pre_spec {srt : Nat → List Usage → List Usage} (hs : IsSorter srt) {setCount : Nat}
    {irsToSets : List (List Nat)} {filter : List Nat} {trains : List OTrain}
    (h : WellFormed setCount irsToSets filter trains) :
    ∃ g, preGraph srt setCount irsToSets filter trains = some (g, emplaceAll 0 (allTrips filter trains) []) ∧
      Pre srt setCount irsToSets (allTrips filter trains) g := by
  obtain ⟨g, h1, h2, h3⟩ := preGraph_spec hs h
  have hnode : ∀ i j p tr a ir, IsStep (allTrips filter trains) i j p tr a ir →
      ∃ n, g[i]? = some n ∧ n.id = i ∧ n.ir = ir ∧ n.train = tr.id := by
    intro i j p tr a ir hst
    obtain ⟨n, h4, h5, h6, h7⟩ := h2.node i _ ((chainGraph_getElem? _ i _).2 ⟨j, p, tr, a, ir, hst, rfl⟩)
    refine ⟨n, h4, ?_, ?_, h7⟩
    · rw [h5, hst.2.1]; rfl
    · rw [h6]; simp [blockNode, hst.2.2]
  have hstep : ∀ i, i < g.length → ∃ j p tr a ir, IsStep (allTrips filter trains) i j p tr a ir := by
    intro i hi; rw [h2.len] at hi; exact step_exists _ hi
  have hout : ∀ i j, j ∈ g.out i ↔ TripEdge (allTrips filter trains) i j ∨
      SetEdge srt setCount irsToSets (allTrips filter trains) i j := fun i j => by rw [h2.out, chainGraph_out]
  have hinn : ∀ i j, j ∈ g.inn i ↔ TripEdge (allTrips filter trains) j i ∨
      SetEdge srt setCount irsToSets (allTrips filter trains) j i := fun i j => by rw [h2.inn, chainGraph_inn]
  refine ⟨g, h1, ⟨?_, ?_, ?_⟩, by rw [h2.len, length_chainGraph], hstep, hnode, hout, hinn, h3⟩
  · intro i n hn
    obtain ⟨j, p, tr, a, ir, hst⟩ := hstep i (List.getElem?_eq_some_iff.1 hn).1
    obtain ⟨n', h4, h5, _⟩ := hnode i j p tr a ir hst
    rw [hn] at h4; cases h4; exact h5
  · intro n hn j hj
    obtain ⟨i, hi⟩ := List.mem_iff_getElem?.1 hn
    rw [← out_of_get hi, hout] at hj
    rw [h2.len]
    rcases hj with hj | hj
    · exact hj.step.2
    · exact (hj.step hs).2
  · intro n hn j hj
    obtain ⟨i, hi⟩ := List.mem_iff_getElem?.1 hn
    rw [← inn_of_get hi, hinn] at hj
    rw [h2.len]
    rcases hj with hj | hj
    · exact hj.step.1
    · exact (hj.step hs).1

/-! ### chains of usages -/

theorem pairwise_reach {out : Nat → List Nat} {l : List Usage} (h : ∀ u v, Consec l u v → v.id ∈ out u.id) :
    l.Pairwise fun u v => Reach out u.id v.id := by
  induction l with
  | nil => exact .nil
  | cons x l ih =>
    have hl := ih (fun u v ⟨l1, l2, hc⟩ => h u v ⟨x :: l1, l2, by rw [hc]; rfl⟩)
    refine List.pairwise_cons.2 ⟨fun v hv => ?_, hl⟩
    cases l with
    | nil => cases hv
    | cons y l =>
      have hxy := h x y ⟨[], l, rfl⟩
      rcases List.mem_cons.1 hv with rfl | hv
      · exact ⟨1, .snoc (.nil _) hxy⟩
      · obtain ⟨n, hn⟩ := (List.pairwise_cons.1 hl).1 v hv
        exact ⟨n + 1, Walk.cons hxy hn⟩

theorem pairwise_or {α : Type} {R : α → α → Prop} {l : List α} (h : l.Pairwise R) {u v : α} (hu : u ∈ l) (hv : v ∈ l)
    (hne : u ≠ v) : R u v ∨ R v u := by
  induction l with
  | nil => cases hu
  | cons x l ih =>
    obtain ⟨h1, h2⟩ := List.pairwise_cons.1 h
    rcases List.mem_cons.1 hu with rfl | hu' <;> rcases List.mem_cons.1 hv with rfl | hv'
    · exact absurd rfl hne
    · exact Or.inl (h1 v hv')
    · exact Or.inr (h1 u hu')
    · exact ih h2 hu' hv'

theorem set_reach {srt : Nat → List Usage → List Usage} (hs : IsSorter srt) {setCount : Nat}
    {irsToSets : List (List Nat)} {ts : List (OTrain × Int)} {g : OGraph} (hg : Pre srt setCount irsToSets ts g)
    {i j p i' j' p' : Nat} {tr tr' : OTrain} {a a' : Int} {ir ir' k : Nat} (h : IsStep ts i j p tr a ir)
    (h' : IsStep ts i' j' p' tr' a' ir') (hne : i ≠ i') (hk : k < setCount) (h1 : k ∈ irsToSets[ir]?.getD [])
    (h2 : k ∈ irsToSets[ir']?.getD []) :
    (startTime tr a p ≤ startTime tr' a' p' ∧ Reach g.out i i') ∨
    (startTime tr' a' p' ≤ startTime tr a p ∧ Reach g.out i' i) := by
  have hp := (hs k (usagesOf irsToSets k (blocks 0 ts))).2.and (pairwise_reach (out := g.out) (fun u v hc =>
    (hg.out u.id v.id).2 (Or.inr ⟨k, u, v, hk, hc, rfl, rfl⟩)))
  have hu : (⟨startTime tr a p, endTime tr a p, i⟩ : Usage) ∈ srt k (usagesOf irsToSets k (blocks 0 ts)) :=
    (hs k _).1.mem_iff.2 ((mem_usagesOf _ _ _ _).2 ⟨j, p, tr, a, ir, h, rfl, rfl, h1⟩)
  have hv : (⟨startTime tr' a' p', endTime tr' a' p', i'⟩ : Usage) ∈ srt k (usagesOf irsToSets k (blocks 0 ts)) :=
    (hs k _).1.mem_iff.2 ((mem_usagesOf _ _ _ _).2 ⟨j', p', tr', a', ir', h', rfl, rfl, h2⟩)
  exact pairwise_or hp hu hv (by simp only [ne_eq, Usage.mk.injEq]; exact fun hh => hne hh.2.2)

/-! ### the trip index -/

theorem emplaceAll_nodup (ts : List (OTrain × Int)) (o : Nat) (m : List ((Nat × Int) × (Nat × Nat)))
    (hnd : (ts.map fun t => (t.1.id, t.2)).Nodup) (hm : ∀ e ∈ m, ∀ t ∈ ts, e.1 ≠ (t.1.id, t.2)) (j : Nat) (t : OTrain × Int)
    (hj : ts[j]? = some t) :
    (emplaceAll o ts m).find? (fun e => e.1 == (t.1.id, t.2)) =
      some ((t.1.id, t.2), (o + offset ts j, o + offset ts j + t.1.path.length)) := by
  have keep : ∀ (ts : List (OTrain × Int)) (o : Nat) (m : List ((Nat × Int) × (Nat × Nat))) (key : Nat × Int) e,
      m.find? (fun e => e.1 == key) = some e → (emplaceAll o ts m).find? (fun e => e.1 == key) = some e := by
    intro ts
    induction ts with
    | nil => intro o m key e h; exact h
    | cons t ts ih =>
      intro o m key e h
      rw [emplaceAll]
      apply ih
      unfold emplaceTrip
      split
      · exact h
      · rw [List.find?_append, h]; rfl
  induction ts generalizing o m j with
  | nil => cases hj
  | cons x ts ih =>
    have hno : m.any (fun e => e.1 == (x.1.id, x.2)) = false := by
      rw [List.any_eq_false]
      intro e he
      simpa using hm e he x (by simp)
    simp only [List.map_cons, List.nodup_cons] at hnd
    rw [emplaceAll]
    cases j with
    | zero =>
      cases hj
      apply keep
      have : offset (t :: ts) 0 = 0 := by simp [offset]
      rw [this, Nat.add_zero]
      unfold emplaceTrip
      rw [hno, if_neg (by simp), List.find?_append]
      have : m.find? (fun e => e.1 == (t.1.id, t.2)) = none := by
        rw [List.find?_eq_none]
        intro e he
        simpa using hm e he t (by simp)
      rw [this]; simp
    | succ j =>
      rw [offset_succ, ← Nat.add_assoc]
      refine ih _ _ hnd.2 ?_ j hj
      intro e he t' ht'
      unfold emplaceTrip at he
      rw [hno] at he
      simp only [Bool.false_eq_true, if_false, List.mem_append, List.mem_singleton] at he
      rcases he with he | rfl
      · exact hm e he t' (by simp [ht'])
      · intro hh
        exact hnd.1 (List.mem_map.2 ⟨t', ht', hh.symm⟩)

/-! ### times increase along edges -/

theorem Consec.getElem? {α : Type} {l : List α} {u v : α} (h : Consec l u v) :
    ∃ i : Nat, l[i]? = some u ∧ l[i + 1]? = some v := by
  obtain ⟨l1, l2, rfl⟩ := h
  exact ⟨l1.length, by simp, by simp⟩

theorem Consec.rel {α : Type} {R : α → α → Prop} {l : List α} {u v : α} (h : Consec l u v) (hp : l.Pairwise R) : R u v := by
  obtain ⟨l1, l2, rfl⟩ := h
  rw [List.pairwise_append] at hp
  exact (List.pairwise_cons.1 hp.2.1).1 v (by simp)

theorem blocks_ids (o : Nat) (ts : List (OTrain × Int)) : (blocks o ts).Pairwise fun x y => x.2.id < y.2.id := by
  rw [List.pairwise_iff_getElem]
  intro i j hi hj hij
  obtain ⟨q, p, tr, a, h1, h2, h3, h4⟩ := (blocks_getElem? o ts i _).1 (List.getElem?_eq_getElem hi)
  obtain ⟨q', p', tr', a', h1', h2', h3', h4'⟩ := (blocks_getElem? o ts j _).1 (List.getElem?_eq_getElem hj)
  rw [h4, h4']
  simp only [blockOp]
  omega

theorem filter_le_one {ks : List Nat} (h : ks.Nodup) (k : Nat) : (ks.filter (· == k)).length ≤ 1 := by
  rw [← List.countP_eq_length_filter, ← List.count_eq_countP]
  exact List.nodup_iff_count.1 h k

/-- usages in an ordering are listed by increasing node id -/
theorem usagesOf_ids (irsToSets : List (List Nat)) (hnd : ∀ ks ∈ irsToSets, ks.Nodup) (k : Nat) (ops : List (ONode × Usage))
    (h : ops.Pairwise fun x y => x.2.id < y.2.id) : (usagesOf irsToSets k ops).Pairwise fun x y => x.id < y.id := by
  induction ops with
  | nil => exact .nil
  | cons op ops ih =>
    obtain ⟨h1, h2⟩ := List.pairwise_cons.1 h
    have : usagesOf irsToSets k (op :: ops) =
        ((irsToSets[op.1.ir]?.getD []).filter (· == k)).map (fun _ => op.2) ++ usagesOf irsToSets k ops := by
      rw [usagesOf, List.flatMap_cons]; rfl
    rw [this, List.pairwise_append]
    refine ⟨?_, ih h2, ?_⟩
    · have hl : ((irsToSets[op.1.ir]?.getD []).filter (· == k)).length ≤ 1 := by
        cases hks : irsToSets[op.1.ir]? with
        | none => simp
        | some ks => exact filter_le_one (hnd ks (List.mem_of_getElem? hks)) k
      match hf : (irsToSets[op.1.ir]?.getD []).filter (· == k) with
      | [] => exact .nil
      | [x] => simp
      | x :: y :: l => rw [hf] at hl; simp at hl
    · intro x hx y hy
      obtain ⟨_, _, rfl⟩ := List.mem_map.1 hx
      simp only [usagesOf, List.mem_flatMap, List.mem_map] at hy
      obtain ⟨op', h3, _, _, rfl⟩ := hy
      exact h1 op' h3

theorem acyclic_of_lt {out : Nat → List Nat} (f : Nat → Int) (h : ∀ i j, j ∈ out i → f i < f j) : Acyclic out := by
  have key : ∀ n a b, Walk out n a b → f a + n ≤ f b := by
    intro n a b hw
    induction hw with
    | nil => simp
    | @snoc n a b c _ hc ih => have := h b c hc; omega
  rintro a ⟨n, hw⟩
  have := key _ _ _ hw
  omega

theorem acyclic_of_lex {out : Nat → List Nat} (f : Nat → Int) (h : ∀ i j, j ∈ out i → f i < f j ∨ (f i = f j ∧ i < j)) :
    Acyclic out := by
  have key : ∀ n a b, Walk out n a b → f a < f b ∨ (f a = f b ∧ a + n ≤ b) := by
    intro n a b hw
    induction hw with
    | nil => simp
    | @snoc n a b c _ hc ih => have := h b c hc; omega
  rintro a ⟨n, hw⟩
  have := key _ _ _ hw
  omega

end Soro.OrderingGraph
