import Verif.Proof.Train

/-
Properties C47 and C48: iteration of a train.
-/

namespace Soro.Train
open Soro.Route Soro.Route.Spec Spec

/-! ### C47 -/

/-- the sequence point `sp` lies at position `p` of the interlocking route `ir` -/
def LiesAt (i : Infra) (freight : Bool) (sp : Option SPoint) (p : Nat × Nat) (ir : IR) : Prop :=
  (∃ s, sp = some s ∧ s.sr = p.1 ∧ StandsAt i freight s p.2) ∧ p ∈ positions i.routes ir

/-- a train whose first and last sequence point lie on its first and last interlocking route at `p` and `q`; break-in and
break-out trains run over the whole first and last route -/
structure Wellformed (i : Infra) (t : Train) (first last : IR) (p q : Nat × Nat) : Prop where
  sorted : ∀ r ∈ i.routes, r.omitted.Pairwise (· < ·)
  head : t.path.head? = some first
  back : t.path.getLast? = some last
  proper : ∀ ir ∈ t.path, Proper i.routes ir
  start : t.breakIn = false → LiesAt i t.freight t.points.head? p first
  stop : t.breakOut = false → LiesAt i t.freight t.points.getLast? q last
  order : t.path.length = 1 → t.breakIn = false → t.breakOut = false →
    (positions i.routes first).idxOf p ≤ (positions i.routes first).idxOf q

/-- C47: iterating a train yields the nodes (and omitted flags) of all its interlocking routes one after the other, the
first node of every route but the first left out, from the position of the first stop in the first route (from the very
start for a break-in) up to and including the position of the last stop in the last route (up to the end for a
break-out). -/
theorem C47_iterate (i : Infra) (t : Train) (first last : IR) (p q : Nat × Nat) (h : Wellformed i t first last p q) :
    ∃ l, iterateTrain i t = some l ∧ l.map told =
      (((joined i.routes t.path).take (upTo i.routes t.breakOut q t.path last)).drop
        (before i.routes t.breakIn p first)).map (shownAt i.routes) :=
  iterateTrain_Tells h.sorted t first last p q h.head h.back h.proper
    (fun hb => ⟨(h.start hb).1.imp fun _ ⟨a, b, c⟩ => ⟨a, b, (nodeIdx_iff _ _ _ _).2 c⟩, (h.start hb).2⟩)
    (fun hb => ⟨(h.stop hb).1.imp fun _ ⟨a, b, c⟩ => ⟨a, b, (nodeIdx_iff _ _ _ _).2 c⟩, (h.stop hb).2⟩) h.order

theorem nodeAt_shown (infra : List SRoute) (p : Nat × Nat) : nodeAt infra p = (shownAt infra p).map (·.1) := by
  unfold nodeAt shownAt shown
  cases infra[p.1]? <;> simp [Function.comp_def]

/-- two nodes follow each other in one of the interlocking routes -/
def Neighbours (infra : List SRoute) (path : List IR) (x y : Option Nat) : Prop :=
  ∃ ir ∈ path, ∃ (k : Nat) (p q : Nat × Nat), (positions infra ir)[k]? = some p ∧ (positions infra ir)[k + 1]? = some q ∧
    nodeAt infra p = x ∧ nodeAt infra q = y

theorem firstNode_head {infra : List SRoute} {ir : IR} (h : Proper infra ir) :
    ((positions infra ir).map (nodeAt infra)).head? = some (ir.firstNode infra) := by
  obtain ⟨f, hf, _⟩ := head_some h
  rw [List.head?_map, positions_head h hf]
  simp [nodeAt, IR.firstNode, hf]

theorem lastNode_last {infra : List SRoute} {ir : IR} (h : Proper infra ir) :
    ((positions infra ir).map (nodeAt infra)).getLast? = some (ir.lastNode infra) := by
  obtain ⟨l, hl, hl'⟩ := last_some h
  rw [List.getLast?_map, positions_last h hl]
  have hr := List.getElem?_eq_getElem (h.known l (List.mem_of_getElem? hl'))
  have := (h.stop l _ hl hr).1
  simp [nodeAt, IR.lastNode, hl, hr, show ir.stop ≠ 0 by omega]

/-- C47: when every interlocking route of the path follows its predecessor, no node is skipped and none is visited twice
in a row where two routes meet: nodes visited one after the other follow each other within one of the routes. -/
theorem C47_no_gap (i : Infra) (t : Train) (first last : IR) (p q : Nat × Nat) (h : Wellformed i t first last p q)
    (hf : t.path.IsChain fun a b => b.follows a i.routes = some true) :
    ∃ l, iterateTrain i t = some l ∧ (l.map fun x => some x.node).IsChain (Neighbours i.routes t.path) := by
  obtain ⟨l, h1, h2⟩ := C47_iterate i t first last p q h
  refine ⟨l, h1, ?_⟩
  have h3 : (l.map fun x => some x.node) = (((joined i.routes t.path).map (nodeAt i.routes)).take
      (upTo i.routes t.breakOut q t.path last)).drop (before i.routes t.breakIn p first) := by
    have := congrArg (List.map (Option.map (·.1))) h2
    simp only [List.map_map] at this
    rw [← List.map_take, ← List.map_drop]
    rw [show (fun x : RNode => some x.node) = Option.map (·.1) ∘ told from rfl, this]
    exact List.map_congr_left fun x _ => (nodeAt_shown _ _).symm
  rw [h3]
  refine List.IsChain.drop (List.IsChain.take ?_ _) _
  have hN : ∀ r ∈ t.path, ((positions i.routes r).map (nodeAt i.routes)).IsChain (Neighbours i.routes t.path) := by
    intro r hr
    rw [List.isChain_iff_getElem]
    intro k hk
    simp only [List.length_map] at hk
    refine ⟨r, hr, k, _, _, List.getElem?_eq_getElem (by omega), List.getElem?_eq_getElem hk, ?_, ?_⟩ <;> simp
  cases hp : t.path with
  | nil => have := h.head; rw [hp] at this; simp at this
  | cons ir irs =>
    rw [hp] at hf hN
    have hpr := h.proper
    rw [hp] at hpr
    have e : (joined i.routes (ir :: irs)).map (nodeAt i.routes) = (positions i.routes ir).map (nodeAt i.routes) ++
        irs.flatMap fun r => ((positions i.routes r).map (nodeAt i.routes)).tail := by
      rw [joined, List.map_append, List.map_flatMap]
      congr 1
      congr 1
      funext r
      rw [List.map_tail]
    rw [e]
    refine chain_join (fun r => (positions i.routes r).map (nodeAt i.routes)) irs _ (hN ir (by simp))
      (fun r hr => hN r (by simp [hr])) ir rfl ?_
    rw [List.isChain_iff_getElem] at hf ⊢
    intro k hk
    have ha := hpr _ (List.getElem_mem (l := ir :: irs) (n := k) (by omega))
    have hb := hpr _ (List.getElem_mem (l := ir :: irs) (n := k + 1) hk)
    refine ⟨_, lastNode_last ha, ?_⟩
    rw [firstNode_head hb]
    have hfol := hf k hk
    unfold IR.follows at hfol
    generalize (ir :: irs)[k] = a at *
    generalize (ir :: irs)[k + 1] = b at *
    cases e1 : b.firstNode i.routes with
    | none => simp [e1] at hfol
    | some x =>
      cases e2 : a.lastNode i.routes with
      | none => simp [e1, e2] at hfol
      | some y => simp [e1, e2] at hfol; rw [hfol]

/-- C47: a train visits at least one node and the first one is its start node. -/
theorem C47_start (i : Infra) (t : Train) (first last : IR) (p q : Nat × Nat) (h : Wellformed i t first last p q) :
    ∃ x l, iterateTrain i t = some (x :: l) ∧ startNode i t = some x.node := by
  obtain ⟨l, h1, h2⟩ := C47_iterate i t first last p q h
  have hpf := h.proper first (List.mem_of_head? h.head)
  have hpl := h.proper last (List.mem_of_getLast? h.back)
  obtain ⟨f, hf, hf'⟩ := head_some hpf
  have hhead := positions_head hpf hf
  have hpos : 0 < (positions i.routes first).length := by
    cases hc : positions i.routes first with
    | nil => rw [hc] at hhead; simp at hhead
    | cons a b => simp
  -- the position of the first node
  have hpt : ∃ x, (positions i.routes first)[before i.routes t.breakIn p first]? = some x ∧ nodeAt i.routes x = startNode i t := by
    cases hb : t.breakIn with
    | true =>
      refine ⟨(f, first.start), ?_, ?_⟩
      · simpa [before, ← List.head?_eq_getElem?] using hhead
      · simp [startNode, hb, h.head, IR.firstNode, hf, nodeAt]
    | false =>
      obtain ⟨⟨s, e1, e2, e3⟩, hm⟩ := h.start hb
      refine ⟨p, ?_, ?_⟩
      · simp only [before, Bool.false_eq_true, if_false]
        rw [List.getElem?_eq_getElem (List.idxOf_lt_length_iff.2 hm), List.getElem_idxOf]
      · simp [startNode, hb, e1, SPoint.node, (nodeIdx_iff _ _ _ _).2 e3, e2, nodeAt]
  obtain ⟨x, hx, hxn⟩ := hpt
  have hlt : before i.routes t.breakIn p first < (positions i.routes first).length := (List.getElem?_eq_some_iff.1 hx).1
  have hup : before i.routes t.breakIn p first < upTo i.routes t.breakOut q t.path last := by
    obtain ⟨u1, u2⟩ := used_le (infra := i.routes) hpl fun hb => (h.stop hb).2
    rw [upTo_used]
    by_cases hlen : t.path.length = 1
    · obtain ⟨ir, hir⟩ := List.length_eq_one_iff.1 hlen
      have ea := h.head; have eb := h.back
      rw [hir] at ea eb ⊢
      simp at ea eb
      subst ea; subst eb
      have ho := h.order hlen
      simp only [joined, List.flatMap_nil, List.append_nil]
      unfold used before at *
      cases hbi : t.breakIn <;> cases hbo : t.breakOut <;> simp [hbi, hbo] at * <;> omega
    · have := joined_length (infra := i.routes) first last t.path h.head h.back hlen
      omega
  have hj : (joined i.routes t.path)[before i.routes t.breakIn p first]? = some x := by
    cases hp : t.path with
    | nil => have := h.head; rw [hp] at this; simp at this
    | cons ir irs =>
      have := h.head
      rw [hp] at this
      simp at this
      subst this
      rw [joined, List.getElem?_append_left hlt]
      exact hx
  have hl0 := congrArg (fun l => l[0]?) h2
  simp only [List.getElem?_map, List.getElem?_drop, List.getElem?_take, Nat.add_zero, hup, if_true, hj, Option.map_some] at hl0
  cases l with
  | nil => simp at hl0
  | cons y l =>
    refine ⟨y, l, h1, ?_⟩
    rw [← hxn, nodeAt_shown]
    simp only [List.getElem?_cons_zero, Option.map_some, Option.some.injEq] at hl0
    rw [← hl0]
    rfl

/-- C47 fails for an interlocking route that runs over a station route twice: the station routes are looked up by their id,
so the loop is cut out. The path below runs over twelve nodes, the iteration visits five of them. -/
theorem C47_loop_negation : ∃ (i : Infra) (t : Train), t.breakIn = true ∧ t.breakOut = true ∧
    (∀ ir ∈ t.path, Valid i.routes ir) ∧ (t.path.IsChain fun a b => b.follows a i.routes = some true) ∧
    (joined i.routes t.path).length = 12 ∧ (iterateTrain i t).map List.length = some 5 := by
  refine ⟨⟨[⟨[1, 2, 3], [], []⟩, ⟨[4, 5, 6, 9], [], []⟩, ⟨[7, 8, 1], [], []⟩], []⟩,
    ⟨true, true, false, [⟨0, 3, [2]⟩, ⟨0, 3, [0, 1, 0]⟩], []⟩, rfl, rfl, ?_, by decide, by decide, by decide⟩
  intro ir hir
  simp at hir
  rcases hir with rfl | rfl
  · refine ⟨by decide, by decide, ?_, ?_, by decide⟩
    · intro s r h1 h2; cases h1; cases h2; decide
    · intro s r h1 h2; cases h1; cases h2; decide
  · refine ⟨by decide, by decide, ?_, ?_, by decide⟩
    · intro s r h1 h2; cases h1; cases h2; decide
    · intro s r h1 h2; cases h1; cases h2; decide

/-! ### C48 -/

/-- every sequence point has a node -/
def AllPlaced (i : Infra) (t : Train) : Prop :=
  ∀ sp ∈ t.points, ∃ idx n, StandsAt i t.freight sp idx ∧ nodeAt i.routes (sp.sr, idx) = some n

theorem AllPlaced.node {i : Infra} {t : Train} (h : AllPlaced i t) : ∀ sp ∈ t.points, ∃ n, sp.node i t.freight = some n :=
  fun sp hsp => let ⟨idx, n, a, b⟩ := h sp hsp; ⟨n, (node_iff _ _ _ _).2 ⟨idx, a, b⟩⟩

/-- C48: iterating a train visits the same nodes, the attached sequence points are the first ones of the timetable in
timetable order, each exactly once, each at its own node. -/
theorem C48_in_order (i : Infra) (t : Train) (rns : List RNode) (h : iterateTrain i t = some rns) (hp : AllPlaced i t) :
    ∃ l, iterate i t = some l ∧ l.map (·.1) = rns ∧
      (∃ j ≤ t.points.length, l.filterMap (·.2) = List.range j) ∧
      ∀ rn k, (rn, some k) ∈ l → ∃ sp idx, t.points[k]? = some sp ∧ StandsAt i t.freight sp idx ∧
        nodeAt i.routes (sp.sr, idx) = some rn.node := by
  obtain ⟨l, hl⟩ := attach_some (f := SPoint.node i t.freight) t.points rns 0 hp.node
  refine ⟨l, by simp [iterate, h, hl], attach_fst _ _ _ hl, ?_, ?_⟩
  · obtain ⟨j, hj, e⟩ := attach_range _ _ _ hl
    exact ⟨j, hj, by rw [e, List.range_eq_range']⟩
  · intro rn k hm
    obtain ⟨a, ha⟩ := List.getElem?_of_mem hm
    have := attach_at _ _ _ hl a _ ha
    simp only at this
    split at this
    · rename_i hc
      injection this with hk
      rw [Nat.zero_add] at hk
      rw [← hk] at hc
      cases hs : t.points[k]? with
      | none => rw [hs] at hc; simp at hc
      | some sp =>
        rw [hs] at hc
        obtain ⟨idx, a, b⟩ := (node_iff _ _ _ _).1 hc
        exact ⟨sp, idx, rfl, a, b⟩
    · simp at this

/-- C48: the first `j` sequence points are attached iff their nodes occur among the visited nodes in this order; in
particular all are attached iff all nodes occur in this order. -/
theorem C48_all (i : Infra) (t : Train) (rns : List RNode) (h : iterateTrain i t = some rns) (hp : AllPlaced i t) :
    ∃ l, iterate i t = some l ∧ ∀ j ≤ t.points.length, (j ≤ (l.filterMap (·.2)).length ↔
      ((t.points.take j).map (SPoint.node i t.freight)).Sublist (rns.map fun rn => some rn.node)) := by
  obtain ⟨l, hl⟩ := attach_some (f := SPoint.node i t.freight) t.points rns 0 hp.node
  exact ⟨l, by simp [iterate, h, hl], fun j hj => attach_count _ _ _ hl j hj⟩

/-- C48: a visited node gets a sequence point exactly if it is the node of the next one that is still waiting. -/
theorem C48_exact (i : Infra) (t : Train) (l : List (RNode × Option Nat)) (h : iterate i t = some l) (a : Nat)
    (x : RNode × Option Nat) (hx : l[a]? = some x) :
    x.2 = if t.points[((l.take a).filterMap (·.2)).length]?.bind (SPoint.node i t.freight) = some x.1.node
      then some ((l.take a).filterMap (·.2)).length else none := by
  unfold iterate at h
  cases hr : iterateTrain i t with
  | none => simp [hr] at h
  | some rns =>
    rw [hr, Option.bind_some] at h
    simpa using attach_at _ _ _ h a x hx

/-- C48: one sequence point whose node the train does not visit keeps all later sequence points from being attached. -/
theorem C48_blocked (i : Infra) (t : Train) (rns : List RNode) (h : iterateTrain i t = some rns) (hp : AllPlaced i t)
    (k : Nat) (sp : SPoint) (hk : t.points[k]? = some sp) (hno : ∀ rn ∈ rns, sp.node i t.freight ≠ some rn.node) :
    ∃ l, iterate i t = some l ∧ ∀ rn k', (rn, some k') ∈ l → k' < k := by
  obtain ⟨l, hl⟩ := attach_some (f := SPoint.node i t.freight) t.points rns 0 hp.node
  refine ⟨l, by simp [iterate, h, hl], fun rn k' hm => ?_⟩
  obtain ⟨j, hj, e⟩ := attach_range _ _ _ hl
  have hmem : k' ∈ l.filterMap (·.2) := List.mem_filterMap.2 ⟨_, hm, rfl⟩
  rw [e] at hmem
  simp at hmem
  have hlt := (List.getElem?_eq_some_iff.1 hk).1
  have hc := attach_count _ _ _ hl (k + 1) (by omega)
  rw [e, List.length_range'] at hc
  by_cases hkj : k + 1 ≤ j
  · have hsub := (hc.1 hkj).subset (a := sp.node i t.freight)
      (List.mem_map.2 ⟨sp, List.mem_of_getElem? (i := k) (by rw [List.getElem?_take]; simp [hk]), rfl⟩)
    obtain ⟨rn, hrn, e'⟩ := List.mem_map.1 hsub
    exact absurd e'.symm (hno rn hrn)
  · omega

/-! ### examples -/

/-- two station routes; the first interlocking route ends in the middle of the first one, the second one starts there and
runs into the second station route -/
def exInfra : Infra := ⟨[⟨[10, 11, 12, 13, 14], [1], []⟩, ⟨[20, 21, 22], [], []⟩],
  [⟨some 2, some 1, none⟩, ⟨none, some 1, some 0⟩]⟩

def exFirst : IR := ⟨0, 4, [0]⟩
def exLast : IR := ⟨3, 3, [0, 1]⟩

/-- from the halt at node 11 past the checkpoint at node 12 to the halt at node 21 -/
def exTrain : Train := ⟨false, false, false, [exFirst, exLast],
  [⟨.passenger, true, 0⟩, ⟨.transit, true, 0⟩, ⟨.passenger, false, 1⟩]⟩

theorem exProper : Proper exInfra.routes exFirst ∧ Proper exInfra.routes exLast := by
  constructor
  · refine ⟨by decide, by decide, by decide, ?_, ?_, by decide⟩
    · intro s r h1 h2; cases h1; cases h2; decide
    · intro s r h1 h2; cases h1; cases h2; decide
  · refine ⟨by decide, by decide, by decide, ?_, ?_, by decide⟩
    · intro s r h1 h2; cases h1; cases h2; decide
    · intro s r h1 h2; cases h1; cases h2; decide

example : Wellformed exInfra exTrain exFirst exLast (0, 1) (1, 1) := by
  refine ⟨by decide, rfl, rfl, ?_, fun _ => ⟨⟨_, rfl, rfl, .passengerHalt _ rfl (by decide) rfl rfl⟩, by decide⟩,
    fun _ => ⟨⟨_, rfl, rfl, .passengerHalt _ rfl (by decide) rfl rfl⟩, by decide⟩, fun h => absurd h (by decide)⟩
  intro ir hir
  simp [exTrain] at hir
  rcases hir with rfl | rfl
  · exact exProper.1
  · exact exProper.2

example : exLast.follows exFirst exInfra.routes = some true := by decide

example : AllPlaced exInfra exTrain := by
  intro sp hsp
  simp [exTrain] at hsp
  rcases hsp with rfl | rfl | rfl
  · exact ⟨1, 11, .passengerHalt _ rfl (by decide) rfl rfl, by decide⟩
  · exact ⟨2, 12, .checkpoint _ rfl (by decide) rfl rfl, by decide⟩
  · exact ⟨1, 21, .passengerHalt _ rfl (by decide) rfl rfl, by decide⟩

example : (iterate exInfra exTrain).map (List.map fun x => (x.1.node, x.2)) =
    some [(11, some 0), (12, some 1), (13, none), (14, none), (20, none), (21, some 2)] := by decide

/-- a single route, passing the whole of it -/
example : Wellformed exInfra ⟨true, true, true, [exLast], []⟩ exLast exLast (0, 0) (0, 0) := by
  refine ⟨by decide, rfl, rfl, ?_, fun h => absurd h (by decide), fun h => absurd h (by decide), fun _ h => absurd h (by decide)⟩
  intro ir hir
  simp at hir
  subst hir
  exact exProper.2

/-- the checkpoint before the start is never visited, so the last halt stays unattached -/
example : (iterate exInfra ⟨false, false, false, [exFirst, exLast],
    [⟨.passenger, true, 0⟩, ⟨.passenger, true, 0⟩, ⟨.passenger, false, 1⟩]⟩).map (List.map fun x => (x.1.node, x.2)) =
    some [(11, some 0), (12, none), (13, none), (14, none), (20, none), (21, none)] := by decide

end Soro.Train
