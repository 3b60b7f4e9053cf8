import Verif.Proof.TransformPoints
import Verif.Props.Interlocking

/-
Properties C49, C85 and C86: from planned station routes to interlocking routes.
-/

namespace Soro.Transform
open Soro.Route Soro.Route.Spec Soro.Train Soro.Train.Spec Soro.Interlocking Spec

/-- an interlocking over the given routes, all of whose first nodes and station routes exist -/
structure Built (i : Infra) (nodeCount : Nat) (routes : List IR) (k : Ilk) : Prop where
  built : Ilk.build i nodeCount routes = some k
  first : ∀ ir ∈ routes, ∃ n, ir.firstNode i.routes = some n ∧ n < nodeCount
  known : ∀ ir ∈ routes, ∀ s ∈ ir.srs, s < i.routes.length

theorem Built.tables {i : Infra} {nodeCount : Nat} {routes : List IR} {k : Ilk} (h : Built i nodeCount routes k) :
    k.routes = routes ∧
    (∀ (n : Nat) (st : List Nat), k.startingAt[n]? = some st → ∀ id ∈ st, ∃ r : IR, k.routes[id]? = some r ∧ r.firstNode i.routes = some n) ∧
    (∀ (s : Nat) (part : List Nat), k.participating[s]? = some part → ∀ id ∈ part, ∃ r : IR, k.routes[id]? = some r ∧ s ∈ r.srs) := by
  have hb := h.built
  unfold Ilk.build at hb
  obtain ⟨p, hp, hb⟩ := Option.bind_eq_some_iff.1 hb
  obtain ⟨s, hs, hb⟩ := Option.bind_eq_some_iff.1 hb
  obtain ⟨ha, _, rfl⟩ := Option.map_eq_some_iff.1 hb
  refine ⟨rfl, ?_, ?_⟩
  · obtain ⟨v, h1, h2, h3⟩ := C36_starting_at i.routes nodeCount routes h.first
    rw [hs] at h1; cases h1
    intro n st hst id hid
    have hn : n < nodeCount := by rw [← h2]; exact (List.getElem?_eq_some_iff.1 hst).1
    obtain ⟨b, hb1, _, hb2⟩ := h3 n hn
    rw [hst] at hb1; cases hb1
    exact (hb2 id).1 hid
  · obtain ⟨v, h1, h2, h3⟩ := C36_participating i.routes.length routes h.known
    rw [hp] at h1; cases h1
    intro n st hst id hid
    have hn : n < i.routes.length := by rw [← h2]; exact (List.getElem?_eq_some_iff.1 hst).1
    obtain ⟨b, hb1, _, hb2⟩ := h3 n hn
    rw [hst] at hb1; cases hb1
    have := hb2 id
    cases hr : routes[id]? with
    | none =>
      rw [hr] at this
      simp at this
      exact absurd hid (List.count_eq_zero.1 this)
    | some r =>
      rw [hr] at this
      simp at this
      refine ⟨r, rfl, List.count_pos_iff.1 ?_⟩
      rw [← this]
      exact List.count_pos_iff.2 hid

/-- the interlocking over the given routes -/
def ilkOf (i : Infra) (routes : List IR) : Ilk := (Ilk.build i 40 routes).getD ⟨[], [], [], []⟩

theorem built_of (i : Infra) (routes : List IR) (h : (Ilk.build i 40 routes).isSome = true)
    (first : ∀ ir ∈ routes, ∃ n, ir.firstNode i.routes = some n ∧ n < 40) (known : ∀ ir ∈ routes, ∀ s ∈ ir.srs, s < i.routes.length) :
    Built i 40 routes (ilkOf i routes) := by
  refine ⟨?_, first, known⟩
  unfold ilkOf
  cases hb : Ilk.build i 40 routes with
  | none => rw [hb] at h; cases h
  | some k => rfl

/-! ### C49 -/

/-- C49: when the transformation succeeds, every route of the path exists and starts at the node where its predecessor
ends; the first one uses the first planned station route and starts at its first node if the train breaks in. -/
theorem C49_connected (i : Infra) (nodeCount : Nat) (routes : List IR) (k : Ilk) (hk : Built i nodeCount routes k) (ss : StopSeq)
    (freight : Bool) (fuel : Nat) (path : List Nat) (pts : List SPoint) (h : transform i k ss freight fuel = .ok path pts) :
    (path.IsChain fun a b => ∃ ra rb n, routes[a]? = some ra ∧ routes[b]? = some rb ∧ ra.lastNode i.routes = some n ∧
      rb.firstNode i.routes = some n) ∧
    ∃ a r sp, path.head? = some a ∧ routes[a]? = some r ∧ ss.points.head? = some sp ∧ sp.sr ∈ r.srs ∧
      (ss.breakIn = true → ∃ sr n, i.routes[sp.sr]? = some sr ∧ sr.nodes.head? = some n ∧ r.firstNode i.routes = some n) := by
  obtain ⟨e, hst, hpa⟩ := hk.tables
  obtain ⟨id, ir, c, pts0, hf, _, hloop⟩ := transform_step h
  obtain ⟨sp, rest, ln, cands, p, hpt, hln, hc, hlong, hr, _⟩ := firstIr_some hf
  constructor
  · rw [← e]
    exact loop_chain hst hloop (a := id) (by simp) hr (List.isChain_singleton _)
  · obtain ⟨t, rfl⟩ := loop_prefix hloop
    refine ⟨id, ir, sp, by simp, by rw [← e]; exact hr, by rw [hpt]; rfl, ?_⟩
    obtain ⟨⟨sp', part, h1, h2, h3⟩, h4⟩ := mem_candidates hc (longest_mem hlong id (by simp)).1
    rw [hpt] at h1; cases h1
    obtain ⟨r, hr', hm⟩ := hpa _ _ h2 id h3
    rw [hr] at hr'; cases hr'
    refine ⟨hm, fun hb => ?_⟩
    rw [hb] at hln
    obtain ⟨x, hx, hln⟩ := Option.map_eq_some_iff.1 hln
    obtain ⟨sr, hsr, hx⟩ := Option.bind_eq_some_iff.1 hx
    obtain ⟨st, hst', hid⟩ := h4 x hln.symm
    obtain ⟨r, hr', hfn⟩ := hst x st hst' id hid
    rw [hr] at hr'; cases hr'
    exact ⟨sr, x, hsr, hx, hfn⟩

/-- C49: the path runs over the planned station routes, all of them, in order and without interruption. This is shown for
results whose routes do not turn off the plan, start in the station route in which their predecessor ended, and do not
end at the very last node of a planned station route before the last one; missing are the results in which they do, for
which it is false (`C49_turns_off_negation`, `C49_aligned_negation`). -/
theorem C49_covers_partial (i : Infra) (k : Ilk) (ss : StopSeq) (freight : Bool) (fuel : Nat) (path : List Nat) (pts : List SPoint)
    (h : transform i k ss freight fuel = .ok path pts) (hsz : ss.points.length < 2 ^ 64) (hst : Stays i k ss.plan path)
    (hfirst : ∀ a r, path.head? = some a → k.routes[a]? = some r → r.srs.length < 2 ^ 64 ∧ Enters r.srs ss.plan) :
    ss.points.map (·.sr) <:+: merged k path :=
  transform_covers h hsz hst hfirst

def offInfra : Infra := ⟨[⟨[0, 1, 2, 3], [], []⟩, ⟨[10, 11, 12], [], []⟩, ⟨[20, 21, 22], [], []⟩, ⟨[30, 31, 32], [], []⟩],
  [⟨none, some 0, none⟩, ⟨none, some 1, none⟩, ⟨none, none, none⟩, ⟨none, none, none⟩]⟩
def offInfos : List Info := [⟨4, [1], false⟩, ⟨3, [], true⟩, ⟨3, [], false⟩, ⟨3, [], false⟩]
def offGraph : SRG := ⟨[[1, 2], [], [3], []], [[], [0], [0], [2]]⟩
def offRoutes : List IR := [⟨1, 3, [0, 2, 3]⟩, ⟨0, 2, [0]⟩]
def offPlan : StopSeq := ⟨[⟨.passenger, true, 0⟩, ⟨.passenger, true, 1⟩], false, false⟩

theorem offBuilt : getRoutes offInfos offGraph = some offRoutes ∧ Built offInfra 40 offRoutes (ilkOf offInfra offRoutes) :=
  ⟨by decide, built_of _ _ (by decide +kernel) (by decide) (by decide)⟩

/-- C49 fails when the only route that goes on from a signal turns off the plan: the planned second station route needs
ETCS, so no route uses it, the route to the third and fourth station route is taken instead, and as it is longer than the
rest of the plan the transformation reports success. -/
theorem C49_turns_off_negation : ∃ (infos : List Info) (g : SRG) (routes : List IR) (i : Infra) (k : Ilk) (ss : StopSeq) (path : List Nat)
    (pts : List SPoint), getRoutes infos g = some routes ∧ Built i 40 routes k ∧
    transform i k ss false 3 = .ok path pts ∧ ss.points.map (·.sr) = [0, 1] ∧ merged k path = [0, 2, 3] := by
  exact ⟨offInfos, offGraph, offRoutes, offInfra, _, offPlan, [1, 0], [⟨.passenger, true, 0⟩], offBuilt.1, offBuilt.2,
    by decide +kernel, rfl, by decide +kernel⟩

def alignedInfra : Infra := ⟨[⟨[0, 1, 2, 3], [], []⟩, ⟨[10, 11, 12, 13], [], []⟩],
  [⟨none, some 0, none⟩, ⟨none, some 2, none⟩]⟩
def alignedInfos : List Info := [⟨4, [1, 3], false⟩, ⟨4, [1], false⟩]
def alignedGraph : SRG := ⟨[[1], []], [[], [0]]⟩
def alignedRoutes : List IR := [⟨3, 2, [0, 1]⟩, ⟨1, 4, [0]⟩, ⟨0, 2, [0]⟩, ⟨1, 4, [1]⟩]
def alignedPlan : StopSeq := ⟨[⟨.passenger, true, 0⟩, ⟨.passenger, true, 1⟩], false, false⟩

theorem alignedBuilt : getRoutes alignedInfos alignedGraph = some alignedRoutes ∧ Built alignedInfra 40 alignedRoutes (ilkOf alignedInfra alignedRoutes) :=
  ⟨by decide, built_of _ _ (by decide +kernel) (by decide) (by decide)⟩

/-- C49 fails when a route ends at the last node of a planned station route: the position in the plan is advanced but the
node index is kept, so the last planned station route is taken for covered although the path never reaches it. -/
theorem C49_aligned_negation : ∃ (infos : List Info) (g : SRG) (routes : List IR) (i : Infra) (k : Ilk) (ss : StopSeq) (path : List Nat)
    (pts : List SPoint), getRoutes infos g = some routes ∧ Built i 40 routes k ∧
    transform i k ss false 3 = .ok path pts ∧ ss.points.map (·.sr) = [0, 1] ∧ merged k path = [0] := by
  exact ⟨alignedInfos, alignedGraph, alignedRoutes, alignedInfra, _, alignedPlan, [2, 1], [⟨.passenger, true, 0⟩], alignedBuilt.1,
    alignedBuilt.2, by decide +kernel, rfl, by decide +kernel⟩

/-! A train over three station routes, with a signal in each of them. -/

def planInfra : Infra := ⟨[⟨[0, 1, 2, 3], [], []⟩, ⟨[10, 11, 12, 13], [], []⟩, ⟨[20, 21, 22, 23], [], []⟩],
  [⟨none, some 2, none⟩, ⟨some 2, none, none⟩, ⟨none, some 2, none⟩]⟩
def planRoutes : List IR := [⟨1, 2, [0, 1]⟩, ⟨0, 2, [0]⟩, ⟨1, 2, [1, 2]⟩, ⟨1, 4, [2]⟩]
def planned : StopSeq := ⟨[⟨.passenger, true, 0⟩, ⟨.transit, true, 1⟩, ⟨.passenger, true, 2⟩], false, false⟩

theorem planBuilt : Built planInfra 40 planRoutes (ilkOf planInfra planRoutes) :=
  built_of _ _ (by decide +kernel) (by decide) (by decide)

theorem planRoutes_eq : (ilkOf planInfra planRoutes).routes = planRoutes := planBuilt.tables.1

theorem plan_done : transform planInfra (ilkOf planInfra planRoutes) planned false 4 = .ok [0, 2, 3]
    [⟨.passenger, true, 0⟩, ⟨.transit, true, 1⟩, ⟨.passenger, true, 2⟩] := by decide +kernel

theorem plan_stays : Stays planInfra (ilkOf planInfra planRoutes) planned.plan [0, 2, 3] := by
  refine ⟨?_, ?_, ?_⟩
  · rw [planRoutes_eq]
    simp only [List.isChain_cons_cons, List.isChain_singleton, and_true]
    refine ⟨?_, ?_⟩ <;> intro ra rb h1 h2 <;> cases h1 <;> cases h2 <;> rfl
  · rw [planRoutes_eq]
    intro b hb r hr o ho
    simp at hb
    have hlt : o < 3 := by
      by_cases h : o < 3
      · exact h
      · rw [List.getElem?_eq_none (by simp [StopSeq.plan, planned]; omega)] at ho
        rcases hb with rfl | rfl <;> cases hr <;> cases ho
    rcases hb with rfl | rfl <;> cases hr <;>
      rcases (by omega : o = 0 ∨ o = 1 ∨ o = 2) with rfl | rfl | rfl <;> revert ho <;> decide
  · rw [planRoutes_eq]
    intro b hb r hr o s sr ho hs hsr
    simp [StopSeq.plan, planned] at ho
    simp at hb
    rcases (by omega : o = 0 ∨ o = 1) with rfl | rfl <;> cases hs <;> cases hsr <;>
      rcases hb with rfl | rfl | rfl <;> cases hr <;> decide

theorem plan_enters : ∀ a r, ([0, 2, 3] : List Nat).head? = some a → (ilkOf planInfra planRoutes).routes[a]? = some r →
    r.srs.length < 2 ^ 64 ∧ Enters r.srs planned.plan := by
  intro a r ha hr
  rw [planRoutes_eq] at hr
  cases ha; cases hr
  exact ⟨by decide, 0, by decide, .inl ⟨[2], rfl⟩, by simp⟩

example : planned.points.map (·.sr) <:+: merged (ilkOf planInfra planRoutes) [0, 2, 3] :=
  C49_covers_partial _ _ _ _ _ _ _ plan_done (by decide) plan_stays plan_enters

/-! ### C85 -/

/-- C85: the returned sequence points are, route by route along the path, the planned points standing on the route, in the
order of the plan. Same conditions as `C49_covers_partial`, and the train runs over no station route twice. -/
theorem C85_points_partial (i : Infra) (nodeCount : Nat) (routes : List IR) (k : Ilk) (hk : Built i nodeCount routes k) (ss : StopSeq)
    (freight : Bool) (fuel : Nat) (path : List Nat) (pts : List SPoint) (h : transform i k ss freight fuel = .ok path pts)
    (hsz : ss.points.length < 2 ^ 64) (hst : Stays i k ss.plan path)
    (hfirst : ∀ a r, path.head? = some a → k.routes[a]? = some r → r.srs.length < 2 ^ 64 ∧ Enters r.srs ss.plan)
    (hnd : (ss.points.map (·.sr)).Nodup) (hmd : (merged k path).Nodup)
    (hin : ∀ sp ∈ ss.points, ∀ idx, StandsAt i freight sp idx → ∃ r, i.routes[sp.sr]? = some r ∧ idx < r.nodes.length)
    (hv : ∀ r ∈ routes, Valid i.routes r) :
    pts = pointsOn i k freight ss.points path ∧
      pts.Pairwise fun a b => (ss.points.map (·.sr)).idxOf a.sr ≤ (ss.points.map (·.sr)).idxOf b.sr := by
  obtain ⟨e, _, hpa⟩ := hk.tables
  refine transform_points h hsz hst hfirst hpa hnd hmd hin fun id _ r hr => hv r ?_
  rw [e] at hr
  exact List.mem_of_getElem? hr

def twiceInfra : Infra := ⟨[⟨[0, 1, 2, 3], [], []⟩, ⟨[10, 11, 12, 13], [], []⟩, ⟨[20, 21, 22, 23], [], []⟩],
  [⟨none, some 2, none⟩, ⟨some 1, none, none⟩, ⟨none, some 2, none⟩]⟩
def twiceInfos : List Info := [⟨4, [1], false⟩, ⟨4, [1], false⟩, ⟨4, [1], false⟩]
def twiceGraph : SRG := ⟨[[1], [2], []], [[], [0], [1]]⟩
def twiceRoutes : List IR := [⟨1, 2, [0, 1]⟩, ⟨0, 2, [0]⟩, ⟨1, 2, [1, 2]⟩, ⟨1, 4, [2]⟩]
def twicePlan : StopSeq := ⟨[⟨.passenger, true, 0⟩, ⟨.transit, true, 1⟩, ⟨.passenger, true, 2⟩], false, false⟩

theorem twiceBuilt : getRoutes twiceInfos twiceGraph = some twiceRoutes ∧ Built twiceInfra 40 twiceRoutes (ilkOf twiceInfra twiceRoutes) :=
  ⟨by decide, built_of _ _ (by decide +kernel) (by decide) (by decide)⟩

/-- C85 (every planned point once) fails when the runtime checkpoint is the main signal where two routes meet: the point is
returned twice, and as the iteration of the train waits for its second occurrence, the stop behind it is never attached
to a node. -/
theorem C85_twice_negation : ∃ (infos : List Info) (g : SRG) (routes : List IR) (i : Infra) (k : Ilk) (ss : StopSeq) (path : List Nat)
    (pts : List SPoint) (p0 p1 p2 : SPoint), getRoutes infos g = some routes ∧ Built i 40 routes k ∧
    transform i k ss false 4 = .ok path pts ∧ ss.points = [p0, p1, p2] ∧ pts = [p0, p1, p1, p2] ∧
    ∃ l, iterate i ⟨ss.breakIn, ss.breakOut, false, path.filterMap (routes[·]?), pts⟩ = some l ∧
      (some 2 ∉ l.map (·.2)) ∧ (some 3 ∉ l.map (·.2)) ∧ p2.node i false = (l.getLast?.map (·.1.node)) := by
  exact ⟨twiceInfos, twiceGraph, twiceRoutes, twiceInfra, _, twicePlan, [0, 2, 3],
    [⟨.passenger, true, 0⟩, ⟨.transit, true, 1⟩, ⟨.transit, true, 1⟩, ⟨.passenger, true, 2⟩],
    ⟨.passenger, true, 0⟩, ⟨.transit, true, 1⟩, ⟨.passenger, true, 2⟩, twiceBuilt.1, twiceBuilt.2, by decide +kernel, rfl, rfl,
    [(⟨2, none, false⟩, some 0), (⟨3, none, false⟩, none), (⟨10, none, false⟩, none), (⟨11, none, false⟩, some 1),
      (⟨12, none, false⟩, none), (⟨13, none, false⟩, none), (⟨20, none, false⟩, none), (⟨21, none, false⟩, none),
      (⟨22, none, false⟩, none)], by decide, by decide, by decide, by decide⟩

theorem plan_inside (freight : Bool) : ∀ sp ∈ planned.points, ∀ idx, StandsAt planInfra freight sp idx →
    ∃ r, planInfra.routes[sp.sr]? = some r ∧ idx < r.nodes.length := by
  intro sp hsp idx h
  rw [← nodeIdx_iff] at h
  simp [planned] at hsp
  rcases hsp with rfl | rfl | rfl <;> cases freight <;> cases h <;> exact ⟨_, rfl, by decide⟩

theorem plan_valid : ∀ r ∈ planRoutes, Valid planInfra.routes r := by
  intro r hr
  simp [planRoutes] at hr
  rcases hr with rfl | rfl | rfl | rfl <;> refine ⟨by decide, by decide, ?_, ?_, by decide⟩ <;> intro s r h1 h2 <;> cases h1 <;>
    cases h2 <;> decide

example : [⟨.passenger, true, 0⟩, ⟨.transit, true, 1⟩, ⟨.passenger, true, 2⟩] =
    pointsOn planInfra (ilkOf planInfra planRoutes) false planned.points [0, 2, 3] :=
  (C85_points_partial _ _ _ _ planBuilt _ _ _ _ _ plan_done (by decide) plan_stays plan_enters (by decide) (by decide +kernel)
    (plan_inside false) plan_valid).1

/-! ### C86 -/

/-- C86: the transformation ends if all routes lead in one direction, i.e. the nodes can be numbered so that the number of
the last node of a route is greater than that of its first node. Missing are networks in which trains can run in circles,
and routes of a single node (`C86_endless_negation`). -/
theorem C86_terminates_partial (i : Infra) (nodeCount : Nat) (routes : List IR) (k : Ilk) (hk : Built i nodeCount routes k)
    (rank : Nat → Nat) (bound : Nat)
    (hup : ∀ r ∈ routes, ∀ a b, r.firstNode i.routes = some a → r.lastNode i.routes = some b → rank a < rank b)
    (hb : ∀ r ∈ routes, ∀ b, r.lastNode i.routes = some b → rank b < bound)
    (ss : StopSeq) (freight : Bool) (fuel : Nat) (hfuel : bound < fuel) : transform i k ss freight fuel ≠ .running := by
  obtain ⟨e, hst, _⟩ := hk.tables
  have key : ∀ (fuel : Nat) (cur : IR) (c : Cover) (path : List Nat) (pts : List SPoint) (n : Nat), k.routes[n]? = some cur →
      (∀ x, cur.lastNode i.routes = some x → bound < fuel + rank x + 1) → 0 < fuel →
      loop i k ss freight fuel cur c path pts ≠ .running := by
    intro fuel
    induction fuel with
    | zero => intro cur c path pts n _ _ h0; omega
    | succ fuel ih =>
      intro cur c path pts n hcur hlt h0 hrun
      rw [loop] at hrun
      cases hc : covers i ss freight c with
      | none => simp [hc] at hrun
      | some b =>
        cases b with
        | true => simp [hc] at hrun
        | false =>
          simp only [hc] at hrun
          split at hrun
          · cases hrun
          · rename_i ids p hx
            split at hrun
            · cases hrun
            · rename_i _ id
              obtain ⟨m, hm, hx⟩ := Option.bind_eq_some_iff.1 hx
              obtain ⟨cands, hcs, hx⟩ := Option.bind_eq_some_iff.1 hx
              obtain ⟨st, hst1, hin⟩ := (mem_candidates hcs (longest_mem hx id (by simp)).1).2 m rfl
              obtain ⟨ir, hir, hfn⟩ := hst m st hst1 id hin
              simp only [hir] at hrun
              have hirm : ir ∈ routes := by rw [← e]; exact List.mem_of_getElem? hir
              cases hp : (pointsRange ss c.offset (c.offset + p)).bind (seqPoints i freight ir) with
              | none => simp [hp] at hrun
              | some new =>
                simp only [hp] at hrun
                split at hrun
                · cases hrun
                · cases ha : advance i ss c ir p with
                  | none => simp [ha] at hrun
                  | some c' =>
                    simp only [ha] at hrun
                    have hlast : ∃ x, ir.lastNode i.routes = some x := by
                      unfold advance at ha
                      obtain ⟨x, hx, _⟩ := Option.bind_eq_some_iff.1 ha
                      exact ⟨x, hx⟩
                    obtain ⟨y, hy⟩ := hlast
                    have h1 := hup ir hirm m y hfn hy
                    have h2 := hb ir hirm y hy
                    have h3 := hlt m hm
                    refine ih ir c' _ _ id hir ?_ (by omega) hrun
                    intro x hx
                    rw [hy] at hx; cases hx
                    omega
            · cases hrun
  unfold transform
  split
  · simp
  · simp
  · rename_i id ir c hf
    have hr := (firstIr_some hf).choose_spec.choose_spec.choose_spec.choose_spec.choose_spec.2.2.2.2.1
    split
    · simp
    · exact key fuel ir c _ _ id hr (fun x _ => by omega) (by omega)

/-- the nodes above are numbered in the direction of travel -/
example : ∀ fuel, 40 < fuel → transform planInfra (ilkOf planInfra planRoutes) planned false fuel ≠ .running := by
  refine fun fuel h => C86_terminates_partial _ _ _ _ planBuilt id 40 ?_ ?_ _ _ fuel h
  · intro r hr a b h1 h2
    simp [planRoutes] at hr
    rcases hr with rfl | rfl | rfl | rfl <;> cases h1 <;> cases h2 <;> decide
  · intro r hr b h1
    simp [planRoutes] at hr
    rcases hr with rfl | rfl | rfl | rfl <;> cases h1 <;> decide

def endlessInfra : Infra := ⟨[⟨[0, 1, 2, 3], [], []⟩, ⟨[10, 11, 12, 13], [], []⟩],
  [⟨none, some 0, none⟩, ⟨none, some 2, none⟩]⟩
def endlessInfos : List Info := [⟨4, [0], false⟩, ⟨4, [1], true⟩]
def endlessGraph : SRG := ⟨[[1], []], [[], [0]]⟩
def endlessRoutes : List IR := [⟨0, 1, [0]⟩, ⟨1, 4, [1]⟩]
def endlessPlan : StopSeq := ⟨[⟨.passenger, true, 0⟩, ⟨.passenger, true, 1⟩], false, false⟩

theorem endlessBuilt : getRoutes endlessInfos endlessGraph = some endlessRoutes ∧ Built endlessInfra 40 endlessRoutes (ilkOf endlessInfra endlessRoutes) :=
  ⟨by decide, built_of _ _ (by decide +kernel) (by decide) (by decide)⟩

/-- C86 fails: at a main signal that is the first node of a station route without predecessors there is a route of one
node. When the next planned station route needs ETCS it is the only one starting at the signal, and it is appended to the
path over and over. -/
theorem C86_endless_negation : ∃ (infos : List Info) (g : SRG) (routes : List IR) (i : Infra) (k : Ilk) (ss : StopSeq),
    getRoutes infos g = some routes ∧ Built i 40 routes k ∧ ∀ fuel, transform i k ss false fuel = .running := by
  refine ⟨endlessInfos, endlessGraph, endlessRoutes, endlessInfra, _, endlessPlan, endlessBuilt.1, endlessBuilt.2, fun fuel => ?_⟩
  have hf : firstIr endlessInfra (ilkOf endlessInfra endlessRoutes) endlessPlan false = some (.inr (0, ⟨0, 1, [0]⟩, ⟨0, 1⟩)) := by
    decide +kernel
  have hp : (pointsRange endlessPlan 0 ((0 + 1) % SIZE)).bind (seqPoints endlessInfra false ⟨0, 1, [0]⟩) =
    some [⟨.passenger, true, 0⟩] := by decide +kernel
  have key : ∀ fuel path pts, loop endlessInfra (ilkOf endlessInfra endlessRoutes) endlessPlan false fuel ⟨0, 1, [0]⟩ ⟨0, 1⟩ path pts =
      .running := by
    intro fuel
    induction fuel with
    | zero => intro path pts; rfl
    | succ fuel ih =>
      intro path pts
      have h1 : covers endlessInfra endlessPlan false ⟨0, 1⟩ = some false := by decide
      have h2 : (((⟨0, 1, [0]⟩ : IR).lastNode endlessInfra.routes).bind fun n =>
        (candidates endlessInfra (ilkOf endlessInfra endlessRoutes) endlessPlan false ⟨0, 1⟩ (some n)).bind fun cands =>
          longest (ilkOf endlessInfra endlessRoutes).routes (endlessPlan.plan.drop 0) cands) = some ([0], 1) := by
        decide +kernel
      have h3 : (ilkOf endlessInfra endlessRoutes).routes[0]? = some ⟨0, 1, [0]⟩ := by decide +kernel
      have h4 : (pointsRange endlessPlan 0 (0 + 1)).bind (seqPoints endlessInfra false ⟨0, 1, [0]⟩) =
        some [⟨.passenger, true, 0⟩] := by decide +kernel
      have h5 : advance endlessInfra endlessPlan ⟨0, 1⟩ ⟨0, 1, [0]⟩ 1 = some ⟨0, 1⟩ := by decide +kernel
      have h6 : ¬ endlessPlan.points.length < 0 + ([0] : List Nat).length := by decide
      rw [loop]
      simp only [h1, h2, h3, h4, h5, if_neg h6]
      exact ih _ _
  simp only [transform, hf, hp]
  exact key _ _ _

def beyondInfra : Infra := ⟨[⟨[30, 31, 32, 33], [], []⟩, ⟨[0, 1, 2, 3], [], []⟩, ⟨[10, 11, 12, 13], [], []⟩, ⟨[20, 21, 22, 23], [], []⟩],
  [⟨none, none, none⟩, ⟨none, some 2, none⟩, ⟨none, some 2, none⟩, ⟨none, some 2, none⟩]⟩
def beyondInfos : List Info := [⟨4, [], false⟩, ⟨4, [], false⟩, ⟨4, [], false⟩, ⟨4, [1], false⟩]
def beyondGraph : SRG := ⟨[[1], [2], [3], []], [[], [0], [1], [2]]⟩
def beyondRoutes : List IR := [⟨0, 2, [0, 1, 2, 3]⟩, ⟨1, 4, [3]⟩]
def beyondPlan : StopSeq := ⟨[⟨.passenger, true, 1⟩, ⟨.passenger, true, 2⟩], false, false⟩

theorem beyondBuilt : getRoutes beyondInfos beyondGraph = some beyondRoutes ∧ Built beyondInfra 40 beyondRoutes (ilkOf beyondInfra beyondRoutes) :=
  ⟨by decide, built_of _ _ (by decide +kernel) (by decide) (by decide)⟩

/-- C86 fails: the first route reaches the plan later and runs beyond its end, the offset is computed from the end of the
route, and the points are read beyond the end of the plan. -/
theorem C86_out_of_bounds_negation : ∃ (infos : List Info) (g : SRG) (routes : List IR) (i : Infra) (k : Ilk) (ss : StopSeq),
    getRoutes infos g = some routes ∧ Built i 40 routes k ∧ ss.points ≠ [] ∧ (∀ sp ∈ ss.points, (sp.node i false).isSome) ∧
    ∀ fuel, transform i k ss false fuel = .undef := by
  refine ⟨beyondInfos, beyondGraph, beyondRoutes, beyondInfra, _, beyondPlan, beyondBuilt.1, beyondBuilt.2, by decide, by decide,
    fun fuel => ?_⟩
  have hf : firstIr beyondInfra (ilkOf beyondInfra beyondRoutes) beyondPlan false =
    some (.inr (0, ⟨0, 2, [0, 1, 2, 3]⟩, ⟨2, 2⟩)) := by decide +kernel
  have hp : (pointsRange beyondPlan 0 ((2 + 1) % SIZE)).bind (seqPoints beyondInfra false ⟨0, 2, [0, 1, 2, 3]⟩) = none := by
    decide +kernel
  simp only [transform, hf, hp]

def singleInfra : Infra := ⟨[⟨[0, 1, 2, 3], [], []⟩, ⟨[10, 11, 12, 13], [], []⟩, ⟨[20, 21, 22, 23], [], []⟩],
  [⟨none, some 2, none⟩, ⟨none, some 2, none⟩, ⟨none, some 2, none⟩]⟩
def singleInfos : List Info := [⟨4, [], false⟩, ⟨4, [], false⟩, ⟨4, [1], false⟩]
def singleGraph : SRG := ⟨[[1], [2], []], [[], [0], [1]]⟩
def singleRoutes : List IR := [⟨0, 2, [0, 1, 2]⟩, ⟨1, 4, [2]⟩]
def singlePlan : StopSeq := ⟨[⟨.passenger, true, 0⟩, ⟨.passenger, true, 1⟩], false, false⟩

theorem singleBuilt : getRoutes singleInfos singleGraph = some singleRoutes ∧ Built singleInfra 40 singleRoutes (ilkOf singleInfra singleRoutes) :=
  ⟨by decide, built_of _ _ (by decide +kernel) (by decide) (by decide)⟩

/-- C86 fails: one route runs over all planned station routes and beyond; because its end offset, which refers to another
station route, is not greater than the index of the last halt, the plan does not count as covered and is rejected. -/
theorem C86_rejected_negation : ∃ (infos : List Info) (g : SRG) (routes : List IR) (i : Infra) (k : Ilk) (ss : StopSeq) (r : IR),
    getRoutes infos g = some routes ∧ Built i 40 routes k ∧ r ∈ routes ∧ (ss.points.map (·.sr)) <+: r.srs ∧
    (∀ sp ∈ ss.points, ∃ idx, StandsAt i false sp idx ∧ (sp.sr, idx) ∈ positions i.routes r) ∧
    transform i k ss false 2 = .err .noIr := by
  refine ⟨singleInfos, singleGraph, singleRoutes, singleInfra, _, singlePlan, ⟨0, 2, [0, 1, 2]⟩, singleBuilt.1, singleBuilt.2, by decide,
    ⟨[2], rfl⟩, ?_, by decide +kernel⟩
  intro sp hsp
  simp [singlePlan] at hsp
  rcases hsp with rfl | rfl
  · exact ⟨2, .passengerHalt _ rfl (by decide) rfl rfl, by decide⟩
  · exact ⟨2, .passengerHalt _ rfl (by decide) rfl rfl, by decide⟩

end Soro.Transform
