import Verif.Props.Interlocking
import Mathlib.Tactic.ByContra

/-
Property C169: the interlocking as a whole.
-/

namespace Soro.Interlocking
open Route Route.Spec Spec Algo

theorem fill_ne (infos : List Info) (g : SRG) (he : ∀ i ∈ infos, i.etcs = false) (fuel r : Nat) (ir : IR) (res : List IR)
    (h : fill infos g fuel r ir = some res) : res ≠ [] := by
  induction fuel generalizing r ir res with
  | zero => simp [fill] at h
  | succ fuel ih =>
    rw [fill] at h
    split at h
    · cases h
    · rename_i i hi
      rw [if_neg (by simp [he i (List.mem_of_getElem? hi)])] at h
      by_cases hc : canEnd g r i = true
      · rw [if_pos hc] at h; cases h; simp
      · rw [if_neg hc] at h
        obtain ⟨rs, h1, rfl⟩ := Option.map_eq_some_iff.1 h
        have hs := (canEnd_false.1 (by simpa using hc)).2
        obtain ⟨n, hn⟩ := List.exists_mem_of_ne_nil _ hs
        obtain ⟨b, hb⟩ := fill_mem.mapM_mem_some _ _ _ h1 n hn
        obtain ⟨x, hx⟩ := List.exists_mem_of_ne_nil _ (ih n _ b hb)
        exact List.ne_nil_of_mem ((mapM_flatten_mem _ _ _ h1 x).2 ⟨n, hn, b, hb, hx⟩)

/-- without station routes requiring ETCS, a route that may start an interlocking and has a successor starts one -/
theorem chain_exists {infra : List SRoute} {infos : List Info} {g : SRG} (hw : WellFormed infra infos g) (ha : Acyclic g.succ)
    (he : ∀ i ∈ infos, i.etcs = false) {r n : Nat} {i : Info} (hi : infos[r]? = some i) (hc : canStart g r i = true)
    (hn : n ∈ g.succ r) : ∃ x, Gen infos g x := by
  obtain ⟨res, h1⟩ := fill_some infos g ha (succ_known hw) r (List.getElem?_eq_some_iff.1 hi).1 (infos.length + 1) n
    ⟨(i.signals.getLast?).getD 0, i.size, [r]⟩ [] rfl ⟨hn, trivial⟩ (by simp; omega)
  obtain ⟨x, hx⟩ := List.exists_mem_of_ne_nil _ (fill_ne infos g he _ _ _ _ h1)
  obtain ⟨-, rest, -, h2⟩ := (fill_mem infos g _ _ _ _ h1 x).1 hx
  exact ⟨_, .chain r n i rest _ hi hc (he i (List.mem_of_getElem? hi)) hn h2⟩

/-- an acyclic graph with an edge has a node with successors and without predecessors -/
theorem source_exists {infra : List SRoute} {infos : List Info} {g : SRG} (hw : WellFormed infra infos g) (ha : Acyclic g.succ)
    (hp : ∀ a b, a ∈ g.pred b ↔ b ∈ g.succ a) {a b : Nat} (h : b ∈ g.succ a) : ∃ r n, n ∈ g.succ r ∧ g.pred r = [] := by
  by_contra hcon
  have hne : ∀ r n, n ∈ g.succ r → g.pred r ≠ [] := fun r n h1 h2 => hcon ⟨r, n, h1, h2⟩
  have known : ∀ r n, n ∈ g.succ r → r < infos.length := by
    intro r n hn
    unfold SRG.succ at hn
    by_contra hr
    rw [List.getElem?_eq_none (by rw [hw.length]; omega)] at hn
    cases hn
  have back : ∀ k, ∃ f l, l.length = k + 1 ∧ Follows g.succ f l ∧ ∀ x ∈ f :: l, x < infos.length := by
    intro k
    induction k with
    | zero =>
      refine ⟨a, [b], rfl, ⟨h, trivial⟩, ?_⟩
      intro x hx
      simp only [List.mem_cons, List.not_mem_nil, or_false] at hx
      rcases hx with rfl | rfl
      · exact known _ _ h
      · exact succ_known hw _ _ h
    | succ k ih =>
      obtain ⟨f, l, h1, h2, h3⟩ := ih
      cases l with
      | nil => simp at h1
      | cons x l =>
        obtain ⟨p, hpm⟩ := List.exists_mem_of_ne_nil _ (hne f x h2.1)
        have hs := (hp p f).1 hpm
        refine ⟨p, f :: x :: l, by simpa using h1, ⟨hs, h2⟩, ?_⟩
        intro y hy
        rcases List.mem_cons.1 hy with rfl | hy
        · exact known _ _ hs
        · exact h3 y hy
  obtain ⟨f, l, h1, h2, h3⟩ := back infos.length
  have := OGraph.nodup_length_le _ infos.length (follows_nodup ha f l h2) h3
  simp at this
  omega

/-- C169: an infrastructure without station routes requiring ETCS has no interlocking route at all exactly if no station
route has a main signal and no station route leads to another one. -/
theorem C169_no_routes (p : Plan) (hc : Consistent p) (he : ∀ i ∈ p.infos, i.etcs = false) :
    getRoutes p.infos p.graph = some [] ↔ (∀ i ∈ p.infos, i.signals = []) ∧ ∀ r, p.graph.succ r = [] := by
  obtain ⟨l, hl⟩ := getRoutes_some p.infos p.graph hc.acyclic (succ_known hc.wf)
  rw [hl, Option.some.injEq]
  constructor
  · rintro rfl
    have none : ∀ x, ¬ Gen p.infos p.graph x := fun x hx => by
      have := (getRoutes_mem _ _ _ hl x).2 hx
      cases this
    constructor
    · intro i hi
      obtain ⟨r, hr⟩ := List.mem_iff_getElem?.1 hi
      by_contra hs
      cases hsu : p.graph.succ r with
      | nil =>
        obtain ⟨s, hls⟩ : ∃ s, i.signals.getLast? = some s := ⟨_, List.getLast?_eq_some_getLast hs⟩
        exact none _ (.trailing r i s hr hls hsu)
      | cons n ns =>
        obtain ⟨x, hx⟩ := chain_exists hc.wf hc.acyclic he hr (canStart_true.2 (.inl hs)) (n := n) (by simp [hsu])
        exact none x hx
    · intro r
      by_contra hs
      obtain ⟨n, hn⟩ := List.exists_mem_of_ne_nil _ hs
      obtain ⟨q, m, hm, hq⟩ := source_exists hc.wf hc.acyclic hc.preds hn
      obtain ⟨i, hi⟩ : ∃ i, p.infos[q]? = some i := by
        refine ⟨_, List.getElem?_eq_getElem ?_⟩
        by_contra hr
        unfold SRG.succ at hm
        rw [List.getElem?_eq_none (by rw [hc.wf.length]; omega)] at hm
        cases hm
      obtain ⟨x, hx⟩ := chain_exists hc.wf hc.acyclic he hi (canStart_true.2 (.inr hq)) hm
      exact none x hx
  · rintro ⟨h1, h2⟩
    rw [List.eq_nil_iff_forall_not_mem]
    intro x hx
    cases (getRoutes_mem _ _ _ hl x).1 hx with
    | chain r n i rest stop _ _ _ h => rw [h2] at h; cases h
    | internal r i k a b h3 h4 _ => rw [h1 i (List.mem_of_getElem? h3)] at h4; cases h4
    | leading r i s h3 h4 _ => rw [h1 i (List.mem_of_getElem? h3)] at h4; cases h4
    | trailing r i s h3 h4 _ => rw [h1 i (List.mem_of_getElem? h3)] at h4; cases h4

/-- a generated route lies in its station routes, and its first and last position exist -/
theorem signalRoute_valid {infra : List SRoute} {infos : List Info} {g : SRG} (hw : WellFormed infra infos g) {ir : IR}
    (h : SignalRoute infra infos g ir) : Valid infra ir ∧ (∃ n, ir.firstNode infra = some n) ∧ ∃ n, ir.lastNode infra = some n := by
  have hlen : infos.length = infra.length := by simpa using congrArg List.length hw.sizes
  obtain ⟨f, rest, h1, h2, h3⟩ := h.chain
  have known : ∀ s ∈ ir.srs, s < infra.length := by
    intro s hs
    rw [h1] at hs
    rcases List.mem_cons.1 hs with rfl | hs
    · omega
    · obtain ⟨n, w⟩ := walk_of_follows f _ h3 s hs
      cases w with
      | snoc _ hm => rw [← hlen]; exact succ_known hw _ _ hm
  have sig : ∀ (s k : Nat) (r : SRoute), Signal infos s k → infra[s]? = some r → k < r.nodes.length := by
    rintro s k r ⟨i, hi, hk⟩ hr
    have := size_info hw hi
    rw [hr] at this
    simp at this
    rw [this]
    exact hw.inside i (List.mem_of_getElem? hi) k hk
  have pos : ∀ (s : Nat) (r : SRoute), infra[s]? = some r → 0 < r.nodes.length := by
    intro s r hr
    have hs := (List.getElem?_eq_some_iff.1 hr).1
    have hi := List.getElem?_eq_getElem (l := infos) (i := s) (by omega)
    have := size_info hw hi
    rw [hr] at this
    simp at this
    rw [this]
    exact hw.nonempty _ (List.getElem_mem _)
  have hstart : ∀ (s : Nat) (r : SRoute), ir.srs.head? = some s → infra[s]? = some r → ir.start < r.nodes.length := by
    intro s r hs hr
    rcases h.start s hs with h4 | ⟨h4, -⟩
    · exact sig _ _ _ h4 hr
    · rw [h4]; exact pos _ _ hr
  have hstop : ∀ (s : Nat) (r : SRoute), ir.srs.getLast? = some s → infra[s]? = some r → ir.stop ≠ 0 ∧ ir.stop ≤ r.nodes.length := by
    intro s r hs hr
    obtain ⟨e, h4, h5⟩ := h.stop s hs
    refine ⟨by omega, ?_⟩
    rcases h5 with h5 | ⟨h5, -⟩
    · have := sig _ _ _ h5 hr; omega
    · rw [hr] at h5; simp at h5; omega
  refine ⟨⟨known, by rw [h1]; simp, fun s r a b => Nat.le_of_lt (hstart s r a b), fun s r a b => (hstop s r a b).2,
    fun hl => Nat.le_of_lt (h.forward hl)⟩, ?_, ?_⟩
  · have hf := List.getElem?_eq_getElem (known f (by simp [h1]))
    have hh : ir.srs.head? = some f := by rw [h1]; rfl
    unfold IR.firstNode
    rw [hh, Option.bind_some, hf, Option.bind_some]
    exact ⟨_, List.getElem?_eq_getElem (hstart _ _ hh hf)⟩
  · obtain ⟨t, ht⟩ : ∃ t, ir.srs.getLast? = some t := by rw [h1]; exact ⟨_, List.getLast?_eq_some_getLast (by simp)⟩
    have hf := List.getElem?_eq_getElem (known t (List.mem_of_getLast? ht))
    have := hstop _ _ ht hf
    unfold IR.lastNode
    rw [ht, Option.bind_some, hf, Option.bind_some, if_neg this.1]
    exact ⟨_, List.getElem?_eq_getElem (show ir.stop - 1 < _ by omega)⟩

theorem haltNodes_some {infra : List SRoute} {ir : IR} (hv : Valid infra ir) (passenger freight : Nat → Option Nat) :
    ∃ ns, haltNodes infra passenger freight ir = some ns := by
  obtain ⟨sps, h1, h2⟩ := subPaths_spec ir hv
  have inside : ∀ p ∈ positions infra ir, ∃ r, infra[p.1]? = some r ∧ p.2 < r.nodes.length := by
    intro p hp
    rcases srs_cases ir.srs hv.nonempty with ⟨s, h⟩ | ⟨f, A, l, h⟩
    · rw [positions_single infra ir s h, mem_span] at hp
      have hs := List.getElem?_eq_getElem (hv.known s (by simp [h]))
      refine ⟨_, by rw [hp.1]; exact hs, ?_⟩
      have := hv.stop s _ (by simp [h]) hs
      omega
    · rw [positions_multi infra ir f l A h] at hp
      have hf := List.getElem?_eq_getElem (hv.known f (by simp [h]))
      have hl := List.getElem?_eq_getElem (hv.known l (by simp [h]))
      rw [seg, List.mem_append, List.mem_append, mem_span, mem_span, List.mem_flatMap] at hp
      rcases hp with hp | ⟨s, hs, hp⟩ | hp
      · refine ⟨_, by rw [hp.1]; exact hf, ?_⟩
        rw [len_of hf] at hp; exact hp.2.2
      · rw [mem_span] at hp
        have hs := List.getElem?_eq_getElem (hv.known s (by simp [h, hs]))
        refine ⟨_, by rw [hp.1]; exact hs, ?_⟩
        rw [len_of hs] at hp; exact hp.2.2
      · refine ⟨_, by rw [hp.1]; exact hl, ?_⟩
        have := hv.stop l _ (getLast_multi h) hl
        omega
  unfold haltNodes
  rw [h1, Option.bind_some]
  have hn : ∀ sp ∈ sps, ∀ o, ∃ a, haltNode infra sp o = some a := by
    intro sp hsp o
    unfold haltNode
    cases o with
    | none => exact ⟨_, rfl⟩
    | some i =>
      simp only
      by_cases hc : sp.contains i = true
      · rw [if_pos hc]
        simp only [SubPath.contains, Bool.and_eq_true, decide_eq_true_eq] at hc
        obtain ⟨r, h3, h4⟩ := inside (sp.sr, i) (by rw [h2]; exact List.mem_flatMap.2 ⟨sp, hsp, (mem_span _ _ _ _).2 ⟨rfl, hc⟩⟩)
        simp only at h3 h4
        rw [h3, Option.bind_some, List.getElem?_eq_getElem h4]
        exact ⟨_, rfl⟩
      · rw [if_neg hc]; exact ⟨_, rfl⟩
  obtain ⟨rs, hrs⟩ := mapM_some (fun sp : SubPath => (haltNode infra sp (passenger sp.sr)).bind fun a =>
      (haltNode infra sp (freight sp.sr)).map fun b => a ++ b) sps (by
    intro sp hsp
    obtain ⟨a, ha⟩ := hn sp hsp (passenger sp.sr)
    obtain ⟨b, hb⟩ := hn sp hsp (freight sp.sr)
    exact ⟨a ++ b, by rw [ha, hb]; rfl⟩)
  exact ⟨_, by rw [hrs]; rfl⟩

theorem firstNode_lt {p : Plan} (hc : Consistent p) {ir : IR} {n : Nat} (h : ir.firstNode p.srs = some n) : n < p.nodeCount := by
  unfold IR.firstNode at h
  obtain ⟨s, -, h⟩ := Option.bind_eq_some_iff.1 h
  obtain ⟨r, h1, h⟩ := Option.bind_eq_some_iff.1 h
  exact hc.nodes r (List.mem_of_getElem? h1) n (List.mem_of_getElem? h)

theorem lastNode_lt {p : Plan} (hc : Consistent p) {ir : IR} {n : Nat} (h : ir.lastNode p.srs = some n) : n < p.nodeCount := by
  unfold IR.lastNode at h
  obtain ⟨s, -, h⟩ := Option.bind_eq_some_iff.1 h
  obtain ⟨r, h1, h⟩ := Option.bind_eq_some_iff.1 h
  split at h <;> exact hc.nodes r (List.mem_of_getElem? h1) n (List.mem_of_getElem? h)

/-- the answers of the steps before the statistics -/
theorem steps {p : Plan} (hc : Consistent p) {l : List IR} (hl : getRoutes p.infos p.graph = some l) :
    ∃ h s e q t, getInterlocking p = (averageLength (assignIds 0 l)).map (fun _ => (⟨assignIds 0 l, h, s, e, q, t⟩ : Whole)) ∧
      Indexed p l ⟨assignIds 0 l, h, s, e, q, t⟩ := by
  have hsr : ∀ ir ∈ l, SignalRoute p.srs p.infos p.graph ir := fun ir hir =>
    (C37_sound p.srs p.infos p.graph hc.wf l hl ir hir).1
  have hval := fun ir hir => signalRoute_valid hc.wf (hsr ir hir)
  have hnodes : ∀ ir ∈ l, ∀ ns, haltNodes p.srs p.passenger p.freight ir = some ns → ∀ n ∈ ns, n < p.nodeCount := by
    intro ir hir ns hns n hn
    obtain ⟨s, i, r, -, -, h1, h2⟩ := (C36_halts p.srs p.passenger p.freight ir (hval ir hir).1 ns hns n).1 hn
    exact hc.nodes r (List.mem_of_getElem? h1) n (List.mem_of_getElem? h2)
  obtain ⟨h, h1, h2, h3⟩ := C36_halting_at p.srs p.passenger p.freight p.nodeCount l (by
    intro ir hir
    obtain ⟨ns, hns⟩ := haltNodes_some (hval ir hir).1 p.passenger p.freight
    exact ⟨ns, hns, hnodes ir hir ns hns⟩)
  obtain ⟨s, s1, s2, s3⟩ := C36_starting_at p.srs p.nodeCount l (by
    intro ir hir
    obtain ⟨n, hn⟩ := (hval ir hir).2.1
    exact ⟨n, hn, firstNode_lt hc hn⟩)
  obtain ⟨e, e1, e2, e3⟩ := C36_ending_at p.srs p.nodeCount l (by
    intro ir hir
    obtain ⟨n, hn⟩ := (hval ir hir).2.2
    exact ⟨n, hn, lastNode_lt hc hn⟩)
  obtain ⟨q, q1, q2, q3⟩ := C36_participating p.srs.length l (fun ir hir => (hval ir hir).1.known)
  obtain ⟨t, t1, t2, t3⟩ := C36_stations p.station p.stationCount l (fun ir hir s hs => hc.stations s ((hval ir hir).1.known s hs))
  refine ⟨h, s, e, q, t, ?_, C36_ids l, ?_, ?_, ?_, ?_, ?_⟩
  · unfold getInterlocking
    simp only [hl, h1, s1, e1, q1, t1, Option.bind_some]
  · intro n id
    by_cases hn : n < p.nodeCount
    · obtain ⟨b, b1, -, b3⟩ := s3 n hn
      simp only [b1, Option.some.injEq, exists_eq_left', b3]
    · simp only
      rw [List.getElem?_eq_none (by omega)]
      simp only [reduceCtorEq, false_and, exists_false, false_iff]
      rintro ⟨ir, -, h6⟩
      exact hn (firstNode_lt hc h6)
  · intro n id
    by_cases hn : n < p.nodeCount
    · obtain ⟨b, b1, -, b3⟩ := e3 n hn
      simp only [b1, Option.some.injEq, exists_eq_left', b3]
    · simp only
      rw [List.getElem?_eq_none (by omega)]
      simp only [reduceCtorEq, false_and, exists_false, false_iff]
      rintro ⟨ir, -, h6⟩
      exact hn (lastNode_lt hc h6)
  · intro n id
    by_cases hn : n < p.srs.length
    · obtain ⟨b, b1, -, b3⟩ := q3 n hn
      simp only [b1, Option.some.injEq, exists_eq_left', ← List.count_pos_iff, b3]
      cases l[id]? with
      | none => simp
      | some ir => simp
    · simp only
      rw [List.getElem?_eq_none (by omega)]
      simp only [reduceCtorEq, false_and, exists_false, false_iff]
      rintro ⟨ir, h5, h6⟩
      exact hn ((hval ir (List.mem_of_getElem? h5)).1.known n h6)
  · intro n id
    by_cases hn : n < p.stationCount
    · obtain ⟨b, b1, -, b3⟩ := t3 n hn
      simp only [b1, Option.some.injEq, exists_eq_left', b3]
    · simp only
      rw [List.getElem?_eq_none (by omega)]
      simp only [reduceCtorEq, false_and, exists_false, false_iff]
      rintro ⟨ir, h5, s, h6, rfl⟩
      exact hn (hc.stations s ((hval ir (List.mem_of_getElem? h5)).1.known s h6))
  · intro n id
    by_cases hn : n < p.nodeCount
    · obtain ⟨b, b1, -, b3⟩ := h3 n hn
      simp only [b1, Option.some.injEq, exists_eq_left', ← List.count_pos_iff, b3]
      cases hli : l[id]? with
      | none => simp
      | some ir =>
        have hir := List.mem_of_getElem? hli
        obtain ⟨ns, hns⟩ := haltNodes_some (hval ir hir).1 p.passenger p.freight
        simp only [Option.map_some, Option.getD_some, hns, List.count_pos_iff, Option.some.injEq, exists_eq_left']
        exact C36_halts p.srs p.passenger p.freight ir (hval ir hir).1 ns hns n
    · simp only
      rw [List.getElem?_eq_none (by omega)]
      simp only [reduceCtorEq, false_and, exists_false, false_iff]
      rintro ⟨ir, -, s, i, r, -, -, h5, h6⟩
      exact hn (hc.nodes r (List.mem_of_getElem? h5) n (List.mem_of_getElem? h6))

theorem averageLength_none (l : List IR) : averageLength (assignIds 0 l) = none ↔ l = [] := by
  cases l with
  | nil => simp [averageLength, assignIds]
  | cons a l => simp [averageLength, assignIds]

/-- C169, what holds: if there is any interlocking route the interlocking is created; it lists exactly the generated
routes, numbered by position, and every index finds exactly the routes it should. -/
theorem C169_created_partial (p : Plan) (hc : Consistent p) (l : List IR) (hl : getRoutes p.infos p.graph = some l)
    (hne : l ≠ []) : ∃ w, getInterlocking p = some w ∧ Indexed p l w := by
  obtain ⟨h, s, e, q, t, h1, h2⟩ := steps hc hl
  cases ha : averageLength (assignIds 0 l) with
  | none => exact absurd ((averageLength_none l).1 ha) hne
  | some a => exact ⟨_, by rw [h1, ha]; rfl, h2⟩

/-- C169: exactly the infrastructures without any interlocking route are refused (the statistics divide by zero). -/
theorem C169_crash_iff (p : Plan) (hc : Consistent p) : getInterlocking p = none ↔ getRoutes p.infos p.graph = some [] := by
  obtain ⟨l, hl⟩ := getRoutes_some p.infos p.graph hc.acyclic (succ_known hc.wf)
  obtain ⟨h, s, e, q, t, h1, -⟩ := steps hc hl
  rw [h1, Option.map_eq_none_iff, averageLength_none, hl, Option.some.injEq]

/-- one station route with two nodes and no signal -/
def exLone : Plan where
  srs := [⟨[0, 1], [], []⟩]
  infos := [⟨2, [], false⟩]
  graph := ⟨[[]], [[]]⟩
  passenger _ := none
  freight _ := none
  station _ := 0
  nodeCount := 2
  stationCount := 1

theorem acyclic_of_lt {out : Nat → List Nat} (h : ∀ a b, b ∈ out a → a < b) : Acyclic out := by
  have walk : ∀ n a b, Walk out n a b → a + n ≤ b := by
    intro n a b w
    induction w with
    | nil => omega
    | snoc _ hm ih => have := h _ _ hm; omega
  rintro a ⟨n, w⟩
  have := walk _ _ _ w
  omega

theorem exLone_consistent : Consistent exLone := by
  have none : ∀ r, exLone.graph.succ r = [] := by
    intro r
    cases r <;> rfl
  have none' : ∀ r, exLone.graph.pred r = [] := by
    intro r
    cases r <;> rfl
  refine ⟨⟨by decide, by decide, by decide, by decide, by decide, by decide⟩, acyclic_of_lt ?_, ?_, by decide, by decide⟩
  · intro a b h; rw [none] at h; cases h
  · intro a b; rw [none, none']; simp

/-- two station routes, the second a successor of the first, both for ETCS only -/
def exEtcs : Plan where
  srs := [⟨[0, 1], [], []⟩, ⟨[2, 3], [], []⟩]
  infos := [⟨2, [], true⟩, ⟨2, [], true⟩]
  graph := ⟨[[1], []], [[], [0]]⟩
  passenger _ := none
  freight _ := none
  station s := s
  nodeCount := 4
  stationCount := 2

theorem exPred {g : SRG} (hg : g = ⟨[[1], []], [[], [0]]⟩) (a b : Nat) : a ∈ g.pred b ↔ b ∈ g.succ a := by
  subst hg
  unfold SRG.pred SRG.succ
  match a, b with
  | 0, 0 => simp
  | 0, 1 => simp
  | 0, b + 2 => simp
  | 1, 0 => simp
  | 1, 1 => simp
  | 1, b + 2 => simp
  | a + 2, 0 => simp
  | a + 2, 1 => simp
  | a + 2, b + 2 => simp

theorem exLt {g : SRG} (hg : g = ⟨[[1], []], [[], [0]]⟩) (a b : Nat) (h : b ∈ g.succ a) : a < b := by
  subst hg
  unfold SRG.succ at h
  match a with
  | 0 => simp at h; omega
  | 1 => simp at h
  | a + 2 => simp at h

theorem exEtcs_consistent : Consistent exEtcs :=
  ⟨⟨by decide, by decide, by decide, by decide, by decide, by decide⟩, acyclic_of_lt (exLt rfl), exPred rfl, by decide, by decide⟩

/-- C169 is false as stated: without main signals and connections no interlocking can be created, neither if all
station routes require ETCS. -/
theorem C169_crash_negation : (Consistent exLone ∧ getInterlocking exLone = none) ∧
    Consistent exEtcs ∧ exEtcs.graph.succ 0 = [1] ∧ getInterlocking exEtcs = none :=
  ⟨⟨exLone_consistent, by decide +kernel⟩, exEtcs_consistent, by decide, by decide +kernel⟩

/-- two connected station routes with a signal each -/
def exPlan : Plan where
  srs := [⟨[0, 1], [], []⟩, ⟨[2, 3, 4], [], []⟩]
  infos := [⟨2, [1], false⟩, ⟨3, [1], false⟩]
  graph := ⟨[[1], []], [[], [0]]⟩
  passenger s := if s = 1 then some 0 else none
  freight _ := none
  station s := s
  nodeCount := 5
  stationCount := 2

theorem exPlan_consistent : Consistent exPlan :=
  ⟨⟨by decide, by decide, by decide, by decide, by decide, by decide⟩, acyclic_of_lt (exLt rfl), exPred rfl, by decide, by decide⟩

example : Consistent exPlan ∧ getRoutes exPlan.infos exPlan.graph = some [⟨1, 2, [0, 1]⟩, ⟨0, 2, [0]⟩, ⟨1, 3, [1]⟩] :=
  ⟨exPlan_consistent, by decide +kernel⟩
example : getInterlocking exPlan = some ⟨[(0, ⟨1, 2, [0, 1]⟩), (1, ⟨0, 2, [0]⟩), (2, ⟨1, 3, [1]⟩)], [[], [], [0], [], []],
    [[1], [0], [], [2], []], [[], [1], [], [0], [2]], [[0, 1], [0, 2]], [[0, 1], [0, 2]]⟩ := by decide +kernel
example : ∀ i ∈ exLone.infos, i.etcs = false := by decide

end Soro.Interlocking
