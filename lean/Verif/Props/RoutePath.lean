import Verif.Proof.RoutePath
import Verif.Props.PathLength

/-! C108–C111: the paths of station routes, see `Model/RoutePath.lean` and `Spec/RoutePath.lean`. -/

namespace Soro.Infra

/-! ### C108: following the course -/

/-- **C108** The nodes found are those of the way that takes one decision of the course for every switch and cross, up to the first
occurrence of the last node. -/
theorem C108_path (L : Links) (el : Nat → Elem) (course : List Bool) (s last : Node) (nodes : List Node) :
    (∃ fuel, getPath L el course last fuel (some s) 0 = .ok nodes) ↔ Follows L el course s last nodes := by
  constructor
  · rintro ⟨fuel, h⟩
    obtain ⟨t, rfl, h2, h3, h4⟩ := getPath_follows fuel s 0 nodes h
    refine ⟨rfl, h2, h3, ?_⟩
    intro i n m hn hm
    simpa using h4 i n m hn hm
  · rintro ⟨h1, h2, h3, h4⟩
    cases nodes with
    | nil => cases h1
    | cons a t =>
      obtain rfl : a = s := by simpa using h1
      refine ⟨t.length + 1, follows_getPath t a 0 _ h2 h3 ?_ (by omega)⟩
      intro i n m hn hm
      simpa using h4 i n m hn hm

/-- **C108** An exception reports that there is no path exactly if the course leads to a node without next node before the last node. -/
theorem C108_fail (L : Links) (el : Nat → Elem) (course : List Bool) (s last : Node) :
    (∃ fuel, getPath L el course last fuel (some s) 0 = .fail) ↔
      ∃ n k, Gets L el course s last n k ∧ L.next n = none ∧ (L.branch n = none ∨ course[k]? = some true) :=
  getPath_gets (Or.inl rfl)

/-- **C108** The course is read beyond its end exactly if it leads to a node with a choice without having a decision left. -/
theorem C108_short (L : Links) (el : Nat → Elem) (course : List Bool) (s last : Node) :
    (∃ fuel, getPath L el course last fuel (some s) 0 = .ub) ↔
      ∃ n k, Gets L el course s last n k ∧ L.branch n ≠ none ∧ course[k]? = none :=
  getPath_gets (Or.inr rfl)

/-- **C108** The search ends after at most as many rounds as there are nodes for every number of decisions taken, or not at all. -/
theorem C108_bound (L : Links) (el : Nat → Elem) (course : List Bool) (s last : Node) (nodes : List Node) (hn : AllNodes L nodes) :
    getPath L el course last (nodes.length * (course.length + 1) + 2) (some s) 0 ≠ .running ∨
      ∀ fuel, getPath L el course last fuel (some s) 0 = .running := by
  by_cases h : getPath L el course last (nodes.length * (course.length + 1) + 2) (some s) 0 = .running
  · exact Or.inr (getPath_bound hn h)
  · exact Or.inl h

/-- **C108** A path starts and ends at the nodes of the start and end of its route and follows the course. Its main signals are all main
signals on it that are not left out, its ETCS starts and ends all of those. -/
theorem C108_route (L : Links) (el : Nat → Elem) (rp : Nat → Option Nat) (fuel : Nat) (r : IRoute) (p : SPath)
    (h : newPath L el rp fuel r = some (some p)) :
    rp r.start = some p.start ∧ rp r.fin = some p.fin ∧ p.course = r.course ∧
    (∃ s e, routeNode el p.start true = some s ∧ routeNode el p.fin false = some e ∧ Follows L el r.course s e p.nodes) ∧
    (∀ i, i ∈ p.signals ↔ ∃ n, p.nodes[i]? = some n ∧ (el n.1).ty = .mainSignal ∧
      ∀ x e, (x, Ty.mainSignal) ∈ r.omitted → rp x = some e → n ≠ (e, 0)) ∧
    (∀ i, i ∈ p.etcsStarts ↔ ∃ n, p.nodes[i]? = some n ∧ (el n.1).ty = .etcsStart) ∧
    (∀ i, i ∈ p.etcsEnds ↔ ∃ n, p.nodes[i]? = some n ∧ (el n.1).ty = .etcsEnd) ∧
    p.signals.Pairwise (· < ·) ∧ p.etcsStarts.Pairwise (· < ·) ∧ p.etcsEnds.Pairwise (· < ·) := by
  unfold newPath at h
  obtain ⟨s, hs, h⟩ := Option.bind_eq_some_iff.1 h
  obtain ⟨e, he, h⟩ := Option.bind_eq_some_iff.1 h
  obtain ⟨sn, hsn, h⟩ := Option.bind_eq_some_iff.1 h
  obtain ⟨en, hen, h⟩ := Option.bind_eq_some_iff.1 h
  have hty : ∀ ty nodes i, i ∈ nodesOfType el ty nodes ↔ ∃ n, nodes[i]? = some n ∧ (el n.1).ty = ty := by
    intro ty nodes i
    unfold nodesOfType
    rw [List.mem_filter, List.mem_range]
    constructor
    · rintro ⟨h1, h2⟩
      rw [List.getElem?_eq_getElem h1] at h2 ⊢
      exact ⟨_, rfl, by simpa using h2⟩
    · rintro ⟨n, h1, h2⟩
      refine ⟨(List.getElem?_eq_some_iff.1 h1).1, ?_⟩
      rw [h1]; simpa using h2
  have hpw : ∀ (q : Nat → Bool) n, ((List.range n).filter q).Pairwise (· < ·) := fun q n => List.Pairwise.filter _ List.pairwise_lt_range
  split at h
  · rename_i nodes hp
    obtain ⟨ms, hms, h⟩ := Option.map_eq_some_iff.1 h
    injection h with h
    subst h
    refine ⟨hs, he, rfl, ⟨sn, en, hsn, hen, (C108_path _ _ _ _ _ _).1 ⟨fuel, hp⟩⟩, ?_, hty _ _, hty _ _, ?_, hpw _ _, hpw _ _⟩
    · unfold mainSignals at hms
      obtain ⟨om, hom, rfl⟩ := Option.map_eq_some_iff.1 hms
      intro i
      simp only [List.mem_filter, List.mem_range]
      constructor
      · rintro ⟨h1, h2⟩
        rw [List.getElem?_eq_getElem h1] at h2 ⊢
        refine ⟨_, rfl, ?_⟩
        simp only [Bool.and_eq_true, decide_eq_true_eq, Bool.not_eq_true', List.contains_eq_mem, decide_eq_false_iff_not, List.mem_map, not_exists, not_and] at h2
        refine ⟨h2.1, ?_⟩
        intro x y hx hy hne
        exact h2.2 y ((mapM_mem hom y).2 ⟨x, mem_relevant.2 hx, hy⟩) hne.symm
      · rintro ⟨n, h1, h2, h3⟩
        refine ⟨(List.getElem?_eq_some_iff.1 h1).1, ?_⟩
        rw [h1]
        simp only [Bool.and_eq_true, decide_eq_true_eq, Bool.not_eq_true', List.contains_eq_mem, decide_eq_false_iff_not, List.mem_map, not_exists, not_and]
        refine ⟨h2, ?_⟩
        intro y hy hne
        obtain ⟨x, hx, hxy⟩ := (mapM_mem hom y).1 hy
        exact h3 x y (mem_relevant.1 hx) hxy hne.symm
    · unfold mainSignals at hms
      obtain ⟨om, hom, rfl⟩ := Option.map_eq_some_iff.1 hms
      exact hpw _ _
  · cases h
  · cases h

/-- the path of a route in a network -/
def pathIn (g0 : Graph) (xs : List SecIn) (bs : List (Nat × Bool × Nat)) (fuel : Nat) (r : IRoute) : Option (Option SPath) :=
  (connectAll (netGraph g0 xs bs).el (netGraph g0 xs bs).n).bind fun L => newPath L (netGraph g0 xs bs).el some fuel r

/-- from bumper 0 over switch 1 (stem) and cross 2 (changing the track) to the border 5, without its first main signal -/
example : pathIn (exGraph exTys) exSecs exBorders 20 ⟨0, 5, [true, false], [(10, .mainSignal)]⟩ =
    some (some ⟨0, 5, [true, false], [(0, 0), (9, 0), (10, 0), (11, 0), (1, 0), (13, 0), (2, 2), (23, 0), (24, 0), (25, 0), (5, 0)], [8], [], []⟩) := by
  decide +kernel

/-- a ring of two line switches with signals in both directions -/
def ringSigs : List SecIn := [⟨0, .fin, 1, .start, 0, exUp, exDown⟩, ⟨1, .fin, 0, .start, 1, exUp, exDown⟩]
theorem ringSigsNet : ValidNet (exGraph [.lineSwitch, .lineSwitch]) ringSigs [] := by
  apply exValid <;> decide
theorem ringSigsLaid : WellLaid (exGraph [.lineSwitch, .lineSwitch]) ringSigs [] where
  oriented := by decide
  pair := by decide
  one := by decide

/-- **C108** The search for a path need not end: on a ring a route to a signal for the other direction is not reported but searched forever. -/
theorem C108_ring_negation : ¬ ∀ (g0 : Graph) (xs : List SecIn) (bs : List (Nat × Bool × Nat)) (L : Links) (nodes : List Node),
    Net g0 xs bs L nodes → WellLaid g0 xs bs → ∀ r, ∃ fuel, newPath L (netGraph g0 xs bs).el some fuel r ≠ some none := by
  intro hall
  obtain ⟨L, N⟩ := someNet ringSigsNet
  obtain ⟨fuel, h⟩ := hall _ _ _ _ _ N ringSigsLaid ⟨3, 5, [], []⟩
  have comp : (connectAll (netGraph (exGraph [.lineSwitch, .lineSwitch]) ringSigs []).el (netGraph (exGraph [.lineSwitch, .lineSwitch]) ringSigs []).n).map
      (fun L => getPath L (netGraph (exGraph [.lineSwitch, .lineSwitch]) ringSigs []).el [] (5, 0)
        ((someNodes (netGraph (exGraph [.lineSwitch, .lineSwitch]) ringSigs []).n).length * 1 + 2) (some (3, 0)) 0) = some .running := by decide +kernel
  rw [N.links, Option.map_some, Option.some.injEq] at comp
  have run := getPath_bound N.all comp fuel
  apply h
  have r1 : routeNode (netGraph (exGraph [.lineSwitch, .lineSwitch]) ringSigs []).el 3 true = some (3, 0) := by decide +kernel
  have r2 : routeNode (netGraph (exGraph [.lineSwitch, .lineSwitch]) ringSigs []).el 5 false = some (5, 0) := by decide +kernel
  unfold newPath
  simp only [Option.bind_some, r1, r2, run]

/-- **C108** A course with too few decisions is read beyond its end instead of being reported. -/
theorem C108_short_negation : ¬ ∀ (g0 : Graph) (xs : List SecIn) (bs : List (Nat × Bool × Nat)) (L : Links) (nodes : List Node),
    Net g0 xs bs L nodes → WellLaid g0 xs bs → ∀ i j s e course fuel, routeNode (netGraph g0 xs bs).el i true = some s →
      routeNode (netGraph g0 xs bs).el j false = some e → getPath L (netGraph g0 xs bs).el course e fuel (some s) 0 ≠ .ub := by
  intro hall
  obtain ⟨L, N⟩ := someNet exNet
  have r1 : routeNode (netGraph (exGraph exTys) exSecs exBorders).el 0 true = some (0, 0) := by decide +kernel
  have r2 : routeNode (netGraph (exGraph exTys) exSecs exBorders).el 5 false = some (5, 0) := by decide +kernel
  have := hall _ _ _ _ _ N exWellLaid 0 5 _ _ [true] 20 r1 r2
  have comp : (connectAll (netGraph (exGraph exTys) exSecs exBorders).el (netGraph (exGraph exTys) exSecs exBorders).n).map
      (fun L => getPath L (netGraph (exGraph exTys) exSecs exBorders).el [true] (5, 0) 20 (some (0, 0)) 0) = some .ub := by decide +kernel
  rw [N.links, Option.map_some, Option.some.injEq] at comp
  exact this comp

/-! ### C109: routes that share a path -/

/-- **C109** Every route gets the path that would be made for it alone. Two routes get the same path exactly if their ends, their course
and the main signals they leave out are the same. Every stored path is that of a route. -/
theorem C109_shared (L : Links) (el : Nat → Elem) (rp : Nat → Option Nat) (fuel : Nat) (rs : List IRoute) (st : Dedup (Option SPath))
    (h : dedup rp (newPath L el rp fuel) rs = some st) :
    st.ids.length = rs.length ∧
    (∀ (i : Nat) r, rs[i]? = some r → ∃ k p, st.ids[i]? = some k ∧ st.store[k]? = some p ∧ newPath L el rp fuel r = some p) ∧
    (∀ (i j : Nat) r r', rs[i]? = some r → rs[j]? = some r' → (st.ids[i]? = st.ids[j]? ↔ SamePath r r')) ∧
    ∀ k, k < st.store.length → ∃ i : Nat, st.ids[i]? = some k := by
  have inv := dedup_inv (fun a b => newPath_congr L el rp fuel) h
  exact ⟨inv.len, inv.made, inv.same, inv.used⟩

/-- **C109** It fails exactly if it fails for one of the routes. -/
theorem C109_fail (L : Links) (el : Nat → Elem) (rp : Nat → Option Nat) (fuel : Nat) (rs : List IRoute) :
    dedup rp (newPath L el rp fuel) rs = none ↔ ∃ r ∈ rs, newPath L el rp fuel r = none := by
  constructor
  · refine dedup_none ?_
    intro r hr
    unfold newPath
    rw [hr]; rfl
  · rintro ⟨r, hr, hn⟩
    cases h : dedup rp (newPath L el rp fuel) rs with
    | none => rfl
    | some st =>
      obtain ⟨i, hi⟩ := List.mem_iff_getElem?.1 hr
      obtain ⟨k, p, _, _, hp⟩ := (C109_shared L el rp fuel rs st h).2.1 i r hi
      rw [hn] at hp; cases hp

/-- three routes on two paths -/
example : ((connectAll (netGraph (exGraph exTys) exSecs exBorders).el (netGraph (exGraph exTys) exSecs exBorders).n).bind fun L =>
    (dedup some (newPath L (netGraph (exGraph exTys) exSecs exBorders).el some 20)
      [⟨0, 5, [true, false], [(10, .mainSignal)]⟩, ⟨0, 5, [true, false], []⟩, ⟨0, 5, [true, false], [(9, .tunnel), (10, .mainSignal), (10, .mainSignal)]⟩]).map
      fun st => (st.ids, st.store.map fun p => p.map (·.signals))) = some ([0, 1, 0], [some [8], some [2, 8]]) := by decide +kernel

/-! ### C110: the path over sections -/

section
variable {g0 : Graph} {xs : List SecIn} {bs : List (Nat × Bool × Nat)} {L : Links} {nodes : List Node}

/-- **C110** (partial: for networks that are `WellLaid`, see C82) Take sections a train runs over when it follows the course of a route.
The route starts at a border or end of track where the first section is entered or at a directed element (a signal, halt, ...) of the
first section. It ends at a border or end of track where the last section is left or at a directed element, the first time the train gets
there. Then its path is found and consists of exactly the elements of the sections from the start to the end. -/
theorem C110_route_partial (N : Net g0 xs bs L nodes) (w : WellLaid g0 xs bs) (o : SecOut) (b : Bool) (l : List (SecOut × Bool))
    (hs : ∀ p ∈ (o, b) :: l, p.1 ∈ (parseAll xs g0).2) (rp : Nat → Option Nat) (r : IRoute) (ht : Turns g0.el r.course 0 ((o, b) :: l))
    (hom : ∀ x, (x, Ty.mainSignal) ∈ r.omitted → rp x ≠ none) (a c s e : Nat) (hac : a ≤ c)
    (ha : (pathElems ((o, b) :: l))[a]? = some s) (hc : (pathElems ((o, b) :: l))[c]? = some e)
    (hrs : rp r.start = some s) (hre : rp r.fin = some e)
    (hstart : a = 0 ∧ Terminal (g0.el s).ty ∨ 0 < a ∧ a ≤ (o.towards b).length ∧ ((netGraph g0 xs bs).el s).ty.isDirected = true)
    (hend : c + 1 = (pathElems ((o, b) :: l)).length ∧ Terminal (g0.el e).ty ∨
      ((netGraph g0 xs bs).el e).ty.isDirected = true ∧ e ∉ ((pathElems ((o, b) :: l)).take c).drop a)
    (fuel : Nat) (hf : (pathElems ((o, b) :: l)).length ≤ fuel) :
    ∃ p, newPath L (netGraph g0 xs bs).el rp fuel r = some (some p) ∧
      p.nodes.map (·.1) = ((pathElems ((o, b) :: l)).take (c + 1)).drop a := by
  have v := N.valid
  have h := netCtx v
  have hfst := wayNodes_fst (netGraph g0 xs bs) ht
  have ho := hs (o, b) (by simp)
  have hdir : ∀ n ∈ wayNodes (netGraph g0 xs bs) o b l, ((netGraph g0 xs bs).el n.1).ty.isDirected = true → n = (n.1, 0) := by
    intro n hn hd
    unfold wayNodes at hn
    rcases List.mem_cons.1 hn with hn | hn
    · exfalso
      rw [hn, SecOut.leave_id] at hd
      have := (h.att o ho (!b)).pt
      rw [directed_points hd] at this
      cases this
    · exact body_directed v _ hs n hn hd
  have pick : ∀ (i x : Nat), (pathElems ((o, b) :: l))[i]? = some x → ∃ n, (wayNodes (netGraph g0 xs bs) o b l)[i]? = some n ∧ n.1 = x := by
    intro i x hx
    rw [← hfst, List.getElem?_map] at hx
    exact Option.map_eq_some_iff.1 hx
  obtain ⟨sn, hsn, hs1⟩ := pick a s ha
  obtain ⟨en, hen, he1⟩ := pick c e hc
  have hlen : (wayNodes (netGraph g0 xs bs) o b l).length = (pathElems ((o, b) :: l)).length := by rw [← hfst, List.length_map]
  -- the start
  have S : a ≤ (o.towards b).length ∧ (a = 0 → Terminal (g0.el (o.x.elem (!b))).ty) ∧ routeNode (netGraph g0 xs bs).el s true = some sn := by
    rcases hstart with ⟨rfl, hterm⟩ | ⟨h1, h2, h3⟩
    · have e1 : sn = o.leave (netGraph g0 xs bs) (!b) := by
        unfold wayNodes at hsn
        simpa using hsn.symm
      have e2 : s = o.x.elem (!b) := by rw [← hs1, e1, SecOut.leave_id]
      rw [e2] at hterm
      refine ⟨Nat.zero_le _, fun _ => hterm, ?_⟩
      obtain ⟨t1, _, t3, _⟩ := terminal_start v ho hterm
      rw [e2, t1, e1, t3]
    · refine ⟨h2, by omega, ?_⟩
      have := hdir sn (List.mem_of_getElem? hsn) (by rw [hs1]; exact h3)
      rw [routeNode_directed h3, this, hs1]
  -- the end
  have E : routeNode (netGraph g0 xs bs).el e false = some en ∧ en ∉ ((wayNodes (netGraph g0 xs bs) o b l).take c).drop a := by
    rcases hend with ⟨h1, hterm⟩ | ⟨h1, h2⟩
    · obtain ⟨q, hq, hql⟩ := body_last (netGraph g0 xs bs) l o b
      have hqm := hs q (List.mem_of_getLast? hq)
      have hwl : (wayNodes (netGraph g0 xs bs) o b l).getLast? = some en := by
        rw [List.getLast?_eq_getElem?, hlen, ← h1]
        exact hen
      have e1 : e = q.1.x.elem q.2 := by
        have : (wayNodes (netGraph g0 xs bs) o b l).getLast? = (body (netGraph g0 xs bs) ((o, b) :: l)).getLast? := by
          unfold wayNodes
          have hne : body (netGraph g0 xs bs) ((o, b) :: l) ≠ [] := by rw [body_head]; simp
          obtain ⟨m, T, hm⟩ := List.exists_cons_of_ne_nil hne
          rw [hm, List.getLast?_cons_cons]
        rw [this, hql] at hwl
        rw [← he1, ← Option.some.inj hwl, arrive_id]
      rw [e1] at hterm
      obtain ⟨f1, f2⟩ := way_fresh v hs ht hq hterm
      have e2 : en = tb (q.1.x.elem q.2) (!q.2) := Option.some.inj (hwl.symm.trans f1)
      refine ⟨by rw [e1, (terminal_start v hqm hterm).2.1, e2], ?_⟩
      rw [e2]
      intro hm
      apply f2
      rw [List.dropLast_eq_take, hlen, ← h1]
      exact List.mem_of_mem_drop hm
    · have hd := hdir en (List.mem_of_getElem? hen) (by rw [he1]; exact h1)
      refine ⟨by rw [routeNode_directed h1, hd, he1], ?_⟩
      intro hm
      apply h2
      rw [← hfst, ← List.map_take, ← List.map_drop]
      exact List.mem_map.2 ⟨en, hm, he1⟩
  obtain ⟨t, t1, t2, t3⟩ := slice hac hsn hen
  have hsteps := steps_take (way_steps v w N.links hs ht S.1 S.2.1) (c + 1 - a)
  rw [← List.drop_take, t1] at hsteps
  have hpath := follows_getPath t sn 0 fuel t2 (by rw [t3]; exact E.2) hsteps (by
    have := congrArg List.length t1
    rw [List.length_drop, List.length_take, hlen, List.length_cons] at this
    omega)
  have hms : mainSignals (netGraph g0 xs bs).el rp r (sn :: t) ≠ none := by
    unfold mainSignals
    cases hm : r.relevant.mapM rp with
    | none =>
      obtain ⟨x, hx, hn⟩ := mapM_none.1 hm
      exact absurd hn (hom x (mem_relevant.1 hx))
    | some om => simp
  obtain ⟨ms, hms⟩ := Option.ne_none_iff_exists'.1 hms
  refine ⟨⟨s, e, r.course, sn :: t, ms, nodesOfType (netGraph g0 xs bs).el .etcsStart (sn :: t),
    nodesOfType (netGraph g0 xs bs).el .etcsEnd (sn :: t)⟩, ?_, ?_⟩
  · unfold newPath
    simp only [hrs, hre, Option.bind_some, S.2.2, E.1, hpath, hms, Option.map_some]
  · show (sn :: t).map (·.1) = _
    rw [← t1, ← hfst, List.map_drop, List.map_take]

/-- **C110** (partial: for networks that are `WellLaid`) A route between ends of tracks or borders is as long as the sections its course
leads over, if the kilometrages of each section rise or fall along it. -/
theorem C110_length_partial (N : Net g0 xs bs L nodes) (w : WellLaid g0 xs bs) (km : Kms) (o : SecOut) (b : Bool) (l : List (SecOut × Bool))
    (hs : ∀ p ∈ (o, b) :: l, p.1 ∈ (parseAll xs g0).2) (rp : Nat → Option Nat) (r : IRoute) (ht : Turns g0.el r.course 0 ((o, b) :: l))
    (hom : ∀ x, (x, Ty.mainSignal) ∈ r.omitted → rp x ≠ none) (q : SecOut × Bool) (hq : ((o, b) :: l).getLast? = some q)
    (hrs : rp r.start = some (o.x.elem (!b))) (hre : rp r.fin = some (q.1.x.elem q.2))
    (h1 : Terminal (g0.el (o.x.elem (!b))).ty) (h2 : Terminal (g0.el (q.1.x.elem q.2)).ty) (hm : ∀ p ∈ (o, b) :: l, Monotone (p.1.kms km p.2))
    (fuel : Nat) (hf : (pathElems ((o, b) :: l)).length ≤ fuel) :
    ∃ p, newPath L (netGraph g0 xs bs).el rp fuel r = some (some p) ∧ p.nodes.map (·.1) = pathElems ((o, b) :: l) ∧
      lengthFromElements (netGraph g0 xs bs).el km (p.nodes.map (·.1)) = some (((o, b) :: l).map fun p => p.1.len km).sum := by
  have hfst := wayNodes_fst (netGraph g0 xs bs) ht
  have f1 := (way_fresh N.valid hs ht hq h2).1
  have hlen : (wayNodes (netGraph g0 xs bs) o b l).length = (pathElems ((o, b) :: l)).length := by rw [← hfst, List.length_map]
  have hpos : 0 < (pathElems ((o, b) :: l)).length := by rw [← hlen]; simp [wayNodes]
  have ha : (pathElems ((o, b) :: l))[0]? = some (o.x.elem (!b)) := by
    rw [← hfst]
    simp [wayNodes, SecOut.leave_id]
  have hc : (pathElems ((o, b) :: l))[(pathElems ((o, b) :: l)).length - 1]? = some (q.1.x.elem q.2) := by
    rw [← List.getLast?_eq_getElem?, ← hfst, List.getLast?_map, f1]
    rfl
  obtain ⟨p, p1, p2⟩ := C110_route_partial N w o b l hs rp r ht hom 0 _ _ _ (Nat.zero_le _) ha hc hrs hre (Or.inl ⟨rfl, h1⟩)
    (Or.inl ⟨by omega, h2⟩) fuel hf
  have p3 : p.nodes.map (·.1) = pathElems ((o, b) :: l) := by
    rw [p2, List.drop_zero, List.take_of_length_le (by omega)]
  refine ⟨p, p1, p3, ?_⟩
  rw [p3]
  have conn : ∀ (ps : List (SecOut × Bool)) (k : Nat), Turns g0.el r.course k ps → Connected (netGraph g0 xs bs).el km ps := by
    intro ps
    induction ps with
    | nil => intro _ _; trivial
    | cons x ps ih =>
      obtain ⟨o1, b1⟩ := x
      cases ps with
      | nil => intro _ _; trivial
      | cons y ps =>
        obtain ⟨o2, b2⟩ := y
        intro k hk
        exact ⟨Or.inl hk.1, ih _ hk.2.2.2⟩
  exact C106_path N.valid km _ (by simp) hs (conn _ 0 ht) hm

end

/-- from the bumper 0 over the stem of the switch 1 and the arc of the cross 2 to the border 5 -/
example : ∃ l : List (SecOut × Bool), (∀ p ∈ l, p.1 ∈ (parseAll exSecs (exGraph exTys)).2) ∧ Turns (exGraph exTys).el [true, false] 0 l ∧
    pathElems l = [0, 9, 10, 11, 1, 13, 2, 23, 24, 25, 5] ∧ Terminal ((exGraph exTys).el 0).ty ∧ Terminal ((exGraph exTys).el 5).ty :=
  ⟨[((parseAll exSecs (exGraph exTys)).2[0]'(by decide +kernel), false), ((parseAll exSecs (exGraph exTys)).2[1]'(by decide +kernel), false),
    ((parseAll exSecs (exGraph exTys)).2[4]'(by decide +kernel), false)], by simp, ⟨by decide +kernel, by decide +kernel, by decide +kernel,
    by decide +kernel, by decide +kernel, by decide +kernel, trivial⟩, by decide +kernel, Or.inr (Or.inl rfl), Or.inl rfl⟩

/-! ### C111: the stations a route comes from and leads to -/

section
variable {g0 : Graph} {xs : List SecIn} {bs : List (Nat × Bool × Nat)} {L : Links} {nodes : List Node}

/-- the last node of a path is that of the end of its route -/
theorem path_last {L : Links} {el : Nat → Elem} {rp : Nat → Option Nat} {fuel : Nat} {r : IRoute} {p : SPath} {i : Nat} {n : Node}
    (h : newPath L el rp fuel r = some (some p)) (hi : rp r.fin = some i) (hn : routeNode el i false = some n) : p.nodes.getLast? = some n := by
  obtain ⟨_, h2, _, ⟨s, e, _, h4, h5⟩, _⟩ := C108_route L el rp fuel r p h
  obtain rfl := Option.some.inj (hi.symm.trans h2)
  rw [h5.reached, ← h4, hn]

theorem path_first {L : Links} {el : Nat → Elem} {rp : Nat → Option Nat} {fuel : Nat} {r : IRoute} {p : SPath} {i : Nat} {n : Node}
    (h : newPath L el rp fuel r = some (some p)) (hi : rp r.start = some i) (hn : routeNode el i true = some n) : p.nodes.head? = some n := by
  obtain ⟨h2, _, _, ⟨s, e, h4, _, h5⟩, _⟩ := C108_route L el rp fuel r p h
  obtain rfl := Option.some.inj (hi.symm.trans h2)
  rw [h5.first, ← h4, hn]

/-- **C111** A route that ends at a border leads to the station of the other border connected to it, if that is another station, and to no
station if there is none. -/
theorem C111_to_border (N : Net g0 xs bs L nodes) (st : Nat → Nat) (own fuel : Nat) (rp : Nat → Option Nat) (r : IRoute) (p : SPath)
    (hp : newPath L (netGraph g0 xs bs).el rp fuel r = some (some p)) (i : Nat) (hi : i < g0.n) (hb : (g0.el i).ty = .border)
    (hr : rp r.fin = some i) :
    (∀ j, (∃ low, (i, low, j) ∈ bs) → (∀ t ∈ bs, t.1 = i → t.2.2 = j) →
      toStation L st own p.nodes = if st j = own then none else some (st j)) ∧
    ((∀ t ∈ bs, t.1 ≠ i) → toStation L st own p.nodes = none) := by
  have v := N.valid
  have h := netCtx v
  obtain ⟨o, ho, b, rfl, _⟩ := h.comp i hi .only (by rw [hb]; simp [Ty.points])
  have hl := path_last hp hr (terminal_start v ho (Or.inl hb)).2.1
  have hn := (h.border_next N.links ho b (by rw [(h.ty _ hi).1, hb])).1
  constructor
  · intro j hj hu
    rw [partners_eq bs _ _ _ hj hu] at hn
    unfold toStation
    rw [hl, Option.bind_some, hn, Option.map_some, Option.bind_some, tb_id]
    by_cases e : st j = own <;> simp [e]
  · intro hno
    have : partners bs (fun _ => none) (o.x.elem b) = none := by
      cases hc : partners bs (fun _ => none) (o.x.elem b) with
      | none => rfl
      | some j =>
        rcases partners_mem _ _ _ _ hc with ⟨low, hm⟩ | h'
        · exact absurd rfl (hno _ hm)
        · cases h'
    rw [this] at hn
    unfold toStation
    rw [hl, Option.bind_some, hn]
    rfl

/-- **C111** A route that ends at a bumper or end of track leads to no station. -/
theorem C111_to_end (N : Net g0 xs bs L nodes) (st : Nat → Nat) (own fuel : Nat) (rp : Nat → Option Nat) (r : IRoute) (p : SPath)
    (hp : newPath L (netGraph g0 xs bs).el rp fuel r = some (some p)) (i : Nat) (hi : i < g0.n)
    (hb : (g0.el i).ty = .bumper ∨ (g0.el i).ty = .trackEnd) (hr : rp r.fin = some i) : toStation L st own p.nodes = none := by
  have v := N.valid
  have h := netCtx v
  have hterm : Terminal (g0.el i).ty := Or.inr hb
  obtain ⟨o, ho, b, rfl, _⟩ := h.comp i hi .only (by rw [hterm.points]; simp)
  have hl := path_last hp hr (terminal_start v ho hterm).2.1
  obtain ⟨_, _, hri⟩ := terminal_rising v ho hterm
  rw [← (h.ty _ hi).1] at hb
  have hn : L.get false (tb (o.x.elem b) (!b)) = none := by
    refine link_none N.links ?_
    intro t ht
    rw [tb_id] at ht
    unfold entries at ht
    rcases hb with hb | hb <;> simp [hb, hri, Ty.isEnd, Ty.id, tb_inj] at ht <;> revert ht <;> cases b <;> simp [tb_inj]
  unfold toStation
  rw [hl, Option.bind_some]
  have hn : L.next (tb (o.x.elem b) (!b)) = none := hn
  rw [hn]
  rfl

/-- **C111** A route that ends at a directed element leads to no other station, if the section from there on lies in its own station. -/
theorem C111_to_inner (N : Net g0 xs bs L nodes) (st : Nat → Nat) (own fuel : Nat) (rp : Nat → Option Nat) (r : IRoute) (p : SPath)
    (hp : newPath L (netGraph g0 xs bs).el rp fuel r = some (some p)) (i : Nat) (o : SecOut) (ho : o ∈ (parseAll xs g0).2) (b : Bool)
    (hi : i ∈ o.towards b) (hd : ((netGraph g0 xs bs).el i).ty.isDirected = true) (hr : rp r.fin = some i)
    (hst : ∀ x ∈ o.towards b, st x = own) (hste : st (o.x.elem b) = own) : toStation L st own p.nodes = none := by
  have h := netCtx N.valid
  have hl := path_last hp hr (routeNode_directed hd false)
  obtain ⟨j, hj⟩ := List.mem_iff_getElem?.1 hi
  have hj' : (o.nodes (netGraph g0 xs bs).el b)[j]? = some (i, 0) := by
    unfold SecOut.nodes
    rw [List.getElem?_map, hj, Option.map_some]
    unfold trackNode
    rw [if_pos hd]
  have hn := (h.chain N.links ho hj').1
  unfold toStation
  rw [hl, Option.bind_some, hn, Option.bind_some]
  have : st ((o.nodes (netGraph g0 xs bs).el b)[j + 1]?.getD
      (Soro.Infra.arrive (o.x.elem b) ((netGraph g0 xs bs).el (o.x.elem b)) (o.x.pt b) b)).1 = own := by
    cases hm : (o.nodes (netGraph g0 xs bs).el b)[j + 1]? with
    | none => rw [Option.getD_none, arrive_id]; exact hste
    | some m =>
      rw [Option.getD_some]
      apply hst
      rw [← nodes_fst o (netGraph g0 xs bs).el b]
      exact List.mem_map.2 ⟨m, List.mem_of_getElem? hm, rfl⟩
  rw [this]
  simp

/-- **C111** (partial: for networks that are `WellLaid`) A route that starts at a border comes from the station of the border that is
connected to it, if that is another station, and from no station if there is none. -/
theorem C111_from_border_partial (N : Net g0 xs bs L nodes) (w : WellLaid g0 xs bs) (st : Nat → Nat) (own fuel : Nat) (rp : Nat → Option Nat)
    (r : IRoute) (p : SPath) (hp : newPath L (netGraph g0 xs bs).el rp fuel r = some (some p)) (i : Nat) (hi : i < g0.n)
    (hb : (g0.el i).ty = .border) (hr : rp r.start = some i) :
    (∀ j, (∃ low, (j, low, i) ∈ bs) → fromStation (reverseEdges L nodes) st own p.nodes = if st j = own then none else some (st j)) ∧
    ((∀ t ∈ bs, t.2.2 ≠ i) → fromStation (reverseEdges L nodes) st own p.nodes = none) := by
  have v := N.valid
  have h := netCtx v
  obtain ⟨o, ho, b, rfl, _⟩ := h.comp i hi .only (by rw [hb]; simp [Ty.points])
  have hl := path_first hp hr (terminal_start v ho (Or.inl hb)).1
  have hb' : ((netGraph g0 xs bs).el (o.x.elem b)).ty = .border := by rw [(h.ty _ hi).1, hb]
  have pred : ∀ u ∈ reverseEdges L nodes (tb (o.x.elem b) b), ∃ low, (u.1, low, o.x.elem b) ∈ bs := by
    intro u hu
    obtain ⟨br, e⟩ := ((mem_reverse N.all).1 hu).get
    obtain ⟨_, ⟨e1, _⟩ | ⟨o', ho', c, e1, _, _, rfl⟩⟩ := h.pred_border N.links ho hb' e
    · revert e1; cases b <;> simp
    · rcases partners_mem _ _ _ _ e1 with ⟨low, hm⟩ | h'
      · exact ⟨low, by rw [tb_id]; exact hm⟩
      · cases h'
  unfold fromStation
  rw [hl, Option.bind_some]
  constructor
  · rintro j ⟨low, hj⟩
    obtain ⟨hji, _, hjb, _, _⟩ := v.borders _ hj
    obtain ⟨o', ho', c, rfl, _⟩ := h.comp j hji .only (by rw [hjb]; simp [Ty.points])
    have hpart : partners bs (fun _ => none) (o'.x.elem c) = some (o.x.elem b) :=
      partners_eq bs _ _ _ ⟨low, hj⟩ fun t ht e => (w.one t ht _ hj).1 e
    have hn := (h.border_next N.links ho' c (by rw [(h.ty _ hji).1, hjb])).1
    rw [hpart, Option.map_some] at hn
    have hbc := w.pair _ hj _ (parse_mem ho') _ (parse_mem ho) c b rfl rfl
    rw [← hbc] at hn
    have hmem : tb (o'.x.elem c) b ∈ reverseEdges L nodes (tb (o.x.elem b) b) := (mem_reverse N.all).2 (Or.inl hn)
    cases hrev : reverseEdges L nodes (tb (o.x.elem b) b) with
    | nil => rw [hrev] at hmem; cases hmem
    | cons u T =>
      obtain ⟨low', hu⟩ := pred u (by rw [hrev]; simp)
      have e1 : u.1 = o'.x.elem c := (w.one _ hu _ hj).2 rfl
      rw [List.head?_cons, Option.bind_some, e1]
      by_cases e : st (o'.x.elem c) = own <;> simp [e]
  · intro hno
    cases hrev : reverseEdges L nodes (tb (o.x.elem b) b) with
    | nil => rfl
    | cons u T =>
      obtain ⟨low', hu⟩ := pred u (by rw [hrev]; simp)
      exact absurd rfl (hno _ hu)

/-- **C111** (partial: for networks that are `WellLaid`) A route that starts at a bumper or end of track comes from no station. -/
theorem C111_from_end_partial (N : Net g0 xs bs L nodes) (w : WellLaid g0 xs bs) (st : Nat → Nat) (own fuel : Nat) (rp : Nat → Option Nat)
    (r : IRoute) (p : SPath) (hp : newPath L (netGraph g0 xs bs).el rp fuel r = some (some p)) (i : Nat) (hi : i < g0.n)
    (hb : (g0.el i).ty = .bumper ∨ (g0.el i).ty = .trackEnd) (hr : rp r.start = some i) :
    fromStation (reverseEdges L nodes) st own p.nodes = none := by
  have v := N.valid
  have h := netCtx v
  have hterm : Terminal (g0.el i).ty := Or.inr hb
  obtain ⟨o, ho, b, rfl, _⟩ := h.comp i hi .only (by rw [hterm.points]; simp)
  have ts := terminal_start v ho hterm
  have hl := path_first hp hr ts.1
  obtain ⟨d, n, h1, h2, h3, h4⟩ := C105_end_partial N w ho b hb
  have h5 := h.reverse_leave (kmOk v w) N.links N.all ho h1
  rw [h3] at h5
  injection h5 with h5
  rw [h5, ts.2.2.1, (C105_pred N _).2] at h4
  have : reverseEdges L nodes (tb (o.x.elem b) b) = [] := by
    rw [List.eq_nil_iff_forall_not_mem]
    exact fun u hu => h4 u ((mem_reverse N.all).1 hu)
  unfold fromStation
  rw [hl, Option.bind_some, this]
  rfl

/-- **C111** (partial: for networks that are `WellLaid`) A route that starts at a directed element comes from no other station, if the
section up to there lies in its own station. -/
theorem C111_from_inner_partial (N : Net g0 xs bs L nodes) (w : WellLaid g0 xs bs) (st : Nat → Nat) (own fuel : Nat) (rp : Nat → Option Nat)
    (r : IRoute) (p : SPath) (hp : newPath L (netGraph g0 xs bs).el rp fuel r = some (some p)) (i : Nat) (o : SecOut)
    (ho : o ∈ (parseAll xs g0).2) (b : Bool) (hi : i ∈ o.towards b) (hd : ((netGraph g0 xs bs).el i).ty.isDirected = true)
    (hr : rp r.start = some i) (hst : ∀ x ∈ o.towards b, st x = own) (hste : st (o.x.elem (!b)) = own) :
    fromStation (reverseEdges L nodes) st own p.nodes = none := by
  have h := netCtx N.valid
  have hkm := kmOk N.valid w
  have hl := path_first hp hr (routeNode_directed hd true)
  obtain ⟨j, hj⟩ := List.mem_iff_getElem?.1 hi
  have hj' : (o.nodes (netGraph g0 xs bs).el b)[j]? = some (i, 0) := by
    unfold SecOut.nodes
    rw [List.getElem?_map, hj, Option.map_some]
    unfold trackNode
    rw [if_pos hd]
  have pred : ∀ u ∈ reverseEdges L nodes (i, 0), st u.1 = own := by
    intro u hu
    obtain ⟨br, e⟩ := ((mem_reverse N.all).1 hu).get
    cases j with
    | zero =>
      rw [← List.head?_eq_getElem?] at hj'
      have := (h.head_pred hkm N.links ho (c := !b) (by rw [Bool.not_not]; exact hj') e).1
      rw [this]; exact hste
    | succ j =>
      have hlt := (List.getElem?_eq_some_iff.1 hj').1
      have hpj : (o.nodes (netGraph g0 xs bs).el b)[j]? = some ((o.nodes (netGraph g0 xs bs).el b)[j]'(by omega)) := List.getElem?_eq_getElem _
      obtain ⟨_, rfl⟩ := h.inner_pred hkm N.links ho hj' hpj e
      apply hst
      rw [← nodes_fst o (netGraph g0 xs bs).el b]
      exact List.mem_map.2 ⟨_, List.getElem_mem _, rfl⟩
  unfold fromStation
  rw [hl, Option.bind_some]
  cases hrev : reverseEdges L nodes (i, 0) with
  | nil => rfl
  | cons u T =>
    rw [List.head?_cons, Option.bind_some, pred u (by rw [hrev]; simp)]
    simp

end

/-- **C110** fails without `WellLaid`: a course leads over two sections with a kilometrage jump between them whose start is the end of the
first one. The search for the path of the route never ends. -/
theorem C110_jump_negation : ¬ ∀ (g0 : Graph) (xs : List SecIn) (bs : List (Nat × Bool × Nat)) (L : Links) (nodes : List Node),
    Net g0 xs bs L nodes → ∀ (o : SecOut) (b : Bool) (l : List (SecOut × Bool)), (∀ p ∈ (o, b) :: l, p.1 ∈ (parseAll xs g0).2) →
      ∀ (r : IRoute), Turns g0.el r.course 0 ((o, b) :: l) → r.omitted = [] → ∀ q, ((o, b) :: l).getLast? = some q →
        r.start = o.x.elem (!b) → r.fin = q.1.x.elem q.2 → Terminal (g0.el (o.x.elem (!b))).ty → Terminal (g0.el (q.1.x.elem q.2)).ty →
          ∃ fuel p, newPath L (netGraph g0 xs bs).el some fuel r = some (some p) := by
  intro hall
  obtain ⟨L, N⟩ := someNet badJumpNet
  have key : ∃ o o' : SecOut, (parseAll badJump (exGraph [.bumper, .kmJump, .bumper])).2 = [o, o'] ∧
      o.x = ⟨0, .only, 1, .start, 0, exUp, exDown⟩ ∧ o'.x = ⟨1, .fin, 2, .only, 0, exUp, exDown⟩ := ⟨_, _, rfl, rfl, rfl⟩
  obtain ⟨o, o', h1, h2, h3⟩ := key
  have ht : Turns (exGraph [.bumper, .kmJump, .bumper]).el [] 0 [(o, false), (o', false)] := by
    unfold Turns
    rw [h2, h3]
    refine ⟨rfl, by decide, Or.inl ⟨by decide, by decide⟩, ?_⟩
    unfold Turns
    trivial
  obtain ⟨fuel, p, h⟩ := hall _ _ _ _ _ N o false [(o', false)] (by rw [h1]; simp) ⟨0, 2, [], []⟩ ht rfl (o', false) rfl
    (by rw [h2]; rfl) (by rw [h3]; rfl) (by rw [h2]; exact Or.inr (Or.inl rfl)) (by rw [h3]; exact Or.inr (Or.inl rfl))
  have comp : (connectAll (netGraph (exGraph [.bumper, .kmJump, .bumper]) badJump []).el (netGraph (exGraph [.bumper, .kmJump, .bumper]) badJump []).n).map
      (fun L => getPath L (netGraph (exGraph [.bumper, .kmJump, .bumper]) badJump []).el [] (2, 0)
        ((someNodes (netGraph (exGraph [.bumper, .kmJump, .bumper]) badJump []).n).length * 1 + 2) (some (0, 0)) 0) = some .running := by decide +kernel
  rw [N.links, Option.map_some, Option.some.injEq] at comp
  have run := getPath_bound N.all comp fuel
  have r1 : routeNode (netGraph (exGraph [.bumper, .kmJump, .bumper]) badJump []).el 0 true = some (0, 0) := by decide +kernel
  have r2 : routeNode (netGraph (exGraph [.bumper, .kmJump, .bumper]) badJump []).el 2 false = some (2, 0) := by decide +kernel
  unfold newPath at h
  simp only [Option.bind_some, r1, r2, run] at h
  cases h

/-- **C111** fails without `WellLaid`: two connected borders both are the ends of their sections. A route that starts at one of them comes
from no station. -/
theorem C111_from_negation : ¬ ∀ (g0 : Graph) (xs : List SecIn) (bs : List (Nat × Bool × Nat)) (L : Links) (nodes : List Node),
    Net g0 xs bs L nodes → (∀ t ∈ bs, ∀ t' ∈ bs, t.1 = t'.1 ↔ t.2.2 = t'.2.2) → ∀ (st : Nat → Nat) (own fuel : Nat) (r : IRoute) (p : SPath),
      newPath L (netGraph g0 xs bs).el some fuel r = some (some p) → r.start < g0.n → (g0.el r.start).ty = .border →
        ∀ j low, (j, low, r.start) ∈ bs → st j ≠ own → fromStation (reverseEdges L nodes) st own p.nodes = some (st j) := by
  intro hall
  obtain ⟨L, N⟩ := someNet twoEndsNet
  have comp : (connectAll (netGraph (exGraph [.bumper, .border, .bumper, .border]) twoEnds [(1, false, 3), (3, false, 1)]).el
      (netGraph (exGraph [.bumper, .border, .bumper, .border]) twoEnds [(1, false, 3), (3, false, 1)]).n).map
      (fun L => (newPath L (netGraph (exGraph [.bumper, .border, .bumper, .border]) twoEnds [(1, false, 3), (3, false, 1)]).el some 20 ⟨1, 0, [], []⟩).map fun p =>
        p.map fun p => fromStation (reverseEdges L (someNodes (netGraph (exGraph [.bumper, .border, .bumper, .border]) twoEnds [(1, false, 3), (3, false, 1)]).n))
          (fun i => if i ≤ 1 then 1 else 2) 1 p.nodes) = some (some (some none)) := by decide +kernel
  rw [N.links, Option.map_some, Option.some.injEq] at comp
  obtain ⟨q, hq, hc⟩ := Option.map_eq_some_iff.1 comp
  obtain ⟨p, rfl, hp⟩ := Option.map_eq_some_iff.1 hc
  have := hall _ _ _ _ _ N (by decide) (fun i => if i ≤ 1 then 1 else 2) 1 20 _ p hq (by decide) (by decide) 3 false (by decide) (by decide)
  rw [hp] at this
  cases this

/-- from the end of track 7 to the border 6, whose partner 5 is in another station; the way back starts at the border 6 -/
example : ((connectAll (netGraph (exGraph exTys) exSecs exBorders).el (netGraph (exGraph exTys) exSecs exBorders).n).map fun L =>
    (((newPath L (netGraph (exGraph exTys) exSecs exBorders).el some 20 ⟨7, 6, [], []⟩).bind id).map fun p =>
      (toStation L (fun i => if i = 5 then 2 else 1) 1 p.nodes,
        fromStation (reverseEdges L (someNodes (netGraph (exGraph exTys) exSecs exBorders).n)) (fun i => if i = 5 then 2 else 1) 1 p.nodes),
     ((newPath L (netGraph (exGraph exTys) exSecs exBorders).el some 20 ⟨6, 7, [], []⟩).bind id).map fun p =>
      (toStation L (fun i => if i = 5 then 2 else 1) 1 p.nodes,
        fromStation (reverseEdges L (someNodes (netGraph (exGraph exTys) exSecs exBorders).n)) (fun i => if i = 5 then 2 else 1) 1 p.nodes))) =
    some (some (some 2, none), some (none, some 2)) := by decide +kernel

end Soro.Infra
