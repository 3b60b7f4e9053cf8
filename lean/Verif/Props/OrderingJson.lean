import Verif.Proof.OrderingJson
import Verif.Props.OrderingGraph

/-! Properties C130 - C132: the request for an ordering graph and its answer. -/

namespace Soro
open OrderingGraph OrderingJson Utls Utls.Spec

/-! ### C130 -/

/-- C130: the parameters are accepted iff both times are decimal 32-bit numbers, the first not after the second, and the
train ids are a comma separated list of such numbers. The filter then holds exactly these values. -/
theorem C130_parameters (frm till ids : List Char) (f : Filter) :
    paramsToFilter frm till ids = some f ↔
      ∃ a b : Nat, IsNumber frm a ∧ IsNumber till b ∧ a ≤ b ∧ f.start = a ∧ f.stop = b ∧ Lists ids f.trains := by
  unfold paramsToFilter
  cases ha : tryParseInt u32 frm with
  | none =>
    refine ⟨(fun h => nomatch h), ?_⟩
    rintro ⟨a, b, h1, _⟩
    rw [(parse_number frm a).2 ⟨a, rfl, h1⟩] at ha
    cases ha
  | some a =>
    obtain ⟨a, rfl, h1⟩ := (parse_number frm a).1 ha
    cases hb : tryParseInt u32 till with
    | none =>
      refine ⟨(fun h => nomatch h), ?_⟩
      rintro ⟨_, b, _, h2, _⟩
      rw [(parse_number till b).2 ⟨b, rfl, h2⟩] at hb
      cases hb
    | some b =>
      obtain ⟨b, rfl, h2⟩ := (parse_number till b).1 hb
      obtain ⟨fs, fe, ft⟩ := f
      dsimp only
      constructor
      · intro h
        split at h
        · rename_i hab
          obtain ⟨ts, h3, h4⟩ := Option.map_eq_some_iff.1 h
          cases h4
          exact ⟨a, b, h1, h2, by omega, rfl, rfl, (trainIds_spec _ _).1 h3⟩
        · cases h
      · rintro ⟨a', b', h3, h4, h5, rfl, rfl, h6⟩
        have e1 : a' = a := by rw [← h3.2.2.1, ← h1.2.2.1]
        have e2 : b' = b := by rw [← h4.2.2.1, ← h2.2.2.1]
        subst e1 e2
        rw [if_pos (by omega), (trainIds_spec _ _).2 h6]
        rfl

/-- C130: a list of numbers is read in one way only. -/
theorem C130_unique {csv : List Char} {ns ms : List Nat} (h1 : Lists csv ns) (h2 : Lists csv ms) : ns = ms := by
  rw [← trainIds_spec] at h1 h2
  rw [h1] at h2
  exact Option.some.inj h2

example : IsNumber "1654".toList 1654 ∧ Lists "7,12".toList [7, 12] ∧
    paramsToFilter "10".toList "1654".toList "7,12".toList = some ⟨10, 1654, [7, 12]⟩ :=
  ⟨⟨by decide, by decide, by decide, by decide⟩,
    .more "7".toList 7 "12".toList [12] ⟨by decide, by decide, by decide, by decide⟩ (by decide)
      (.one _ _ ⟨by decide, by decide, by decide, by decide⟩), by decide⟩
example : paramsToFilter "10".toList "1654".toList ",7".toList = none ∧
    paramsToFilter "10".toList "9".toList [] = none ∧ paramsToFilter "10".toList "4294967296".toList [] = none ∧
    paramsToFilter "10".toList "10".toList [] = some ⟨10, 10, []⟩ := by decide

/-! ### C131 -/

/-- C131: the document of a constructed graph holds every node and every edge of the graph exactly once, and both ends of
every edge are nodes of the document. A node carries train and route, as offset its position in the path of its trip, and
as `relativeTrainId` the position of its trip in an order of all trips by departure. The attributes are the number of trips
and the length of the longest path. -/
theorem C131_document {srtU : Nat → List Usage → List Usage} (hs : IsSorter srtU)
    {srtT : List OTrain → List Trip → List Trip} (ht : SortsTrips srtT) {setCount : Nat} {irsToSets : List (List Nat)}
    {filter : List Nat} {trains : List OTrain} (h : WellFormed setCount irsToSets filter trains) (hok : TimetableOk trains) :
    ∃ g m d, construct srtU setCount irsToSets filter trains = some (g, m) ∧ serialize (srtT trains) g m = some d ∧
      (d.nodes.map JNode.key).Perm (List.range g.length) ∧
      d.edges.Perm (g.flatMap fun n => n.outs.map fun t => (n.id, t)) ∧
      (∀ e ∈ d.edges, e.1 ∈ d.nodes.map JNode.key ∧ e.2 ∈ d.nodes.map JNode.key) ∧
      (∃ order : List (OTrain × Int), order.Perm (allTrips filter trains) ∧
        (order.Pairwise fun s t => departs s ≤ departs t) ∧
        ∀ n ∈ d.nodes, ∃ j p tr a, IsStep (allTrips filter trains) n.key j p tr a n.route ∧ n.train = tr.id ∧
          n.offset = p ∧ order[n.rel]? = some (tr, a)) ∧
      d.totalTrains = (allTrips filter trains).length ∧
      (∀ t ∈ allTrips filter trains, t.1.path.length ≤ d.maxLength) ∧
      (d.maxLength = 0 ∨ ∃ t ∈ allTrips filter trains, d.maxLength = t.1.path.length) := by
  have hnd : ((allTrips filter trains).map fun t => (t.1.id, t.2)).Nodup :=
    trips_nodup _ (((selected_sublist filter trains).map OTrain.id).nodup (ids_nodup hok.1))
      fun tr htr => hok.2 tr ((selected_sublist filter trains).subset htr)
  obtain ⟨g, m, h1, hlen, hcov, hnode⟩ := C20_nodes hs h
  obtain ⟨_, _, _, h5, _, _⟩ := construct_spec hs h
  rw [h1] at h5
  cases h5
  obtain ⟨_, g', _, _, h6, _, _, _, _, hvalid⟩ := C21_mirror hs h
  rw [h1] at h6
  cases h6
  generalize hts : allTrips filter trains = ts at *
  rw [emplaceAll_rows ts 0 [] hnd (by simp)] at h1
  simp only [List.nil_append] at h1
  obtain ⟨hperm, hsorted⟩ := ht trains ((rows 0 ts).map toTrip)
  obtain ⟨rs, hrs, hrp⟩ := perm_of_map hperm _ rfl
  have hend : ∀ e ∈ srtT trains ((rows 0 ts).map toTrip), e.2.2 ≤ g.length := by
    intro e he
    rw [hrs] at he
    obtain ⟨r, hr, rfl⟩ := List.mem_map.1 he
    have hr' := hrp.subset hr
    have hall := rows_ranges ts 0
    by_cases h0 : r.1.1.path.length = 0
    · obtain ⟨j, _, hj⟩ := rows_get ts 0 hr'
      simp only [toTrip, h0, hj, hlen, offset, Nat.zero_add, Nat.add_zero]
      have := List.take_append_drop j (ts.map fun t => t.1.path.length)
      rw [← this, List.sum_append, List.map_take]
      omega
    · have hmem : r.2 + (r.1.1.path.length - 1) ∈ (rows 0 ts).flatMap (fun r => List.range' r.2 r.1.1.path.length) :=
        List.mem_flatMap.2 ⟨r, hr', List.mem_range'_1.2 (by omega)⟩
      rw [hall] at hmem
      have := List.mem_range'_1.1 hmem
      simp only [toTrip]
      omega
  have hser := writeTrips_spec g _ 0 ⟨[], [], 0, 0⟩ hend
  refine ⟨g, _, _, h1, hser, ?_⟩
  simp only [List.nil_append, Nat.zero_add]
  -- all nodes, trip by trip
  have hnodes : ((srtT trains ((rows 0 ts).map toTrip)).flatMap (tripRange g)).Perm g := by
    refine (hperm.flatMap_right _).trans ?_
    have : ((rows 0 ts).map toTrip).flatMap (tripRange g) = g := by
      conv_rhs => rw [← filterMap_all g, hlen, ← rows_ranges ts 0, List.filterMap_flatMap]
      rw [List.flatMap_map]
      congr 1
      funext r
      simp [tripRange, toTrip]
    rw [this]
  have hkeys : (((srtT trains ((rows 0 ts).map toTrip)).zipIdx 0).flatMap fun e =>
      (tripRange g e.1).map (jnode e.1.2.1 e.2)).map JNode.key =
      ((srtT trains ((rows 0 ts).map toTrip)).flatMap (tripRange g)).map ONode.id := by
    generalize srtT trains ((rows 0 ts).map toTrip) = es
    generalize 0 = k
    induction es generalizing k with
    | nil => rfl
    | cons e es ih =>
      rw [List.zipIdx_cons, List.flatMap_cons, List.flatMap_cons, List.map_append, List.map_append, ih]
      congr 1
      simp [jnode]
  have hids : g.map ONode.id = List.range g.length := by
    apply List.ext_getElem?
    intro i
    rw [List.getElem?_map]
    by_cases hi : i < g.length
    · rw [List.getElem?_eq_getElem hi, List.getElem?_range hi]
      simp [hvalid.1 i _ (List.getElem?_eq_getElem hi)]
    · rw [List.getElem?_eq_none (by omega), List.getElem?_eq_none (by simp; omega)]; rfl
  have hkp := hnodes.map ONode.id
  rw [hids] at hkp
  refine ⟨by rw [hkeys]; exact hkp, hnodes.flatMap_right _, ?_, ?_, ?_, ?_, ?_⟩
  · intro e he
    rw [hkeys]
    obtain ⟨n, hn, he⟩ := List.mem_flatMap.1 he
    have hng := hnodes.subset hn
    obtain ⟨t, hto, rfl⟩ := List.mem_map.1 he
    refine ⟨List.mem_map.2 ⟨n, hn, rfl⟩, hkp.symm.subset (List.mem_range.2 (hvalid.2.1 n hng t hto))⟩
  · refine ⟨rs.map Prod.fst, ?_, ?_, ?_⟩
    · have := hrp.map Prod.fst
      rwa [rows_fst] at this
    · rw [hrs] at hsorted
      rw [List.pairwise_map] at hsorted ⊢
      refine hsorted.imp_of_mem fun {r s} hr hs' hle => ?_
      have key : ∀ r ∈ rs, departureOf trains (toTrip r) = departs r.1 := by
        intro r hr
        obtain ⟨j, hj, _⟩ := rows_get ts 0 (hrp.subset hr)
        have hmem := List.mem_of_getElem? hj
        rw [← hts, allTrips] at hmem
        obtain ⟨tr, htr, hmem⟩ := List.mem_flatMap.1 hmem
        obtain ⟨a, _, hra⟩ := List.mem_map.1 hmem
        obtain ⟨i, hi⟩ := List.mem_iff_getElem?.1 ((selected_sublist filter trains).subset htr)
        have hid := hok.1 i tr hi
        obtain ⟨r1, r2⟩ := r
        cases hra
        simp only [departureOf, toTrip, departs]
        rw [hid, hi]
        simp
      rw [key r hr, key s hs'] at hle
      exact hle
    · intro n hn
      obtain ⟨⟨e, k⟩, he, hn⟩ := List.mem_flatMap.1 hn
      obtain ⟨o, ho, rfl⟩ := List.mem_map.1 hn
      obtain ⟨_, hk, hek⟩ := List.mem_zipIdx he
      simp only [Nat.sub_zero] at hek
      obtain ⟨i, hi, hio⟩ := List.mem_filterMap.1 ho
      have hek' : (rs.map toTrip)[k]? = some e := by
        rw [← hrs, hek]
        exact List.getElem?_eq_getElem _
      rw [List.getElem?_map] at hek'
      obtain ⟨r, hrk, rfl⟩ := Option.map_eq_some_iff.1 hek'
      obtain ⟨j, hj, hoff⟩ := rows_get ts 0 (hrp.subset (List.mem_of_getElem? hrk))
      obtain ⟨⟨tr, a⟩, first⟩ := r
      simp only [toTrip, Nat.zero_add] at hi hoff hj
      have hir := List.mem_range'_1.1 hi
      have hp : i - first < tr.path.length := by omega
      have hst : IsStep ts i j (i - first) tr a tr.path[i - first] :=
        ⟨hj, by omega, List.getElem?_eq_getElem hp⟩
      obtain ⟨n', hn', hid, hroute, htrain⟩ := hnode _ _ _ _ _ _ hst
      rw [hio] at hn'
      cases hn'
      refine ⟨j, i - first, tr, a, ?_, htrain, ?_, ?_⟩
      · simp only [jnode, hid, hroute]; exact hst
      · simp [jnode, hid, toTrip]
      · simp [jnode, hrk]
  · rw [hperm.length_eq, List.length_map]
    have := congrArg List.length (rows_fst ts 0)
    rwa [List.length_map] at this
  · intro t htt
    rw [← rows_fst ts 0] at htt
    obtain ⟨r, hr, rfl⟩ := List.mem_map.1 htt
    have := (foldl_max (fun e => e.2.2 - e.2.1) (srtT trains ((rows 0 ts).map toTrip)) 0).2.1 (toTrip r)
      (hperm.symm.subset (List.mem_map_of_mem hr))
    simpa [toTrip] using this
  · rcases (foldl_max (fun e => e.2.2 - e.2.1) (srtT trains ((rows 0 ts).map toTrip)) 0).2.2 with h | ⟨e, he, h⟩
    · exact .inl h
    · obtain ⟨r, hr, rfl⟩ := List.mem_map.1 (hperm.subset he)
      refine .inr ⟨r.1, ?_, by rw [h]; simp [toTrip]⟩
      rw [← rows_fst ts 0]
      exact List.mem_map_of_mem hr

/-- insertion sort by departure -/
def insertTrip (trains : List OTrain) (e : Trip) : List Trip → List Trip
  | [] => [e]
  | f :: l => if departureOf trains e ≤ departureOf trains f then e :: f :: l else f :: insertTrip trains e l

def sortTrips (trains : List OTrain) (l : List Trip) : List Trip := l.foldr (insertTrip trains) []

theorem insertTrip_spec (trains : List OTrain) (e : Trip) (l : List Trip)
    (h : l.Pairwise fun a b => departureOf trains a ≤ departureOf trains b) : (insertTrip trains e l).Perm (e :: l) ∧
      (insertTrip trains e l).Pairwise fun a b => departureOf trains a ≤ departureOf trains b := by
  induction l with
  | nil => exact ⟨.refl _, by simp [insertTrip]⟩
  | cons f l ih =>
    obtain ⟨h1, h2⟩ := List.pairwise_cons.1 h
    obtain ⟨h3, h4⟩ := ih h2
    unfold insertTrip
    split
    · rename_i hef
      refine ⟨.refl _, List.pairwise_cons.2 ⟨fun w hw => ?_, h⟩⟩
      rcases List.mem_cons.1 hw with rfl | hw
      · exact hef
      · exact Int.le_trans hef (h1 w hw)
    · rename_i hef
      refine ⟨(List.Perm.cons f h3).trans (.swap e f l), List.pairwise_cons.2 ⟨fun w hw => ?_, h4⟩⟩
      rcases List.mem_cons.1 (h3.mem_iff.1 hw) with rfl | hw
      · omega
      · exact h1 w hw

theorem sortTrips_spec : SortsTrips sortTrips := by
  intro trains l
  induction l with
  | nil => exact ⟨.refl _, .nil⟩
  | cons e l ih =>
    obtain ⟨h1, h2⟩ := insertTrip_spec trains e (sortTrips trains l) ih.2
    exact ⟨h1.trans (ih.1.cons e), h2⟩

/-! A timetable with ids that are positions: train 0 runs at 0 and 1000, train 1 at 100. -/

def exOrdering : List OTrain := [⟨0, [0, 1, 2], [0, 1000], 10, 90, [(20, 30), (50, 60)]⟩, ⟨1, [3, 1], [100], 0, 70, [(40, 45)]⟩]

example : SortsTrips sortTrips ∧ WellFormed 3 exIrsToSets [] exOrdering ∧ WellFormed 3 exIrsToSets [1] exOrdering ∧
    TimetableOk exOrdering := by
  refine ⟨sortTrips_spec, by constructor <;> decide, by constructor <;> decide, ?_, by decide⟩
  intro i tr h
  match i with
  | 0 => cases h; rfl
  | 1 => cases h; rfl
  | i + 2 => simp [exOrdering] at h

/-! ### C132 -/

/-- C132: the request is answered by "not found" iff infrastructure or timetable are unknown, by "bad request" iff they are
known but the parameters are not acceptable; no other request fails. -/
theorem C132_answers {srtU : Nat → List Usage → List Usage} (hs : IsSorter srtU)
    {srtT : List OTrain → List Trip → List Trip} (ht : SortsTrips srtT) (infra : Option Infra)
    (timetable : Option (Int → Int → List OTrain))
    (hwf : ∀ i tt, infra = some i → timetable = some tt → ∀ a b f, WellFormed i.setCount i.irsToSets f (tt a b) ∧
      TimetableOk (tt a b)) (frm till ids : List Char) :
    ∃ r, serve srtU srtT infra timetable frm till ids = some r ∧
      (r = .notFound ↔ infra = none ∨ timetable = none) ∧
      (r = .badRequest ↔ infra ≠ none ∧ timetable ≠ none ∧
        ¬ ∃ (a b : Nat) (ns : List Nat), IsNumber frm a ∧ IsNumber till b ∧ a ≤ b ∧ Lists ids ns) := by
  cases infra with
  | none => exact ⟨.notFound, rfl, by simp, by simp⟩
  | some i =>
    cases timetable with
    | none => exact ⟨.notFound, rfl, by simp, by simp⟩
    | some tt =>
      cases hf : paramsToFilter frm till ids with
      | none =>
        refine ⟨.badRequest, by simp [serve, hf], by simp, ?_⟩
        refine iff_of_true rfl ⟨by simp, by simp, ?_⟩
        rintro ⟨a, b, ns, h1, h2, h3, h4⟩
        have := (C130_parameters frm till ids ⟨a, b, ns⟩).2 ⟨a, b, h1, h2, h3, rfl, rfl, h4⟩
        rw [hf] at this
        cases this
      | some f =>
        obtain ⟨h1, h2⟩ := hwf i tt rfl rfl f.start f.stop f.trains
        obtain ⟨g, m, d, h3, h4, _⟩ := C131_document hs ht h1 h2
        refine ⟨.ok d, by simp [serve, hf, h3, h4], by simp, ?_⟩
        refine iff_of_false (by simp) ?_
        rintro ⟨_, _, h5⟩
        obtain ⟨a, b, h6, h7, h8, _, _, h9⟩ := (C130_parameters frm till ids f).1 hf
        exact h5 ⟨a, b, f.trains, h6, h7, h8, h9⟩

/-- C132: the nodes of the answer are the steps of the requested trains, exactly: a route of a trip of a train with a
main signal, departing in the interval, has a node iff the list of trains is empty or names the train. -/
theorem C132_requested {srtU : Nat → List Usage → List Usage} (hs : IsSorter srtU)
    {srtT : List OTrain → List Trip → List Trip} (ht : SortsTrips srtT) (i : Infra) (tt : Int → Int → List OTrain)
    (hwf : ∀ a b f, WellFormed i.setCount i.irsToSets f (tt a b) ∧ TimetableOk (tt a b)) (frm till ids : List Char)
    (a b : Nat) (ns : List Nat) (ha : IsNumber frm a) (hb : IsNumber till b) (hab : a ≤ b) (hids : Lists ids ns) :
    ∃ d, serve srtU srtT (some i) (some tt) frm till ids = some (.ok d) ∧
      (∀ n ∈ d.nodes, (ns = [] ∨ n.train ∈ ns) ∧ ∃ tr ∈ tt a b, tr.id = n.train ∧ tr.path[n.offset]? = some n.route) ∧
      ∀ tr ∈ tt a b, tr.times ≠ [] → (ns = [] ∨ tr.id ∈ ns) → tr.anchors ≠ [] → ∀ p ir, tr.path[p]? = some ir →
        ∃ n ∈ d.nodes, n.train = tr.id ∧ n.offset = p ∧ n.route = ir := by
  obtain ⟨h1, h2⟩ := hwf a b ns
  obtain ⟨g, m, d, h3, h4, hkeys, _, _, ⟨order, _, _, hall⟩, _⟩ := C131_document hs ht h1 h2
  have hf := (C130_parameters frm till ids ⟨a, b, ns⟩).2 ⟨a, b, ha, hb, hab, rfl, rfl, hids⟩
  have hsel : ∀ t ∈ allTrips ns (tt a b), t.1 ∈ tt a b ∧ (ns = [] ∨ t.1.id ∈ ns) := by
    intro t ht'
    obtain ⟨tr, htr, hmem⟩ := List.mem_flatMap.1 ht'
    obtain ⟨_, _, rfl⟩ := List.mem_map.1 hmem
    obtain ⟨h5, h6⟩ := List.mem_filter.1 htr
    refine ⟨h5, ?_⟩
    simp only [Bool.and_eq_true, Bool.or_eq_true, decide_eq_true_eq] at h6
    exact h6.1
  refine ⟨d, by simp [serve, hf, h3, h4], fun n hn => ?_, fun tr htr htimes hns hanc p ir hp => ?_⟩
  · obtain ⟨j, p, tr, x, hst, htrain, hoff, _⟩ := hall n hn
    obtain ⟨h5, h6⟩ := hsel _ (List.mem_of_getElem? hst.1)
    refine ⟨by rw [htrain]; exact h6, tr, h5, htrain.symm, ?_⟩
    rw [hoff]
    exact hst.2.2
  · cases hanc' : tr.anchors with
    | nil => exact absurd hanc' hanc
    | cons x xs =>
      have hmem : (tr, x) ∈ allTrips ns (tt a b) := by
        refine List.mem_flatMap.2 ⟨tr, List.mem_filter.2 ⟨htr, ?_⟩, List.mem_map.2 ⟨x, by rw [hanc']; simp, rfl⟩⟩
        simpa using ⟨hns, htimes⟩
      obtain ⟨j, hj⟩ := List.mem_iff_getElem?.1 hmem
      have hst : IsStep (allTrips ns (tt a b)) (offset (allTrips ns (tt a b)) j + p) j p tr x ir := ⟨hj, rfl, hp⟩
      obtain ⟨g', m', h5, _, _, h6⟩ := C20_nodes hs h1
      rw [h3] at h5
      cases h5
      obtain ⟨n', h7, _⟩ := h6 _ _ _ _ _ _ hst
      have hlt := (List.getElem?_eq_some_iff.1 h7).1
      obtain ⟨n, hn, hk⟩ := List.mem_map.1 (hkeys.symm.subset (List.mem_range.2 hlt))
      obtain ⟨j', p', tr', x', hst', htrain, hoff, _⟩ := hall n hn
      rw [hk] at hst'
      have hinj := step_inj hst hst'
      obtain ⟨rfl, rfl, rest⟩ := hinj
      have := hst.1.symm.trans hst'.1
      simp only [Option.some.injEq, Prod.mk.injEq] at this
      obtain ⟨rfl, rfl⟩ := this
      refine ⟨n, hn, htrain, hoff, ?_⟩
      have := hst.2.2.symm.trans hst'.2.2
      exact (Option.some.inj this).symm

end Soro
