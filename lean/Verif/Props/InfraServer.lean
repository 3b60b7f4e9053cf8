import Verif.Proof.InfraServer
import Verif.Props.Layout

/-! Properties C135 - C137: requests about an infrastructure. -/

namespace Soro
open InfraServer Layout Utls Utls.Spec

/-! ### an example: two stations with three elements -/

def exInfra : Infra :=
  { stations := [⟨0, "AA".toList, [0, 1], [⟨0, "r".toList, 0, [0, 1]⟩]⟩, ⟨1, "BB".toList, [2], []⟩]
    fullNames := ["AA".toList, "Bee".toList]
    elements := [⟨0, "hsig".toList, .signal "S1".toList⟩, ⟨1, "halt".toList, .halt "H".toList "x".toList "y".toList⟩,
      ⟨2, "ende".toList, .other⟩]
    stationRoutes := [⟨0, "r".toList, 0, [0, 1]⟩]
    routes := [⟨0, [0, 1, 2]⟩]
    stationToIrs := [[0], [0]]
    exclusionSets := [[0]]
    positions := [⟨8, 50⟩, ⟨9, 51⟩, ⟨10, 49⟩] }

theorem exInfra_consistent : Consistent exInfra where
  stationIds i s h := by
    match i with
    | 0 => cases h; rfl
    | 1 => cases h; rfl
    | i + 2 => simp [exInfra] at h
  fullNames := rfl
  stationIrs := rfl
  positions := rfl
  elementIds i e h := by
    match i with
    | 0 => cases h; rfl
    | 1 => cases h; rfl
    | 2 => cases h; rfl
    | i + 3 => simp [exInfra] at h
  ofStations := by decide
  ofStationRoutes := by decide
  ofRoutes := by decide

/-! ### C135 -/

/-- C135: a request for a station by number is answered by the station with this number, its routes with their first and last
elements, and its interlocking routes; or by "not found" if there is none, also if the number exceeds 32 bits. -/
theorem C135_station {I : Infra} (hc : Consistent I) (hs : I.stations.length < 2 ^ 32) {param : List Char} {n : Nat}
    (hp : Digits param n) :
    (∀ s, I.stations[n]? = some s → ∃ d irs, serveStation (some I) param = some (.ok d) ∧ I.stationToIrs[n]? = some irs ∧
      d.id = n ∧ d.ds100 = s.ds100 ∧ d.irs = irs ∧
      List.Forall₂ (fun (r : SRoute) (e : RouteEntry) => e.id = r.id ∧ e.name = r.name ∧
        r.nodes.head? = some e.frm ∧ r.nodes.getLast? = some e.till) s.routes d.routes) ∧
    (I.stations[n]? = none → serveStation (some I) param = some .notFound) := by
  obtain ⟨h1, h2⟩ := paramId_spec hp hs
  refine ⟨fun s hn => ?_, fun hn => ?_⟩
  · have hlt := (List.getElem?_eq_some_iff.1 hn).1
    have hi := List.getElem?_eq_getElem (l := I.stationToIrs) (i := n) (by rw [hc.stationIrs]; exact hlt)
    obtain ⟨es, h3, h4⟩ := routeEntries_spec s.routes (hc.ofStations s (List.mem_of_getElem? hn)).2
    refine ⟨⟨s.id, s.ds100, es, _⟩, _, ?_, hi, hc.stationIds n s hn, rfl, rfl, h4⟩
    unfold serveStation
    simp only
    rw [h1 hlt, if_neg (by omega), hn, hi]
    simp [h3]
  · have := h2 (List.getElem?_eq_none_iff.1 hn)
    unfold serveStation
    simp only
    rw [if_pos this]

/-- C135: a request for a station route by number is answered by its name, its station and the positions of its nodes, or by
"not found" if there is none. -/
theorem C135_station_route {I : Infra} (hc : Consistent I) (hs : I.stationRoutes.length < 2 ^ 32) {param : List Char} {n : Nat}
    (hp : Digits param n) :
    (∀ r, I.stationRoutes[n]? = some r → ∃ d s, serveStationRoute (some I) param = some (.ok d) ∧
      I.stations[r.station]? = some s ∧ d.id = r.id ∧ d.name = r.name ∧ d.ds100 = s.ds100 ∧ Positions I r.nodes d.path) ∧
    (I.stationRoutes[n]? = none → serveStationRoute (some I) param = some .notFound) := by
  obtain ⟨h1, h2⟩ := paramId_spec hp hs
  refine ⟨fun r hn => ?_, fun hn => ?_⟩
  · have hlt := (List.getElem?_eq_some_iff.1 hn).1
    obtain ⟨h3, h4⟩ := hc.ofStationRoutes r (List.mem_of_getElem? hn)
    have hst := List.getElem?_eq_getElem h3
    obtain ⟨ps, h5, h6⟩ := lookupAll_spec I.positions r.nodes fun e he => by rw [hc.positions]; exact h4 e he
    refine ⟨⟨r.id, r.name, (I.stations[r.station]).ds100, ps⟩, _, ?_, hst, rfl, rfl, rfl, h6⟩
    unfold serveStationRoute
    simp only
    rw [h1 hlt, if_neg (by omega), hn]
    simp only
    rw [hst]
    simp [h5]
  · have := h2 (List.getElem?_eq_none_iff.1 hn)
    unfold serveStationRoute
    simp only
    rw [if_pos this]

/-- C135: a request for an interlocking route by number is answered by the positions along it, or by "not found" if there is
none. -/
theorem C135_interlocking_route {I : Infra} (hc : Consistent I) (hs : I.routes.length < 2 ^ 32) {param : List Char} {n : Nat}
    (hp : Digits param n) :
    (∀ r, I.routes[n]? = some r → ∃ path, serveRoute (some I) param = some (.ok (r.id, path)) ∧
      Positions I r.elements path) ∧
    (I.routes[n]? = none → serveRoute (some I) param = some .notFound) := by
  obtain ⟨h1, h2⟩ := paramId_spec hp hs
  refine ⟨fun r hn => ?_, fun hn => ?_⟩
  · have hlt := (List.getElem?_eq_some_iff.1 hn).1
    obtain ⟨ps, h5, h6⟩ := lookupAll_spec I.positions r.elements fun e he => by
      rw [hc.positions]; exact hc.ofRoutes r (List.mem_of_getElem? hn) e he
    refine ⟨ps, ?_, h6⟩
    unfold serveRoute
    simp only
    rw [h1 hlt, if_neg (by omega), hn]
    simp [h5]
  · have := h2 (List.getElem?_eq_none_iff.1 hn)
    unfold serveRoute
    simp only
    rw [if_pos this]

/-- C135: requests for elements and exclusion sets are answered by the right one if it exists. -/
theorem C135_existing_partial {I : Infra} {param : List Char} {n : Nat} (hp : Digits param n) :
    (I.elements.length < 2 ^ 32 → ∀ e, I.elements[n]? = some e → serveElement (some I) param = some (.ok (n, e))) ∧
    (I.exclusionSets.length < 2 ^ 32 → ∀ s, I.exclusionSets[n]? = some s →
      serveExclusionSet (some I) param = some (.ok (n, s.length, s))) := by
  refine ⟨fun hs e hn => ?_, fun hs s hn => ?_⟩
  · have h1 := (paramId_spec hp hs).1 (List.getElem?_eq_some_iff.1 hn).1
    simp [serveElement, h1, hn]
  · have h1 := (paramId_spec hp hs).1 (List.getElem?_eq_some_iff.1 hn).1
    simp [serveExclusionSet, h1, hn]

/-- C135 is false for elements and exclusion sets: every number without an element (exclusion set) is undefined behaviour
instead of "not found", in every infrastructure. -/
theorem C135_missing_negation {I : Infra} {param : List Char} {n : Nat} (hp : Digits param n) :
    (I.elements.length < 2 ^ 32 → I.elements[n]? = none → serveElement (some I) param = none) ∧
    (I.exclusionSets.length < 2 ^ 32 → I.exclusionSets[n]? = none → serveExclusionSet (some I) param = none) := by
  refine ⟨fun hs hn => ?_, fun hs hn => ?_⟩
  · have h1 := (paramId_spec hp hs).2 (List.getElem?_eq_none_iff.1 hn)
    simp [serveElement, h1]
  · have h1 := (paramId_spec hp hs).2 (List.getElem?_eq_none_iff.1 hn)
    simp [serveExclusionSet, h1]

/-- C135: all requests about an unknown infrastructure are answered by "not found"; but a request for the names of its
timetables throws. -/
theorem C135_unknown_infrastructure (param name : List Char) (contexts : List (List Char × List (List Char)))
    (h : ∀ c ∈ contexts, c.1 ≠ name) :
    serveStation none param = some .notFound ∧ serveStationRoute none param = some .notFound ∧
    serveRoute none param = some .notFound ∧ serveExclusionSet none param = some .notFound ∧
    serveElement none param = some .notFound ∧ serveTimetableNames contexts name = none := by
  refine ⟨rfl, rfl, rfl, rfl, rfl, ?_⟩
  unfold serveTimetableNames
  rw [Option.map_eq_none_iff, List.find?_eq_none]
  intro c hc he
  exact h c hc (beq_iff_eq.1 he)

example : Consistent exInfra ∧ Digits "1".toList 1 ∧ Digits "99999999999".toList 99999999999 ∧
    serveStation (some exInfra) "0".toList = some (.ok ⟨0, "AA".toList, [⟨0, "r".toList, 0, 1⟩], [0]⟩) ∧
    serveStation (some exInfra) "99999999999".toList = some .notFound :=
  ⟨exInfra_consistent, ⟨by decide, by decide, by decide⟩, ⟨by decide, by decide, by decide⟩, by decide, by decide⟩

/-! ### C136 -/

/-- C136, if every halt has both identifiers or none: the search index can be built; every name of every object (codes and
full names of stations, numbers of elements, names of main signals and switches, names and identifiers of halts, names of
station routes, numbers of interlocking routes) has an entry; every entry carries a name of the object it refers to and
the box of the positions of its elements, and the type of the element unless its name is an operational identifier. -/
theorem C136_index_partial {I : Infra} (hc : Consistent I) (hb : BothIdentifiers I) :
    ∃ rs, searchResults I = some rs ∧
      (∀ k id name, HasName I k id name → ∃ r ∈ rs, r.kind = k ∧ r.id = id ∧ r.name = name) ∧
      ∀ r ∈ rs, HasName I r.kind r.id r.name ∧ (r.etype = typeOf I r.kind r.id ∨
          r.etype = [] ∧ ∃ e ∈ I.elements, ∃ name ex, e.data = .halt name ex r.name) ∧
        ∃ es ps, PlacedAt I r.kind r.id es ∧ Positions I es ps ∧ r.box = boundingBox ps := by
  obtain ⟨rs, h1, h2⟩ := results_spec hc
  have elem : ∀ e ∈ I.elements, ∀ name t, (name, t) ∈ elementNames e →
      ∃ r ∈ rs, r.kind = .element ∧ r.id = e.id ∧ r.name = name := by
    intro e he name t hn
    obtain ⟨b, ps, _, h3, h4⟩ := boxOf_spec hc [e.id] (by simpa using (mem_elements_lt hc he).1)
    exact ⟨⟨.element, name, b, e.id, t⟩, (h2 _).2 (.inr (.inr (.inl ⟨e, he, ⟨rfl, rfl, ps, h3, h4⟩, hn⟩))), rfl, rfl, rfl⟩
  have stat : ∀ (i : Nat) (s : Station), I.stations[i]? = some s →
      ∃ r ∈ rs, r.kind = .station ∧ r.id = i ∧ r.name = s.ds100 := by
    intro i s hs
    obtain ⟨b, ps, _, h3, h4⟩ := boxOf_spec hc s.elements (hc.ofStations s (List.mem_of_getElem? hs)).1
    exact ⟨⟨.station, s.ds100, b, i, []⟩, (h2 _).2 (.inl ⟨i, s, hs, ⟨rfl, rfl, ps, h3, h4⟩, rfl, rfl⟩), rfl, rfl, rfl⟩
  refine ⟨rs, h1, fun k id name hn => ?_, fun r hr => ?_⟩
  · cases hn with
    | ds100 _ s hs => exact stat id s hs
    | full _ s name hs hname =>
      by_cases heq : s.ds100 = name
      · subst heq
        exact stat id s hs
      · obtain ⟨b, ps, _, h3, h4⟩ := boxOf_spec hc s.elements (hc.ofStations s (List.mem_of_getElem? hs)).1
        exact ⟨⟨.station, name, b, id, []⟩,
          (h2 _).2 (.inr (.inl ⟨id, s, name, hs, hname, heq, ⟨rfl, rfl, ps, h3, h4⟩, rfl, rfl⟩)), rfl, rfl, rfl⟩
    | elementId e he => exact elem e he _ e.type (by simp [elementNames])
    | signal e name he hd => exact elem e he _ e.type (by simp [elementNames, hd])
    | switch e name he hd => exact elem e he _ e.type (by simp [elementNames, hd])
    | halt e name ex op he hd hne => exact elem e he _ e.type (by simp [elementNames, hd, hne])
    | extern e name ex op he hd hne =>
      have hop : op ≠ [] := fun h => hne ((hb e he _ _ _ hd).2 h)
      exact elem e he _ e.type (by simp [elementNames, hd, hop])
    | operational e name ex op he hd hne =>
      have hex : ex ≠ [] := fun h => hne ((hb e he _ _ _ hd).1 h)
      exact elem e he _ [] (by simp [elementNames, hd, hex])
    | stationRoute x hx =>
      obtain ⟨b, ps, _, h3, h4⟩ := boxOf_spec hc x.nodes (hc.ofStationRoutes x hx).2
      exact ⟨⟨.stationRoute, x.name, b, x.id, []⟩,
        (h2 _).2 (.inr (.inr (.inr (.inl ⟨x, hx, ⟨rfl, rfl, ps, h3, h4⟩, rfl, rfl⟩)))), rfl, rfl, rfl⟩
    | route x hx =>
      obtain ⟨b, ps, _, h3, h4⟩ := boxOf_spec hc x.elements (hc.ofRoutes x hx)
      exact ⟨⟨.route, leftPad x.id, b, x.id, []⟩,
        (h2 _).2 (.inr (.inr (.inr (.inr ⟨x, hx, ⟨rfl, rfl, ps, h3, h4⟩, rfl, rfl⟩)))), rfl, rfl, rfl⟩
  · rcases (h2 r).1 hr with ⟨i, s, hs, ⟨h4, h5, ps, h6, h7⟩, h8, h9⟩ | ⟨i, s, n, hs, hn, _, ⟨h4, h5, ps, h6, h7⟩, h8, h9⟩ |
      ⟨e, he, ⟨h4, h5, ps, h6, h7⟩, h8⟩ | ⟨x, hx, ⟨h4, h5, ps, h6, h7⟩, h8, h9⟩ | ⟨x, hx, ⟨h4, h5, ps, h6, h7⟩, h8, h9⟩
    · rw [h4, h5, h8, h7]
      exact ⟨.ds100 i s hs, .inl (by rw [h9]; rfl), _, ps, .station i s hs, h6, rfl⟩
    · rw [h4, h5, h8, h7]
      exact ⟨.full i s n hs hn, .inl (by rw [h9]; rfl), _, ps, .station i s hs, h6, rfl⟩
    · rw [h4, h5, h7]
      have hty : typeOf I .element e.id = e.type := by simp [typeOf, (mem_elements_lt hc he).2]
      rw [hty]
      suffices h : HasName I .element e.id r.name ∧ (r.etype = e.type ∨
          r.etype = [] ∧ ∃ e ∈ I.elements, ∃ name ex, e.data = .halt name ex r.name) from
        ⟨h.1, h.2, _, ps, .element e he, h6, rfl⟩
      rw [elementNames, List.mem_cons] at h8
      rcases h8 with h8 | h8
      · simp only [Prod.mk.injEq] at h8
        rw [h8.1]
        exact ⟨.elementId e he, .inl h8.2⟩
      · cases hd : e.data with
        | other => rw [hd] at h8; cases h8
        | signal name =>
          rw [hd] at h8
          simp only [List.mem_singleton, Prod.mk.injEq] at h8
          rw [h8.1]
          exact ⟨.signal e name he hd, .inl h8.2⟩
        | switch name =>
          rw [hd] at h8
          simp only [List.mem_singleton, Prod.mk.injEq] at h8
          rw [h8.1]
          exact ⟨.switch e name he hd, .inl h8.2⟩
        | halt name ex op =>
          rw [hd] at h8
          have hbi := hb e he _ _ _ hd
          simp only [List.mem_append] at h8
          rcases h8 with (h8 | h8) | h8
          · split at h8
            · rename_i hne
              simp only [List.mem_singleton, Prod.mk.injEq] at h8
              rw [h8.1]
              exact ⟨.halt e name ex op he hd hne, .inl h8.2⟩
            · cases h8
          · split at h8
            · rename_i hne
              simp only [List.mem_singleton, Prod.mk.injEq] at h8
              rw [h8.1]
              exact ⟨.operational e name ex op he hd fun h => hne (hbi.2 h), .inr ⟨h8.2, e, he, name, ex, hd⟩⟩
            · cases h8
          · split at h8
            · rename_i hne
              simp only [List.mem_singleton, Prod.mk.injEq] at h8
              rw [h8.1]
              exact ⟨.extern e name ex op he hd fun h => hne (hbi.1 h), .inl h8.2⟩
            · cases h8
    · rw [h4, h5, h8, h7]
      exact ⟨.stationRoute x hx, .inl (by rw [h9]; rfl), _, ps, .stationRoute x hx, h6, rfl⟩
    · rw [h4, h5, h8, h7]
      exact ⟨.route x hx, .inl (by rw [h9]; rfl), _, ps, .route x hx, h6, rfl⟩

/-- C136: numbers are padded to at least three digits, so that they can be searched for, and keep their value. -/
theorem C136_padded (n : Nat) : 3 ≤ (leftPad n).length ∧ Digits (leftPad n) n := by
  have hzero : ∀ (k : Nat) (ds : List Char), value (List.replicate k '0' ++ ds) = value ds := by
    intro k ds
    induction k with
    | zero => rfl
    | succ k ih => rw [List.replicate_succ, List.cons_append, value, ih]; simp [digit]
  refine ⟨?_, ?_, fun c hc => ?_, ?_⟩
  · rw [leftPad, List.length_append, List.length_replicate]; omega
  · rw [leftPad]
    intro h
    exact toDigits_ne_nil n (List.append_eq_nil_iff.1 h).2
  · rcases List.mem_append.1 hc with hc | hc
    · rw [(List.mem_replicate.1 hc).2]; decide
    · exact Nat.isDigit_of_mem_toDigits (by omega) (by omega) hc
  · rw [leftPad, hzero, value_toDigits]

def exHalt (extern operational : List Char) : Infra :=
  { stations := [], fullNames := [], elements := [⟨0, "halt".toList, .halt [] extern operational⟩], stationRoutes := []
    routes := [], stationToIrs := [], exclusionSets := [], positions := [⟨8, 50⟩] }

/-- C136 is false for a halt with only one identifier: the identifier is not in the index, an empty name is. With both
identifiers, one of the entries has no element type. -/
theorem C136_identifier_negation :
    (∃ rs, searchResults (exHalt "x".toList []) = some rs ∧ rs.map (fun r => (r.name, r.etype)) =
      [("000".toList, "halt".toList), ([], [])] ∧ HasName (exHalt "x".toList []) .element 0 "x".toList) ∧
    (∃ rs, searchResults (exHalt "x".toList "y".toList) = some rs ∧ rs.map (fun r => (r.name, r.etype)) =
      [("000".toList, "halt".toList), ("y".toList, []), ("x".toList, "halt".toList)]) := by
  have h1 : (searchResults (exHalt "x".toList [])).map (List.map fun r => (r.name, r.etype)) =
      some [("000".toList, "halt".toList), ([], [])] := by decide +kernel
  have h2 : (searchResults (exHalt "x".toList "y".toList)).map (List.map fun r => (r.name, r.etype)) =
      some [("000".toList, "halt".toList), ("y".toList, []), ("x".toList, "halt".toList)] := by decide +kernel
  obtain ⟨rs, h3, h4⟩ := Option.map_eq_some_iff.1 h1
  obtain ⟨rs', h5, h6⟩ := Option.map_eq_some_iff.1 h2
  exact ⟨⟨rs, h3, h4, .extern ⟨0, "halt".toList, .halt [] "x".toList []⟩ _ _ _ (by simp [exHalt]) rfl (by decide)⟩, rs', h5, h6⟩

example : Consistent exInfra ∧ BothIdentifiers exInfra ∧ HasName exInfra .station 1 "Bee".toList := by
  refine ⟨exInfra_consistent, ?_, .full 1 _ _ rfl rfl⟩
  intro e he name ex op hd
  simp only [exInfra, List.mem_cons, List.not_mem_nil, or_false] at he
  rcases he with rfl | rfl | rfl <;> cases hd
  simp

/-! ### C137 -/

/-- C137: a search is answered by "not found" iff the infrastructure is unknown, by "bad request" iff it is known and the
query has less than three characters, and otherwise by the entries the guesser names, in its order, each of them an
existing object of the infrastructure with the box of its positions; and with one of its names, if every halt has both
identifiers or none (else see `C136_identifier_negation`). -/
theorem C137_search {I : Infra} (hc : Consistent I) (guess : List Char → List Nat)
    (hg : ∀ rs, searchResults I = some rs → ∀ q, ∀ i ∈ guess q, i < rs.length) (query : List Char) :
    ∃ rs, searchResults I = some rs ∧ serveSearch none guess query = some .notFound ∧
      (query.length < 3 → serveSearch (some rs) guess query = some .badRequest) ∧
      (3 ≤ query.length → ∃ found, serveSearch (some rs) guess query = some (.ok found) ∧
        List.Forall₂ (fun (i : Nat) (r : Result) => rs[i]? = some r) (guess query) found ∧
        ∀ r ∈ found, (∃ es ps, PlacedAt I r.kind r.id es ∧ Positions I es ps ∧ r.box = boundingBox ps) ∧
          (BothIdentifiers I → HasName I r.kind r.id r.name)) := by
  obtain ⟨rs, h1, h2⟩ := results_spec hc
  have placed : ∀ r ∈ rs, ∃ es ps, PlacedAt I r.kind r.id es ∧ Positions I es ps ∧ r.box = boundingBox ps := by
    intro r hr
    rcases (h2 r).1 hr with ⟨i, s, hs, ⟨h4, h5, ps, h6, h7⟩, _⟩ | ⟨i, s, n, hs, hn, _, ⟨h4, h5, ps, h6, h7⟩, _⟩ |
      ⟨e, he, ⟨h4, h5, ps, h6, h7⟩, _⟩ | ⟨x, hx, ⟨h4, h5, ps, h6, h7⟩, _⟩ | ⟨x, hx, ⟨h4, h5, ps, h6, h7⟩, _⟩
    · rw [h4, h5, h7]; exact ⟨_, ps, .station i s hs, h6, rfl⟩
    · rw [h4, h5, h7]; exact ⟨_, ps, .station i s hs, h6, rfl⟩
    · rw [h4, h5, h7]; exact ⟨_, ps, .element e he, h6, rfl⟩
    · rw [h4, h5, h7]; exact ⟨_, ps, .stationRoute x hx, h6, rfl⟩
    · rw [h4, h5, h7]; exact ⟨_, ps, .route x hx, h6, rfl⟩
  refine ⟨rs, h1, rfl, fun hq => by simp [serveSearch, hq], fun hq => ?_⟩
  obtain ⟨found, h4, h5⟩ := lookupAll_spec rs (guess query) (hg rs h1 query)
  have sub : ∀ {l : List Nat} {m : List Result}, List.Forall₂ (fun (i : Nat) (r : Result) => rs[i]? = some r) l m →
      ∀ r ∈ m, r ∈ rs := by
    intro l m h
    induction h with
    | nil => simp
    | cons a _ ih =>
      intro r hr
      rcases List.mem_cons.1 hr with rfl | hr
      · exact List.mem_of_getElem? a
      · exact ih r hr
  refine ⟨found, by simp [serveSearch, h4]; omega, h5, fun r hr => ⟨placed r (sub h5 r hr), fun hb => ?_⟩⟩
  obtain ⟨rs', h6, _, h7⟩ := C136_index_partial hc hb
  rw [h1] at h6
  cases h6
  exact (h7 r (sub h5 r hr)).1

/-- the first match: a guesser that always names the first entry -/
example : ∀ rs, searchResults exInfra = some rs → ∀ q : List Char, ∀ i ∈ (fun _ => [0] : List Char → List Nat) q, i < rs.length := by
  intro rs h q i hi
  have h1 : (searchResults exInfra).map List.length = some 12 := by decide +kernel
  rw [h] at h1
  simp at hi h1
  omega

end Soro
