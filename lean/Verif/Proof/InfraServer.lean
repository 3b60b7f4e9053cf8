import Verif.Spec.InfraServer
import Verif.Props.Utls

/-! Proofs about requests about an infrastructure. -/

namespace Soro.InfraServer
open Layout Utls Utls.Spec

theorem paramId_small {param : List Char} {n : Nat} (h : Digits param n) (hn : n < 2 ^ 32) : paramId param = n := by
  obtain ⟨h1, h2, h3⟩ := h
  have := C60_parse_int ⟨false, 4⟩ param n (.inl ⟨h1, h2, by rw [h3]⟩)
    ⟨by simp [IntTy.min], by simp [IntTy.max]; omega⟩
  rw [paramId, this]
  rfl

theorem paramId_large {param : List Char} {n : Nat} (h : Digits param n) (hn : 2 ^ 32 ≤ n) : paramId param = 2 ^ 32 - 1 := by
  obtain ⟨h1, h2, h3⟩ := h
  obtain ⟨t1, t2⟩ := takeWhile_all h2
  have hfold := foldl_value param 0
  rw [Nat.zero_mul, Nat.zero_add, h3] at hfold
  have hne : param.isEmpty = false := by cases param with
    | nil => exact absurd rfl h1
    | cons c cs => rfl
  rw [paramId, parseInt, fromChars]
  simp only [Bool.false_and, Bool.false_eq_true, if_false]
  rw [t1, t2]
  simp only [hne, Bool.false_eq_true, if_false]
  rw [hfold, if_neg]
  · rfl
  · rintro ⟨_, hm⟩
    simp only [IntTy.max, Bool.false_eq_true, if_false] at hm
    omega

/-- ids beyond a table of less than 2^32 entries stay beyond it, others are kept -/
theorem paramId_spec {param : List Char} {n size : Nat} (h : Digits param n) (hs : size < 2 ^ 32) :
    (n < size → paramId param = n) ∧ (size ≤ n → size ≤ paramId param) := by
  refine ⟨fun hn => paramId_small h (by omega), fun hn => ?_⟩
  by_cases hl : n < 2 ^ 32
  · rw [paramId_small h hl]; exact hn
  · rw [paramId_large h (by omega)]; omega

theorem lookupAll_spec {α : Type} (t : List α) (is : List Nat) (h : ∀ i ∈ is, i < t.length) :
    ∃ vs, lookupAll t is = some vs ∧ List.Forall₂ (fun (i : Nat) (v : α) => t[i]? = some v) is vs := by
  induction is with
  | nil => exact ⟨[], rfl, .nil⟩
  | cons i is ih =>
    obtain ⟨vs, h1, h2⟩ := ih fun j hj => h j (by simp [hj])
    have hi := List.getElem?_eq_getElem (h i (by simp))
    exact ⟨t[i]'(h i (by simp)) :: vs, by rw [lookupAll, hi]; simp [h1], .cons hi h2⟩

theorem lookupAll_some {α : Type} {t : List α} {is : List Nat} {vs : List α} (h : lookupAll t is = some vs) :
    List.Forall₂ (fun (i : Nat) (v : α) => t[i]? = some v) is vs := by
  induction is generalizing vs with
  | nil => cases h; exact .nil
  | cons i is ih =>
    rw [lookupAll] at h
    split at h
    · cases h
    · rename_i v hv
      obtain ⟨vs', h1, rfl⟩ := Option.map_eq_some_iff.1 h
      exact .cons hv (ih h1)

theorem positions_unique {I : Infra} {es : List Nat} {ps qs : List Gps} (h1 : Positions I es ps) (h2 : Positions I es qs) :
    ps = qs := by
  unfold Positions at h1 h2
  induction h1 generalizing qs with
  | nil => cases h2; rfl
  | cons a _ ih =>
    cases h2 with
    | cons b c =>
      rw [a] at b
      cases b
      rw [ih c]

theorem routeEntries_spec (rs : List SRoute) (h : ∀ r ∈ rs, r.nodes ≠ []) :
    ∃ es, routeEntries rs = some es ∧ List.Forall₂ (fun (r : SRoute) (e : RouteEntry) =>
      e.id = r.id ∧ e.name = r.name ∧ r.nodes.head? = some e.frm ∧ r.nodes.getLast? = some e.till) rs es := by
  induction rs with
  | nil => exact ⟨[], rfl, .nil⟩
  | cons r rs ih =>
    obtain ⟨es, h1, h2⟩ := ih fun x hx => h x (by simp [hx])
    have hr := h r (by simp)
    have ha := List.head?_eq_some_head hr
    have hb := List.getLast?_eq_some_getLast hr
    refine ⟨⟨r.id, r.name, r.nodes.head hr, r.nodes.getLast hr⟩ :: es, ?_, .cons ⟨rfl, rfl, ha, hb⟩ h2⟩
    rw [routeEntries, routeEntry, ha, hb]
    simp [h1]

/-! ### search -/

theorem collect_spec {α β : Type} (f : α → Option (List β)) (l : List α) (h : ∀ a ∈ l, ∃ r, f a = some r) :
    ∃ rs, collect f l = some rs ∧ ∀ b, b ∈ rs ↔ ∃ a ∈ l, ∃ r, f a = some r ∧ b ∈ r := by
  induction l with
  | nil => exact ⟨[], rfl, by simp⟩
  | cons a l ih =>
    obtain ⟨rs, h1, h2⟩ := ih fun x hx => h x (by simp [hx])
    obtain ⟨r, hr⟩ := h a (by simp)
    refine ⟨r ++ rs, by rw [collect, hr]; simp [h1], fun b => ?_⟩
    rw [List.mem_append, h2]
    constructor
    · rintro (hb | ⟨x, hx, y, hy⟩)
      · exact ⟨a, by simp, r, hr, hb⟩
      · exact ⟨x, by simp [hx], y, hy⟩
    · rintro ⟨x, hx, y, hy, hb⟩
      rcases List.mem_cons.1 hx with rfl | hx
      · rw [hr] at hy
        cases hy
        exact .inl hb
      · exact .inr ⟨x, hx, y, hy, hb⟩

theorem boxOf_spec {I : Infra} (hc : Consistent I) (es : List Nat) (h : ∀ e ∈ es, e < I.elements.length) :
    ∃ b ps, boxOf I es = some b ∧ Positions I es ps ∧ b = boundingBox ps := by
  obtain ⟨ps, h1, h2⟩ := lookupAll_spec I.positions es fun e he => by rw [hc.positions]; exact h e he
  exact ⟨_, ps, by rw [boxOf, h1]; rfl, h2, rfl⟩

/-- results of one object -/
def Covers (I : Infra) (k : Kind) (id : Nat) (es : List Nat) (r : Result) : Prop :=
  r.kind = k ∧ r.id = id ∧ ∃ ps, Positions I es ps ∧ r.box = boundingBox ps

theorem mem_elements_lt {I : Infra} (hc : Consistent I) {e : Elem} (he : e ∈ I.elements) :
    e.id < I.elements.length ∧ I.elements[e.id]? = some e := by
  obtain ⟨i, hi⟩ := List.mem_iff_getElem?.1 he
  have := hc.elementIds i e hi
  exact ⟨by rw [this]; exact (List.getElem?_eq_some_iff.1 hi).1, by rw [this]; exact hi⟩

/-- all results, described one by one -/
theorem results_spec {I : Infra} (hc : Consistent I) : ∃ rs, searchResults I = some rs ∧ ∀ r, r ∈ rs ↔
    (∃ (i : Nat) (s : Station), I.stations[i]? = some s ∧ Covers I .station i s.elements r ∧ r.name = s.ds100 ∧ r.etype = []) ∨
    (∃ (i : Nat) (s : Station) (n : List Char), I.stations[i]? = some s ∧ I.fullNames[i]? = some n ∧ s.ds100 ≠ n ∧
      Covers I .station i s.elements r ∧ r.name = n ∧ r.etype = []) ∨
    (∃ e ∈ I.elements, Covers I .element e.id [e.id] r ∧ (r.name, r.etype) ∈ elementNames e) ∨
    (∃ x ∈ I.stationRoutes, Covers I .stationRoute x.id x.nodes r ∧ r.name = x.name ∧ r.etype = []) ∨
    (∃ x ∈ I.routes, Covers I .route x.id x.elements r ∧ r.name = leftPad x.id ∧ r.etype = []) := by
  obtain ⟨a, ha, ha'⟩ := collect_spec (stationResult I) I.stations fun s hs => by
    obtain ⟨b, ps, h1, _⟩ := boxOf_spec hc s.elements (hc.ofStations s hs).1
    exact ⟨_, by rw [stationResult, h1]; rfl⟩
  obtain ⟨b, hb, hb'⟩ := collect_spec (fullNameResult I) I.fullNames.zipIdx fun p hp => by
    obtain ⟨n, i⟩ := p
    have hi := (List.getElem?_eq_some_iff.1 (List.mem_zipIdx_iff_getElem?.1 hp)).1
    rw [hc.fullNames] at hi
    have hs := List.getElem?_eq_getElem hi
    rw [fullNameResult]
    dsimp only
    rw [hs]
    dsimp only
    split
    · exact ⟨_, rfl⟩
    · obtain ⟨b, ps, h1, _⟩ := boxOf_spec hc _ (hc.ofStations _ (List.mem_of_getElem? hs)).1
      exact ⟨_, by rw [h1]; rfl⟩
  obtain ⟨c, hcc, hc'⟩ := collect_spec (elementResults I) I.elements fun e he => by
    obtain ⟨b, ps, h1, _⟩ := boxOf_spec hc [e.id] (by simpa using (mem_elements_lt hc he).1)
    exact ⟨_, by rw [elementResults, h1]; rfl⟩
  obtain ⟨d, hd, hd'⟩ := collect_spec (stationRouteResult I) I.stationRoutes fun r hr => by
    obtain ⟨b, ps, h1, _⟩ := boxOf_spec hc r.nodes (hc.ofStationRoutes r hr).2
    exact ⟨_, by rw [stationRouteResult, h1]; rfl⟩
  obtain ⟨e, he, he'⟩ := collect_spec (routeResult I) I.routes fun r hr => by
    obtain ⟨b, ps, h1, _⟩ := boxOf_spec hc r.elements (hc.ofRoutes r hr)
    exact ⟨_, by rw [routeResult, h1]; rfl⟩
  refine ⟨a ++ b ++ c ++ d ++ e, by rw [searchResults, ha, hb, hcc, hd, he], fun r => ?_⟩
  rw [List.mem_append, List.mem_append, List.mem_append, List.mem_append, ha', hb', hc', hd', he', or_assoc, or_assoc, or_assoc]
  refine or_congr ?_ (or_congr ?_ (or_congr ?_ (or_congr ?_ ?_)))
  · constructor
    · rintro ⟨s, hs, l, hl, hr⟩
      obtain ⟨b, ps, h1, h2, h3⟩ := boxOf_spec hc s.elements (hc.ofStations s hs).1
      rw [stationResult, h1] at hl
      cases hl
      simp only [List.mem_singleton] at hr
      subst hr
      obtain ⟨i, hi⟩ := List.mem_iff_getElem?.1 hs
      exact ⟨i, s, hi, ⟨rfl, hc.stationIds i s hi, ps, h2, h3⟩, rfl, rfl⟩
    · rintro ⟨i, s, hs, ⟨h4, h5, ps', h6, h7⟩, h8, h9⟩
      have hmem := List.mem_of_getElem? hs
      obtain ⟨b, ps, h1, h2, h3⟩ := boxOf_spec hc s.elements (hc.ofStations s hmem).1
      refine ⟨s, hmem, _, by rw [stationResult, h1]; rfl, ?_⟩
      rw [List.mem_singleton]
      obtain ⟨k, n, bx, id, t⟩ := r
      dsimp only at *
      rw [h4, h8, h7, h5, h9, hc.stationIds i s hs, positions_unique h6 h2, ← h3]
  · constructor
    · rintro ⟨⟨n, i⟩, hs, l, hl, hr⟩
      have hn := List.mem_zipIdx_iff_getElem?.1 hs
      have hi := (List.getElem?_eq_some_iff.1 hn).1
      rw [hc.fullNames] at hi
      have hs := List.getElem?_eq_getElem hi
      rw [fullNameResult] at hl
      dsimp only at hl
      rw [hs] at hl
      dsimp only at hl
      split at hl
      · cases hl
        cases hr
      · rename_i hne
        obtain ⟨b, ps, h1, h2, h3⟩ := boxOf_spec hc _ (hc.ofStations _ (List.mem_of_getElem? hs)).1
        rw [h1] at hl
        cases hl
        simp only [List.mem_singleton] at hr
        subst hr
        exact ⟨i, _, n, hs, hn, hne, ⟨rfl, rfl, ps, h2, h3⟩, rfl, rfl⟩
    · rintro ⟨i, s, n, hs, hn, hne, ⟨h4, h5, ps', h6, h7⟩, h8, h9⟩
      have hmem := List.mem_of_getElem? hs
      obtain ⟨b, ps, h1, h2, h3⟩ := boxOf_spec hc s.elements (hc.ofStations s hmem).1
      refine ⟨(n, i), List.mem_zipIdx_iff_getElem?.2 hn, [⟨.station, n, b, i, []⟩], ?_, ?_⟩
      · rw [fullNameResult]
        dsimp only
        rw [hs]
        dsimp only
        rw [if_neg hne, h1]
        rfl
      rw [List.mem_singleton]
      obtain ⟨k, n, bx, id, t⟩ := r
      dsimp only at *
      rw [h4, h8, h7, h5, h9, positions_unique h6 h2, ← h3]
  · constructor
    · rintro ⟨x, hx, l, hl, hr⟩
      obtain ⟨b, ps, h1, h2, h3⟩ := boxOf_spec hc [x.id] (by simpa using (mem_elements_lt hc hx).1)
      rw [elementResults, h1] at hl
      cases hl
      obtain ⟨p, hp, rfl⟩ := List.mem_map.1 hr
      exact ⟨x, hx, ⟨rfl, rfl, ps, h2, h3⟩, hp⟩
    · rintro ⟨x, hx, ⟨h4, h5, ps', h6, h7⟩, h8⟩
      obtain ⟨b, ps, h1, h2, h3⟩ := boxOf_spec hc [x.id] (by simpa using (mem_elements_lt hc hx).1)
      refine ⟨x, hx, _, by rw [elementResults, h1]; rfl, List.mem_map.2 ⟨_, h8, ?_⟩⟩
      obtain ⟨k, n, bx, id, t⟩ := r
      dsimp only at *
      rw [h4, h7, h5, positions_unique h6 h2, ← h3]
  · constructor
    · rintro ⟨x, hx, l, hl, hr⟩
      obtain ⟨b, ps, h1, h2, h3⟩ := boxOf_spec hc x.nodes (hc.ofStationRoutes x hx).2
      rw [stationRouteResult, h1] at hl
      cases hl
      simp only [List.mem_singleton] at hr
      subst hr
      exact ⟨x, hx, ⟨rfl, rfl, ps, h2, h3⟩, rfl, rfl⟩
    · rintro ⟨x, hx, ⟨h4, h5, ps', h6, h7⟩, h8, h9⟩
      obtain ⟨b, ps, h1, h2, h3⟩ := boxOf_spec hc x.nodes (hc.ofStationRoutes x hx).2
      refine ⟨x, hx, _, by rw [stationRouteResult, h1]; rfl, ?_⟩
      rw [List.mem_singleton]
      obtain ⟨k, n, bx, id, t⟩ := r
      dsimp only at *
      rw [h4, h8, h7, h5, h9, positions_unique h6 h2, ← h3]
  · constructor
    · rintro ⟨x, hx, l, hl, hr⟩
      obtain ⟨b, ps, h1, h2, h3⟩ := boxOf_spec hc x.elements (hc.ofRoutes x hx)
      rw [routeResult, h1] at hl
      cases hl
      simp only [List.mem_singleton] at hr
      subst hr
      exact ⟨x, hx, ⟨rfl, rfl, ps, h2, h3⟩, rfl, rfl⟩
    · rintro ⟨x, hx, ⟨h4, h5, ps', h6, h7⟩, h8, h9⟩
      obtain ⟨b, ps, h1, h2, h3⟩ := boxOf_spec hc x.elements (hc.ofRoutes x hx)
      refine ⟨x, hx, _, by rw [routeResult, h1]; rfl, ?_⟩
      rw [List.mem_singleton]
      obtain ⟨k, n, bx, id, t⟩ := r
      dsimp only at *
      rw [h4, h8, h7, h5, h9, positions_unique h6 h2, ← h3]

end Soro.InfraServer
