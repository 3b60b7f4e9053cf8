import Verif.Proof.RouteTable
import Verif.Props.StationRoute

/-! Properties C127 to C129: extra speed limits and tables of constructed station routes. -/

namespace Soro
open RouteTable

/-! ### C127: extra speed limits of constructed routes -/

/-- C127. The extra speed limits of a constructed station route are those of the file, each at the first node of its element
on the path, and they are in the order of the path. -/
theorem C127_limits (path : List PNode) (ls ls' out : List Spl) (ha : assignNodes path ls = some ls')
    (hs : SortedBy path ls' out) :
    (out.map fun l => (l.element, l.tag)).Perm (ls.map fun l => (l.element, l.tag)) ∧
    (∀ l ∈ out, ∃ (i : Nat) (n : PNode), path[i]? = some n ∧ n.element = l.element ∧ n.node = l.node ∧
      ∀ (j : Nat) (n' : PNode), path[j]? = some n' → n'.element = l.element → i ≤ j) ∧
    ∀ (a b : Nat) (l l' : Spl), a < b → out[a]? = some l → out[b]? = some l' →
      ∀ (j : Nat) (n' : PNode), path[j]? = some n' → n'.element = l'.element →
        ∃ (i : Nat) (n : PNode), path[i]? = some n ∧ n.element = l.element ∧ i ≤ j := by
  obtain ⟨h1, h2⟩ := (assignNodes_spec path ls).1 ls' ha
  refine ⟨?_, ?_, ?_⟩
  · rw [← h1]; exact (hs.1.symm.map _)
  · intro l hl
    obtain ⟨n, g1, g2, g3⟩ := h2 l (hs.1.mem_iff.2 hl)
    exact ⟨_, n, g1, g2, g3, fun j n' hj hn => posOf_min path l j n' hj hn⟩
  · intro a b l l' hab hla hlb j n' hj hn
    obtain ⟨n, g1, g2, g3⟩ := h2 l (hs.1.mem_iff.2 (List.mem_of_getElem? hla))
    refine ⟨_, n, g1, g2, ?_⟩
    obtain ⟨ha', ea⟩ := List.getElem?_eq_some_iff.1 hla
    obtain ⟨hb', eb⟩ := List.getElem?_eq_some_iff.1 hlb
    have := List.pairwise_iff_getElem.1 hs.2 a b ha' hb' hab
    rw [ea, eb] at this
    have := posOf_min path l' j n' hj hn
    omega

/-- C127. The limits get their nodes exactly if the elements of all limits are on the path; otherwise the behaviour is undefined. -/
theorem C127_defined (path : List PNode) (ls : List Spl) :
    (∃ ls', assignNodes path ls = some ls') ↔ ∀ l ∈ ls, ∃ n ∈ path, n.element = l.element :=
  ⟨(assignNodes_spec path ls).2.2, (assignNodes_spec path ls).2.1⟩

/-- a path over five elements -/
def C127_path : List PNode := [⟨20, 1⟩, ⟨21, 2⟩, ⟨22, 3⟩, ⟨23, 4⟩, ⟨24, 5⟩]

example : assignNodes C127_path [⟨4, 0, 0⟩, ⟨2, 1, 0⟩] = some [⟨4, 0, 23⟩, ⟨2, 1, 21⟩] ∧
    SortedBy C127_path [⟨4, 0, 23⟩, ⟨2, 1, 21⟩] [⟨2, 1, 21⟩, ⟨4, 0, 23⟩] :=
  ⟨by decide, List.Perm.swap .., by decide⟩

/-- the route that is constructed -/
def constructed (path : List PNode) (omitted : List Nat) (out : List Spl) : Route.SRoute :=
  ⟨path.map (·.node), omitted, out.map (·.node)⟩

/-- C127. If the limits belong to different elements and their nodes are not omitted, every limit of the file is reported at its
node when the route is iterated. Missing: several limits at one element, see `C127_same_element_negation`, and limits at
omitted nodes, see `C41_omitted_negation`. -/
theorem C127_reported_partial (path : List PNode) (omitted : List Nat) (ls ls' out : List Spl)
    (ha : assignNodes path ls = some ls') (hs : SortedBy path ls' out)
    (hnodes : (path.map (·.node)).Nodup) (hdiff : (ls.map (·.element)).Nodup)
    (hom : omitted.Pairwise (· < ·)) (hpres : ∀ (i : Nat) (n : PNode), path[i]? = some n → i ∈ omitted → ∀ l ∈ ls, l.element ≠ n.element)
    (l : Spl) (hl : l ∈ ls) :
    ∃ (k p : Nat) (x : Spl) (n : PNode) (res : List Route.RNode) (y : Route.RNode),
      out[k]? = some x ∧ x.element = l.element ∧ x.tag = l.tag ∧
      path[p]? = some n ∧ n.element = l.element ∧
      (constructed path omitted out).iterate = some res ∧ res[p]? = some y ∧ y.node = n.node ∧ y.extra = some k := by
  obtain ⟨h1, h2, h3⟩ := C127_limits path ls ls' out ha hs
  have inj : ∀ (i j : Nat) (n m : PNode), path[i]? = some n → path[j]? = some m → n.node = m.node → i = j := by
    intro i j n m hi hj hnm
    have hi' : (path.map (·.node))[i]? = some n.node := by rw [List.getElem?_map, hi]; rfl
    have hj' : (path.map (·.node))[j]? = some n.node := by rw [List.getElem?_map, hj, hnm]; rfl
    exact (List.getElem?_inj (List.getElem?_eq_some_iff.1 hi').1 hnodes).1 (hi'.trans hj'.symm)
  -- the element of a limit is the element of its node
  have limit : ∀ k p, Route.Spec.LimitAt (constructed path omitted out) k p →
      ∃ (x : Spl) (n : PNode), out[k]? = some x ∧ path[p]? = some n ∧ n.element = x.element ∧ n.node = x.node ∧
        ∀ (j : Nat) (n' : PNode), path[j]? = some n' → n'.element = x.element → p ≤ j := by
    rintro k p ⟨m, hk, hp⟩
    simp only [constructed, List.getElem?_map] at hk hp
    obtain ⟨x, hx, rfl⟩ := Option.map_eq_some_iff.1 hk
    obtain ⟨n, hn, hnx⟩ := Option.map_eq_some_iff.1 hp
    obtain ⟨i, n', g1, g2, g3, g4⟩ := h2 x (List.mem_of_getElem? hx)
    have := inj p i n n' hn g1 (hnx.trans g3.symm)
    subst this
    rw [hn] at g1
    cases g1
    exact ⟨x, n, hx, hn, g2, g3, g4⟩
  have hel : (out.map (·.element)).Nodup := by
    have : (out.map (·.element)).Perm (ls.map (·.element)) := by
      have := h1.map Prod.fst
      simpa [List.map_map, Function.comp_def] using this
    exact this.nodup_iff.2 hdiff
  have hin : Route.Spec.LimitsInOrder (constructed path omitted out) := by
    refine ⟨hnodes, ?_, ?_, ?_⟩
    · intro k hk
      simp only [constructed, List.length_map] at hk
      obtain ⟨i, n, g1, _, g3, _⟩ := h2 out[k] (List.getElem_mem hk)
      refine ⟨i, n.node, ?_, ?_⟩
      · simp [constructed, List.getElem?_eq_getElem hk, g3]
      · simp [constructed, g1]
    · intro k p k' p' hkp hkp' hlt
      obtain ⟨x, n, e1, e2, e3, e4, e5⟩ := limit k p hkp
      obtain ⟨x', n', f1, f2, f3, f4, f5⟩ := limit k' p' hkp'
      obtain ⟨i, m, g1, g2, g3⟩ := h3 k k' x x' hlt e1 f1 p' n' f2 f3
      have hle : p ≤ p' := Nat.le_trans (e5 i m g1 g2) g3
      refine Nat.lt_of_le_of_ne hle fun heq => ?_
      subst heq
      rw [e2] at f2
      cases f2
      have hk1 : (out.map (·.element))[k]? = some n.element := by rw [List.getElem?_map, e1, e3]; rfl
      have hk2 : (out.map (·.element))[k']? = some n.element := by rw [List.getElem?_map, f1, f3]; rfl
      have := (List.getElem?_inj (List.getElem?_eq_some_iff.1 hk1).1 hel).1 (hk1.trans hk2.symm)
      omega
    · intro k p hkp hpo
      obtain ⟨x, n, e1, e2, e3, _, _⟩ := limit k p hkp
      have hx : (x.element, x.tag) ∈ ls.map fun l => (l.element, l.tag) :=
        h1.mem_iff.1 (List.mem_map.2 ⟨x, List.mem_of_getElem? e1, rfl⟩)
      obtain ⟨y, hy, hyx⟩ := List.mem_map.1 hx
      refine hpres p n e2 hpo y hy ?_
      rw [e3]
      exact congrArg Prod.fst hyx
  have hx : (l.element, l.tag) ∈ out.map fun l => (l.element, l.tag) := h1.mem_iff.2 (List.mem_map.2 ⟨l, hl, rfl⟩)
  obtain ⟨x, hxo, hxl⟩ := List.mem_map.1 hx
  simp only [Prod.mk.injEq] at hxl
  obtain ⟨k, hk, hkx⟩ := List.getElem_of_mem hxo
  have hk? : out[k]? = some x := by rw [List.getElem?_eq_getElem hk, hkx]
  obtain ⟨p, n, g1, g2, g3, _⟩ := h2 x hxo
  have hp : p < path.length := (List.getElem?_eq_some_iff.1 g1).1
  have hlim : Route.Spec.LimitAt (constructed path omitted out) k p :=
    ⟨n.node, by simp [constructed, hk?, g3], by simp [constructed, g1]⟩
  obtain ⟨res, y, r1, r2, r3⟩ := Route.C41_at_node_partial (constructed path omitted out) hin hom 0 path.length k p
    (by simp [constructed]) hlim (Nat.zero_le _) hp
  obtain ⟨res', r4, _, r5⟩ := Route.C40_from_to (constructed path omitted out) hom 0 path.length (Nat.zero_le _)
    (by simp [constructed])
  rw [r1] at r4
  cases r4
  obtain ⟨y', q1, q2, _⟩ := r5 p (by omega)
  rw [Nat.sub_zero] at r2
  rw [r2] at q1
  cases q1
  refine ⟨k, p, x, n, res, y, hk?, hxl.1, hxl.2, g1, g2.trans hxl.1, ?_, r2, ?_, r3⟩
  · rw [← r1]; simp [Route.SRoute.iterate, Route.SRoute.size, constructed]
  · rw [Nat.zero_add] at q2
    simpa [constructed, g1] using q2.symm

example : (C127_path.map (·.node)).Nodup ∧ ([⟨4, 0, 0⟩, ⟨2, 1, 0⟩] : List Spl).map (·.element) = [4, 2] ∧ ([4, 2] : List Nat).Nodup ∧
    ([2] : List Nat).Pairwise (· < ·) ∧
    ∀ i < 5, i ∈ [2] → ∀ l ∈ ([⟨4, 0, 0⟩, ⟨2, 1, 0⟩] : List Spl), some l.element ≠ (C127_path[i]?).map (·.element) := by decide

/-- C127 fails with several limits at the same element: only the first of them is reported, and no limit at a later element
ever is. -/
theorem C127_same_element_negation : ∃ (path : List PNode) (ls ls' out : List Spl), assignNodes path ls = some ls' ∧
    SortedBy path ls' out ∧ (path.map (·.node)).Nodup ∧ (path.map (·.element)).Nodup ∧
    out.map (·.node) = [21, 21, 23] ∧
    ∃ res, (constructed path [] out).iterate = some res ∧ ∀ y ∈ res, y.extra ≠ some 1 ∧ y.extra ≠ some 2 := by
  refine ⟨C127_path, [⟨2, 0, 0⟩, ⟨2, 1, 0⟩, ⟨4, 2, 0⟩], [⟨2, 0, 21⟩, ⟨2, 1, 21⟩, ⟨4, 2, 23⟩],
    [⟨2, 0, 21⟩, ⟨2, 1, 21⟩, ⟨4, 2, 23⟩], by decide, ⟨List.Perm.refl _, by decide⟩, by decide, by decide, by decide,
    [⟨20, none, false⟩, ⟨21, some 0, false⟩, ⟨22, some 0, false⟩, ⟨23, some 0, false⟩, ⟨24, some 0, false⟩], by decide, ?_⟩
  decide

/-! ### C128: routes by name -/

/-- C128. The routes of all stations are read in order without those that are only published, and the id of a route is its
position. -/
theorem C128_ids (file : List (List Raw)) :
    (∀ (i : Nat) (r : Inter), (readStations 0 file [])[i]? = some r → r.id = i) ∧
    (readStations 0 file []).map (fun i => (i.station, i.name, i.path, i.limits)) =
      file.zipIdx.flatMap fun p => (p.1.filter (!·.publishOnly)).map fun r => (p.2, r.name, r.path, r.limits) := by
  refine ⟨readStations_ids 0 file [] (by intro i r h; simp at h), ?_⟩
  have := readStations_body 0 file []
  rw [List.map_nil, List.nil_append] at this
  exact this

/-- the file of two stations; the first has a route that is only published -/
def C128_file : List (List Raw) :=
  [[⟨7, false, [⟨20, 1⟩], []⟩, ⟨8, true, [⟨20, 1⟩], []⟩, ⟨9, false, [⟨20, 1⟩, ⟨21, 2⟩], []⟩], [⟨7, false, [⟨30, 5⟩], []⟩]]

example : (readStations 0 C128_file []).map (fun i => (i.id, i.station, i.name)) = [(0, 0, 7), (1, 0, 9), (2, 1, 7)] := by decide

/-- C128. The route found by a name in a station is the last one with this name, and none is found exactly if the station has no
route with the name. -/
theorem C128_lookup (routes : List Inter) (s n : Nat) :
    (∀ r, find n (nameLoop routes (fun _ => []) s) = some r ↔
      ∃ (pre : List Inter) (x : Inter) (post : List Inter), routes = pre ++ x :: post ∧ x.station = s ∧ x.name = n ∧ x.id = r ∧
        ∀ y ∈ post, ¬ (y.station = s ∧ y.name = n)) ∧
    (find n (nameLoop routes (fun _ => []) s) = none ↔ ∀ x ∈ routes, ¬ (x.station = s ∧ x.name = n)) := by
  rw [nameLoop_find]
  constructor
  · intro r
    cases h : lastNamed routes s n with
    | none =>
      simp only [find, reduceCtorEq, false_iff]
      rintro ⟨pre, x, post, he, hs, hn, _, _⟩
      exact (lastNamed_none routes s n).1 h x (by rw [he]; simp) ⟨hs, hn⟩
    | some x =>
      simp only [Option.some.injEq]
      obtain ⟨pre, post, he, hx, hp⟩ := (lastNamed_some routes s n x).1 h
      constructor
      · intro hr
        exact ⟨pre, x, post, he, hx.1, hx.2, hr, hp⟩
      · rintro ⟨pre', x', post', he', hs', hn', hr', hp'⟩
        have := (lastNamed_some routes s n x').2 ⟨pre', post', he', ⟨hs', hn'⟩, hp'⟩
        rw [h] at this
        cases this
        exact hr'
  · cases h : lastNamed routes s n with
    | none =>
      simp only [find, true_iff]
      exact (lastNamed_none routes s n).1 h
    | some x =>
      simp only [reduceCtorEq, false_iff]
      intro hall
      obtain ⟨pre, post, he, hx, hp⟩ := (lastNamed_some routes s n x).1 h
      exact hall x (by rw [he]; simp) hx

/-- names are unique in every station -/
def UniqueNames (routes : List Inter) : Prop := (routes.map fun r => (r.station, r.name)).Nodup

theorem unique_last (routes : List Inter) (hu : UniqueNames routes) (x : Inter) (hx : x ∈ routes) :
    lastNamed routes x.station x.name = some x := by
  obtain ⟨pre, post, he⟩ := List.append_of_mem hx
  refine (lastNamed_some _ _ _ _).2 ⟨pre, post, he, ⟨rfl, rfl⟩, fun y hy hyx => ?_⟩
  unfold UniqueNames at hu
  rw [he, List.map_append, List.nodup_append] at hu
  have := (List.nodup_cons.1 hu.2.1).1
  exact this (List.mem_map.2 ⟨y, hy, by rw [hyx.1, hyx.2]⟩)

/-- C128. If names are unique in every station, every route is found by its name in its station. Missing: names that are used
more than once, see `C128_same_name_negation`. -/
theorem C128_found_partial (routes : List Inter) (hu : UniqueNames routes) (x : Inter) (hx : x ∈ routes) :
    find x.name (nameLoop routes (fun _ => []) x.station) = some x.id := by
  rw [nameLoop_find, unique_last routes hu x hx]

example : UniqueNames (readStations 0 C128_file []) ∧
    find 9 (nameLoop (readStations 0 C128_file []) (fun _ => []) 0) = some 1 := by
  constructor
  · unfold UniqueNames; decide
  · decide

/-- C128 fails if a station has two routes with the same name: the first is not found by any name in any station, although it is one
of the routes of the infrastructure. Only debug builds check this. -/
theorem C128_same_name_negation : ∃ (file : List (List Raw)) (x : Inter), x ∈ readStations 0 file [] ∧
    ∀ s n, find n (nameLoop (readStations 0 file []) (fun _ => []) s) ≠ some x.id := by
  refine ⟨[[⟨7, false, [⟨20, 1⟩], []⟩, ⟨7, false, [⟨21, 2⟩], []⟩]], ⟨0, 7, 0, [⟨20, 1⟩], []⟩, ?_, ?_⟩
  · simp [readStations, readRoutes]
  · intro s n h
    obtain ⟨pre, x, post, he, hs, hn, hid, hp⟩ := ((C128_lookup _ s n).1 _).1 h
    simp only [readStations, readRoutes, Bool.false_eq_true, if_false, List.nil_append, List.length_nil, List.cons_append,
      List.length_cons, Nat.zero_add] at he
    cases pre with
    | nil =>
      simp only [List.nil_append, List.cons.injEq] at he
      obtain ⟨h1, h2⟩ := he
      refine hp _ (by rw [← h2]; exact List.mem_cons_self ..) ?_
      rw [← h1] at hs hn
      exact ⟨hs, hn⟩
    | cons a pre =>
      simp only [List.cons_append, List.cons.injEq] at he
      obtain ⟨_, h2⟩ := he
      cases pre with
      | nil =>
        simp only [List.nil_append, List.cons.injEq] at h2
        rw [← h2.1] at hid
        exact absurd hid (by decide)
      | cons b pre => simp at h2

/-! ### C129: routes by first element -/

/-- C129. In whatever order the routes of a station are visited: if names are unique in every station and no route is empty, the
table has for every element exactly the routes of the station that start there, each once. Missing: names that are used more
than once, see `C129_same_name_negation`. -/
theorem C129_first_partial (order : List (Nat × Nat) → List (Nat × Nat)) (ho : ∀ l, (order l).Perm l) (file : List (List Raw))
    (hu : UniqueNames (readStations 0 file [])) (hne : ∀ x ∈ readStations 0 file [], x.path ≠ []) (s : Nat) :
    ∃ m, (stationTables order (readStations 0 file []) s).2 = some m ∧ ∀ e,
      ((find e m).getD []).Nodup ∧
      ∀ r, r ∈ (find e m).getD [] ↔
        ∃ x, (readStations 0 file [])[r]? = some x ∧ x.station = s ∧ x.path.head?.map (·.element) = some e := by
  generalize hr : readStations 0 file [] = routes at hu hne
  have hids : ∀ (i : Nat) (r : Inter), routes[i]? = some r → r.id = i := by
    rw [← hr]; exact (C128_ids file).1
  have hkeys := nameLoop_keys routes (fun _ => []) s (by simp)
  -- the entries of the table of names
  have hentry : ∀ n r, (n, r) ∈ nameLoop routes (fun _ => []) s ↔ ∃ x, routes[r]? = some x ∧ x.station = s ∧ x.name = n := by
    intro n r
    rw [← find_iff _ hkeys, nameLoop_find]
    constructor
    · intro h
      cases hl : lastNamed routes s n with
      | none => rw [hl] at h; simp [find] at h
      | some x =>
        rw [hl] at h
        simp only [Option.some.injEq] at h
        obtain ⟨pre, post, he, hx, _⟩ := (lastNamed_some routes s n x).1 hl
        obtain ⟨i, hi, hix⟩ := List.getElem_of_mem (show x ∈ routes by rw [he]; simp)
        have hi? : routes[i]? = some x := by rw [List.getElem?_eq_getElem hi, hix]
        have := hids i x hi?
        exact ⟨x, by rw [← h, this]; exact hi?, hx.1, hx.2⟩
    · rintro ⟨x, hx, hs, hn⟩
      have := unique_last routes hu x (List.mem_of_getElem? hx)
      rw [hs, hn] at this
      rw [this]
      exact congrArg some (hids r x hx)
  have hfirst : ∀ p ∈ order (nameLoop routes (fun _ => []) s), ∃ e, firstOf routes p.2 = some e := by
    intro p hp
    obtain ⟨x, hx, _, _⟩ := (hentry p.1 p.2).1 ((ho _).mem_iff.1 hp)
    have hxe := hne x (List.mem_of_getElem? hx)
    cases hpath : x.path with
    | nil => exact absurd hpath hxe
    | cons a as => exact ⟨a.element, by simp [firstOf, hx, hpath]⟩
  obtain ⟨m, h1, h2⟩ := elementLoop_spec (firstOf routes) (order (nameLoop routes (fun _ => []) s)) [] hfirst
  refine ⟨m, h1, fun e => ?_⟩
  rw [h2 e]
  simp only [find, Option.getD_none, List.nil_append]
  constructor
  · refine List.Nodup.sublist List.filter_sublist ?_
    rw [((ho _).map _).nodup_iff]
    -- a route has one name
    have hnd : ∀ (l : List (Nat × Nat)), (l.map (·.1)).Nodup → (∀ p ∈ l, ∀ q ∈ l, p.2 = q.2 → p.1 = q.1) → (l.map (·.2)).Nodup := by
      intro l
      induction l with
      | nil => intros; simp
      | cons p l ih =>
        intro hl hinj
        rw [List.map_cons, List.nodup_cons] at hl ⊢
        refine ⟨fun hm => ?_, ih hl.2 fun p hp q hq => hinj p (List.mem_cons_of_mem _ hp) q (List.mem_cons_of_mem _ hq)⟩
        obtain ⟨q, hq, hqp⟩ := List.mem_map.1 hm
        exact hl.1 (List.mem_map.2 ⟨q, hq, hinj q (List.mem_cons_of_mem _ hq) p (List.mem_cons_self ..) hqp⟩)
    refine hnd _ hkeys fun p hp q hq hpq => ?_
    obtain ⟨x, hx, _, hxn⟩ := (hentry p.1 p.2).1 hp
    obtain ⟨y, hy, _, hyn⟩ := (hentry q.1 q.2).1 hq
    rw [hpq, hy] at hx
    cases hx
    rw [← hxn, ← hyn]
  · intro r
    rw [List.mem_filter, decide_eq_true_eq]
    constructor
    · rintro ⟨hm, hf⟩
      obtain ⟨p, hp, rfl⟩ := List.mem_map.1 hm
      obtain ⟨x, hx, hs, _⟩ := (hentry p.1 p.2).1 ((ho _).mem_iff.1 hp)
      refine ⟨x, hx, hs, ?_⟩
      simpa [firstOf, hx] using hf
    · rintro ⟨x, hx, hs, hf⟩
      refine ⟨List.mem_map.2 ⟨(x.name, r), (ho _).mem_iff.2 ((hentry x.name r).2 ⟨x, hx, hs, rfl⟩), rfl⟩, ?_⟩
      simpa [firstOf, hx] using hf

example : UniqueNames (readStations 0 C128_file []) ∧ (∀ x ∈ readStations 0 C128_file [], x.path ≠ []) ∧
    (stationTables List.reverse (readStations 0 C128_file []) 0).2 = some [(1, [1, 0])] := by
  refine ⟨?_, ?_, ?_⟩
  · unfold UniqueNames; decide
  · intro x hx
    have h : ∀ x ∈ (readStations 0 C128_file []).map (·.path), x ≠ [] := by decide
    exact h _ (List.mem_map.2 ⟨x, hx, rfl⟩)
  · decide

/-- C129 fails if a station has two routes with the same name: the first of them is missing at its first element, and with it
the interlocking routes over it. -/
theorem C129_same_name_negation : ∃ (file : List (List Raw)) (x : Inter), x ∈ readStations 0 file [] ∧ x.station = 0 ∧
    x.path.head?.map (·.element) = some 1 ∧
    ∃ m, (stationTables id (readStations 0 file []) 0).2 = some m ∧ x.id ∉ (find 1 m).getD [] := by
  refine ⟨[[⟨7, false, [⟨20, 1⟩], []⟩, ⟨7, false, [⟨21, 2⟩], []⟩]], ⟨0, 7, 0, [⟨20, 1⟩], []⟩, ?_, rfl, rfl,
    [(2, [1])], by decide, by decide⟩
  simp [readStations, readRoutes]

end Soro
