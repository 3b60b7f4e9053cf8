import Verif.Proof.Routing

/-! Property C186: requests reach the handler of their address. -/

namespace Soro.Routing
open Spec

theorem assoc4 (p i s t : List Char) : p ++ i ++ s ++ t = p ++ (i ++ (s ++ t)) := by
  simp only [List.append_assoc]

theorem assocT (p z x y m : List Char) :
    p ++ z ++ '/' :: x ++ '/' :: y ++ m = p ++ (z ++ ("/".toList ++ (x ++ ("/".toList ++ (y ++ m))))) := by
  change _ = p ++ (z ++ (['/'] ++ (x ++ (['/'] ++ (y ++ m)))))
  simp

theorem assocO (p t o a u b v n : List Char) :
    p ++ t ++ o ++ a ++ u ++ b ++ v ++ n = p ++ (t ++ (o ++ (a ++ (u ++ (b ++ (v ++ n)))))) := by
  simp only [List.append_assoc]

theorem assoc3 (p i s : List Char) : p ++ i ++ s = p ++ (i ++ s) := List.append_assoc p i s

theorem under_eq (i : List Char) (s : String) (t : List Char) :
    under i s ++ t = "/infrastructure/".toList ++ (i ++ (s.toList ++ t)) := assoc4 _ _ _ _

theorem under_eq' (i : List Char) (s : String) : under i s = "/infrastructure/".toList ++ (i ++ s.toList) :=
  assoc3 _ _ _

theorem name_of {s : List Char} (h : IsName s) : ∀ c ∈ s, isName c = true := fun c hc => (isName_iff c).2 (h.2 c hc)

/-- C186: a request for a resource of the server, by the address in the documentation or with or without a slash at its end where
this is allowed, is answered by the handler of the resource, with the names and numbers of the address as parameters; both if the
routes have to match the whole path and if they have to match its beginning. -/
theorem C186_reaches (full : Bool) (r : Resource) (hr : r.Ok) (path : List Char) (hp : Slashes r path) :
    dispatch full path = (r.handler, r.params) := by
  have key : ∀ {i t : List Char} {h : Handler} {cs : List (List Char)}, IsName i → (∃ t', t = '/' :: t') →
      firstMatch full t tails = some (h, cs) → dispatch full ("/infrastructure/".toList ++ (i ++ t)) = (h, i :: cs) := by
    intro i t h cs hi ht hm
    rw [dispatch_under hi ht, hm]
    rfl
  cases hp with
  | names => cases full <;> decide
  | boundingBox i =>
    rw [under_eq']
    exact key (h := .boundingBox) (cs := []) hr ⟨_, rfl⟩ (by cases full <;> decide)
  | timetables i =>
    rw [under_eq']
    exact key (h := .timetables) (cs := []) hr ⟨_, rfl⟩ (by cases full <;> decide)
  | timetable i t =>
    rw [List.append_assoc, under_eq]
    refine key hr.1 ⟨_, rfl⟩ ?_
    simp only [tails, text]
    iterate 10 rw [first_skip]
    · have h1 : matchItems ([.opt '/', .fin]) ['/'] = some [] := by decide
      have h2 : matchItems ([.opt '/', .fin, .fin]) ['/'] = some [] := by decide
      have hs : ∀ c ∈ ['/'].head?, isName c = false := by decide
      exact first_hit (match_plus_some hr.2.1 (name_of hr.2) hs h1) (match_plus_some hr.2.1 (name_of hr.2) hs h2)
    all_goals decide
  | same r =>
    cases r with
    | names => cases full <;> decide
    | boundingBox i =>
      change dispatch full (under i "/bounding_box/") = _
      rw [under_eq']
      exact key (h := .boundingBox) (cs := []) hr ⟨_, rfl⟩ (by cases full <;> decide)
    | stations i =>
      change dispatch full (under i "/stations/") = _
      rw [under_eq']
      exact key (h := .stations) (cs := []) hr ⟨_, rfl⟩ (by cases full <;> decide)
    | timetables i =>
      change dispatch full (under i "/timetables/") = _
      rw [under_eq']
      exact key (h := .timetables) (cs := []) hr ⟨_, rfl⟩ (by cases full <;> decide)
    | station i n =>
      change dispatch full (under i "/station/" ++ n) = _
      rw [under_eq]
      refine key hr.1 ⟨_, rfl⟩ ?_
      simp only [tails, text]
      iterate 3 rw [first_skip]
      · exact first_hit (match_plus_end hr.2.1 (digits_of hr.2) rfl) (match_plus_end hr.2.1 (digits_of hr.2) rfl)
      all_goals decide
    | stationRoute i n =>
      change dispatch full (under i "/station_route/" ++ n) = _
      rw [under_eq]
      refine key hr.1 ⟨_, rfl⟩ ?_
      simp only [tails, text]
      iterate 4 rw [first_skip]
      · exact first_hit (match_plus_end hr.2.1 (digits_of hr.2) rfl) (match_plus_end hr.2.1 (digits_of hr.2) rfl)
      all_goals decide
    | interlockingRoute i n =>
      change dispatch full (under i "/interlocking_route/" ++ n) = _
      rw [under_eq]
      refine key hr.1 ⟨_, rfl⟩ ?_
      simp only [tails, text]
      iterate 5 rw [first_skip]
      · exact first_hit (match_plus_end hr.2.1 (digits_of hr.2) rfl) (match_plus_end hr.2.1 (digits_of hr.2) rfl)
      all_goals decide
    | exclusionSet i n =>
      change dispatch full (under i "/exclusion_sets/" ++ n) = _
      rw [under_eq]
      refine key hr.1 ⟨_, rfl⟩ ?_
      simp only [tails, text]
      iterate 6 rw [first_skip]
      · exact first_hit (match_plus_end hr.2.1 (digits_of hr.2) rfl) (match_plus_end hr.2.1 (digits_of hr.2) rfl)
      all_goals decide
    | element i n =>
      change dispatch full (under i "/element/" ++ n) = _
      rw [under_eq]
      refine key hr.1 ⟨_, rfl⟩ ?_
      simp only [tails, text]
      iterate 7 rw [first_skip]
      · exact first_hit (match_plus_end hr.2.1 (digits_of hr.2) rfl) (match_plus_end hr.2.1 (digits_of hr.2) rfl)
      all_goals decide
    | search i q =>
      change dispatch full (under i "/search/" ++ q) = _
      rw [under_eq]
      refine key hr.1 ⟨_, rfl⟩ ?_
      simp only [tails, text]
      iterate 8 rw [first_skip]
      · exact first_hit (match_plus_end hr.2.1 (name_of hr.2) rfl) (match_plus_end hr.2.1 (name_of hr.2) rfl)
      all_goals decide
    | timetable i t =>
      change dispatch full (under i "/timetable/" ++ t) = _
      rw [under_eq]
      refine key hr.1 ⟨_, rfl⟩ ?_
      simp only [tails, text]
      iterate 10 rw [first_skip]
      · exact first_hit (match_plus_end hr.2.1 (name_of hr.2) rfl) (match_plus_end hr.2.1 (name_of hr.2) rfl)
      all_goals decide
    | tile i z x y =>
      have e : (Resource.tile i z x y).url = under i "/tiles/" ++ (z ++ ("/".toList ++ (x ++ ("/".toList ++ (y ++ ".mvt".toList))))) := by
        exact assocT _ _ _ _ _
      rw [e, under_eq]
      refine key hr.1 ⟨_, rfl⟩ ?_
      obtain ⟨_, hz, hx, hy⟩ := hr
      simp only [tails, text]
      have h3 : ∀ is, matchItems is [] = some [] →
          matchItems (.plus isDigit :: .any :: (("mvt".toList).map .lit ++ is)) (y ++ ".mvt".toList) = some [y] := by
        intro is his
        refine match_plus_some hy.1 (digits_of hy) (by decide) ?_
        have : ".mvt".toList = '.' :: ("mvt".toList ++ []) := rfl
        rw [this]
        simp only [matchItems]
        rw [match_lits]
        exact his
      have h2 : ∀ is, matchItems is [] = some [] →
          matchItems (.plus isDigit :: (("/".toList).map .lit ++ (.plus isDigit :: .any :: (("mvt".toList).map .lit ++ is))))
            (x ++ ("/".toList ++ (y ++ ".mvt".toList))) = some [x, y] := by
        intro is his
        refine match_plus_some hx.1 (digits_of hx) ?_ ?_
        · intro c hc
          have : c = '/' := by simpa [eq_comm] using hc
          subst this
          decide
        · rw [match_lits]
          exact h3 is his
      have h1 : ∀ is, matchItems is [] = some [] →
          matchItems (.plus isDigit :: (("/".toList).map .lit ++ (.plus isDigit :: (("/".toList).map .lit ++
            (.plus isDigit :: .any :: (("mvt".toList).map .lit ++ is))))))
            (z ++ ("/".toList ++ (x ++ ("/".toList ++ (y ++ ".mvt".toList))))) = some [z, x, y] := by
        intro is his
        refine match_plus_some hz.1 (digits_of hz) ?_ ?_
        · intro c hc
          have : c = '/' := by simpa [eq_comm] using hc
          subst this
          decide
        · rw [match_lits]
          exact h2 is his
      refine first_hit ?_ ?_
      · have := h1 [] rfl
        simpa only [List.append_nil] using this
      · exact h1 [.fin] rfl
    | ordering i t a b ns =>
      have e : (Resource.ordering i t a b ns).url = under i "/timetable/" ++ (t ++ ("/ordering?from=".toList ++ (a ++
          ("&to=".toList ++ (b ++ ("&trainIds=".toList ++ ns)))))) := by
        exact assocO _ _ _ _ _ _ _ _
      rw [e, under_eq]
      refine key hr.1 ⟨_, rfl⟩ ?_
      obtain ⟨_, ht, ha, hb, hns⟩ := hr
      simp only [tails, text]
      iterate 10 rw [first_skip]
      · have hs : ∀ u : List Char, ∀ c ∈ ("/ordering?from=".toList ++ u).head?, isName c = false := by
          intro u c hc
          have : c = '/' := by simpa [eq_comm] using hc
          subst this
          decide
        have hn : ∀ c s, isName c = true → matchItems [.opt '/', .fin] (c :: s) = none ∧
            matchItems [.opt '/', .fin, .fin] (c :: s) = none := by
          intro c s hc
          have hne : '/' ≠ c := by
            rintro rfl
            rw [isName_slash] at hc
            cases hc
          simp [matchItems, hne]
        rw [first_none]
        · have h4 : ∀ is, matchItems is [] = some [] → matchItems (.plus isName :: (("/ordering?from=".toList).map .lit ++
              (.plus isDigit :: (("&to=".toList).map .lit ++ (.plus isDigit :: (("&trainIds=".toList).map .lit ++
              (.ids :: is))))))) (t ++ ("/ordering?from=".toList ++ (a ++ ("&to=".toList ++ (b ++ ("&trainIds=".toList ++ ns)))))) =
              some [t, a, b, ns] := by
            intro is his
            refine match_plus_some ht.1 (name_of ht) (hs _) ?_
            rw [match_lits]
            refine match_plus_some ha.1 (digits_of ha) ?_ ?_
            · intro c hc
              have : c = '&' := by simpa [eq_comm] using hc
              subst this
              decide
            rw [match_lits]
            refine match_plus_some hb.1 (digits_of hb) ?_ ?_
            · intro c hc
              have : c = '&' := by simpa [eq_comm] using hc
              subst this
              decide
            rw [match_lits]
            exact match_ids hns his
          exact first_hit (h4 [.fin] rfl) (h4 [.fin, .fin] rfl)
        · rw [match_plus ht.1 (name_of ht) (hs _) fun c s hc => (hn c s hc).1]
          rfl
        · change matchItems [.plus isName, .opt '/', .fin, .fin] _ = none
          rw [match_plus ht.1 (name_of ht) (hs _) fun c s hc => (hn c s hc).2]
          rfl
      all_goals decide

/-- what was asked for -/
def Asked (h : Handler) (ps : List (List Char)) (path : List Char) : Prop :=
  ∃ r : Resource, r.Ok ∧ r.handler = h ∧ r.params = ps ∧ (Slashes r path ∨ TileText r path)

theorem asked_same {h : Handler} {ps : List (List Char)} {path : List Char} (r : Resource) (ok : r.Ok) (h1 : r.handler = h)
    (h2 : r.params = ps) (h3 : path = r.url) : Asked h ps path := ⟨r, ok, h1, h2, .inl (h3 ▸ .same r)⟩

theorem closeN (p i s n : List Char) : p ++ i ++ (s ++ (n ++ [])) = p ++ i ++ s ++ n := by simp

theorem closeT (p i s z x y r : List Char) (c : Char) :
    p ++ i ++ (s ++ (z ++ ("/".toList ++ (x ++ ("/".toList ++ (y ++ c :: ("mvt".toList ++ r))))))) =
      p ++ i ++ s ++ z ++ '/' :: x ++ '/' :: y ++ c :: "mvt".toList ++ r := by
  generalize "mvt".toList = m
  change p ++ i ++ (s ++ (z ++ (['/'] ++ (x ++ (['/'] ++ (y ++ c :: (m ++ r))))))) = _
  simp

theorem closeO (p i s t o a u b v n : List Char) :
    p ++ i ++ (s ++ (t ++ (o ++ (a ++ (u ++ (b ++ (v ++ (n ++ [])))))))) =
      p ++ i ++ s ++ t ++ o ++ a ++ u ++ b ++ v ++ n := by simp

theorem asked_tail {h : Handler} {is : List Item} {i t : List Char} {ds : List (List Char)} (hi : IsName i)
    (hm : (h, is) ∈ tails) (hp : Parsed is t ds) : Asked h (i :: ds) ("/infrastructure/".toList ++ i ++ t) := by
  unfold tails at hm
  rcases List.mem_cons.1 hm with e | hm
  · cases e
    obtain ⟨u, rfl, h1⟩ := (parsed_lits _ _ _ _).1 hp
    obtain ⟨z, u1, ds1, hz, rfl, rfl, h2⟩ := parsed_number h1
    obtain ⟨u2, rfl, h3⟩ := (parsed_lits _ _ _ _).1 h2
    obtain ⟨x, u3, ds3, hx, rfl, rfl, h4⟩ := parsed_number h3
    obtain ⟨u4, rfl, h5⟩ := (parsed_lits _ _ _ _).1 h4
    obtain ⟨y, u5, ds5, hy, rfl, rfl, h6⟩ := parsed_number h5
    obtain ⟨c, u6, rfl, h7⟩ := h6
    rw [← List.append_nil (text "mvt")] at h7
    obtain ⟨r, rfl, h8⟩ := (parsed_lits _ _ _ _).1 h7
    cases h8
    refine ⟨.tile i z x y, ⟨hi, hz, hx, hy⟩, rfl, rfl, .inr ?_⟩
    rw [closeT]
    exact .mk i z x y c r
  rcases List.mem_cons.1 hm with e | hm
  · cases e
    obtain ⟨u, rfl, h1⟩ := (parsed_lits _ _ _ _).1 hp
    rcases h1 with ⟨v, rfl, h2, h3⟩ | ⟨h2, h3⟩
    · cases h2; cases h3
      exact asked_same (.boundingBox i) hi rfl rfl rfl
    · cases h2; cases h3
      refine ⟨.boundingBox i, hi, rfl, rfl, .inl ?_⟩
      rw [List.append_nil]
      exact .boundingBox i
  rcases List.mem_cons.1 hm with e | hm
  · cases e
    obtain ⟨u, rfl, h2, h3⟩ := (parsed_lits _ _ _ _).1 hp
    cases h2; cases h3
    refine asked_same (.stations i) hi rfl rfl ?_
    rw [List.append_nil]
    rfl
  rcases List.mem_cons.1 hm with e | hm
  · cases e
    obtain ⟨u, rfl, h1⟩ := (parsed_lits _ _ _ _).1 hp
    obtain ⟨n, u1, ds1, hn, rfl, rfl, h2, h3⟩ := parsed_number h1
    cases h2; cases h3
    exact asked_same (.station i n) ⟨hi, hn⟩ rfl rfl (closeN _ _ _ _)
  rcases List.mem_cons.1 hm with e | hm
  · cases e
    obtain ⟨u, rfl, h1⟩ := (parsed_lits _ _ _ _).1 hp
    obtain ⟨n, u1, ds1, hn, rfl, rfl, h2, h3⟩ := parsed_number h1
    cases h2; cases h3
    exact asked_same (.stationRoute i n) ⟨hi, hn⟩ rfl rfl (closeN _ _ _ _)
  rcases List.mem_cons.1 hm with e | hm
  · cases e
    obtain ⟨u, rfl, h1⟩ := (parsed_lits _ _ _ _).1 hp
    obtain ⟨n, u1, ds1, hn, rfl, rfl, h2, h3⟩ := parsed_number h1
    cases h2; cases h3
    exact asked_same (.interlockingRoute i n) ⟨hi, hn⟩ rfl rfl (closeN _ _ _ _)
  rcases List.mem_cons.1 hm with e | hm
  · cases e
    obtain ⟨u, rfl, h1⟩ := (parsed_lits _ _ _ _).1 hp
    obtain ⟨n, u1, ds1, hn, rfl, rfl, h2, h3⟩ := parsed_number h1
    cases h2; cases h3
    exact asked_same (.exclusionSet i n) ⟨hi, hn⟩ rfl rfl (closeN _ _ _ _)
  rcases List.mem_cons.1 hm with e | hm
  · cases e
    obtain ⟨u, rfl, h1⟩ := (parsed_lits _ _ _ _).1 hp
    obtain ⟨n, u1, ds1, hn, rfl, rfl, h2, h3⟩ := parsed_number h1
    cases h2; cases h3
    exact asked_same (.element i n) ⟨hi, hn⟩ rfl rfl (closeN _ _ _ _)
  rcases List.mem_cons.1 hm with e | hm
  · cases e
    obtain ⟨u, rfl, h1⟩ := (parsed_lits _ _ _ _).1 hp
    obtain ⟨n, u1, ds1, hn, rfl, rfl, h2, h3⟩ := parsed_name h1
    cases h2; cases h3
    exact asked_same (.search i n) ⟨hi, hn⟩ rfl rfl (closeN _ _ _ _)
  rcases List.mem_cons.1 hm with e | hm
  · cases e
    obtain ⟨u, rfl, h1⟩ := (parsed_lits _ _ _ _).1 hp
    rcases h1 with ⟨v, rfl, h2, h3⟩ | ⟨h2, h3⟩
    · cases h2; cases h3
      exact asked_same (.timetables i) hi rfl rfl rfl
    · cases h2; cases h3
      refine ⟨.timetables i, hi, rfl, rfl, .inl ?_⟩
      rw [List.append_nil]
      exact .timetables i
  rcases List.mem_cons.1 hm with e | hm
  · cases e
    obtain ⟨u, rfl, h1⟩ := (parsed_lits _ _ _ _).1 hp
    obtain ⟨n, u1, ds1, hn, rfl, rfl, h1'⟩ := parsed_name h1
    rcases h1' with ⟨v, rfl, h2, h3⟩ | ⟨h2, h3⟩
    · cases h2; cases h3
      refine ⟨.timetable i n, ⟨hi, hn⟩, rfl, rfl, .inl ?_⟩
      rw [← List.append_assoc, ← List.append_assoc]
      exact .timetable i n
    · cases h2; cases h3
      exact asked_same (.timetable i n) ⟨hi, hn⟩ rfl rfl (closeN _ _ _ _)
  rcases List.mem_cons.1 hm with e | hm
  · cases e
    obtain ⟨u, rfl, h1⟩ := (parsed_lits _ _ _ _).1 hp
    obtain ⟨n, u1, ds1, hn, rfl, rfl, h2⟩ := parsed_name h1
    obtain ⟨u2, rfl, h3⟩ := (parsed_lits _ _ _ _).1 h2
    obtain ⟨a, u3, ds3, ha, rfl, rfl, h4⟩ := parsed_number h3
    obtain ⟨u4, rfl, h5⟩ := (parsed_lits _ _ _ _).1 h4
    obtain ⟨b, u5, ds5, hb, rfl, rfl, h6⟩ := parsed_number h5
    obtain ⟨u6, rfl, h7⟩ := (parsed_lits _ _ _ _).1 h6
    obtain ⟨w, u7, ds7, hw, rfl, rfl, h8, h9⟩ := h7
    cases h8; cases h9
    exact asked_same (.ordering i n a b w) ⟨hi, hn, ha, hb, hw⟩ rfl rfl (closeO _ _ _ _ _ _ _ _ _ _)
  cases hm

/-- C186: nothing else is answered by these handlers: a request is served as a file without parameters, or it is the address of a
resource with well formed names and numbers, which is answered with these as parameters; only for tiles any character is accepted
in place of the point, and anything behind `mvt`. -/
theorem C186_only (full : Bool) (path : List Char) (h : Handler) (ps : List (List Char)) (hd : dispatch full path = (h, ps)) :
    (h = .file ∧ ps = []) ∨
      ∃ r : Resource, r.Ok ∧ r.handler = h ∧ r.params = ps ∧ (Slashes r path ∨ TileText r path) := by
  unfold dispatch at hd
  cases hf : firstMatch full path routes with
  | none =>
    rw [hf] at hd
    cases hd
    exact .inl ⟨rfl, rfl⟩
  | some q =>
    rw [hf] at hd
    obtain rfl : q = (h, ps) := hd
    right
    obtain ⟨is, hm, hp⟩ := firstMatch_parsed hf
    rw [routes_eq] at hm
    rcases List.mem_cons.1 hm with e | hm
    · cases e
      obtain ⟨u, rfl, h1⟩ := (parsed_lits _ _ _ _).1 hp
      rcases h1 with ⟨v, rfl, h2, h3⟩ | ⟨h2, h3⟩
      · cases h2; cases h3
        exact asked_same .names trivial rfl rfl rfl
      · cases h2; cases h3
        refine ⟨.names, trivial, rfl, rfl, .inl ?_⟩
        rw [List.append_nil]
        exact .names
    · obtain ⟨⟨h', is'⟩, hm', e⟩ := List.mem_map.1 hm
      cases e
      obtain ⟨i, t, ds, hi, rfl, rfl, hp'⟩ := parsed_infra hp
      exact asked_tail hi hm' hp'

/-- C186: the handlers for timetables and ordering graphs get two and five parameters, as they expect
(serve_timetable.cc:30, serve_ordering_graph.cc:164), those for numbered objects get two, the second of which is a number, and
tiles three numbers. -/
theorem C186_counts (full : Bool) (path : List Char) :
    ((dispatch full path).1 = .timetable → (dispatch full path).2.length = 2) ∧
    ((dispatch full path).1 = .ordering → (dispatch full path).2.length = 5) ∧
    ((dispatch full path).1 ∈ [Handler.station, .stationRoute, .interlockingRoute, .exclusionSet, .element] →
      ∃ i n, (dispatch full path).2 = [i, n] ∧ IsName i ∧ IsNumber n) ∧
    ((dispatch full path).1 = .tile → ∃ i z x y, (dispatch full path).2 = [i, z, x, y] ∧ IsNumber z ∧ IsNumber x ∧ IsNumber y) := by
  rcases hd : dispatch full path with ⟨h, ps⟩
  rcases C186_only full path h ps hd with ⟨rfl, rfl⟩ | ⟨r, ok, rfl, rfl, _⟩
  · simp
  · cases r <;> simp only [Resource.handler, Resource.params, Resource.Ok] at ok ⊢ <;>
      simp only [reduceCtorEq, false_implies, List.mem_cons, List.not_mem_nil, or_false, or_self, or_true, true_or, true_implies,
        List.length_cons, List.length_nil, and_true, true_and]
    · exact ⟨_, _, _, _, rfl, ok.2⟩
    all_goals exact ⟨_, _, rfl, ok⟩

/-- C186: no request at all concerns an infrastructure whose name has a character other than letters, digits, `_` and `-`,
although infrastructures are named like their files, without restriction. -/
theorem C186_unreachable (full : Bool) (i : List Char) (c : Char) (hc : c ∈ i) (hb : ¬ (c.isAlphanum = true ∨ c = '_' ∨ c = '-'))
    (path : List Char) : (dispatch full path).2.head? ≠ some i := by
  rcases hd : dispatch full path with ⟨h, ps⟩
  rcases C186_only full path h ps hd with ⟨rfl, rfl⟩ | ⟨r, ok, rfl, rfl, _⟩
  · simp
  · have : ∀ j, r.params.head? = some j → IsName j := by
      cases r <;> simp_all [Resource.params, Resource.Ok]
    exact fun e => hb ((this i e).2 c hc)

example : (Resource.tile "de_iss".toList "12".toList "7".toList "0".toList).Ok ∧
    Slashes (.tile "de_iss".toList "12".toList "7".toList "0".toList) "/infrastructure/de_iss/tiles/12/7/0.mvt".toList ∧
    (dispatch true "/infrastructure/de_iss/tiles/12/7/0.mvt".toList).1 = .tile :=
  ⟨⟨⟨by decide, by decide⟩, ⟨by decide, by decide⟩, ⟨by decide, by decide⟩, ⟨by decide, by decide⟩⟩, .same _, by decide⟩
example : ¬ ('.'.isAlphanum = true ∨ '.' = '_' ∨ '.' = '-') := by decide
example : dispatch false "/infrastructure/a.b/stations/".toList = (.file, []) := by decide

end Soro.Routing
