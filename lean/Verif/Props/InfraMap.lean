import Verif.Spec.InfraMap
import Mathlib.Data.List.Induction

/-! C203, C204: the map of an infrastructure, see `Model/InfraMap.lean`. -/

namespace Soro.InfraMap

theorem run_snoc (s : State) (es : List Event) (e : Event) : s.run (es ++ [e]) = (s.run es).step e := by simp [State.run]

theorem setVisible_loaded (m : GLMap) (t : Nat) (v : Bool) : (m.setVisible t v).loaded = m.loaded := by
  unfold GLMap.setVisible; split
  · rfl
  · dsimp only; split <;> rfl

theorem setFilters_same (m : GLMap) (f : Filter) : (m.setFilters f).loaded = m.loaded ∧ (m.setFilters f).icon = m.icon ∧ (m.setFilters f).dot = m.dot ∧
    (m.setFilters f).routes = m.routes := by
  unfold GLMap.setFilters; split <;> exact ⟨rfl, rfl, rfl, rfl⟩

theorem setVisible_same (m : GLMap) (t : Nat) (v : Bool) : (m.setVisible t v).iconFilter = m.iconFilter ∧ (m.setVisible t v).dotFilter = m.dotFilter ∧
    (m.setVisible t v).routes = m.routes := by
  unfold GLMap.setVisible; split
  · exact ⟨rfl, rfl, rfl⟩
  · dsimp only; split <;> exact ⟨rfl, rfl, rfl⟩

theorem setVisible_layers (m : GLMap) (h : m.loaded = true) (t : Nat) (v : Bool) (u : Nat) :
    (m.setVisible t v).icon u = (if u = t then v else m.icon u) ∧
    (m.setVisible t v).dot u = (if u = t ∧ t ≠ stationType then v else m.dot u) := by
  unfold GLMap.setVisible
  rw [h]
  by_cases ht : t = stationType <;> by_cases hu : u = t <;> simp [ht, hu]

theorem visible_all (cs : List Control) (ts : List Nat) (m : GLMap) (h : m.loaded = true) :
    let r := ts.foldl (fun m t => m.setVisible t (decide (.type t ∈ cs))) m
    r.loaded = true ∧ r.routes = m.routes ∧ (∀ t ∈ ts, r.icon t = decide (.type t ∈ cs)) ∧ (∀ t, t ∉ ts → r.icon t = m.icon t) ∧
      (∀ t ∈ ts, t ≠ stationType → r.dot t = decide (.type t ∈ cs)) ∧ (∀ t, t ∉ ts ∨ t = stationType → r.dot t = m.dot t) := by
  induction ts generalizing m with
  | nil => simp [h]
  | cons a ts ih =>
    have hl := (setVisible_loaded m a (decide (.type a ∈ cs))).trans h
    obtain ⟨h1, h2, h3, h4, h5, h6⟩ := ih _ hl
    have hs := setVisible_layers m h a (decide (.type a ∈ cs))
    simp only [List.foldl_cons]
    refine ⟨h1, h2.trans (setVisible_same _ _ _).2.2, ?_, ?_, ?_, ?_⟩
    · intro t ht
      by_cases hm : t ∈ ts
      · exact h3 t hm
      · have : t = a := by simpa [hm] using ht
        rw [h4 t hm, (hs t).1, if_pos this, this]
    · intro t ht
      simp only [List.mem_cons, not_or] at ht
      rw [h4 t ht.2, (hs t).1, if_neg ht.1]
    · intro t ht hn
      by_cases hm : t ∈ ts
      · exact h5 t hm hn
      · have : t = a := by simpa [hm] using ht
        rw [h6 t (Or.inl hm), (hs t).2, if_pos ⟨this, this ▸ hn⟩, this]
    · intro t ht
      have ht' : t ∉ ts ∨ t = stationType := by
        rcases ht with ht | ht
        · left; simp only [List.mem_cons, not_or] at ht; exact ht.2
        · exact Or.inr ht
      rw [h6 t ht', (hs t).2, if_neg]
      rintro ⟨e1, e2⟩
      rcases ht with ht | ht
      · exact ht (by simp [e1])
      · exact e2 (e1 ▸ ht)

/-- the visible layers are those of the checked types -/
def VisOK (m : GLMap) (cs : List Control) : Prop :=
  ∀ t, t < typeCount → m.icon t = decide (.type t ∈ cs) ∧ m.dot t = (decide (t ≠ stationType) && decide (.type t ∈ cs))

/-- stations are not filtered -/
def StationFree (m : GLMap) : Prop := m.iconFilter stationType = .all

/-- the filter is that of the checked directions -/
def FilOK (m : GLMap) (cs : List Control) : Prop :=
  ∀ t, t < typeCount → t ≠ stationType → m.iconFilter t = filterOf cs ∧ m.dotFilter t = filterOf cs

theorem style_ok (b : Bool) (cs : List Control) : VisOK (style b cs) cs ∧ StationFree (style b cs) := ⟨fun _ _ => ⟨rfl, rfl⟩, rfl⟩

theorem foldl_unloaded (cs : List Control) (ts : List Nat) (m : GLMap) (h : m.loaded = false) :
    ts.foldl (fun m t => m.setVisible t (decide (.type t ∈ cs))) m = m := by
  induction ts with
  | nil => rfl
  | cons a ts ih =>
    have : m.setVisible a (decide (.type a ∈ cs)) = m := by unfold GLMap.setVisible; simp [h]
    rw [List.foldl_cons, this, ih]

theorem setAll_unloaded (cs : List Control) (m : GLMap) (h : m.loaded = false) : m.setAll cs = m := by
  unfold GLMap.setAll
  rw [foldl_unloaded cs _ m h]
  unfold GLMap.setFilters; simp [h]

theorem setFilters_fil (m : GLMap) (h : m.loaded = true) (cs : List Control) : FilOK (m.setFilters (filterOf cs)) cs := by
  intro t ht hn
  unfold GLMap.setFilters
  simp [h, ht, hn]

theorem setFilters_station (m : GLMap) (f : Filter) (h : StationFree m) : StationFree (m.setFilters f) := by
  unfold GLMap.setFilters
  split
  · exact h
  · show (if stationType < typeCount ∧ stationType ≠ stationType then f else m.iconFilter stationType) = .all
    rw [if_neg (by simp)]; exact h

theorem visible_filters (cs : List Control) (ts : List Nat) (m : GLMap) :
    (ts.foldl (fun m t => m.setVisible t (decide (.type t ∈ cs))) m).iconFilter = m.iconFilter := by
  induction ts generalizing m with
  | nil => rfl
  | cons a ts ih => rw [List.foldl_cons, ih, (setVisible_same _ _ _).1]

theorem setAll_ok (cs : List Control) (m : GLMap) (h : m.loaded = true) (hs : StationFree m) (hd : m.dot stationType = false) :
    VisOK (m.setAll cs) cs ∧ StationFree (m.setAll cs) ∧ FilOK (m.setAll cs) cs := by
  obtain ⟨h1, _, h3, _, h5, h6⟩ := visible_all cs (List.range typeCount) m h
  refine ⟨?_, ?_, ?_⟩
  · intro t ht
    unfold GLMap.setAll
    rw [(setFilters_same _ _).2.1, (setFilters_same _ _).2.2.1]
    refine ⟨h3 t (List.mem_range.2 ht), ?_⟩
    by_cases hn : t = stationType
    · rw [h6 t (Or.inr hn), hn, hd]; simp
    · rw [h5 t (List.mem_range.2 ht) hn]; simp [hn]
  · refine setFilters_station _ _ ?_
    unfold StationFree
    rw [visible_filters]; exact hs
  · exact setFilters_fil _ h1 cs

theorem setAll_loaded (cs : List Control) (m : GLMap) : (m.setAll cs).loaded = m.loaded := by
  cases h : m.loaded with
  | false => rw [setAll_unloaded cs m h, h]
  | true =>
    unfold GLMap.setAll
    rw [(setFilters_same _ _).1]
    exact (visible_all cs (List.range typeCount) m h).1

theorem setAll_routes (cs : List Control) (m : GLMap) : (m.setAll cs).routes = m.routes := by
  cases h : m.loaded with
  | false => rw [setAll_unloaded cs m h]
  | true =>
    unfold GLMap.setAll
    rw [(setFilters_same _ _).2.2.2]
    exact (visible_all cs (List.range typeCount) m h).2.1

/-- what holds of the map in every state -/
structure MapOK (m : GLMap) (cs : List Control) : Prop where
  vis : m.loaded = true → VisOK m cs
  free : StationFree m
  dot : m.dot stationType = false

theorem style_mapOK (b : Bool) (cs : List Control) : MapOK (style b cs) cs := ⟨fun _ => (style_ok b cs).1, rfl, rfl⟩

theorem apply_mapOK {m : GLMap} {cs cs' : List Control} {c : Control} {v : Bool} (h : MapOK m cs)
    (hc : ∀ t, .type t ∈ cs' ↔ if c = .type t then v = true else .type t ∈ cs) :
    MapOK (match (generalizing := false) c with | .type t => m.setVisible t v | _ => m.setFilters (filterOf cs')) cs' := by
  have key : (∀ t, c ≠ .type t) → MapOK (m.setFilters (filterOf cs')) cs' := by
    intro hn
    refine ⟨fun hl t ht => ?_, setFilters_station _ _ h.free, by rw [(setFilters_same _ _).2.2.1]; exact h.dot⟩
    rw [(setFilters_same _ _).1] at hl
    rw [(setFilters_same _ _).2.1, (setFilters_same _ _).2.2.1]
    have : (Control.type t ∈ cs') = (Control.type t ∈ cs) := by rw [hc t, if_neg (hn t)]
    simp only [this]
    exact h.vis hl t ht
  cases c with
  | rising => exact key (by simp)
  | falling => exact key (by simp)
  | type u =>
    refine ⟨fun hl t ht => ?_, ?_, ?_⟩
    · rw [setVisible_loaded] at hl
      rw [(setVisible_layers m hl u v t).1, (setVisible_layers m hl u v t).2]
      have := hc t
      by_cases e : t = u
      · subst e
        simp only [if_true] at this
        rw [if_pos rfl]
        have hd : decide (Control.type t ∈ cs') = v := by cases v <;> simp_all
        refine ⟨hd.symm, ?_⟩
        rw [hd]
        by_cases hs : t = stationType
        · rw [if_neg (by simp [hs])]; rw [hs, h.dot]; simp
        · rw [if_pos ⟨rfl, hs⟩]; simp [hs]
      · rw [if_neg (by simp; exact fun q => e q.symm)] at this
        rw [if_neg e, if_neg (by simp [e])]
        simp only [this]
        exact h.vis hl t ht
    · show (m.setVisible u v).iconFilter _ = _
      rw [(setVisible_same _ _ _).1]; exact h.free
    · by_cases hl : m.loaded = true
      · rw [(setVisible_layers m hl u v _).2, if_neg]
        · exact h.dot
        · rintro ⟨e1, e2⟩; exact e2 e1.symm
      · have : m.setVisible u v = m := by unfold GLMap.setVisible; simp [hl]
        show (m.setVisible u v).dot _ = _
        rw [this]; exact h.dot

theorem check_checked (s : State) (c : Control) :
    (State.checked (match s.own with | some l => { s with own := some (l ++ [c]) } | none => { s with initially := s.initially ++ [c] })) = s.checked ++ [c] := by
  obtain ⟨i, o, st, m, h⟩ := s
  cases o <;> rfl

theorem step_checked (s : State) (e : Event) : (s.step e).checked = match e with
    | .check c => s.checked ++ [c]
    | .uncheck c => s.checked.filter (· ≠ c)
    | .reset => s.initially
    | _ => s.checked := by
  cases e <;> try rfl
  exact check_checked s _

theorem step_check_map (s : State) (c : Control) : (s.step (.check c)).map = s.map.map fun m =>
    match (generalizing := false) c with | .type t => m.setVisible t true | _ => m.setFilters (filterOf (s.checked ++ [c])) := by
  rw [← check_checked s c]
  obtain ⟨i, o, st, m, h⟩ := s
  cases o <;> cases c <;> rfl

theorem step_uncheck_map (s : State) (c : Control) : (s.step (.uncheck c)).map = s.map.map fun m =>
    match (generalizing := false) c with | .type t => m.setVisible t false | _ => m.setFilters (filterOf (s.checked.filter (· ≠ c))) := by
  cases c <;> rfl

/-- the invariant of the map -/
def Good (s : State) : Prop := ∀ m, s.map = some m → MapOK m s.checked

theorem setAll_mapOK {m : GLMap} {cs cs' : List Control} (h : MapOK m cs) (hl : m.loaded = true) : MapOK (m.setAll cs') cs' := by
  obtain ⟨a, b, _⟩ := setAll_ok cs' m hl h.free h.dot
  refine ⟨fun _ => a, b, ?_⟩
  rw [(a stationType (by decide)).2]; simp

theorem unloaded_mapOK {m : GLMap} {cs cs' : List Control} (h : MapOK m cs) (hl : m.loaded = false) : MapOK m cs' :=
  ⟨fun e => absurd (hl.symm.trans e) (by decide), h.free, h.dot⟩

theorem step_good (s : State) (e : Event) (h : Good s) : Good (s.step e) := by
  intro m hm
  rw [step_checked]
  cases e with
  | check c =>
    rw [step_check_map] at hm
    obtain ⟨m0, h0, rfl⟩ := Option.map_eq_some_iff.1 hm
    refine apply_mapOK (h m0 h0) fun t => ?_
    by_cases e : c = .type t
    · simp [e]
    · simp [e, eq_comm]
  | uncheck c =>
    rw [step_uncheck_map] at hm
    obtain ⟨m0, h0, rfl⟩ := Option.map_eq_some_iff.1 hm
    refine apply_mapOK (h m0 h0) fun t => ?_
    by_cases e : c = .type t
    · simp [e]
    · simp [e, eq_comm]
  | reset =>
    obtain ⟨m0, h0, rfl⟩ := Option.map_eq_some_iff.1 hm
    show MapOK (m0.setAll s.initially) s.initially
    cases hl : m0.loaded with
    | true => exact setAll_mapOK (h m0 h0) hl
    | false => rw [setAll_unloaded _ _ hl]; exact unloaded_mapOK (h m0 h0) hl
  | theme =>
    obtain ⟨m0, h0, rfl⟩ := Option.map_eq_some_iff.1 hm
    exact style_mapOK _ _
  | infra b =>
    cases b with
    | false => cases hm
    | true => injection hm with hm; subst hm; exact style_mapOK _ _
  | load =>
    obtain ⟨m0, h0, rfl⟩ := Option.map_eq_some_iff.1 hm
    obtain ⟨a, b, _⟩ := setAll_ok s.checked { m0 with loaded := true } rfl (h m0 h0).free (h m0 h0).dot
    refine ⟨fun _ => a, b, ?_⟩
    rw [(a stationType (by decide)).2]; simp
  | highlight l =>
    obtain ⟨m0, h0, rfl⟩ := Option.map_eq_some_iff.1 hm
    have := h m0 h0
    dsimp only
    split
    · exact ⟨this.vis, this.free, this.dot⟩
    · exact this

theorem init_good (i : List Control) (st : Option (List Control)) (hl : List Nat) (b : Bool) : Good (State.init i st hl b) := by
  intro m hm
  cases b with
  | false => cases hm
  | true => injection hm with hm; subst hm; exact style_mapOK _ _

theorem run_good (i : List Control) (st : Option (List Control)) (hl : List Nat) (b : Bool) (es : List Event) : Good ((State.init i st hl b).run es) := by
  induction es using List.reverseRecOn with
  | nil => exact init_good i st hl b
  | append_singleton es e ih => rw [run_snoc]; exact step_good _ _ ih

/-- directions are drawn as checked once the map is loaded -/
def Directed (s : State) : Prop := ∀ m, s.map = some m → m.loaded = true → FilOK m s.checked

theorem filter_special {cs cs' : List Control} (h1 : Control.rising ∈ cs' ↔ Control.rising ∈ cs) (h2 : Control.falling ∈ cs' ↔ Control.falling ∈ cs) :
    filterOf cs' = filterOf cs := by
  unfold filterOf; simp only [h1, h2]

/-- an event that refreshes makes the directions right -/
theorem refresh_directed (s : State) (e : Event) (hg : Good s) (he : e.refreshes = true) : Directed (s.step e) := by
  intro m hm hl
  rw [step_checked]
  cases e with
  | check c =>
    rw [step_check_map] at hm
    obtain ⟨m0, h0, rfl⟩ := Option.map_eq_some_iff.1 hm
    cases c with
    | type t => cases he
    | rising => exact setFilters_fil _ ((setFilters_same _ _).1.symm.trans hl) _
    | falling => exact setFilters_fil _ ((setFilters_same _ _).1.symm.trans hl) _
  | uncheck c =>
    rw [step_uncheck_map] at hm
    obtain ⟨m0, h0, rfl⟩ := Option.map_eq_some_iff.1 hm
    cases c with
    | type t => cases he
    | rising => exact setFilters_fil _ ((setFilters_same _ _).1.symm.trans hl) _
    | falling => exact setFilters_fil _ ((setFilters_same _ _).1.symm.trans hl) _
  | reset =>
    obtain ⟨m0, h0, rfl⟩ := Option.map_eq_some_iff.1 hm
    have hl0 : m0.loaded = true := (setAll_loaded _ m0).symm.trans hl
    exact (setAll_ok s.initially m0 hl0 (hg m0 h0).free (hg m0 h0).dot).2.2
  | load =>
    obtain ⟨m0, h0, rfl⟩ := Option.map_eq_some_iff.1 hm
    exact (setAll_ok s.checked { m0 with loaded := true } rfl (hg m0 h0).free (hg m0 h0).dot).2.2
  | theme => cases he
  | infra b => cases he
  | highlight l => cases he

/-- any event but a change of the theme keeps them right -/
theorem keep_directed (s : State) (e : Event) (hg : Good s) (hd : Directed s) (he : e ≠ .theme) : Directed (s.step e) := by
  by_cases hr : e.refreshes = true
  · exact refresh_directed s e hg hr
  · intro m hm hl
    rw [step_checked]
    cases e with
    | check c =>
      rw [step_check_map] at hm
      obtain ⟨m0, h0, rfl⟩ := Option.map_eq_some_iff.1 hm
      cases c with
      | type t =>
        intro u hu hn
        have hl0 : m0.loaded = true := (setVisible_loaded _ _ _).symm.trans hl
        obtain ⟨f1, f2, _⟩ := setVisible_same m0 t true
        have := hd m0 h0 hl0 u hu hn
        show (m0.setVisible t true).iconFilter u = _ ∧ (m0.setVisible t true).dotFilter u = _
        rw [f1, f2, filter_special (cs := s.checked) (by simp) (by simp)]
        exact this
      | rising => exact absurd rfl hr
      | falling => exact absurd rfl hr
    | uncheck c =>
      rw [step_uncheck_map] at hm
      obtain ⟨m0, h0, rfl⟩ := Option.map_eq_some_iff.1 hm
      cases c with
      | type t =>
        intro u hu hn
        have hl0 : m0.loaded = true := (setVisible_loaded _ _ _).symm.trans hl
        obtain ⟨f1, f2, _⟩ := setVisible_same m0 t false
        have := hd m0 h0 hl0 u hu hn
        show (m0.setVisible t false).iconFilter u = _ ∧ (m0.setVisible t false).dotFilter u = _
        rw [f1, f2, filter_special (cs := s.checked) (by simp) (by simp)]
        exact this
      | rising => exact absurd rfl hr
      | falling => exact absurd rfl hr
    | reset => exact absurd rfl hr
    | load => exact absurd rfl hr
    | theme => exact absurd rfl he
    | infra b =>
      cases b with
      | false => cases hm
      | true => injection hm with hm; subst hm; cases hl
    | highlight l =>
      obtain ⟨m0, h0, rfl⟩ := Option.map_eq_some_iff.1 hm
      have hl0 : m0.loaded = true := by
        split at hl
        · assumption
        · exact hl
      have := hd m0 h0 hl0
      dsimp only
      rw [if_pos hl0]
      exact this

theorem run_directed (s : State) (hg : Good s) (hd : Directed s) (es : List Event) (h : .theme ∉ es) : Directed (s.run es) := by
  induction es generalizing s with
  | nil => exact hd
  | cons e es ih =>
    simp only [List.mem_cons, not_or] at h
    exact ih (s.step e) (step_good s e hg) (keep_directed s e hg hd (fun q => h.1 q.symm)) h.2

theorem passes_filterOf (cs : List Control) (r : Bool) : (filterOf cs).passes r = true ↔ (if r then Control.rising else .falling) ∈ cs := by
  unfold filterOf
  by_cases h1 : Control.rising ∈ cs <;> by_cases h2 : Control.falling ∈ cs <;> cases r <;> simp [h1, h2, Filter.passes]

/-- **C203**, types: whatever happened, once the map is loaded only elements of checked types are drawn, and stations if and only if
they are checked. -/
theorem C203_types (i : List Control) (st : Option (List Control)) (hl : List Nat) (b : Bool) (es : List Event) (m : GLMap)
    (hm : ((State.init i st hl b).run es).map = some m) (h : m.loaded = true) (t : Nat) (ht : t < typeCount) (r : Bool) :
    (m.drawsIcon t r = true ∨ m.drawsDot t r = true → .type t ∈ ((State.init i st hl b).run es).checked) ∧
    (m.drawsIcon stationType r = true ↔ .type stationType ∈ ((State.init i st hl b).run es).checked) ∧ m.drawsDot stationType r = false := by
  have hg := run_good i st hl b es m hm
  have hv := hg.vis h
  refine ⟨?_, ?_, ?_⟩
  · unfold GLMap.drawsIcon GLMap.drawsDot
    rw [(hv t ht).1, (hv t ht).2]
    simp only [Bool.and_eq_true, decide_eq_true_eq]
    rintro (q | q)
    · exact q.1
    · exact q.1.2
  · unfold GLMap.drawsIcon
    rw [(hv stationType (by decide)).1, hg.free]
    simp [Filter.passes]
  · unfold GLMap.drawsDot
    rw [hg.dot]; rfl

/-- the filter of a map is that of the directions checked, or there is none -/
theorem fil_or (s : State) (hg : Good s) (es : List Event)
    (h0 : ∀ m, s.map = some m → m.loaded = true → FilOK m s.checked ∨ ∀ t, m.iconFilter t = .all ∧ m.dotFilter t = .all) :
    ∀ m, (s.run es).map = some m → m.loaded = true → FilOK m (s.run es).checked ∨ ∀ t, m.iconFilter t = .all ∧ m.dotFilter t = .all := by
  induction es using List.reverseRecOn with
  | nil => exact h0
  | append_singleton es e ih =>
    have hg' : Good (s.run es) := by
      clear ih
      induction es using List.reverseRecOn with
      | nil => exact hg
      | append_singleton es e ih => rw [run_snoc]; exact step_good _ _ ih
    rw [run_snoc]
    generalize s.run es = q at *
    intro m hm hl
    by_cases hr : e.refreshes = true
    · exact Or.inl (refresh_directed q e hg' hr m hm hl)
    · rw [step_checked]
      cases e with
      | check c =>
        rw [step_check_map] at hm
        obtain ⟨m0, h0, rfl⟩ := Option.map_eq_some_iff.1 hm
        cases c with
        | type t =>
          have hl0 : m0.loaded = true := (setVisible_loaded _ _ _).symm.trans hl
          obtain ⟨f1, f2, _⟩ := setVisible_same m0 t true
          rcases ih m0 h0 hl0 with k | k
          · left
            intro u hu hn
            show (m0.setVisible t true).iconFilter u = _ ∧ (m0.setVisible t true).dotFilter u = _
            rw [f1, f2, filter_special (cs := q.checked) (by simp) (by simp)]
            exact k u hu hn
          · right
            intro u
            show (m0.setVisible t true).iconFilter u = _ ∧ (m0.setVisible t true).dotFilter u = _
            rw [f1, f2]; exact k u
        | rising => exact absurd rfl hr
        | falling => exact absurd rfl hr
      | uncheck c =>
        rw [step_uncheck_map] at hm
        obtain ⟨m0, h0, rfl⟩ := Option.map_eq_some_iff.1 hm
        cases c with
        | type t =>
          have hl0 : m0.loaded = true := (setVisible_loaded _ _ _).symm.trans hl
          obtain ⟨f1, f2, _⟩ := setVisible_same m0 t false
          rcases ih m0 h0 hl0 with k | k
          · left
            intro u hu hn
            show (m0.setVisible t false).iconFilter u = _ ∧ (m0.setVisible t false).dotFilter u = _
            rw [f1, f2, filter_special (cs := q.checked) (by simp) (by simp)]
            exact k u hu hn
          · right
            intro u
            show (m0.setVisible t false).iconFilter u = _ ∧ (m0.setVisible t false).dotFilter u = _
            rw [f1, f2]; exact k u
        | rising => exact absurd rfl hr
        | falling => exact absurd rfl hr
      | reset => exact absurd rfl hr
      | load => exact absurd rfl hr
      | theme =>
        obtain ⟨m0, h0, rfl⟩ := Option.map_eq_some_iff.1 hm
        exact Or.inr fun _ => ⟨rfl, rfl⟩
      | infra b =>
        cases b with
        | false => cases hm
        | true => injection hm with hm; subst hm; cases hl
      | highlight l =>
        obtain ⟨m0, h0, rfl⟩ := Option.map_eq_some_iff.1 hm
        have hl0 : m0.loaded = true := by
          split at hl
          · assumption
          · exact hl
        dsimp only
        rw [if_pos hl0]
        exact ih m0 h0 hl0

theorem init_unloaded (i : List Control) (st : Option (List Control)) (hl : List Nat) (b : Bool) (m : GLMap)
    (hm : (State.init i st hl b).map = some m) : m.loaded = false ∧ m.routes = [] := by
  cases b with
  | false => cases hm
  | true => injection hm with hm; subst hm; exact ⟨rfl, rfl⟩

/-- **C203**, nothing is missing: whatever happened, once the map is loaded every element whose type and direction are checked is
drawn, as an icon and, unless it is a station, as a dot. -/
theorem C203_complete (i : List Control) (st : Option (List Control)) (hl : List Nat) (b : Bool) (es : List Event) (m : GLMap)
    (hm : ((State.init i st hl b).run es).map = some m) (h : m.loaded = true) (t : Nat) (ht : t < typeCount) (r : Bool)
    (hw : Wanted ((State.init i st hl b).run es).checked t r) : m.drawsIcon t r = true ∧ (t ≠ stationType → m.drawsDot t r = true) := by
  have hg := run_good i st hl b es m hm
  have hv := hg.vis h t ht
  have hf := fil_or _ (init_good i st hl b) es (fun m0 h0 l0 => by rw [(init_unloaded i st hl b m0 h0).1] at l0; cases l0) m hm h
  unfold GLMap.drawsIcon GLMap.drawsDot
  rw [hv.1, hv.2]
  have hc := hw.1
  by_cases hs : t = stationType
  · subst hs
    have := hg.free
    unfold StationFree at this
    rw [this]
    simp [hc, Filter.passes]
  · have hd : (if r then Control.rising else .falling) ∈ ((State.init i st hl b).run es).checked := hw.2.resolve_left hs
    have hp := (passes_filterOf _ r).2 hd
    rcases hf with k | k
    · rw [(k t ht hs).1, (k t ht hs).2, hp]; simp [hc, hs]
    · rw [(k t).1, (k t).2]; simp [hc, hs, Filter.passes]

/-- **C203**, exactly what is checked, partially: on a loaded map an element is drawn if and only if its type and direction are checked,
if the theme has not been changed since the page was opened, or since the last load of a map, reset or change of a direction.
Missing: after a change of the theme, see `C203_theme_negation`. -/
theorem C203_exact_partial (i : List Control) (st : Option (List Control)) (hl : List Nat) (b : Bool) (as es : List Event)
    (ha : as = [] ∨ ∃ as' e, as = as' ++ [e] ∧ e.refreshes = true) (hes : .theme ∉ es) (m : GLMap)
    (hm : ((State.init i st hl b).run (as ++ es)).map = some m) (h : m.loaded = true) (t : Nat) (ht : t < typeCount) (r : Bool) :
    (m.drawsIcon t r = true ↔ Wanted ((State.init i st hl b).run (as ++ es)).checked t r) ∧
    (m.drawsDot t r = true ↔ t ≠ stationType ∧ Wanted ((State.init i st hl b).run (as ++ es)).checked t r) := by
  have hg := run_good i st hl b (as ++ es) m hm
  have hv := hg.vis h t ht
  have hd0 : Directed ((State.init i st hl b).run as) := by
    rcases ha with rfl | ⟨as', e, rfl, he⟩
    · intro m0 h0 l0
      rw [(init_unloaded i st hl b m0 h0).1] at l0; cases l0
    · rw [run_snoc]; exact refresh_directed _ e (run_good i st hl b as') he
  have happ : (State.init i st hl b).run (as ++ es) = ((State.init i st hl b).run as).run es := by simp [State.run]
  have hd := run_directed _ (run_good i st hl b as) hd0 es hes
  rw [← happ] at hd
  have hf := hd m hm h
  unfold GLMap.drawsIcon GLMap.drawsDot Wanted
  rw [hv.1, hv.2]
  by_cases hs : t = stationType
  · subst hs
    have := hg.free
    unfold StationFree at this
    rw [this]
    simp [Filter.passes]
  · rw [(hf t ht hs).1, (hf t ht hs).2]
    simp only [Bool.and_eq_true, decide_eq_true_eq, passes_filterOf, hs, false_or, ne_eq, not_false_eq_true, true_and, and_self]

/-- **C203** is violated: whenever the theme is changed, elements of both directions are drawn, also if their direction is unchecked. -/
theorem C203_theme_negation (i : List Control) (st : Option (List Control)) (hl : List Nat) (b : Bool) (es : List Event) (m : GLMap)
    (hm : ((State.init i st hl b).run (es ++ [.theme])).map = some m) (t : Nat)
    (hc : .type t ∈ ((State.init i st hl b).run es).checked) (r : Bool) :
    m.drawsIcon t r = true ∧
    ((if r then Control.rising else .falling) ∉ ((State.init i st hl b).run es).checked → t ≠ stationType →
      ¬ Wanted ((State.init i st hl b).run (es ++ [.theme])).checked t r) := by
  rw [run_snoc] at hm ⊢
  obtain ⟨m0, h0, rfl⟩ := Option.map_eq_some_iff.1 hm
  refine ⟨?_, ?_⟩
  · simp [GLMap.drawsIcon, style, Filter.passes, hc]
  · intro hn hs
    rw [step_checked]
    rintro ⟨_, q | q⟩
    · exact hs q
    · exact hn q

/-- a map with main signals of rising direction only, then another theme: falling signals are drawn although unchecked -/
example : ∃ m, ((State.init [.type 5, .rising, .falling] none [] true).run [.load, .uncheck .falling, .theme]).map = some m ∧ m.loaded = true ∧
    m.drawsIcon 5 false = true ∧ ¬ Wanted ((State.init [.type 5, .rising, .falling] none [] true).run [.load, .uncheck .falling, .theme]).checked 5 false := by
  refine ⟨_, rfl, by decide, by decide, ?_⟩
  rintro ⟨_, q | q⟩
  · cases q
  · revert q; decide

/-- without the change of the theme they are not drawn, and rising ones are -/
example : ∃ m, ((State.init [.type 5, .rising, .falling] none [] true).run [.load, .uncheck .falling]).map = some m ∧ m.loaded = true ∧
    m.drawsIcon 5 false = false ∧ m.drawsIcon 5 true = true ∧ m.drawsDot 5 true = true ∧ m.drawsIcon 6 true = false :=
  ⟨_, rfl, by decide, by decide, by decide, by decide, by decide⟩

/-- **C203**, the controls survive: what is checked in the legend is checked again when the page is opened with what the browser has
stored. -/
theorem C203_restart (i : List Control) (st : Option (List Control)) (hl hl' : List Nat) (b b' : Bool) (es : List Event) :
    (State.init i ((State.init i st hl b).run es).storage hl' b').checked = ((State.init i st hl b).run es).checked := by
  have key : ∀ es, (((State.init i st hl b).run es).storage = some ((State.init i st hl b).run es).checked) ∨
      (((State.init i st hl b).run es).storage = none ∧ ((State.init i st hl b).run es).checked = i) := by
    intro es
    induction es using List.reverseRecOn with
    | nil => cases st with
      | none => exact Or.inr ⟨rfl, rfl⟩
      | some l => exact Or.inl rfl
    | append_singleton es e ih =>
      rw [run_snoc]
      generalize (State.init i st hl b).run es = q at *
      cases e with
      | check c =>
        left
        obtain ⟨i', o, st', m, h⟩ := q
        cases o <;> rfl
      | uncheck c => exact Or.inl rfl
      | reset => exact Or.inl rfl
      | theme => exact ih
      | infra _ => exact ih
      | load => exact ih
      | highlight _ => exact ih
  rcases key es with k | ⟨k, k'⟩
  · rw [k]; rfl
  · rw [k, k']; rfl

/-- a reset and a check afterwards: the controls are found again -/
example : (State.init [.rising] ((State.init [.rising] none [] false).run [.uncheck .rising, .reset, .check (.type 3)]).storage [] true).checked =
    [.rising, .type 3] := by decide

/-- **C204**, partially: after the highlighted routes were changed while the map was loaded, the map draws exactly the highlighted
routes until the theme or the infrastructure is changed. Missing: afterwards, see the negations. -/
theorem C204_drawn_partial (s : State) (l : List Nat) (es : List Event) (m m' : GLMap) (hm : s.map = some m) (h : m.loaded = true)
    (ht : .theme ∉ es) (hi : ∀ b, .infra b ∉ es) (hm' : (s.run (.highlight l :: es)).map = some m') :
    m'.routes = (s.run (.highlight l :: es)).highlighted := by
  have key : ∀ es : List Event, .theme ∉ es → (∀ b, .infra b ∉ es) → ∀ q : State,
      (∃ m, q.map = some m ∧ m.loaded = true ∧ m.routes = q.highlighted) → ∃ m, (q.run es).map = some m ∧ m.loaded = true ∧ m.routes = (q.run es).highlighted := by
    intro es
    induction es with
    | nil => intro _ _ q hq; exact hq
    | cons e es ih =>
      intro ht hi q hq
      simp only [List.mem_cons, not_or] at ht
      refine ih ht.2 (fun b hb => hi b (List.mem_cons_of_mem _ hb)) (q.step e) ?_
      obtain ⟨m, hm, hl, hr⟩ := hq
      cases e with
      | check c =>
        rw [step_check_map, hm]
        have hh : (q.step (.check c)).highlighted = q.highlighted := by obtain ⟨i', o, st', m, h⟩ := q; cases o <;> rfl
        rw [hh]
        refine ⟨_, rfl, ?_⟩
        cases c with
        | type t => exact ⟨(setVisible_loaded _ _ _).trans hl, (setVisible_same _ _ _).2.2.trans hr⟩
        | rising => exact ⟨(setFilters_same _ _).1.trans hl, (setFilters_same _ _).2.2.2.trans hr⟩
        | falling => exact ⟨(setFilters_same _ _).1.trans hl, (setFilters_same _ _).2.2.2.trans hr⟩
      | uncheck c =>
        rw [step_uncheck_map, hm]
        refine ⟨_, rfl, ?_⟩
        cases c with
        | type t => exact ⟨(setVisible_loaded _ _ _).trans hl, (setVisible_same _ _ _).2.2.trans hr⟩
        | rising => exact ⟨(setFilters_same _ _).1.trans hl, (setFilters_same _ _).2.2.2.trans hr⟩
        | falling => exact ⟨(setFilters_same _ _).1.trans hl, (setFilters_same _ _).2.2.2.trans hr⟩
      | reset =>
        refine ⟨m.setAll q.initially, ?_, (setAll_loaded q.initially m).trans hl, (setAll_routes q.initially m).trans hr⟩
        show q.map.map (fun m => m.setAll q.initially) = _
        rw [hm, Option.map_some]
      | load =>
        have h1 : (q.step .load).map = some (({ m with loaded := true } : GLMap).setAll q.checked) := by
          show q.map.map (fun m => ({ m with loaded := true } : GLMap).setAll q.checked) = _
          rw [hm, Option.map_some]
        have h2 := setAll_loaded q.checked { m with loaded := true }
        have h3 := setAll_routes q.checked { m with loaded := true }
        generalize ({ m with loaded := true } : GLMap).setAll q.checked = m2 at h1 h2 h3
        exact ⟨m2, h1, h2, h3.trans hr⟩
      | theme => exact absurd rfl ht.1
      | infra b => exact absurd (List.mem_cons_self) (hi b)
      | highlight l =>
        refine ⟨{ m with routes := l }, ?_, hl, rfl⟩
        show q.map.map _ = _
        rw [hm]; simp [hl]
  obtain ⟨m1, h1, _, h3⟩ := key es ht hi (s.step (.highlight l)) ⟨{ m with routes := l }, by show s.map.map _ = _; rw [hm]; simp [h], h, rfl⟩
  have : s.run (.highlight l :: es) = (s.step (.highlight l)).run es := rfl
  rw [this] at hm' ⊢
  rw [h1] at hm'
  injection hm' with hm'
  rw [← hm']; exact h3

/-- **C204** is violated: a change of the theme removes all highlighted routes from the map, while they remain highlighted. -/
theorem C204_theme_negation (s : State) (es : List Event) (m : GLMap) (hm : (s.run (es ++ [.theme])).map = some m) :
    m.routes = [] ∧ (s.run (es ++ [.theme])).highlighted = (s.run es).highlighted := by
  rw [run_snoc] at hm ⊢
  obtain ⟨m0, h0, rfl⟩ := Option.map_eq_some_iff.1 hm
  exact ⟨rfl, rfl⟩

/-- **C204** is violated: when another infrastructure is chosen, its map draws no highlighted route, also after it has been loaded, until
the next change of the highlighted routes. -/
theorem C204_infrastructure_negation (s : State) (as es : List Event) (h : ∀ l, .highlight l ∉ es) (m : GLMap)
    (hm : (s.run (as ++ .infra true :: es)).map = some m) :
    m.routes = [] ∧ (s.run (as ++ .infra true :: es)).highlighted = (s.run as).highlighted := by
  have happ : s.run (as ++ .infra true :: es) = ((s.run as).step (.infra true)).run es := by simp [State.run]
  rw [happ] at hm ⊢
  have hb : (s.run as).highlighted = ((s.run as).step (.infra true)).highlighted := rfl
  rw [hb]
  have h0 : ∀ m, ((s.run as).step (.infra true)).map = some m → m.routes = [] := by
    intro m hm; injection hm with hm; subst hm; rfl
  generalize (s.run as).step (.infra true) = q at *
  clear happ hb
  induction es generalizing q with
  | nil => exact ⟨h0 m hm, rfl⟩
  | cons e es ih =>
    have hh : (q.step e).highlighted = q.highlighted := by
      cases e with
      | check c => obtain ⟨i', o, st', m, h⟩ := q; cases o <;> rfl
      | highlight l => exact absurd (List.mem_cons_self) (h l)
      | uncheck _ => rfl
      | reset => rfl
      | theme => rfl
      | infra _ => rfl
      | load => rfl
    rw [← hh]
    refine ih (fun l hl => h l (List.mem_cons_of_mem _ hl)) (q.step e) hm ?_
    intro m1 h1
    cases e with
    | check c =>
      rw [step_check_map] at h1
      obtain ⟨m0, hq, rfl⟩ := Option.map_eq_some_iff.1 h1
      cases c with
      | type t => exact (setVisible_same _ _ _).2.2.trans (h0 m0 hq)
      | rising => exact (setFilters_same _ _).2.2.2.trans (h0 m0 hq)
      | falling => exact (setFilters_same _ _).2.2.2.trans (h0 m0 hq)
    | uncheck c =>
      rw [step_uncheck_map] at h1
      obtain ⟨m0, hq, rfl⟩ := Option.map_eq_some_iff.1 h1
      cases c with
      | type t => exact (setVisible_same _ _ _).2.2.trans (h0 m0 hq)
      | rising => exact (setFilters_same _ _).2.2.2.trans (h0 m0 hq)
      | falling => exact (setFilters_same _ _).2.2.2.trans (h0 m0 hq)
    | reset =>
      obtain ⟨m0, hq, rfl⟩ := Option.map_eq_some_iff.1 h1
      exact (setAll_routes _ _).trans (h0 m0 hq)
    | load =>
      obtain ⟨m0, hq, rfl⟩ := Option.map_eq_some_iff.1 h1
      exact (setAll_routes _ _).trans (h0 m0 hq)
    | theme =>
      obtain ⟨m0, hq, rfl⟩ := Option.map_eq_some_iff.1 h1
      rfl
    | infra b =>
      cases b with
      | false => cases h1
      | true => injection h1 with h1; subst h1; rfl
    | highlight l => exact absurd (List.mem_cons_self) (h l)

/-- a route highlighted on a loaded map is drawn; it is not after another theme, nor on the map of another infrastructure -/
example : (((State.init [] none [] true).run [.load, .highlight [7], .reset]).map.map GLMap.routes = some [7]) ∧
    (((State.init [] none [] true).run [.load, .highlight [7], .theme]).map.map GLMap.routes = some []) ∧
    (((State.init [] none [] true).run [.load, .highlight [7], .infra true, .load]).map.map GLMap.routes = some []) ∧
    ((State.init [] none [] true).run [.load, .highlight [7], .infra true, .load]).highlighted = [7] := by
  set_option maxRecDepth 20000 in decide

end Soro.InfraMap
