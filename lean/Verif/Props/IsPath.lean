import Verif.Proof.IsPath
import Verif.Props.RoutePath
import Verif.Props.ReverseAhead
import Verif.Props.Border

/-! C200, C201: paths of neighbours and the assertions of distances, see `Model/IsPath.lean` and `Spec/IsPath.lean`. -/

namespace Soro.Infra

theorem partners_some {bs : List (Nat × Bool × Nat)} {p : Nat → Option Nat} {i : Nat} (h : (∃ t ∈ bs, t.1 = i) ∨ p i ≠ none) :
    partners bs p i ≠ none := by
  induction bs generalizing p with
  | nil =>
    rcases h with ⟨t, ht, _⟩ | h
    · simp at ht
    · exact h
  | cons t bs ih =>
    refine ih (p := set p t.1 (some t.2.2)) ?_
    by_cases e : t.1 = i
    · right; rw [e, set_same]; simp
    · rcases h with ⟨t', ht, e'⟩ | h
      · rcases List.mem_cons.1 ht with rfl | ht
        · exact absurd e' e
        · exact Or.inl ⟨t', ht, e'⟩
      · right; rw [set_ne _ _ (Ne.symm e)]; exact h

theorem Paired.mutual {bs : List (Nat × Bool × Nat)} (h : Paired bs) (i j : Nat) (e : partners bs (fun _ => none) i = some j) :
    partners bs (fun _ => none) j = some i := by
  rcases partners_mem _ _ _ _ e with ⟨low, hm⟩ | hm
  · obtain ⟨low', hm'⟩ := h.2 _ hm
    exact partners_eq bs _ j i ⟨low', hm'⟩ fun t ht et => (h.1 _ ht _ hm' et)
  · cases hm

/-- **C200** `complete_borders` gives every border at most one partner, whose partner it is, if the borders of the stations fit together. -/
theorem C200_paired {all : List Border} (h : BordersFit all) : Paired (borderLinks all) := by
  have inj : ∀ a ∈ all, ∀ b ∈ all, a.elem = b.elem → a = b := fun a ha b hb e => List.inj_on_of_nodup_map h.elem ha hb e
  have mem : ∀ t, t ∈ borderLinks all ↔ ∃ f ∈ all, ∃ g ∈ all, f.Counterpart g ∧ (f.elem, f.low, g.elem) = t := by
    intro t
    simp only [borderLinks, List.mem_flatMap, List.mem_map, mem_matching, and_assoc]
  constructor
  · intro t ht t' ht' e
    obtain ⟨f, hf, g, hg, c, rfl⟩ := (mem t).1 ht
    obtain ⟨f', hf', g', hg', c', rfl⟩ := (mem t').1 ht'
    have := inj f hf f' hf' e
    subst this
    show g.elem = g'.elem
    rw [h.uniq hg hg' c c']
  · intro t ht
    obtain ⟨f, hf, g, hg, c, rfl⟩ := (mem t).1 ht
    exact ⟨g.low, (mem _).2 ⟨g, hg, f, hf, c.symm, rfl⟩⟩

section
variable {g0 : Graph} {xs : List SecIn} {bs : List (Nat × Bool × Nat)}

/-- **C200** Neighbours are mutual, if every border has at most one partner, whose partner it is. -/
theorem C200_mutual (v : ValidNet g0 xs bs) (hp : Paired bs) {i j : Nat} (hi : i < (netGraph g0 xs bs).n)
    (h : some j ∈ neighbourSlots (netGraph g0 xs bs).el i) : some i ∈ neighbourSlots (netGraph g0 xs bs).el j :=
  (netCtx v).mutual hp.mutual hi h

/-- **C200** Only borders without partner lack neighbours. -/
theorem C200_complete (v : ValidNet g0 xs bs) {i : Nat} (hi : i < (netGraph g0 xs bs).n)
    (hb : ((netGraph g0 xs bs).el i).ty = .border → ∃ t ∈ bs, t.1 = i) : none ∉ neighbourSlots (netGraph g0 xs bs).el i := fun h =>
  (netCtx v).slots_full hi (fun e => partners_some (Or.inl (hb e))) none h rfl

/-- **C200** Neighbours are the elements before and after in a section and the partner of a border. -/
theorem C200_neighbours (v : ValidNet g0 xs bs) (hp : Paired bs) {i j : Nat} (hi : i < (netGraph g0 xs bs).n) :
    some j ∈ neighbourSlots (netGraph g0 xs bs).el i ↔ Adjacent (parseAll xs g0).2 i j ∨ ∃ low, (i, low, j) ∈ bs := by
  refine ((netCtx v).nb_adj hi).trans (or_congr_right ⟨fun e => ?_, fun ⟨low, e⟩ => ?_⟩)
  · rcases partners_mem _ _ _ _ e with q | q
    · exact q
    · cases q
  · exact partners_eq bs _ i j ⟨low, e⟩ fun t ht et => hp.1 _ ht _ e et

theorem neighbour_true (v : ValidNet g0 xs bs) {i y : Nat} (hi : i < (netGraph g0 xs bs).n) (hl : ¬ Loose g0 xs bs i)
    (h : Nb (netGraph g0 xs bs).el i y) : isNeighbour (netGraph g0 xs bs).el i y = some true := by
  have c := netCtx v
  unfold isNeighbour
  by_cases hb : ((netGraph g0 xs bs).el i).ty = .border ∧ partners bs (fun _ => none) i = none
  · obtain ⟨hb, hp⟩ := hb
    have hi0 : i < g0.n := by
      rcases Nat.lt_or_ge i g0.n with q | q
      · exact q
      · obtain ⟨o, ho, b, hm⟩ := c.all i q hi
        have := (c.ids o ho b i hm).2.2.1
        rw [hb] at this; exact absurd this (by decide)
    have hb0 : (g0.el i).ty = .border := by rw [← (c.ty i hi0).1, hb]
    obtain ⟨o, ho, b, e1, _⟩ := c.comp i hi0 .only (by rw [hb0]; simp [Ty.points])
    have hbs := c.border_slots ho (by rw [e1]; exact hb)
    rw [e1] at hbs
    have ht : b = true := by
      cases b with
      | true => rfl
      | false =>
        exfalso
        refine hl ⟨hb0, ⟨o.x, ?_, e1⟩, ?_⟩
        · rw [← parseAll_x xs g0]; exact List.mem_map_of_mem ho
        · intro t ht e; exact partners_some (Or.inl ⟨t, ht, e⟩) hp
    subst ht
    rw [if_pos rfl, hp] at hbs
    unfold Nb at h
    rw [hbs] at h ⊢
    obtain ⟨x, hx⟩ := c.dep_some ho true
    obtain ⟨z, hz⟩ := c.arr_some ho true
    rw [hx, hz] at h ⊢
    simp only [List.mem_cons, Option.some.injEq, reduceCtorEq, List.not_mem_nil, or_false] at h
    by_cases q : x = y
    · simp [anyNeighbour, q]
    · have : z = y := by
        rcases h with h | h
        · exact absurd h.symm q
        · exact h.symm
      simp [anyNeighbour, this]
  · refine anyNeighbour_true (c.slots_full hi ?_) h
    intro e e'
    exact hb ⟨e, e'⟩

theorem isPathLoop_true (v : ValidNet g0 xs bs) : ∀ (l : List Nat) (x : Nat),
    (x :: l).IsChain (fun a b => a < (netGraph g0 xs bs).n ∧ Nb (netGraph g0 xs bs).el a b) → (∀ i ∈ (x :: l).dropLast, ¬ Loose g0 xs bs i) →
    isPathLoop (netGraph g0 xs bs).el x l = some true
  | [], _, _, _ => rfl
  | y :: l, x, h, hl => by
    rw [List.isChain_cons_cons] at h
    unfold isPathLoop
    rw [neighbour_true v h.1.1 (hl x (by simp)) h.1.2]
    exact isPathLoop_true v l y h.2 fun i hi => hl i (by simp only [List.dropLast_cons₂, List.mem_cons]; exact Or.inr hi)

theorem isPath_chain {el : Nat → Elem} : ∀ (l : List Nat) (x : Nat), isPathLoop el x l = some true → (x :: l).IsChain (Nb el)
  | [], x, _ => by simp
  | y :: l, x, h => by
    unfold isPathLoop at h
    cases hn : isNeighbour el x y with
    | none => rw [hn] at h; cases h
    | some b =>
      rw [hn] at h
      cases b with
      | false => cases h
      | true =>
        rw [List.isChain_cons_cons]
        exact ⟨anyNeighbour_mem hn, isPath_chain l y (by simpa using h)⟩

/-- **C200** (partial: unless it leaves a border without partner at which its section ends) Wherever trains can run, `is_path` finds a
path. -/
theorem C200_path_partial (v : ValidNet g0 xs bs) {L : Links} (hL : connectAll (netGraph g0 xs bs).el (netGraph g0 xs bs).n = some L)
    {nodes : List Node} (hne : nodes ≠ []) (hr : Runs L nodes) (hl : ∀ u ∈ nodes.dropLast, ¬ Loose g0 xs bs u.1) :
    isNodePath (netGraph g0 xs bs).el nodes = some true := by
  cases nodes with
  | nil => exact absurd rfl hne
  | cons u l =>
    refine isPathLoop_true v (l.map (·.1)) u.1 ?_ ?_
    · show ((u :: l).map (·.1)).IsChain _
      rw [List.isChain_map]
      refine List.IsChain.imp ?_ hr
      intro a b e
      rcases e with e | e
      · exact link_nb hL (br := false) e
      · exact link_nb hL (br := true) e
    · intro i hi
      change i ∈ ((u :: l).map (·.1)).dropLast at hi
      rw [← List.map_dropLast] at hi
      obtain ⟨w, hw, rfl⟩ := List.mem_map.1 hi
      exact hl w hw

/-- **C200** (partial: unless it starts at a border without partner at which its section ends) The path of a station route is a path for
`is_path`. -/
theorem C200_route_partial (v : ValidNet g0 xs bs) {L : Links} (hL : connectAll (netGraph g0 xs bs).el (netGraph g0 xs bs).n = some L)
    {course : List Bool} {s last : Node} {fuel : Nat} {nodes : List Node}
    (h : getPath L (netGraph g0 xs bs).el course last fuel (some s) 0 = .ok nodes) (hl : ∀ u ∈ nodes.dropLast, ¬ Loose g0 xs bs u.1) :
    isNodePath (netGraph g0 xs bs).el nodes = some true := by
  have hf := (C108_path L _ course s last nodes).1 ⟨fuel, h⟩
  refine C200_path_partial v hL ?_ ?_ hl
  · intro e; have := hf.first; rw [e] at this; cases this
  · unfold Runs
    rw [List.isChain_iff_getElem]
    intro i hi
    rcases hf.step i _ _ (List.getElem?_eq_getElem (by omega)) (List.getElem?_eq_getElem hi) with q | ⟨b, q, q' | q'⟩
    · exact Or.inl q.2
    · exact Or.inl q'.2
    · right; rw [q, q'.2]

/-- **C200** (partial: unless it starts at a border without partner at which it ends) The elements of a section towards either end are a
path for `is_path`. -/
theorem C200_section_partial (v : ValidNet g0 xs bs) {o : SecOut} (ho : o ∈ (parseAll xs g0).2) (b : Bool)
    (hl : ¬ Loose g0 xs bs (o.x.elem (!b))) : isPath (netGraph g0 xs bs).el (o.whole b) = some true := by
  have c := netCtx v
  have hlt : ∀ i ∈ o.towards b, i < (netGraph g0 xs bs).n := fun i hi => (c.ids o ho b i hi).2.1
  refine isPathLoop_true v _ _ ?_ ?_
  · rw [List.isChain_iff_getElem]
    intro j hj
    refine ⟨?_, (c.whole_nb ho b (j := j) (List.getElem?_eq_getElem (by simp [SecOut.whole] at hj ⊢; omega))
      (List.getElem?_eq_getElem (by simpa [SecOut.whole] using hj))).1⟩
    have hm : (o.x.elem (!b) :: (o.towards b ++ [o.x.elem b]))[j] ∈ o.x.elem (!b) :: (o.towards b ++ [o.x.elem b]) := List.getElem_mem _
    have hn := c.n
    rcases List.mem_cons.1 hm with e | e
    · rw [e]; have := c.elem o ho (!b); omega
    · rcases List.mem_append.1 e with e | e
      · exact hlt _ e
      · rw [List.mem_singleton.1 e]; have := c.elem o ho b; omega
  · intro i hi
    rw [← List.cons_append, List.dropLast_concat] at hi
    rcases List.mem_cons.1 hi with rfl | hi
    · exact hl
    · intro hh
      have h1 := c.ids o ho b i hi
      obtain ⟨x, hx, e⟩ := hh.2.1
      have := (v.secs x hx).elem false
      change x.fin < g0.n at this
      omega

/-- **C200** (partial: unless a border without partner at which its section ends is left) `is_path` accepts exactly the sequences of
elements each of which is followed by the one before or after it in a section or, at a border, by its partner. -/
theorem C200_exact_partial (v : ValidNet g0 xs bs) (hp : Paired bs) {l : List Nat} (hn : ∀ i ∈ l, i < (netGraph g0 xs bs).n)
    (hl : ∀ i ∈ l.dropLast, ¬ Loose g0 xs bs i) : isPath (netGraph g0 xs bs).el l = some true ↔
      l ≠ [] ∧ l.IsChain fun i j => Adjacent (parseAll xs g0).2 i j ∨ ∃ low, (i, low, j) ∈ bs := by
  have e : ∀ R : Nat → Nat → Prop, (∀ i j, i < (netGraph g0 xs bs).n → (R i j ↔ Nb (netGraph g0 xs bs).el i j)) →
      (l.IsChain R ↔ l.IsChain fun i j => i < (netGraph g0 xs bs).n ∧ Nb (netGraph g0 xs bs).el i j) := by
    intro R hR
    simp only [List.isChain_iff_getElem]
    constructor
    · intro h i hi; exact ⟨hn _ (List.getElem_mem _), (hR _ _ (hn _ (List.getElem_mem _))).1 (h i hi)⟩
    · intro h i hi; exact (hR _ _ (hn _ (List.getElem_mem _))).2 (h i hi).2
  rw [e _ fun i j hi => (C200_neighbours v hp hi).symm]
  cases l with
  | nil => simp [isPath]
  | cons x l =>
    constructor
    · intro h; exact ⟨by simp, (e _ fun _ _ _ => Iff.rfl).1 (isPath_chain l x h)⟩
    · intro h; exact isPathLoop_true v l x h.2 hl

/-- **C200** `is_path` answers for all paths of elements, if every border has a partner. -/
theorem C200_answers (v : ValidNet g0 xs bs) (hb : ∀ i, i < g0.n → (g0.el i).ty = .border → ∃ t ∈ bs, t.1 = i) {l : List Nat} (hne : l ≠ [])
    (hn : ∀ i ∈ l, i < (netGraph g0 xs bs).n) : isPath (netGraph g0 xs bs).el l ≠ none := by
  have c := netCtx v
  have key : ∀ (l : List (Option Nat)) (y : Nat), none ∉ l → anyNeighbour y l ≠ none := by
    intro l y
    induction l with
    | nil => simp [anyNeighbour]
    | cons a l ih =>
      intro h
      cases a with
      | none => simp at h
      | some a =>
        unfold anyNeighbour
        split
        · simp
        · exact ih (by simpa using h)
  have one : ∀ i y, i < (netGraph g0 xs bs).n → isNeighbour (netGraph g0 xs bs).el i y ≠ none := by
    intro i y hi
    refine key _ y (C200_complete v hi fun e => ?_)
    rcases Nat.lt_or_ge i g0.n with q | q
    · exact hb i q (by rw [← (c.ty i q).1]; exact e)
    · obtain ⟨o, ho, b, hm⟩ := c.all i q hi
      have := (c.ids o ho b i hm).2.2.1
      rw [e] at this; exact absurd this (by decide)
  cases l with
  | nil => exact absurd rfl hne
  | cons x l =>
    show isPathLoop _ x l ≠ none
    induction l generalizing x with
    | nil => simp [isPathLoop]
    | cons y l ih =>
      unfold isPathLoop
      cases hq : isNeighbour (netGraph g0 xs bs).el x y with
      | none => exact absurd hq (one x y (hn x (by simp)))
      | some b =>
        cases b with
        | false => simp
        | true => simpa using ih y (by simp) fun i hi => hn i (by simp only [List.mem_cons] at hi ⊢; exact Or.inr hi)

/-- **C200** What `is_path` accepts it accepts in the other direction too. -/
theorem C200_reverse (v : ValidNet g0 xs bs) (hp : Paired bs) {l : List Nat} (hn : ∀ i ∈ l, i < (netGraph g0 xs bs).n)
    (hl : ∀ i ∈ l, ¬ Loose g0 xs bs i) (h : isPath (netGraph g0 xs bs).el l = some true) :
    isPath (netGraph g0 xs bs).el l.reverse = some true := by
  cases hq : l with
  | nil => rw [hq] at h; cases h
  | cons x t =>
    rw [hq] at h
    have hc := isPath_chain t x h
    rw [← hq] at hc ⊢
    have hc' : l.reverse.IsChain (fun a b => a < (netGraph g0 xs bs).n ∧ Nb (netGraph g0 xs bs).el a b) := by
      rw [List.isChain_reverse]
      rw [List.isChain_iff_getElem] at hc ⊢
      intro i hi
      have e := hc i hi
      exact ⟨hn _ (List.getElem_mem _), C200_mutual v hp (hn _ (List.getElem_mem _)) e⟩
    cases hr : l.reverse with
    | nil => simp [hq] at hr
    | cons y r =>
      rw [hr] at hc'
      refine isPathLoop_true v r y hc' ?_
      intro i hi
      refine hl i ?_
      have := List.mem_of_mem_dropLast hi
      rw [← hr] at this
      simpa using this

/-- **C200** fails: from a border without partner at which its section ends `is_path` dereferences a null pointer, whatever follows. -/
theorem C200_loose_negation (v : ValidNet g0 xs bs) {i : Nat} (hl : Loose g0 xs bs i) (y : Nat) (l : List Nat) :
    isPath (netGraph g0 xs bs).el (i :: y :: l) = none := by
  have c := netCtx v
  obtain ⟨hb, ⟨x, hx, rfl⟩, hn⟩ := hl
  rw [← parseAll_x xs g0] at hx
  obtain ⟨o, ho, rfl⟩ := List.mem_map.1 hx
  have hi : o.x.fin < g0.n := c.elem o ho false
  have hbs := c.border_slots ho (b := false) (by show ((netGraph g0 xs bs).el o.x.fin).ty = _; rw [(c.ty _ hi).1]; exact hb)
  have hp : partners bs (fun _ => none) o.x.fin = none := by rw [partners_none bs _ _ hn]
  change neighbourSlots (netGraph g0 xs bs).el o.x.fin = [partners bs (fun _ => none) o.x.fin, _, _, _] at hbs
  rw [hp] at hbs
  show isPathLoop _ o.x.fin (y :: l) = none
  unfold isPathLoop isNeighbour
  rw [hbs]
  rfl

/-- **C200** fails: `is_path` dereferences the end of a path without elements. -/
theorem C200_empty_negation (el : Nat → Elem) : isPath el [] = none ∧ isNodePath el [] = none := ⟨rfl, rfl⟩

/-! ### C201: distances in the debug build -/

theorem distance_debug {el : Nat → Elem} (km : Kms) {a b : Nat} (h1 : Nb el a b) (h2 : Nb el b a) :
    getDistanceDebug el km a b = some (getDistance el km a b) := by
  unfold getDistanceDebug getDistance getKmDebug
  unfold Nb at h1 h2
  split
  · rfl
  · simp [h1, h2]

/-- **C201** In the debug build no assertion fails when the distances along a way of a train are measured, from its first node on, if
every border has at most one partner, whose partner it is; the distances are those of the release build. -/
theorem C201_distances (v : ValidNet g0 xs bs) (hp : Paired bs) {L : Links}
    (hL : connectAll (netGraph g0 xs bs).el (netGraph g0 xs bs).n = some L) (km : Kms) :
    ∀ (l : List Node) (u : Node) (d : Rat), Runs L (u :: l) →
      distancesDebug (netGraph g0 xs bs).el km u.1 d (l.map (·.1)) = some (distances (netGraph g0 xs bs).el km u.1 d (l.map (·.1)))
  | [], _, _, _ => rfl
  | w :: l, u, d, hr => by
    unfold Runs at hr
    rw [List.isChain_cons_cons] at hr
    have hb : (netGraph g0 xs bs).n > u.1 ∧ Nb (netGraph g0 xs bs).el u.1 w.1 := by
      rcases hr.1 with e | e
      · exact link_nb hL (br := false) e
      · exact link_nb hL (br := true) e
    rw [List.map_cons, distancesDebug, distance_debug km (C200_mutual v hp hb.1 hb.2) hb.2, Option.bind_some,
      C201_distances v hp hL km l w _ hr.2]
    rfl

/-- **C201** Measuring starts at the first node itself. -/
theorem C201_start (v : ValidNet g0 xs bs) (hp : Paired bs) {L : Links}
    (hL : connectAll (netGraph g0 xs bs).el (netGraph g0 xs bs).n = some L) (km : Kms) (l : List Node) (u : Node) (hr : Runs L (u :: l)) :
    distancesDebug (netGraph g0 xs bs).el km u.1 0 ((u :: l).map (·.1)) = some (distances (netGraph g0 xs bs).el km u.1 0 ((u :: l).map (·.1))) := by
  rw [List.map_cons, distancesDebug, getDistanceDebug, if_pos rfl, Option.bind_some, C201_distances v hp hL km l u _ hr]
  simp [distances, getDistance]

end

/-! ### examples -/

theorem exPaired : Paired exBorders := by unfold Paired; decide

theorem exLoose (i : Nat) : ¬ Loose (exGraph exTys) exSecs exBorders i := by
  rintro ⟨h1, ⟨x, hx, rfl⟩, h3⟩
  revert x
  decide

/-- a way over the borders of the example -/
example : (let g := netGraph (exGraph exTys) exSecs exBorders
    [isPath g.el [5, 6], isPath g.el [6, 5], isPath g.el [0, 9], isPath g.el [0, 1]]) = [some true, some true, some true, some false] := by
  set_option maxRecDepth 20000 in decide

example (o : SecOut) (ho : o ∈ (parseAll exSecs (exGraph exTys)).2) (b : Bool) :
    isPath (netGraph (exGraph exTys) exSecs exBorders).el (o.whole b) = some true ∧
    isPath (netGraph (exGraph exTys) exSecs exBorders).el (o.whole b).reverse = some true := by
  refine ⟨C200_section_partial exNet ho b (exLoose _), C200_reverse exNet exPaired ?_ (fun i _ => exLoose i) (C200_section_partial exNet ho b (exLoose _))⟩
  intro i hi
  have c := netCtx exNet
  have hn := c.n
  unfold SecOut.whole at hi
  rcases List.mem_cons.1 hi with rfl | hi
  · have := c.elem o ho (!b); omega
  · rcases List.mem_append.1 hi with hi | hi
    · exact (c.ids o ho b i hi).2.1
    · rw [List.mem_singleton.1 hi]; have := c.elem o ho b; omega

example (L : Links) (hL : connectAll (netGraph (exGraph exTys) exSecs exBorders).el (netGraph (exGraph exTys) exSecs exBorders).n = some L)
    (nodes : List Node) (hne : nodes ≠ []) (hr : Runs L nodes) : isNodePath (netGraph (exGraph exTys) exSecs exBorders).el nodes = some true :=
  C200_path_partial exNet hL hne hr fun _ _ => exLoose _

/-- three borders of the same line and track sign: `complete_borders` connects border 1 with 2 and then with 4 -/
def threeBorders : List SecIn := [⟨0, .only, 1, .only, 0, [], []⟩, ⟨2, .only, 3, .only, 0, [], []⟩, ⟨4, .only, 5, .only, 0, [], []⟩]
/-- the border of station 0 and those of station 1 -/
def threeSides : List Border := [⟨0, 1, 1, 7, 0, false⟩, ⟨1, 0, 2, 7, 0, true⟩, ⟨1, 0, 4, 7, 0, true⟩]

theorem threeNet : ValidNet (exGraph [.bumper, .border, .border, .bumper, .border, .bumper]) threeBorders (borderLinks threeSides) := by
  apply exValid <;> decide

/-- **C201** fails: if three borders of two stations have the same line and track sign, a train runs from a border to one that is not
connected with it, and measuring its way makes an assertion fail. -/
theorem C201_three_borders_negation : ∃ (g0 : Graph) (xs : List SecIn) (all : List Border), ValidNet g0 xs (borderLinks all) ∧
    (borderSecs all all []).isSome = true ∧ ∃ L, connectAll (netGraph g0 xs (borderLinks all)).el (netGraph g0 xs (borderLinks all)).n = some L ∧
      ∃ u w : Node, Runs L [u, w] ∧ ∀ km, distancesDebug (netGraph g0 xs (borderLinks all)).el km u.1 0 [w.1] = none := by
  refine ⟨_, _, _, threeNet, by decide, ?_⟩
  obtain ⟨L, hL⟩ := C81_total threeNet
  refine ⟨L, hL, (2, 1), (1, 1), ?_, ?_⟩
  · have e : ((connectAll (netGraph (exGraph [.bumper, .border, .border, .bumper, .border, .bumper]) threeBorders (borderLinks threeSides)).el
        (netGraph (exGraph [.bumper, .border, .border, .bumper, .border, .bumper]) threeBorders (borderLinks threeSides)).n).bind fun L => L.next (2, 1)) =
        some (1, 1) := by
      set_option maxRecDepth 20000 in decide
    rw [hL] at e
    unfold Runs
    rw [List.isChain_cons_cons]
    exact ⟨Or.inl e, by simp⟩
  · intro km
    have e : getDistanceDebug (netGraph (exGraph [.bumper, .border, .border, .bumper, .border, .bumper]) threeBorders (borderLinks threeSides)).el km 1 2 = none := by
      unfold getDistanceDebug
      rw [if_neg (by decide), if_pos (by decide)]
    unfold distancesDebug
    rw [e]; rfl

/-- two borders that fit together -/
example : Paired (borderLinks [⟨0, 1, 5, 7, 0, false⟩, ⟨1, 0, 6, 7, 0, true⟩]) :=
  C200_paired ⟨by simp; exact ⟨Or.inr ⟨rfl, rfl, rfl, rfl⟩, Or.inl ⟨rfl, rfl, rfl, rfl⟩⟩, by decide, by decide, by decide⟩

/-- every border of the example has a partner -/
example (l : List Nat) (hne : l ≠ []) (hn : ∀ i ∈ l, i < (netGraph (exGraph exTys) exSecs exBorders).n) :
    isPath (netGraph (exGraph exTys) exSecs exBorders).el l ≠ none :=
  C200_answers exNet (fun i hi => by
    have : i < 9 := hi
    revert i; decide) hne hn

example (l : List Nat) (hn : ∀ i ∈ l, i < (netGraph (exGraph exTys) exSecs exBorders).n) :
    isPath (netGraph (exGraph exTys) exSecs exBorders).el l = some true ↔
      l ≠ [] ∧ l.IsChain fun i j => Adjacent (parseAll exSecs (exGraph exTys)).2 i j ∨ ∃ low, (i, low, j) ∈ exBorders :=
  C200_exact_partial exNet exPaired hn fun i _ => exLoose i

/-- neighbours of the switch 1, among them element 0's section -/
example : ∀ i j, i < 9 → some j ∈ neighbourSlots (netGraph (exGraph exTys) exSecs exBorders).el i →
    some i ∈ neighbourSlots (netGraph (exGraph exTys) exSecs exBorders).el j := by
  intro i j hi h
  have := (netCtx exNet).n
  exact C200_mutual exNet exPaired (Nat.lt_of_lt_of_le hi (by exact this)) h

example (L : Links) (hL : connectAll (netGraph (exGraph exTys) exSecs exBorders).el (netGraph (exGraph exTys) exSecs exBorders).n = some L)
    (km : Kms) (u : Node) (l : List Node) (hr : Runs L (u :: l)) :
    (distancesDebug (netGraph (exGraph exTys) exSecs exBorders).el km u.1 0 ((u :: l).map (·.1))).isSome = true := by
  rw [C201_start exNet exPaired hL km l u hr]; rfl

/-- border 1 of section 0, without partner -/
theorem looseNet : ValidNet (exGraph [.bumper, .border]) [⟨0, .only, 1, .only, 0, exUp, exDown⟩] [] := by
  apply exValid <;> decide

example (y : Nat) (l : List Nat) : isPath (netGraph (exGraph [.bumper, .border]) [⟨0, .only, 1, .only, 0, exUp, exDown⟩] []).el (1 :: y :: l) = none :=
  C200_loose_negation looseNet ⟨rfl, ⟨_, List.mem_singleton.2 rfl, rfl⟩, by simp⟩ y l

end Soro.Infra
